import Verif.Drivers.Q
/-
Interrupt-driven UART drivers: reception (C68).
  drivers/uart/uart-avr_irqdriven.c, drivers/uart/uart-atsamx7x_usart_irqdriven.c, staging/drivers/uart/uart-8051_irqdriven.c: the task pops, then loads
  staging/drivers/uart/uart-n76e003_irqdriven.c: the task loads, then pops (uart_fifo_pop, lines 84-95)

One task calls uart_read; the interrupt routine stores a byte between any two steps of the task.  A routine that stores several bytes in a loop is several steps
of this model.  `int recv` does not overflow.
-/
namespace Pico.Drv.Rx

open Pico.Fifo (Cfg)

inductive Kind where
  /-- avr, atsamx7x, 8051 -/
  | pop
  /-- n76e003 -/
  | load
  deriving DecidableEq

/-- where uart_read(ctx, buf, n) is, `g` being what it has put in `buf`; `mid`: between fifo_head_pop and the load; `took v`: between the load and the pop -/
inductive Pc (V : Type) where
  | idle
  | look (n : Nat) (g : List V)
  | mid (n : Nat) (g : List V)
  | took (n : Nat) (g : List V) (v : V)
  | fin (n : Nat) (g : List V)

structure St (c : Cfg) (V : Type) where
  q : Q c V
  pc : Pc V
  /-- history: the bytes that came on the line, those stored by the routine -/
  line : List V
  stored : List V
  /-- history: the calls that returned: `n` and what is in the buffer (the value returned is its length, -EAGAIN if it is 0) -/
  log : List (Nat × List V)

variable {c : Cfg} {V : Type}

/-- after uart_*_init and *_setup_irqdriven -/
def init (old : Nat → V) : St c V := { q := Q.init c old, pc := .idle, line := [], stored := [], log := [] }

/-- One step of uart_read: uart-avr_irqdriven.c:280-299, uart-atsamx7x_usart_irqdriven.c:322-340, uart-8051_irqdriven.c:249-268,
uart-n76e003_irqdriven.c:84-95, 279-296. -/
def task (k : Kind) (s : St c V) : St c V :=
  match s.pc with
  | .idle => s
  | .look n g =>
    if g.length ≠ n then
      if s.q.readable then
        match k with
        | .pop => { s with q := s.q.pop, pc := .mid n g }
        | .load => { s with pc := .took n g s.q.pop.last }
      else { s with pc := .fin n g }
    else { s with pc := .fin n g }
  | .mid n g => { s with pc := .look n (g ++ [s.q.last]) }
  | .took n g v => { s with q := s.q.pop, pc := .look n (g ++ [v]) }
  | .fin n g => { s with pc := .idle, log := s.log ++ [(n, g)] }

/-- one byte received: uart-avr_irqdriven.c:53-63, uart-atsamx7x_usart_irqdriven.c:131-141, uart-8051_irqdriven.c:60-69, uart-n76e003_irqdriven.c:72-82, 118-121 -/
def rx (v : V) (s : St c V) : St c V :=
  if s.q.writable then { s with q := s.q.put v, line := s.line ++ [v], stored := s.stored ++ [v] } else { s with line := s.line ++ [v] }

inductive Cmd (V : Type) where
  | call (n : Nat)
  | task
  | rx (v : V)

/-- One step; `none` if it is impossible. -/
def step (k : Kind) (s : St c V) : Cmd V → Option (St c V)
  | .call n => match s.pc with
    | .idle => if n = 0 then none else some { s with pc := .look n [] }
    | _ => none
  | .task => match s.pc with
    | .idle => none
    | _ => some (task k s)
  | .rx v => some (rx v s)

inductive Reach (k : Kind) : St c V → Prop where
  | init (old : Nat → V) : Reach k (init old)
  | step {s s' : St c V} (a : Cmd V) : Reach k s → step k s a = some s' → Reach k s'

/-- in the buffer of the call under way -/
def part : Pc V → List V
  | .look _ g | .mid _ g | .took _ g _ | .fin _ g => g
  | .idle => []

/-- everything uart_read has put in buffers, in order -/
def read (s : St c V) : List V := s.log.flatMap (·.2) ++ part s.pc

end Pico.Drv.Rx
