import Verif.Drivers.Q
/-
Interrupt-driven UART drivers: transmission (C67).
  avr    drivers/uart/uart-avr_irqdriven.c
  sam    drivers/uart/uart-atsamx7x_usart_irqdriven.c
  mcs51  staging/drivers/uart/uart-8051_irqdriven.c
  n76    staging/drivers/uart/uart-n76e003_irqdriven.c (uart_fifo_push / _pop, lines 72-95, do what fifo.h does)

One task calls uart_write; the interrupt routine runs to its end whenever it is allowed to between two steps of the task (the task
looks at the fifo, then stores and pushes: the only interleavings that matter, see Fifo.lean, as the routine only moves `r`).
Simplifications: `int sent` does not overflow (buffers smaller than 2^15 or 2^31); picoRTOS_assert never fires (n > 0, buffers set).
-/
namespace Pico.Drv.Tx

open Pico.Fifo (Cfg)

inductive Kind where
  | avr | sam | mcs51 | n76
  deriving DecidableEq

/-- where uart_write is: `look b i`: at the head of the loop, `i` bytes of `b` pushed; `put`: the fifo was seen writable; `fin b i`: out of the loop with
`sent = i`; `kick`: tx_trig was cleared, TI not set yet -/
inductive Pc (V : Type) where
  | idle
  | look (b : List V) (i : Nat)
  | put (b : List V) (i : Nat)
  | fin (b : List V) (i : Nat)
  | kick (b : List V) (i : Nat)

structure St (c : Cfg) (V : Type) where
  q : Q c V
  /-- avr: UDRIE; sam: TXEMPTY enabled; mcs51, n76: TI -/
  ie : Bool
  /-- mcs51, n76: SBUF is being transmitted -/
  busy : Bool
  trig : Bool
  /-- avr: UART_AVR_STATE_XFER, and `ctx->sent` -/
  xfer : Bool
  sent : Nat
  pc : Pc V
  /-- history: the buffer of the call that started the transfer (avr) -/
  cur : List V
  /-- history: what was written to the data register, stored in the fifo -/
  out : List V
  acc : List V
  /-- history: buffers given to uart_write with the number of bytes it said it had written -/
  log : List (List V × Nat)
  /-- history: the data register was written while the previous byte was in it (mcs51, n76) -/
  overrun : Bool

variable {c : Cfg} {V : Type}

/-- after uart_*_init and *_setup_irqdriven -/
def init (old : Nat → V) : St c V where
  q := Q.init c old
  ie := false
  busy := false
  trig := true
  xfer := false
  sent := 0
  pc := .idle
  cur := []
  out := []
  acc := []
  log := []
  overrun := false

/-- One step of uart_write: uart-avr_irqdriven.c:229-254, uart-atsamx7x_usart_irqdriven.c:300-320, uart-8051_irqdriven.c:187-213,
uart-n76e003_irqdriven.c:256-277. -/
def task (k : Kind) (s : St c V) : St c V :=
  match s.pc with
  | .idle => s
  | .look b i =>
    if i < b.length then
      if s.q.writable then { s with pc := .put b i }
      else { s with pc := .fin b (if k = .n76 then i + 1 else i) }
    else { s with pc := .fin b i }
  | .put b i =>
    match b[i]? with
    | some v => { s with q := s.q.put v, acc := s.acc ++ [v], pc := .look b (i + 1) }
    | none => s
  | .fin b i =>
    if i = 0 then { s with pc := .idle }
    else match k with
      | .avr => { s with ie := true, xfer := true, sent := b.length, cur := b, pc := .idle }
      | .sam => { s with ie := true, pc := .idle, log := s.log ++ [(b, i)] }
      | _ => if s.trig then { s with trig := false, pc := .kick b i } else { s with pc := .idle, log := s.log ++ [(b, i)] }
  | .kick b i => { s with ie := true, pc := .idle, log := s.log ++ [(b, i)] }

/-- uart_write called with `b`; on avr, a transfer under way is only looked at (uart-avr_irqdriven.c:256-264) -/
def call (k : Kind) (b : List V) (s : St c V) : St c V :=
  if k = .avr ∧ s.xfer = true then
    if s.q.readable then s else { s with xfer := false, log := s.log ++ [(s.cur, s.sent)] }
  else { s with pc := .look b 0 }

/-- one byte from the fifo to the data register -/
def send (s : St c V) : St c V := { s with q := s.q.pop, out := s.out ++ [s.q.pop.last] }

/-- uart_udre_isr, uart-avr_irqdriven.c:69-85; `rdy`: the values read of UDRE -/
def isrAvr : List Bool → St c V → St c V
  | [], s => if s.q.readable then send s else { s with ie := false }
  | x :: l, s => if s.q.readable then (if x then isrAvr l (send s) else send s) else { s with ie := false }

/-- second loop of uart_isr, uart-atsamx7x_usart_irqdriven.c:147-159; `rdy`: the values read of TXEMPTY -/
def isrSam : List Bool → St c V → St c V
  | [], s => s
  | x :: l, s => if x then (if s.q.readable then isrSam l (send s) else { s with ie := false }) else s

/-- transmission in uart_isr, uart-8051_irqdriven.c:70-81, uart-n76e003_irqdriven.c:110-116, 134-140 -/
def isrTi (s : St c V) : St c V :=
  if s.q.readable then { send s with ie := false, busy := true, overrun := s.overrun || s.busy } else { s with ie := false, trig := true }

inductive Cmd (V : Type) where
  | call (b : List V)
  | task
  | isr (rdy : List Bool)
  /-- mcs51, n76: the byte in SBUF is transmitted -/
  | hw

/-- One step; `none` if it is impossible.  The routine of sam also runs when a byte is received. -/
def step (k : Kind) (s : St c V) : Cmd V → Option (St c V)
  | .call b => match s.pc with
    | .idle => if b = [] then none else some (call k b s)
    | _ => none
  | .task => match s.pc with
    | .idle => none
    | _ => some (task k s)
  | .isr rdy => match k with
    | .avr => if s.ie then some (isrAvr rdy s) else none
    | .sam => some (isrSam rdy s)
    | _ => if s.ie then some (isrTi s) else none
  | .hw => match k with
    | .mcs51 | .n76 => if s.busy then some { s with busy := false, ie := true } else none
    | _ => none

/-- Reachable states; whenever uart_write is called with `b`, `ok s b` holds of the state it is called in. -/
inductive Reach (k : Kind) (ok : St c V → List V → Prop) : St c V → Prop where
  | init (old : Nat → V) : Reach k ok (init old)
  | step {s s' : St c V} (a : Cmd V) : Reach k ok s → (∀ b, a = .call b → ok s b) → step k s a = some s' → Reach k ok s'

/-- uart_write may be called with anything -/
def any : St c V → List V → Prop := fun _ _ => True

/-- what the driver said it had written -/
def said (s : St c V) : List V := s.log.flatMap fun p => p.1.take p.2

end Pico.Drv.Tx
