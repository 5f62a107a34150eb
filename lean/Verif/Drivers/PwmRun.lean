import Verif.Drivers.Field
/-
pwm_start and pwm_stop (C108): drivers/pwm/*.c, staging/drivers/pwm/*.c.

A function is the list of its accesses to the registers of the block; other tasks may run between two of them.
Only the registers with the bits that start or stop something are modelled, numbered as the definitions say (`r 0`, `r 1`, …); registers narrower
than 32 bits are extended with zeros; pwm_set_period and pwm_set_duty_cycle appear because some of them also write these registers (their values:
C81).  Waiting for SYNCBUSY (same5x) is left out.  What the bits do is taken from the reference manuals.
-/
namespace Pico.PwmRun
open Pico Pico.Field

abbrev Word := BitVec 32

/-- accesses to the registers -/
inductive I where
  /-- read a register -/
  | ld (r : Nat)
  /-- write it: the value read without the bits `c`, with the bits `s` -/
  | st (r : Nat) (c s : Word)
  /-- write to the register that sets / clears bits of register `r` (pic32mx: .SET, .CLR) -/
  | set (r : Nat) (v : Word)
  | clr (r : Nat) (v : Word)
  /-- read a register to put it back later; put it back (mc9s08ptxx: `sc = SC`, `SC = sc`) -/
  | save (r : Nat)
  | back (r : Nat)
  /-- sam3x, atsamx7x: PWM_ENA is write-only: what a read gives is not specified; a write enables the channels of the bits that are 1 -/
  | any (v : Word)
  | ena (c s : Word)
  /-- sam3x, atsamx7x timers: TC_CCR: bit 1 (CLKDIS) stops the clock, else bit 0 (CLKEN) enables it; register 0, bit 0 is CLKSTA -/
  | ccr (v : Word)
  /-- same5x: CTRLBSET.CMD: 1 (RETRIGGER) starts the counter, 2 (STOP) stops it; register 1, bit 0 is STATUS.STOP -/
  | cmd (v : Nat)
  /-- a register that starts or stops nothing -/
  | nop
  deriving DecidableEq

abbrev Regs := Nat → Word

def upd {α : Type} (f : Nat → α) (t : Nat) (x : α) : Nat → α := fun i => if i = t then x else f i

/-- hardware: an access; `a` are the values the function holds (the last one read, the one saved) -/
def exec : I → Regs → Word × Word → Regs × (Word × Word)
  | .ld r, m, a => (m, (m r, a.2))
  | .st r c s, m, a => (upd m r ((a.1 &&& ~~~c) ||| s), a)
  | .set r v, m, a => (upd m r (m r ||| v), a)
  | .clr r v, m, a => (upd m r (m r &&& ~~~v), a)
  | .save r, m, a => (m, (a.1, m r))
  | .back r, m, a => (upd m r a.2, a)
  | .any v, m, a => (m, (v, a.2))
  | .ena c s, m, a => (upd m 0 (m 0 ||| ((a.1 &&& ~~~c) ||| s)), a)
  | .ccr v, m, a => (if v.getLsbD 1 then upd m 0 (bclr 0 (m 0)) else if v.getLsbD 0 then upd m 0 (bset 0 (m 0)) else m, a)
  | .cmd v, m, a => (if v = 1 then upd m 1 (bclr 0 (m 1)) else if v = 2 then upd m 1 (bset 0 (m 1)) else m, a)
  | .nop, m, a => (m, a)

/-- without interruption -/
def execAll : List I → Regs × (Word × Word) → Regs × (Word × Word)
  | [], s => s
  | i :: l, s => execAll l (exec i s.1 s.2)

/-- the drivers; `sam`: sam3x, atsamx7x; `tc`: sam3x_tc, atsamx7x_tc -/
inductive Kind where
  | sam | tc | avr | gd32 | emios | pic32 | ra4 | rp2040 | same5x | stm32 | ti | tinyavr | ch552 | mc9s08 | n76
  deriving DecidableEq, Repr

/-- outputs of a block: PWM_*_CHANNEL_COUNT and the like; pic32mx: the output compares that use one timer (5 of them in the largest parts);
emios: 32; rp2040: 8 slices with 2 outputs each; stm32h7: `channel < channel_count < 6` -/
def outs : Kind → Nat
  | .sam => 8 | .tc => 2 | .avr => 3 | .gd32 => 4 | .emios => 32 | .pic32 => 5 | .ra4 => 2 | .rp2040 => 16 | .same5x => 2 | .stm32 => 5 | .ti => 2
  | .tinyavr => 3 | .ch552 => 2 | .mc9s08 => 6 | .n76 => 6

/-- what else the functions use: the clock selected (avr `cs`, mc9s08 `clks`), the waveform (ti), the channels of an output (n76e003 `mask`: 1, or 3 when
complementary or synchronised), what reading PWM_ENA gives (sam), bits of the prescaler set by pwm_set_period (ra4, pic32mx, mc9s08ptxx) -/
structure Par where
  sel : Word
  mask : Word
  junk : Word
  pre : Word

def one (n : Nat) : Word := BitVec.ofNat 32 1 <<< n

/-- `reg |= s` -/
def orr (r : Nat) (s : Word) : List I := [.ld r, .st r 0 s]

/-- `reg &= ~c` -/
def andn (r : Nat) (c : Word) : List I := [.ld r, .st r c 0]

/-- pwm_start: pwm-sam3x.c:270-273 and pwm-atsamx7x.c:249-252 (`r 0` is PWM_SR), pwm-sam3x_tc.c:200-203 and pwm-atsamx7x_tc.c:274-277, pwm-avr.c:230-234, 325-328
(`r 0`: TCCRnB), pwm-gd32vf103.c:343-357 (`r 0`: TIMERx_CHCTL2, `r 1`: TIMERx_CTL0), pwm-nxp_emios.c:185-188 (`r o`: C), pwm-pic32mx.c:156-160
(`r 0`: TxCON, `r (o + 1)`: OCxCON), pwm-renesas_ra4_gpt.c:250-255 (`r 0`: GTCR), pwm-rp2040.c:125-128 (`r slice`: CSR), pwm-same5x_tc.c:349-359 (`r 0`:
CTRLA), pwm-stm32h7xx_tim.c:424-431 (`r 0`: CCER, `r 1`: CR1), pwm-ti_epwm.c:471-477 (`r 0`: TBCTL), pwm-tinyavr_tca.c:173-186 (`r 0`: CTRLB, `r 1`: CTRLA),
pwm-ch552.c:63-67 (`r 0`: PWM_CTRL), pwm-mc9s08ptxx_ftm.c:215-223 (`r 0`: OUTMASK, `r 1`: SC), pwm-n76e003.c:261-266 (`r 0`: PMEN, `r 1`: PWMCON0) -/
def start (k : Kind) (p : Par) (o : Nat) : List I := match k with
  | .sam => [.any p.junk, .ena 0 (one o)]
  | .tc => [.ccr 5]
  | .avr => andn 0 7 ++ orr 0 (p.sel &&& 7)
  | .gd32 => orr 0 (one (4 * o)) ++ orr 1 1
  | .emios => orr o (one 25)
  | .pic32 => [.set 0 (one 15), .set (o + 1) (one 15)]
  | .ra4 => [.nop] ++ orr 0 1 ++ [.nop]
  | .rp2040 => orr (o / 2) 1
  | .same5x => orr 0 2 ++ [.cmd 1]
  | .stm32 => orr 0 (one (o * 4)) ++ orr 1 1
  | .ti => andn 0 3 ++ orr 0 (p.sel &&& 3)
  | .tinyavr => [.nop] ++ orr 0 (one (4 + o))
  | .ch552 => orr 0 (one (2 + o))
  | .mc9s08 => andn 0 (one o) ++ andn 1 24 ++ orr 1 ((p.sel &&& 3) <<< 3)
  | .n76 => andn 0 (p.mask <<< o) ++ orr 1 (one 7)

/-- pwm_stop: pwm-sam3x.c:275-278 and pwm-atsamx7x.c:254-257, pwm-sam3x_tc.c:205-208 and pwm-atsamx7x_tc.c:279-282, pwm-avr.c:236-239, 330-333,
pwm-gd32vf103.c:359-370, pwm-nxp_emios.c:190-193, pwm-pic32mx.c:162-165, pwm-renesas_ra4_gpt.c:257-262, pwm-rp2040.c:130-133, pwm-same5x_tc.c:361-371,
pwm-stm32h7xx_tim.c:433-440, pwm-ti_epwm.c:479-484, pwm-tinyavr_tca.c:188-199, pwm-ch552.c:69-73, pwm-mc9s08ptxx_ftm.c:225-230, pwm-n76e003.c:269-272 -/
def stop (k : Kind) (p : Par) (o : Nat) : List I := match k with
  | .sam => [.any p.junk, .ena (one o) 0]
  | .tc => [.ccr 2]
  | .avr => andn 0 7
  | .gd32 => andn 0 (one (4 * o))
  | .emios => andn o (one 25)
  | .pic32 => [.clr (o + 1) (one 15)]
  | .ra4 => [.nop] ++ andn 0 1 ++ [.nop]
  | .rp2040 => andn (o / 2) 1
  | .same5x => andn 0 2 ++ [.cmd 2]
  | .stm32 => andn 0 (one (o * 4)) ++ andn 1 1
  | .ti => andn 0 3
  | .tinyavr => andn 0 (one (4 + o))
  | .ch552 => andn 0 (one (2 + o))
  | .mc9s08 => orr 0 (one o)
  | .n76 => orr 0 (p.mask <<< o)

/-- pwm_set_period, where it writes one of these registers: pwm-renesas_ra4_gpt.c:221-229 (TPCS), pwm-pic32mx.c:127-134 (TCKPS), pwm-mc9s08ptxx_ftm.c:178-193,
pwm-n76e003.c:189-192 (LOAD) -/
def period (k : Kind) (p : Par) : List I := match k with
  | .ra4 => [.nop, .nop] ++ andn 0 0x7000000 ++ orr 0 ((p.pre &&& 7) <<< 24) ++ [.nop]
  | .pic32 => [.clr 0 0x70, .set 0 ((p.pre &&& 7) <<< 4), .nop]
  | .mc9s08 => [.save 1] ++ andn 1 24 ++ [.nop] ++ andn 1 7 ++ orr 1 (p.pre &&& 7) ++ [.back 1]
  | .n76 => [.nop, .nop] ++ orr 1 (one 6)
  | _ => [.nop]

/-- pwm_set_duty_cycle: only pwm-n76e003.c:257-258 (LOAD) writes one of these registers -/
def duty (k : Kind) : List I := match k with
  | .n76 => [.nop, .nop] ++ orr 1 (one 6)
  | _ => [.nop]

inductive Op where
  | start | stop | period | duty
  deriving DecidableEq

def code (k : Kind) (p : Par) (o : Nat) : Op → List I
  | .start => start k p o
  | .stop => stop k p o
  | .period => period k p
  | .duty => duty k

/-- a call, on output `out` -/
structure Call where
  out : Nat
  op : Op
  par : Par

/-- calls made one after the other -/
def calls (k : Kind) : List Call → Regs × (Word × Word) → Regs × (Word × Word)
  | [], s => s
  | c :: l, s => calls k l (execAll (code k c.par c.out c.op) s)

/-! ### Hardware: what makes an output run (reference manuals) -/

/-- the output itself is enabled -/
def enabled (k : Kind) (m : Regs) (o : Nat) : Bool := match k with
  | .sam => (m 0).getLsbD o
  | .gd32 => (m 0).getLsbD (4 * o)
  | .emios => (m o).getLsbD 25
  | .pic32 => (m (o + 1)).getLsbD 15
  | .stm32 => (m 0).getLsbD (4 * o)
  | .tinyavr => (m 0).getLsbD (4 + o)
  | .ch552 => (m 0).getLsbD (2 + o)
  | .mc9s08 => !(m 0).getLsbD o
  | .n76 => !(m 0).getLsbD o
  | _ => true

/-- the counter of the output counts -/
def counts (k : Kind) (m : Regs) (o : Nat) : Bool := match k with
  | .sam => true
  | .tc => (m 0).getLsbD 0
  | .avr => decide (get 3 0 (m 0) ≠ 0)
  | .gd32 => (m 1).getLsbD 0
  | .emios => true
  | .pic32 => (m 0).getLsbD 15
  | .ra4 => (m 0).getLsbD 0
  | .rp2040 => (m (o / 2)).getLsbD 0
  | .same5x => (m 0).getLsbD 1 && !(m 1).getLsbD 0
  | .stm32 => (m 1).getLsbD 0
  | .ti => decide (get 2 0 (m 0) ≠ 3)
  | .tinyavr => (m 1).getLsbD 0
  | .ch552 => !(m 0).getLsbD 1
  | .mc9s08 => decide (get 2 3 (m 1) ≠ 0)
  | .n76 => (m 1).getLsbD 7

/-- output `o` has a waveform -/
def runs (k : Kind) (m : Regs) (o : Nat) : Bool := enabled k m o && counts k m o

/-! ### Specification -/

/-- what is asked of output `o`, `b` before -/
def said1 (o : Nat) (b : Bool) (c : Call) : Bool :=
  if c.out = o then (match c.op with | .start => true | .stop => false | _ => b) else b

/-- what the calls ask of output `o`: running iff the last pwm_start or pwm_stop of this output is pwm_start; not running before -/
def said (o : Nat) (l : List Call) : Bool := l.foldl (said1 o) false

/-- the calls are for outputs the block has, with settings the set-up functions accept, and a clock (avr, mc9s08: `NO_CLOCK` is accepted as well) -/
def Ok (k : Kind) (c : Call) : Prop := c.out < outs k ∧ c.par.mask = 1 ∧
  match k with | .avr => get 3 0 c.par.sel ≠ 0 | .mc9s08 => get 2 0 c.par.sel ≠ 0 | .ti => get 2 0 c.par.sel ≠ 3 | _ => True

def Valid (k : Kind) (l : List Call) : Prop := ∀ c ∈ l, Ok k c

/-- the block before the first call: as the init functions leave it, from reset -/
def Fresh (k : Kind) (m : Regs) : Prop := match k with
  | .tinyavr => m 0 = 0 ∧ (m 1).getLsbD 0 = true
  | .mc9s08 => m 0 = 255 ∧ m 1 = 0
  | .n76 => m 0 = 63 ∧ (m 1).getLsbD 7 = false
  | .pic32 => m 0 = 0 ∧ ∀ o, (m (o + 1)).getLsbD 15 = true
  | .emios => ∀ o, (m o).getLsbD 25 = false
  | .ti => m 0 = 131
  | _ => ∀ r, m r = 0

/-- C108 of a driver -/
def Right (k : Kind) : Prop := ∀ (l : List Call) (m : Regs) (a : Word × Word), Fresh k m → Valid k l → ∀ o, o < outs k →
  runs k (calls k l (m, a)).1 o = said o l

/-! ### Tasks: output `t` belongs to task `t`, that makes its calls one after the other -/

structure Sys where
  regs : Regs
  /-- per task: accesses left of the call under way, values held, (history) calls begun -/
  todo : Nat → List I
  acc : Nat → Word × Word
  begun : Nat → List Call

inductive Ev where
  /-- task t begins a call -/
  | begin (t : Nat) (op : Op) (p : Par)
  /-- task t does its next access -/
  | go (t : Nat)

def step (k : Kind) (s : Sys) : Ev → Sys
  | .begin t op p => if t < outs k ∧ s.todo t = [] then { s with todo := upd s.todo t (code k p t op), begun := upd s.begun t (s.begun t ++ [⟨t, op, p⟩]) } else s
  | .go t => match s.todo t with
    | [] => s
    | i :: l => { s with regs := (exec i s.regs (s.acc t)).1, todo := upd s.todo t l, acc := upd s.acc t (exec i s.regs (s.acc t)).2 }

def run (k : Kind) (l : List Ev) (s : Sys) : Sys := l.foldl (step k) s

def boot (m : Regs) (acc : Nat → Word × Word) : Sys := ⟨m, fun _ => [], acc, fun _ => []⟩

end Pico.PwmRun
