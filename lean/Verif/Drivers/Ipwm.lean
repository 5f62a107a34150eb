/-
ipwm_get_period and ipwm_get_duty_cycle (C102): drivers/pwm/pwm-nxp_emios.c, pwm-sam3x_tc.c, pwm-rp2040.c

Time is counted in cycles of the clock of the counter (eMIOS, TC) or of the block (rp2040).  The signal measured is periodic and stable.
The hardware (MPC5777C RM, eMIOS: IPM and WPTA modes; SAM3X datasheet 36.6.9-36.6.13: capture; RP2040 datasheet 4.5.2.5): a channel without clock captures nothing.
-/
namespace Pico.Ipwm

/-- a signal: its period, the time it is high, the (first) cycle where it goes up -/
structure Sig where
  P : Nat
  H : Nat
  e : Nat

def Sig.ok (g : Sig) : Prop := 0 < g.H ∧ g.H < g.P ∧ g.e < g.P
/-- the level at the cycle n -/
def Sig.level (g : Sig) (n : Nat) : Bool := decide ((n + (g.P - g.e)) % g.P < g.H)
/-- it goes up (down) at the cycle n: the level was the other one at the cycle before -/
def Sig.edge (g : Sig) (up : Bool) (n : Nat) : Bool := g.level n == up && g.level (n + g.P - 1) == !up
/-- number of edges in the n cycles from s -/
def Sig.edges (g : Sig) (up : Bool) (s : Nat) : Nat → Nat
  | 0 => 0
  | n + 1 => g.edges up s n + (if g.edge up (s + n) then 1 else 0)
/-- number of cycles where it is high, of the n from s -/
def Sig.highs (g : Sig) (s : Nat) : Nat → Nat
  | 0 => 0
  | n + 1 => g.highs s n + (if g.level (s + n) then 1 else 0)

/-! ### the period, from two captures: nxp_emios, sam3x_tc -/

/-- nxp_emios: the clock of the block, gpre * ucpre.  sam3x_tc: ctx->freq -/
inductive Kind where
  | emios (F d : Nat)
  | tc (f : Nat)

/-- the counter has 24 bits (eMIOS), 32 (TC) -/
def width : Kind → Nat
  | .emios _ _ => 24
  | .tc _ => 32

/-- what a call returns -/
inductive Out where
  | again
  | told (v : Nat)
  | undef
  deriving DecidableEq

structure St where
  /-- the time -/
  t : Nat
  /-- ctx->state is ACQ -/
  acq : Bool
  /-- the counter has its clock -/
  run : Bool
  cnt : Nat
  /-- the last capture and the one before (A2 and B1; RB and RA) -/
  a : Nat
  b : Nat
  /-- captures since the mode was entered (eMIOS), the trigger (TC) -/
  seen : Nat
  /-- history: when this measure began; what the calls returned -/
  start : Nat
  outs : List Out

def init : St := ⟨0, false, false, 0, 0, 0, 0, 0, []⟩

/-- pwm-nxp_emios.c:273-277: unsigned long is of 32 bits.  pwm-sam3x_tc.c:265-267: int -/
def value (k : Kind) (a b : Nat) : Out :=
  match k with
  | .emios F d => if F / d = 0 then .undef else .told ((a + 2 ^ 24 - b) % 2 ^ 24 * 1000000 % 2 ^ 32 / (F / d))
  | .tc f => if f / 1000000 = 0 then .undef else
      .told (((BitVec.ofNat 32 a - BitVec.ofNat 32 b).toInt.tdiv (f / 1000000 : Nat)) % 2 ^ 32).toNat

/-- ipwm_get_period: pwm-nxp_emios.c:240-300, pwm-sam3x_tc.c:246-284.  FLAG, LDRBS: two captures; the eMIOS mode is entered anew by a measure, SWTRG sets the counter to 0 -/
def call (k : Kind) (s : St) : St :=
  if s.acq = false then { s with acq := true, run := true, cnt := 0, seen := 0, start := s.t, outs := s.outs ++ [.again] }
  else if s.seen < 2 then { s with outs := s.outs ++ [.again] }
  else { s with acq := false, run := false, outs := s.outs ++ [value k s.a s.b] }

/-- hardware: one cycle.  The eMIOS captures every edge; the TC captures RA then RB, then stops (LDBDIS) -/
def cycle (k : Kind) (g : Sig) (up : Bool) (s : St) : St :=
  if s.run = false then { s with t := s.t + 1 } else
  let s' := { s with t := s.t + 1, cnt := (s.cnt + 1) % 2 ^ width k }
  if g.edge up s.t = false then s' else
  match k with
  | .emios _ _ => { s' with a := s.cnt, b := s.a, seen := s.seen + 1 }
  | .tc _ => { s' with a := s.cnt, b := s.a, seen := s.seen + 1, run := decide (s.seen = 0) }

inductive Cmd where
  | call
  | cycle

def step (k : Kind) (g : Sig) (up : Bool) (s : St) : Cmd → St
  | .call => call k s
  | .cycle => cycle k g up s

def run (k : Kind) (g : Sig) (up : Bool) (l : List Cmd) : St := l.foldl (step k g up) init

/-- the frequency of the counter, as a fraction -/
def hz : Kind → Nat × Nat
  | .emios F d => (F, d)
  | .tc f => (f, 1)

/-- v microseconds, rounded down, is the time of P cycles of the counter -/
def Right (k : Kind) (P v : Nat) : Prop := v * (hz k).1 ≤ P * (hz k).2 * 1000000 ∧ P * (hz k).2 * 1000000 < (v + 1) * (hz k).1

/-! ### the duty cycle: nxp_emios -/

/-- ipwm_get_duty_cycle, pwm-nxp_emios.c:302-361, begun at the cycle s with a window of `b` cycles (B, :317): the answer once the window is over; B read back; size_t is of 32 bits -/
def emiosDuty (F d tickHz : Nat) (g : Sig) (s t : Nat) : Out :=
  let b := F / d / tickHz
  if t < s + b then .again else if b = 0 then .undef else .told (g.highs s b * 65535 % 2 ^ 32 / b % 2 ^ 16)

/-! ### the duty cycle: sam3x_tc -/

/-- the counter, RA and RB, the flags; `la`: RA was loaded since the last trigger; `up`: ctx->ldr is RISING (else FALLING); rc is TC_RC -/
structure Tc where
  t : Nat
  acq : Bool
  run : Bool
  cnt : Nat
  ra : Nat
  rb : Nat
  la : Bool
  ldras : Bool
  cpcs : Bool
  outs : List Out

def Tc.init : Tc := ⟨0, false, false, 0, 0, 0, false, false, false, []⟩

/-- pwm-sam3x_tc.c:307-331: of the timeout, or of the two captures -/
def tcValue (g : Sig) (up : Bool) (s : Tc) : Out :=
  if s.cpcs then .told (if g.level s.t = up then 65535 else 0)
  else if s.rb = 0 then .undef else .told (s.ra * (65535 / s.rb) % 2 ^ 16)

/-- ipwm_get_duty_cycle, pwm-sam3x_tc.c:286-344; the read of TC_SR clears the flags -/
def Tc.call (g : Sig) (up : Bool) (s : Tc) : Tc :=
  if s.acq = false then { s with acq := true, run := true, cnt := 0, la := false, outs := s.outs ++ [.again] }
  else if s.cpcs || s.ldras then { s with acq := false, ldras := false, cpcs := false, outs := s.outs ++ [tcValue g up s] }
  else { s with outs := s.outs ++ [.again] }

/-- one cycle: the edge `up` loads RB (if RA was loaded) and stops the clock, and is the trigger; the other loads RA; the counter at TC_RC is a trigger too -/
def Tc.cycle (rc : Nat) (g : Sig) (up : Bool) (s : Tc) : Tc :=
  if s.run = false then { s with t := s.t + 1 } else
  if g.edge up s.t then { s with t := s.t + 1, cnt := 1, rb := if s.la then s.cnt else s.rb, run := !s.la, la := false }
  else if g.edge (!up) s.t && !s.la then { s with t := s.t + 1, cnt := s.cnt + 1, ra := s.cnt, la := true, ldras := true }
  else if s.cnt = rc then { s with t := s.t + 1, cnt := 1, la := false, cpcs := true }
  else { s with t := s.t + 1, cnt := s.cnt + 1 }

def Tc.step (rc : Nat) (g : Sig) (up : Bool) (s : Tc) : Cmd → Tc
  | .call => s.call g up
  | .cycle => s.cycle rc g up
def Tc.run' (rc : Nat) (g : Sig) (up : Bool) (l : List Cmd) : Tc := l.foldl (Tc.step rc g up) Tc.init

/-! ### rp2040 -/

/-- the clock of the block (Hz), CONFIG_TICK_HZ, ctx->div, polarity -/
structure Rp where
  F : Nat
  T : Nat
  div : Nat
  up : Bool

/-- picoRTOS_get_tick() at the cycle t: the ticks come at the multiples of F / T (C58, C65); the wrap of the tick is left out -/
def Rp.tick (c : Rp) (t : Nat) : Nat := t / (c.F / c.T)

/-- ipwm_get_period, pwm-rp2040.c:207-230, at the cycle s + n when the measure was begun (:189-205) at the cycle s: CTR has 16 bits and counts every div-th edge; size_t and int of 32 bits -/
def Rp.period (c : Rp) (g : Sig) (s n : Nat) : Out :=
  let e := c.tick (s + n) - c.tick s
  if e = 0 then .again else
  let k := g.edges c.up s n / c.div % 2 ^ 16 * c.div % 2 ^ 32
  if k < 2 then .again else .told (e * (1000000 / c.T) % 2 ^ 32 / k)

/-- ipwm_get_duty_cycle, pwm-rp2040.c:262-289 likewise: CTR counts cycles of the divided clock while the input is high -/
def Rp.duty (c : Rp) (g : Sig) (s n : Nat) : Out :=
  let e := c.tick (s + n) - c.tick s
  if e = 0 then .again else
  let k := g.highs s n / c.div % 2 ^ 16
  let m := c.F / c.div * e % 2 ^ 32 / c.T
  if m = 0 then .undef else
  let v := k * 65535 / m % 2 ^ 16
  .told (if c.up then v else 65535 - v)

end Pico.Ipwm
