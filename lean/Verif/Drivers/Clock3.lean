import Verif.Drivers.Clock2
/-
The clock drivers, continued (C95, C96): drivers/clock: same5x, pic32mx.
The conventions are those of Clock.lean.
-/
namespace Pico.Clock
open Field

/-! ### same5x -/
namespace S5

/-- GENCTRLn, PCHCTRLn, DPLLn.CTRLB, DPLLn.RATIO, the masks of MCLK; the records gclk, pch, dpll (clock-same5x.c:214-219) -/
structure St where
  gen : Nat → BitVec 32
  pch : Nat → BitVec 32
  ctrlb : Nat → BitVec 32
  ratio : Nat → BitVec 32
  mclk : Nat → BitVec 32
  rgen : Nat → Nat
  rpch : Nat → Nat
  rdpll : Nat → Nat

/-- the calls; `w`: the wait is in time -/
inductive Op
  | gen (i src div : Nat)
  | genEnable (i : Nat) (w : Bool)
  | genDisable (i : Nat)
  | dpll (i refclk freq : Nat) (w : Bool)
  | ch (c g : Nat)
  | chEnable (c : Nat)
  | chDisable (c : Nat)

/-- the switch of clock-same5x.c:258-272: the record of a source; XOSC0, XOSC1 and GCLK_IN are refused -/
def srcRec (s : St) : Nat → Option Nat
  | 3 => some (s.rgen 1) | 4 => some 32768 | 5 => some 32768 | 6 => some 48000000 | 7 => some (s.rdpll 0) | 8 => some (s.rdpll 1) | _ => none

/-- clock_same5x_gclk_generator_setup, clock-same5x.c:250-282; a divider of 0 is a division by zero -/
def genSetup (i src div : Nat) (s : St) : Res St :=
  if 12 ≤ i ∨ 9 ≤ src ∨ 65536 ≤ div then .fail else
  match srcRec s src with
  | none => .fail
  | some f => if div = 0 then .undef else
    .ok { s with gen := Rp.set s.gen i (orIn 4 0 (BitVec.ofNat 32 src) (orIn 16 16 (BitVec.ofNat 32 div) (clear 4 0 (clear 16 16 (s.gen i))))), rgen := Rp.set s.rgen i (f / div) }

/-- LDR and LDRFRAC, clock-same5x.c:479-480: unsigned long -/
def ldr (freq f : Nat) : Nat := freq / f
def frac (freq f : Nat) : Nat := freq % f * 32 % 2 ^ 32 / f

/-- the value of RATIO, clock-same5x.c:487-488 -/
def ratioReg (freq f : Nat) : BitVec 32 := orIn 13 0 (BitVec.ofNat 32 (ldr freq f) - 1#32) (orIn 5 16 (BitVec.ofNat 32 (frac freq f)) 0#32)

/-- clock_same5x_dpll_setup, clock-same5x.c:462-494: the frequency of the reference is that of the channel 1 + i, whatever the reference -/
def dpllSetup (i refclk freq : Nat) (w : Bool) (s : St) : Res St :=
  if 2 ≤ i ∨ 4 ≤ refclk then .fail else
  let f := s.rpch (1 + i)
  if f = 0 then .fail else if w = false then .fail else
  .ok { s with ctrlb := Rp.set s.ctrlb i (bset 11 (put 3 5 (BitVec.ofNat 32 refclk) (s.ctrlb i))), ratio := Rp.set s.ratio i (ratioReg freq f), rdpll := Rp.set s.rdpll i freq }

/-- the calls: generator_setup; generator_enable and generator_disable (clock-same5x.c:304-327); dpll_setup; clock_same5x_setup (602-612); clock_same5x_enable and clock_same5x_disable (623-646).
DPLLs and DFLL are supposed started (dpll_enable, dfll_enable): a clock that is off is not modelled -/
def step : Op → St → Res St
  | .gen i src div, s => genSetup i src div s
  | .genEnable i w, s => if 12 ≤ i then .fail else if w = false then .fail else .ok { s with gen := Rp.set s.gen i (bset 8 (s.gen i)) }
  | .genDisable i, s => if 12 ≤ i then .fail else .ok { s with gen := Rp.set s.gen i (bclr 8 (s.gen i)) }
  | .dpll i r f w, s => dpllSetup i r f w s
  | .ch c g, s => if 48 ≤ c ∨ 12 ≤ g then .fail else .ok { s with pch := Rp.set s.pch c (put 4 0 (BitVec.ofNat 32 g) (s.pch c)), rpch := Rp.set s.rpch c (s.rgen g) }
  | .chEnable c, s => if 48 ≤ c then .fail else .ok { s with pch := Rp.set s.pch c (bset 6 (s.pch c)) }
  | .chDisable c, s => if 48 ≤ c then .fail else .ok { s with pch := Rp.set s.pch c (bclr 6 (s.pch c)) }

def run : List Op → St → Res St
  | [], s => .ok s
  | o :: os, s => (step o s).bind (run os)

/-- clock_get_freq, clock-same5x.c:650-656 -/
def getFreq (s : St) (c : Nat) : Option Nat := if c < 48 then some (s.rpch c) else none

/-- the clocks of the chip: generators, peripheral channels, DPLLs, sources of generators -/
inductive Node
  | gen (i : Nat)
  | ch (c : Nat)
  | dpll (i : Nat)
  | src (k : Nat)
  deriving DecidableEq

/-- datasheet, GENCTRLn: DIVSEL, bit 12; DIV: 16 bits for the generator 1, 8 bits for the others; 0 is as 1 -/
def divOf (i : Nat) (r : BitVec 32) : Nat :=
  let d := (get (if i = 1 then 16 else 8) 16 r).toNat
  if r.getLsbD 12 then 2 ^ (d + 1) else if d = 0 then 1 else d

/-- the frequency of a clock as the registers set it (SAM D5x/E5x datasheet 14, 28): a generator divides its source, a channel is the generator it selects, a DPLL with the reference GCLK
multiplies the channel 1 + i by LDR + 1 + LDRFRAC / 32 -/
inductive Real (s : St) : Node → Hz → Prop
  | slow (k : Nat) : k = 4 ∨ k = 5 → Real s (.src k) (32768, 1)
  | dfll : Real s (.src 6) (48000000, 1)
  | gen1 (f : Hz) : Real s (.gen 1) f → Real s (.src 3) f
  | fdpll (k : Nat) (f : Hz) : k = 7 ∨ k = 8 → Real s (.dpll (k - 7)) f → Real s (.src k) f
  | gen (i : Nat) (f : Hz) : Real s (.src (get 4 0 (s.gen i)).toNat) f → Real s (.gen i) (f.1, f.2 * divOf i (s.gen i))
  | ch (c : Nat) (f : Hz) : Real s (.gen (get 4 0 (s.pch c)).toNat) f → Real s (.ch c) f
  | dpll (i : Nat) (f : Hz) : (get 3 5 (s.ctrlb i)).toNat = 0 → Real s (.ch (1 + i)) f →
      Real s (.dpll i) (f.1 * (((get 13 0 (s.ratio i)).toNat + 1) * 32 + (get 5 16 (s.ratio i)).toNat), f.2 * 32)

/-- the record of a clock -/
def rec (s : St) : Node → Nat
  | .gen i => s.rgen i
  | .ch c => s.rpch c
  | .dpll i => s.rdpll i
  | .src k => (srcRec s k).getD 0

/-- clock_same5x_mclk_enable, clock-same5x.c:539-559; CLOCK_SAME5X_MCLK_COUNT is 0x8c -/
def enable (k : Nat) (s : St) : Option St := if 0x8c ≤ k then none else some { s with mclk := gset s.mclk k }
/-- clock_same5x_mclk_disable, clock-same5x.c:570-590 -/
def disable (k : Nat) (s : St) : Option St := if 0x8c ≤ k then none else some { s with mclk := gclr s.mclk k }
def on (s : St) (k : Nat) : Bool := gbit s.mclk k

end S5

/-! ### pic32mx -/
namespace Pic

/-- SPLLCON, OSCCON.NOSC, COSC, OSWEN; PBxDIV; the records -/
structure St where
  spll : BitVec 32
  nosc : Nat
  cosc : Nat
  oswen : Bool
  pb : Nat → BitVec 32
  posc : Nat
  plliclk : Nat
  pllclk : Nat
  sys : Nat
  pbclk : Nat → Nat

structure Cfg where
  posc : Nat
  plliclk : Nat
  pllo : Nat
  osc : Nat

/-- the ranges of clock-pic32mx.c:140-149 -/
def range (f : Nat) : Option Nat :=
  if f < 10000000 then some 1 else if f < 16000000 then some 2 else if f < 26000000 then some 3 else if f < 42000000 then some 4 else if f < 64000000 then some 5 else none

/-- configure_pll_input, clock-pic32mx.c:121-154 -/
def input (k : Nat) (s : St) : Option St :=
  if 2 ≤ k then none else
  let r := clear 3 0 (bclr 7 s.spll)
  if k = 1 then some { s with spll := orIn 3 0 1#32 (bset 7 r), plliclk := 8000000 }
  else (range s.posc).map fun g => { s with spll := orIn 3 0 (BitVec.ofNat 32 g) r, plliclk := s.posc }

/-- (odiv, mult, idiv) in the order of the loops, clock-pic32mx.c:174-176 -/
def cands : List (Nat × Nat × Nat) :=
  (List.range 5).flatMap fun o => (List.range 128).flatMap fun m => (List.range 8).map fun i => (o + 1, m + 1, i + 1)

/-- the fields of SPLLCON, clock-pic32mx.c:183-189 -/
def pllReg (c : Nat × Nat × Nat) (r : BitVec 32) : BitVec 32 :=
  orIn 3 8 (BitVec.ofNat 32 (c.2.2 - 1)) (orIn 7 16 (BitVec.ofNat 32 (c.2.1 - 1)) (orIn 3 24 (BitVec.ofNat 32 c.1) (clear 3 8 (clear 7 16 (clear 3 24 r)))))

/-- configure_pll, clock-pic32mx.c:156-197: unsigned long -/
def pll (k freq : Nat) (s : St) : Option St :=
  (input k s).bind fun s => (cands.find? fun c => s.plliclk / c.2.2 * c.2.1 % 2 ^ 32 / 2 ^ c.1 = freq).map fun c => { s with spll := pllReg c s.spll, pllclk := freq }

/-- the switch of clock-pic32mx.c:208-220 -/
def oscRec (k : Nat) (s : St) : Nat := match k with | 1 => s.pllclk | 2 => s.posc | 4 => 32768 | 5 => 32768 | _ => 8000000

/-- switch_osc, clock-pic32mx.c:199-224 with osccon_busywait (110-119), which waits for OSWEN to be set.  OSWEN is set by the program and cleared by the hardware when the switch is done;
`early`: the switch was done before the first reading.  Then the wait ends at the deadlock counter. -/
def switch (k : Nat) (early : Bool) (s : St) : St × Int :=
  if 8 ≤ k ∨ k = 3 then (s, -22) else
  let s := { s with nosc := k, oswen := true, sys := oscRec k s }
  if early then ({ s with cosc := k, oswen := false }, -16) else (s, 0)

/-- the hardware completes a switch -/
def settle (s : St) : St := if s.oswen then { s with cosc := s.nosc, oswen := false } else s

/-- clock_pic32mx_init, clock-pic32mx.c:235-261 -/
def init (c : Cfg) (early : Bool) (s : St) : St × Int :=
  match pll c.plliclk c.pllo { s with posc := c.posc } with
  | none => ({ s with posc := c.posc }, -22)
  | some s => switch c.osc early s

/-- clock_pic32mx_pbclk_enable, clock-pic32mx.c:273-287; a divider of 0 is a division by zero -/
def pbEnable (k d : Nat) (s : St) : Res St :=
  if k < 4 ∨ 11 < k ∨ 128 ≤ d then .fail else if d = 0 then .undef else
  .ok { s with pb := Rp.set s.pb (k - 4) (bset 15 (BitVec.ofNat 32 (d - 1) &&& mask 32 7)), pbclk := Rp.set s.pbclk (k - 4) (s.sys / d) }

/-- clock_pic32mx_pbclk_disable, clock-pic32mx.c:298-311 -/
def pbDisable (k : Nat) (s : St) : Res St := if k < 4 ∨ 11 < k then .fail else .ok { s with pb := Rp.set s.pb (k - 4) (bclr 15 (s.pb (k - 4))) }

/-- clock_get_freq, clock-pic32mx.c:315-339 -/
def getFreq (s : St) (k : Nat) : Option Nat :=
  if k = 0 then some s.sys else if k = 1 then some 48000000 else if k = 2 then some 32768 else if k = 3 then some 32768
  else if 4 ≤ k ∧ k < 12 then some (s.pbclk (k - 4)) else none

/-- SPLLCON: input POSC or FRC (PLLICLK, bit 7), / (PLLIDIV + 1) * (PLLMULT + 1) / 2^PLLODIV (codes 1 to 5) -/
def pllHz (x : Nat) (s : St) : Option Hz :=
  let o := (get 3 24 s.spll).toNat
  if o = 0 ∨ 5 < o then none
  else some ((if s.spll.getLsbD 7 then 8000000 else x) * ((get 7 16 s.spll).toNat + 1), ((get 3 8 s.spll).toNat + 1) * 2 ^ o)

/-- OSCCON.COSC; FRCDIV is left as after the reset: / 1 -/
def sysHz (x : Nat) (s : St) : Option Hz :=
  match s.cosc with | 0 => some (8000000, 1) | 1 => pllHz x s | 2 => some (x, 1) | 4 => some (32768, 1) | 5 => some (32768, 1) | 6 => some (8000000, 1) | 7 => some (8000000, 1) | _ => none

/-- the clocks as the registers set them (USB PLL not modelled) -/
def hw (x : Nat) (s : St) (k : Nat) : Option Hz :=
  if k = 0 then sysHz x s else if k = 2 ∨ k = 3 then some (32768, 1)
  else if 4 ≤ k ∧ k < 12 then (if (s.pb (k - 4)).getLsbD 15 then Hz.div (sysHz x s) ((get 7 0 (s.pb (k - 4))).toNat + 1) else none) else none

end Pic
end Pico.Clock
