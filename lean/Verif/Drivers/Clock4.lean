import Verif.Drivers.Clock3
/-
The clock drivers, continued (C95, C96): drivers/clock: sam3x_pmc, numicro, n76e003, cy7c6801xa, mpc574xx, nxp_siu.
The conventions are those of Clock.lean.  Frequencies of the settings are below 2^31 Hz.
-/
namespace Pico.Clock
open Field

/-! ### sam3x_pmc -/
namespace Sam

/-- CKGR_PLLAR, PMC_MCKR; the table behind PMC_PCR (enabled, divider code); PMC_SR.OSCSELS; the records (clock-sam3x_pmc.c:89-101) -/
structure St where
  pllar : BitVec 32
  mckr : BitVec 32
  pcr : Nat → Bool × Nat
  oscsels : Bool
  moscx : Nat
  pllack : Nat
  slck : Nat
  mck : Nat
  periph : Nat → Nat

structure Cfg where
  moscx : Nat
  plla : Nat
  mckDiv : Nat

/-- what the waits see: PMC_SR.MOSCXTS and MOSCSELS, by number of reading; LOCKA in time; MCKRDY in time, twice; the deadlock count -/
structure Env where
  xts : Nat → Bool
  sels : Nat → Bool
  lock : Bool
  rdy : Bool
  rdy2 : Bool
  count : Nat

/-- the wait of clock-sam3x_pmc.c:124-129: it goes on while MOSCXTS is set and MOSCSELS is not; false: the counter ran out -/
def xtalWait (e : Env) : Nat → Nat → Bool
  | 0, k => !(e.xts k && !e.sels k)
  | n + 1, k => !(e.xts k && !e.sels k) || xtalWait e n (k + 1)

/-- plla_setup, clock-sam3x_pmc.c:143-171: the value of CKGR_PLLAR -/
def pllarOf (mula : Nat) : BitVec 32 := orIn 8 0 1#32 (orIn 11 16 (BitVec.ofNat 32 (mula - 1)) (orIn 6 8 0x3f#32 (bset 29 0#32)))

/-- the switch of clock-sam3x_pmc.c:192-206 -/
def presOf : Nat → Option Nat
  | 1 => some 0 | 2 => some 1 | 3 => some 7 | 4 => some 2 | 8 => some 3 | 16 => some 4 | 32 => some 5 | 64 => some 6 | _ => none

/-- clock_sam3x_pmc_init, clock-sam3x_pmc.c:240-267, with init_slck (135-141), init_moscx (109-133), init_plla (173-182) and init_mck (184-229) -/
def init (c : Cfg) (e : Env) (s : St) : Option St :=
  if c.moscx = 0 then none
  else if xtalWait e e.count 0 = false then none
  else if c.plla / 2 < c.moscx then none
  else if 2048 ≤ c.plla / c.moscx then none
  else if e.lock = false then none
  else match presOf c.mckDiv with
  | none => none
  | some p =>
    if e.rdy = false then none else if e.rdy2 = false then none else
    some { s with slck := if s.oscsels then 32768 else 32000, moscx := c.moscx, pllack := c.plla, pllar := pllarOf (c.plla / c.moscx),
                  mckr := orIn 2 0 2#32 (orIn 3 4 (BitVec.ofNat 32 p) 0#32), mck := c.plla / c.mckDiv }

/-- a write of PMC_PCR (SAM3X datasheet 28.15): with CMD (bit 12) the entry PID gets EN (bit 28) and DIV -/
def pcrWrite (v : BitVec 32) (t : Nat → Bool × Nat) : Nat → Bool × Nat :=
  if v.getLsbD 12 then Rp.set t (get 6 0 v).toNat (v.getLsbD 28, (get 2 16 v).toNat) else t

/-- clock_sam3x_pmc_enable, clock-sam3x_pmc.c:279-299; DEVICE_PID_COUNT is 45 -/
def enable (k d : Nat) (s : St) : Option St :=
  if 3 ≤ d then none
  else if 32 < k then
    (if 45 ≤ k - 32 then none
     else some { s with pcr := pcrWrite (orIn 6 0 (BitVec.ofNat 32 (k - 32)) (orIn 2 16 (BitVec.ofNat 32 d) (bset 12 (bset 28 0#32)))) s.pcr,
                        periph := Rp.set s.periph (k - 32) (s.mck / 2 ^ d) })
  else some s

/-- clock_sam3x_pmc_disable, clock-sam3x_pmc.c:310-322 -/
def disable (k : Nat) (s : St) : Option St :=
  if 32 < k then (if 45 ≤ k - 32 then none else some { s with pcr := pcrWrite (orIn 6 0 (BitVec.ofNat 32 (k - 32)) (bset 12 0#32)) s.pcr })
  else some s

/-- clock_get_freq, clock-sam3x_pmc.c:324-353 -/
def getFreq (s : St) (k : Nat) : Option Nat :=
  if 32 < k then (if 45 ≤ k - 32 then none else some (s.periph (k - 32)))
  else if 16 < k then none
  else match k with | 0 => some s.mck | 1 => some s.slck | 2 => some (s.mck / 8) | 3 => some s.mck | 4 => some s.mck | _ => none

/-- the clocks as the registers set them (SAM3X datasheet 27, 28); `sel`: the switch of the main clock to the crystal is done, else it is the RC oscillator of the reset, 4 MHz; the UPLL is not modelled -/
def mainHz (x : Nat) (sel : Bool) : Option Hz := if sel then some (x, 1) else some (4000000, 1)
def slowHz (s : St) : Option Hz := if s.oscsels then some (32768, 1) else some (32000, 1)
def pllHz (x : Nat) (sel : Bool) (s : St) : Option Hz :=
  if (get 11 16 s.pllar).toNat = 0 ∨ (get 8 0 s.pllar).toNat = 0 then none
  else (mainHz x sel).map fun f => (f.1 * ((get 11 16 s.pllar).toNat + 1), f.2 * (get 8 0 s.pllar).toNat)
def presDiv (p : Nat) : Nat := if p = 7 then 3 else 2 ^ p
def mckHz (x : Nat) (sel : Bool) (s : St) : Option Hz :=
  Hz.div (match (get 2 0 s.mckr).toNat with | 0 => slowHz s | 1 => mainHz x sel | 2 => pllHz x sel s | _ => none) (presDiv (get 3 4 s.mckr).toNat)
def hw (x : Nat) (sel : Bool) (s : St) (k : Nat) : Option Hz :=
  if 32 < k then (if (s.pcr (k - 32)).1 then Hz.div (mckHz x sel s) (2 ^ (s.pcr (k - 32)).2) else none)
  else match k with | 0 => mckHz x sel s | 1 => slowHz s | 2 => Hz.div (mckHz x sel s) 8 | 3 => mckHz x sel s | 4 => mckHz x sel s | _ => none

def on (s : St) (k : Nat) : Bool := (s.pcr (k - 32)).1

end Sam

/-! ### numicro, n76e003 -/
namespace Nu

/-- RCTRIM0, RCTRIM1, CKSWT.OSC, CKEN, CKDIV, PCON; the records (clock-numicro.c:52-57, clock-n76e003.c:50-55) -/
structure St where
  rc0 : BitVec 8
  rc1 : BitVec 8
  osc : Nat
  cken : BitVec 8
  ckdiv : Nat
  pcon : BitVec 8
  fsys : Nat
  fosc : Nat
  feclk : Nat
  fhirc : Nat

structure Cfg where
  fosc : Nat
  fhirc : Nat
  feclk : Nat
  clkdiv : Nat

/-- the sum of clock-numicro.c:145-146 as C reads it: the subtraction first; unsigned int has 16 bits -/
def rctrim (s : St) : BitVec 16 := (s.rc0.setWidth 16 <<< 1) ||| ((s.rc1.setWidth 16 &&& 1#16) - 15#16)

/-- setup_fhirc, clock-numicro.c:141-183 (n = 3 choices), clock-n76e003.c:139-169 (n = 2) -/
def setupHirc (n k : Nat) (s : St) : Option St :=
  if n ≤ k then none
  else if k = 0 then some { s with fhirc := 16000000 }
  else if k = 1 then some { s with rc0 := (rctrim s >>> 1).setWidth 8, rc1 := (rctrim s &&& 1#16).setWidth 8, pcon := s.pcon &&& ~~~ 1#8, fhirc := 16600000 }
  else some { s with rc1 := bset 4 s.rc1, fhirc := 24000000 }

/-- ckswt_osc_fhirc, ckswt_osc_feclk, ckswt_osc_flirc, clock-numicro.c:74-139; `w`: the oscillator is stable in time -/
def switch (k hz : Nat) (w : Bool) (s : St) : Option St :=
  if k = 0 then (if w then some { s with cken := bset 5 0#8, osc := 0, fosc := s.fhirc } else none)
  else if k = 1 then (if hz = 0 then none else if w then some { s with cken := orIn 2 6 3#8 0#8, osc := 1, fosc := hz } else none)
  else if k = 2 then (if w then some { s with osc := 2, fosc := 10000 } else none)
  else none

/-- clock_numicro_init, clock-numicro.c:194-226, clock_n76e003_init, clock-n76e003.c:180-212 -/
def init (n : Nat) (c : Cfg) (w : Bool) (s : St) : Option St :=
  if c.clkdiv = 0 then none
  else if ¬ (c.clkdiv = 1 ∨ c.clkdiv % 2 = 0) then none
  else if 510 < c.clkdiv then none
  else if 3 ≤ c.fosc then none
  else (setupHirc n c.fhirc s).bind fun s => (switch c.fosc c.feclk w s).map fun s =>
    { s with ckdiv := c.clkdiv / 2 % 256, feclk := c.feclk, fsys := s.fosc / c.clkdiv }

/-- clock_get_freq, clock-numicro.c:228-242, clock-n76e003.c:214-228 -/
def getFreq (s : St) (k : Nat) : Option Nat :=
  match k with | 0 => some s.fsys | 1 => some s.fosc | 2 => some s.feclk | 3 => some s.fhirc | 4 => some 10000 | _ => none

/-- the 9 bits of trim -/
def trim (s : St) : Nat := s.rc0.toNat * 2 + s.rc1.toNat % 2

/-- HIRC with `t` the trim of the factory (N76E003 datasheet 23.1): 16 MHz at t, 16.6 MHz at t - 15, 24 MHz with HIRC24 at t; what another trim gives is not documented.  It is off without HIRCEN -/
def hircHz (t : Nat) (s : St) : Option Hz :=
  if s.cken.getLsbD 5 = false then none
  else if s.rc1.getLsbD 4 then (if trim s = t then some (24000000, 1) else none)
  else if trim s = t then some (16000000, 1) else if trim s + 15 = t then some (16600000, 1) else none
/-- the external clock, on with EXTEN = 3 -/
def extHz (x : Nat) (s : St) : Option Hz := if (get 2 6 s.cken).toNat = 3 then some (x, 1) else none
def oscHz (t x : Nat) (s : St) : Option Hz := match s.osc with | 0 => hircHz t s | 1 => extHz x s | 2 => some (10000, 1) | _ => none
/-- CKDIV: by 2 * CKDIV, or not at all if 0 -/
def hw (t x : Nat) (s : St) (k : Nat) : Option Hz :=
  match k with
  | 0 => Hz.div (oscHz t x s) (if s.ckdiv = 0 then 1 else 2 * s.ckdiv)
  | 1 => oscHz t x s | 2 => extHz x s | 3 => hircHz t s | 4 => some (10000, 1) | _ => none

end Nu

/-! ### cy7c6801xa -/
namespace Cy

/-- CPUCS; the record -/
structure St where
  cpucs : BitVec 8
  cpu : Nat

/-- clock_cy7c6801xa_init, clock-cy7c6801xa.c:32-62 -/
def init (k : Nat) (s : St) : Option St :=
  match k with
  | 0 => some { s with cpucs := clear 2 3 s.cpucs, cpu := 12000000 }
  | 1 => some { s with cpucs := orIn 2 3 1#8 (clear 2 3 s.cpucs), cpu := 24000000 }
  | 2 => some { s with cpucs := orIn 2 3 2#8 (clear 2 3 s.cpucs), cpu := 48000000 }
  | _ => none

/-- clock_get_freq, clock-cy7c6801xa.c:65-78: the identifier of the CPU is the one refused -/
def getFreq (s : St) (k : Nat) : Option Nat := if ¬ k ≠ 0 then none else if k = 0 then some s.cpu else none

/-- CPUCS.CLKSPD (EZ-USB TRM 15.5.1) -/
def hw (s : St) (k : Nat) : Option Hz :=
  if k = 0 then (match (get 2 3 s.cpucs).toNat with | 0 => some (12000000, 1) | 1 => some (24000000, 1) | 2 => some (48000000, 1) | _ => none) else none

end Cy

/-! ### mpc574xx -/
namespace Mpc

/-- MC_CGM.SC_DCn; PLLDV; AC5_SC.SELCTL; the system clock selected (DRUN_MC.SYSCLK of the mode entered); RUN_PC, LP_PC, PCTL; the records (clock-mpc574xx.c:183-193) -/
structure St where
  dc : Nat → BitVec 32
  plldv : BitVec 32
  xin : Bool
  sel : Nat
  runPc : Nat → BitVec 32
  lpPc : Nat → BitVec 32
  pctl : Nat → BitVec 8
  sysclk : Nat
  s160 : Nat
  s80 : Nat
  fs80 : Nat
  s40 : Nat
  f80 : Nat
  f40 : Nat
  f20 : Nat

structure Cfg where
  sysclk : Nat
  clkin : Nat
  fxosc : Nat
  phi0 : Nat
  s160 : Nat
  s80 : Nat
  fs80 : Nat
  s40 : Nat

/-- clock-mpc574xx.c:365-372: a divider of 0 leaves the register -/
def dcSet (i d : Nat) (f : Nat → BitVec 32) : Nat → BitVec 32 := if d = 0 then f else Rp.set f i (bset 31 (orIn 3 16 (BitVec.ofNat 32 (d - 1)) 0#32))

/-- set_scalable_dividers, clock-mpc574xx.c:355-377 -/
def dividers (c : Cfg) (s : St) : Option St :=
  if 8 < c.s160 ∨ 8 < c.s80 ∨ 8 < c.fs80 ∨ 16 < c.s40 then none
  else some { s with dc := dcSet 5 c.fs80 (dcSet 2 c.s40 (dcSet 1 c.s80 (dcSet 0 c.s160 s.dc))) }

/-- (prediv, mfd, rfdphi) in the order of the loops, clock-mpc574xx.c:275-277 -/
def cands : List (Nat × Nat × Nat) :=
  (List.range 6).flatMap fun p => (List.range 141).flatMap fun m => (List.range 5).map fun r => (p + 1, m + 10, r)

/-- clock-mpc574xx.c:278-280: unsigned long -/
def phi (f : Nat) (c : Nat × Nat × Nat) : Nat := f * c.2.1 % 2 ^ 32 / (c.1 * 2 * 2 ^ c.2.2)

/-- clock-mpc574xx.c:281-283 -/
def dvOf (c : Nat × Nat × Nat) : BitVec 32 := orIn 6 16 (BitVec.ofNat 32 c.2.2) (orIn 8 0 (BitVec.ofNat 32 c.2.1) (orIn 3 12 (BitVec.ofNat 32 c.1) 0#32))

/-- switch_to_fmpll_phi0, clock-mpc574xx.c:298-328, with setup_fmpll_clkin (234-255) and setup_fmpll_phi0 (257-296); `w`: the waits are in time -/
def toPll (c : Cfg) (w : Bool) (s : St) : Option St :=
  if 2 ≤ c.clkin then none else
  if c.phi0 = 0 then none else
  match cands.find? fun k => decide (c.phi0 = phi (if c.clkin = 0 then 16000000 else c.fxosc) k) with
  | none => none
  | some k => if w then some { s with xin := decide (c.clkin = 1), plldv := dvOf k, sel := 2, sysclk := c.phi0 } else none

/-- switch_to_fxosc, clock-mpc574xx.c:330-353 -/
def toXosc (f : Nat) (w : Bool) (s : St) : Option St :=
  if f < 8000000 ∨ 40000000 < f then none else if w then some { s with sel := 1, sysclk := f } else none

/-- the switch of clock-mpc574xx.c:396-412; FIRC is not selected in the hardware: nothing is written -/
def toSys (c : Cfg) (w : Bool) (s : St) : Option St :=
  match c.sysclk with | 0 => some { s with sysclk := 16000000 } | 1 => toXosc c.fxosc w s | 2 => toPll c w s | _ => none

/-- clock_mpc574xx_init, clock-mpc574xx.c:388-434; a divider of 0 ("disable") is a division by zero -/
def init (c : Cfg) (w : Bool) (s : St) : Res St :=
  match (dividers c s).bind (toSys c w) with
  | none => .fail
  | some s => if c.s160 = 0 ∨ c.s80 = 0 ∨ c.fs80 = 0 ∨ c.s40 = 0 then .undef else
    .ok { s with s160 := s.sysclk / c.s160, s80 := s.sysclk / c.s80, fs80 := s.sysclk / c.fs80, s40 := s.sysclk / c.s40, f40 := s.sysclk / 4, f80 := s.sysclk / 2, f20 := s.sysclk / 8 }

/-- clock_get_freq, clock-mpc574xx.c:519-540 -/
def getFreq (s : St) (k : Nat) : Option Nat :=
  match k with | 0 => some s.sysclk | 1 => some s.s160 | 2 => some s.s80 | 3 => some s.fs80 | 4 => some s.s40 | 5 => some s.f40 | 6 => some s.f80 | 7 => some s.f20 | _ => none

/-- the clocks as the registers set them (MPC5748G RM: MC_CGM, PLLDIG): DIV has 3 bits for S160, S80, FS80 and 4 bits for S40; PHI0 = input * MFD / (PREDIV * 2 * 2^RFDPHI) -/
def pllHz (x : Nat) (s : St) : Option Hz :=
  if (get 3 12 s.plldv).toNat = 0 then none
  else some ((if s.xin then x else 16000000) * (get 8 0 s.plldv).toNat, (get 3 12 s.plldv).toNat * 2 * 2 ^ (get 6 16 s.plldv).toNat)
def sysHz (x : Nat) (s : St) : Option Hz := match s.sel with | 0 => some (16000000, 1) | 1 => some (x, 1) | 2 => pllHz x s | _ => none
def dcHz (w i x : Nat) (s : St) : Option Hz := if (s.dc i).getLsbD 31 then Hz.div (sysHz x s) ((get w 16 (s.dc i)).toNat + 1) else none
def hw (x : Nat) (s : St) (k : Nat) : Option Hz :=
  match k with
  | 0 => sysHz x s | 1 => dcHz 3 0 x s | 2 => dcHz 3 1 x s | 3 => dcHz 3 5 x s | 4 => dcHz 4 2 x s
  | 5 => Hz.div (sysHz x s) 4 | 6 => Hz.div (sysHz x s) 2 | 7 => Hz.div (sysHz x s) 8 | _ => none

/-- clock_mpc574xx_set_run_pc, clock-mpc574xx.c:446-453; flags is a signed int -/
def setRunPc (i : Nat) (flags : Int) (s : St) : Option St :=
  if 8 ≤ i then none else if 0x100 ≤ flags then none else some { s with runPc := Rp.set s.runPc i (BitVec.ofInt 32 flags) }
/-- clock_mpc574xx_set_lp_pc, clock-mpc574xx.c:465-471 -/
def setLpPc (i : Nat) (flags : Int) (s : St) : Option St := if 8 ≤ i then none else some { s with lpPc := Rp.set s.lpPc i (BitVec.ofInt 32 flags) }
/-- clock_mpc574xx_set_pctl_run_cfg, clock-mpc574xx.c:505-515 -/
def setRun (p i : Nat) (s : St) : Option St :=
  if 106 ≤ p then none else if 8 ≤ i then none else some { s with pctl := Rp.set s.pctl p (orIn 3 0 (BitVec.ofNat 8 i) (clear 3 0 (s.pctl p))) }
/-- clock_mpc574xx_set_pctl_lp_cfg, clock-mpc574xx.c:483-493 -/
def setLp (p i : Nat) (s : St) : Option St :=
  if 106 ≤ p then none else if 8 ≤ i then none else some { s with pctl := Rp.set s.pctl p (orIn 3 3 (BitVec.ofNat 8 i) (clear 3 3 (s.pctl p))) }

/-- MC_ME: a peripheral is clocked in the run mode m (3: DRUN, 4 - 7: RUN0 - 3) if the RUN_PC it selects has the bit m; in a low power mode likewise with LP_PC -/
def on (s : St) (p m : Nat) : Bool := (s.runPc (get 3 0 (s.pctl p)).toNat).getLsbD m
def onLp (s : St) (p m : Nat) : Bool := (s.lpPc (get 3 3 (s.pctl p)).toNat).getLsbD m

end Mpc

/-! ### nxp_siu -/
namespace Siu

/-- SIU.SYSDIV, PLL0DV, PLL1DV; the records (clock-nxp_siu.c:205-219) -/
structure St where
  sysdiv : BitVec 32
  dv0 : BitVec 32
  dv1 : BitVec 32
  phi0 : Nat
  phi01 : Nat
  phi1 : Nat
  sysclk : Nat
  xosc : Nat
  core : Nat
  plat : Nat
  pper : Nat
  fmPer : Nat
  etpu : Nat

structure Cfg where
  xosc : Nat
  pll0 : Nat
  phiDiv : Nat
  phi1Div : Nat
  pll1 : Nat
  sysDiv : Nat
  perDiv : Nat
  fmDiv : Nat
  etpuDiv : Nat

/-- the waits: XOSC, the lock of PLL0, the switch of start_pcs in time; the lock of PLL1 as it is read -/
structure Env where
  xosc : Bool
  lock0 : Bool
  pcs : Bool
  lock1 : Nat → Bool
  count : Nat

/-- (prediv, mfd), clock-nxp_siu.c:277-278 -/
def cands0 : List (Nat × Nat) := (List.range 7).flatMap fun p => (List.range 120).map fun m => (p + 1, m + 8)
/-- (mfd, rfdphi), clock-nxp_siu.c:315-316 -/
def cands1 : List (Nat × Nat) := (List.range 19).flatMap fun m => (List.range 63).map fun r => (m + 16, r + 1)

/-- pll1_lock_busywait, clock-nxp_siu.c:243-252: it goes on while the PLL is locked -/
def lockWait (e : Env) : Nat → Nat → Bool
  | 0, k => !e.lock1 k
  | n + 1, k => !e.lock1 k || lockWait e n (k + 1)

/-- setup_pll0, clock-nxp_siu.c:254-298: unsigned long -/
def pll0 (c : Cfg) (w : Bool) (s : St) : Option St :=
  if c.phiDiv = 0 ∨ 63 < c.phiDiv ∨ c.phi1Div ≤ 4 ∨ 15 < c.phi1Div then none else
  match cands0.find? fun k => decide (s.xosc / k.1 * k.2 % 2 ^ 32 = c.pll0) with
  | none => none
  | some k => if w then some { s with sysdiv := bclr 28 s.sysdiv, dv0 := orIn 4 27 (BitVec.ofNat 32 c.phi1Div) (orIn 6 16 (BitVec.ofNat 32 c.phiDiv) (orIn 7 0 (BitVec.ofNat 32 k.2) (orIn 3 12 (BitVec.ofNat 32 k.1) 0#32))), phi0 := c.pll0 / c.phiDiv, phi01 := c.pll0 / c.phi1Div } else none

/-- setup_pll1, clock-nxp_siu.c:300-333 -/
def pll1 (freq : Nat) (e : Env) (s : St) : Option St :=
  match cands1.find? fun k => decide (s.phi01 * k.1 % 2 ^ 32 / (k.2 * 2) = freq) with
  | none => none
  | some k => if lockWait e e.count 0 then some { s with sysdiv := bset 26 s.sysdiv, dv1 := orIn 6 16 (BitVec.ofNat 32 k.2) (orIn 7 0 (BitVec.ofNat 32 k.1) 0#32), phi1 := freq } else none

/-- the switches of clock-nxp_siu.c:339-348 and 371-378 -/
def sysCode : Nat → Option Nat
  | 1 => some 4 | 2 => some 0 | 4 => some 1 | 8 => some 2 | 16 => some 3 | _ => none
def perCode : Nat → Option Nat
  | 2 => some 0 | 4 => some 1 | 8 => some 2 | _ => none

/-- setup_per_clk, clock-nxp_siu.c:367-387 -/
def perClk (d : Nat) (s : St) : Option St := (perCode d).map fun v => { s with sysdiv := orIn 2 16 (BitVec.ofNat 32 v) (clear 2 16 (bset 24 s.sysdiv)), pper := s.phi0 / d }
/-- setup_sysclk, clock-nxp_siu.c:335-365 -/
def sysClk (d : Nat) (s : St) : Option St :=
  (sysCode d).map fun v => { s with sysdiv := orIn 3 2 (BitVec.ofNat 32 v) (clear 3 2 (orIn 2 12 2#32 (clear 2 12 s.sysdiv))), sysclk := s.phi1 / d, core := s.phi1 / d, plat := s.phi1 / d / 2 }
/-- setup_fm_per_clk, clock-nxp_siu.c:389-407 -/
def fmClk (d : Nat) (s : St) : Option St := (perCode d).map fun v => { s with sysdiv := orIn 2 20 (BitVec.ofNat 32 v) (clear 2 20 s.sysdiv), fmPer := s.sysclk / d }
/-- setup_etpu_clk, clock-nxp_siu.c:409-421 -/
def etpuClk (d : Nat) (s : St) : Option St :=
  match d with | 1 => some { s with sysdiv := bset 8 s.sysdiv, etpu := s.sysclk / 1 } | 2 => some { s with sysdiv := bclr 8 s.sysdiv, etpu := s.sysclk / 2 } | _ => none

/-- clock_nxp_siu_init, clock-nxp_siu.c:475-522; MCANSEL, LCK and PCSEN and the clocks that clock_get_freq does not tell are left out of the model, but PCSEN, MCANSEL, LCK as bits -/
def init (c : Cfg) (e : Env) (s : St) : Option St :=
  if e.xosc = false then none else
  (pll0 c e.lock0 { s with sysdiv := 0#32, xosc := c.xosc }).bind fun s => (pll1 c.pll1 e s).bind fun s => (perClk c.perDiv s).bind fun s => (sysClk c.sysDiv s).bind fun s =>
  (fmClk c.fmDiv s).bind fun s => (etpuClk c.etpuDiv s).bind fun s => if e.pcs then some { s with sysdiv := bset 31 (bclr 15 (bset 0 s.sysdiv)) } else none

/-- clock_get_freq, clock-nxp_siu.c:526-546 -/
def getFreq (s : St) (k : Nat) : Option Nat :=
  match k with | 0 => some s.xosc | 1 => some 16000000 | 4 => some s.core | 5 => some s.plat | 6 => some s.fmPer | 7 => some s.etpu | 8 => some s.pper | _ => none

/-- the clocks as the registers set them (MPC5777C RM: PLLDIG, SIU_SYSDIV): PLL0 PHI = XOSC * MFD / (PREDIV * RFDPHI), PHI1 likewise; PLL1 PHI = PHI1 * MFD / (2 * RFDPHI) -/
def phi0Hz (x w t : Nat) (s : St) : Option Hz :=
  if (get 3 12 s.dv0).toNat = 0 ∨ (get w t s.dv0).toNat = 0 then none else some (x * (get 7 0 s.dv0).toNat, (get 3 12 s.dv0).toNat * (get w t s.dv0).toNat)
def phi1Hz (x : Nat) (s : St) : Option Hz :=
  if (get 6 16 s.dv1).toNat = 0 then none else
  (if s.sysdiv.getLsbD 26 then phi0Hz x 4 27 s else some (x, 1)).map fun f => (f.1 * (get 7 0 s.dv1).toNat, f.2 * (2 * (get 6 16 s.dv1).toNat))
def sysDivOf (k : Nat) : Nat := if k = 4 then 1 else 2 ^ (k + 1)
def sysHz (x : Nat) (s : St) : Option Hz :=
  Hz.div (match (get 2 12 s.sysdiv).toNat with | 0 => some (16000000, 1) | 1 => some (x, 1) | 2 => phi1Hz x s | _ => phi0Hz x 6 16 s) (sysDivOf (get 3 2 s.sysdiv).toNat)
def hw (x : Nat) (s : St) (k : Nat) : Option Hz :=
  match k with
  | 0 => some (x, 1) | 1 => some (16000000, 1) | 4 => sysHz x s | 5 => Hz.div (sysHz x s) 2
  | 6 => Hz.div (sysHz x s) (2 ^ ((get 2 20 s.sysdiv).toNat + 1)) | 7 => Hz.div (sysHz x s) (if s.sysdiv.getLsbD 8 then 1 else 2)
  | 8 => Hz.div (if s.sysdiv.getLsbD 24 then phi0Hz x 6 16 s else phi1Hz x s) (2 ^ ((get 2 16 s.sysdiv).toNat + 1)) | _ => none

end Siu
end Pico.Clock
