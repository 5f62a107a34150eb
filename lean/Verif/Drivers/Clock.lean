import Verif.Drivers.Field
/-
The clock drivers (C95, C96): initialisation, clock_get_freq, gates of
  drivers/clock: rp2040, gd32vf103, tinyavr, f28379x, staging/drivers/clock: stm8
(the others are in Clock2.lean and Clock3.lean).

A frequency of the hardware is a fraction n / d of Hz; `none` is a clock that is stopped or a reserved setting.  `hw` says, for each driver, what frequency the manual gives for the content of
the registers and the crystal of the board (trusted).  The records kept by the drivers (static struct clocks) are numbers of Hz.  A wait for a flag of the hardware is a
Boolean given by the environment: true when the flag comes before the deadlock counter runs out; else the initialisation fails (-EBUSY).  clock_freq_t is a long of 32 bits;
crystals are below 2^31 Hz.
-/
namespace Pico.Clock
open Field

abbrev Hz := Nat × Nat

/-- the specification of clock_get_freq: the frequency of the hardware, cut to whole Hz -/
def Tells (rep : Option Nat) (real : Option Hz) : Prop := ∃ n d, real = some (n, d) ∧ 0 < d ∧ rep = some (n / d)

/-- a clock divided -/
def Hz.div (f : Option Hz) (k : Nat) : Option Hz := f.map fun x => (x.1, x.2 * k)

/-- what an initialisation gives: -errno, undefined behaviour, 0 -/
inductive Res (α : Type)
  | fail
  | undef
  | ok (a : α)
  deriving DecidableEq, Repr

def Res.bind {α β : Type} : Res α → (α → Res β) → Res β
  | .fail, _ => .fail
  | .undef, _ => .undef
  | .ok a, f => f a

/-! ### rp2040 -/
namespace Rp

/-- PLL->CS.REFDIV, FBDIV_INT, PRIM.POSTDIV1, POSTDIV2 -/
structure Pll where
  refdiv : Nat
  fbdiv : Nat
  pd1 : Nat
  pd2 : Nat
  deriving DecidableEq, Repr

/-- the PLLs; CLK_SYS_DIV.INT, CLK_REF_DIV.INT, CLK_GPOUTn_DIV.INT, CLK_RTC_DIV (8 bits of fraction); the CTRL registers by clock identifier; the records -/
structure St where
  sysPll : Pll
  usbPll : Pll
  sysDiv : Nat
  refDiv : Nat
  gpDiv : Nat → Nat
  rtcDiv : Nat
  ctrl : Nat → BitVec 32
  xosc : Nat
  pllSys : Nat
  pllUsb : Nat
  sys : Nat
  ref : Nat
  peri : Nat
  usb : Nat
  adc : Nat
  rtc : Nat
  gpout : Nat → Nat

structure Cfg where
  xosc : Nat
  pllSys : Nat
  refDiv : Nat
  sysDiv : Nat
  gpDiv : Nat → Nat

/-- the order of the four loops, clock-rp2040.c:259-262 -/
def cands : List Pll :=
  (List.range 63).flatMap fun r => (List.range 304).flatMap fun f => (List.range 7).flatMap fun p => (List.range 7).map fun q => ⟨r + 1, f + 16, p + 1, q + 1⟩

/-- clock-rp2040.c:264-265; the product is a signed int: past 2^31 - 1 it is undefined -/
def search (xosc hz : Nat) : List Pll → Res Pll
  | [] => .fail
  | c :: l => if 2 ^ 31 ≤ xosc / c.refdiv * c.fbdiv then .undef else if xosc / c.refdiv * c.fbdiv / (c.pd1 * c.pd2) = hz then .ok c else search xosc hz l

/-- pll_setup, clock-rp2040.c:210-240: the fields are cut by the macros of lines 143-156 -/
def pllSetup (c : Pll) : Pll := ⟨c.refdiv % 32, c.fbdiv % 128, c.pd1 % 8, c.pd2 % 8⟩

/-- pll_config, clock-rp2040.c:242-275 -/
def pllConfig (xosc hz : Nat) (lock : Bool) : Res Pll :=
  if hz = 0 then .fail else (search xosc hz cands).bind fun c => if lock then .ok (pllSetup c) else .fail

def set (f : Nat → α) (i : Nat) (v : α) : Nat → α := fun j => if j = i then v else f j

/-- a division of clock_freq_t (long): the divisor is converted from unsigned long -/
def ldiv (a b : Nat) : Nat := (Int.tdiv a (BitVec.ofNat 32 b).toInt).toNat

/-- gpout_config, clock-rp2040.c:365-375 -/
def gpoutConfig (i d : Nat) (s : St) : Res St :=
  if d = 0 then .fail else .ok { s with ctrl := set s.ctrl (6 + i) (orIn 4 5 6#32 0#32), gpDiv := set s.gpDiv i (d % 2 ^ 24), gpout := set s.gpout i (ldiv s.sys d) }

/-- rtc_config, clock-rp2040.c:398-409 -/
def rtcConfig (s : St) : St :=
  { s with ctrl := set s.ctrl 5 (orIn 3 5 3#32 0#32), rtcDiv := (s.xosc / 46875) % 2 ^ 24 * 256 + (s.xosc % 46875 * 100 / 46875) % 256, rtc := 46875 }

/-- xosc_config, clock-rp2040.c:186-208 -/
def xoscConfig (hz : Nat) (w : Bool) (s : St) : Res St := if 15000000 < hz then .fail else if !w then .fail else .ok { s with xosc := hz }

/-- ref_config, clock-rp2040.c:342-363 -/
def refConfig (d : Nat) (w : Bool) (s : St) : Res St :=
  if d = 0 ∨ 4 ≤ d then .fail else if !w then .fail else .ok { s with refDiv := d % 4, ref := ldiv s.xosc d }

/-- sys_config, clock-rp2040.c:320-340 -/
def sysConfig (d : Nat) (w : Bool) (s : St) : Res St :=
  if d = 0 then .fail else if !w then .fail else .ok { s with sysDiv := d % 2 ^ 24, sys := ldiv s.pllSys d }

/-- clock_rp2040_init, clock-rp2040.c:420-461 with pll_sys_config and pll_usb_config (277-303), sys_config_ref (305-318), peri_config, usb_config, adc_config (377-396);
`w i`: the i-th wait is in time -/
def init (c : Cfg) (w : Nat → Bool) (s : St) : Res St :=
  if c.xosc = 0 then .fail else
  (xoscConfig c.xosc (w 0) s).bind fun s =>
  (refConfig c.refDiv (w 1) s).bind fun s =>
  if !w 2 then .fail else
  (pllConfig s.xosc c.pllSys (w 3)).bind fun p =>
  let s := { s with sysDiv := 1, sysPll := p, pllSys := c.pllSys }
  (pllConfig s.xosc 48000000 (w 4)).bind fun p =>
  let s := { s with usbPll := p, pllUsb := 48000000 }
  (sysConfig c.sysDiv (w 5) s).bind fun s =>
  (gpoutConfig 0 (c.gpDiv 0) s).bind fun s =>
  (gpoutConfig 1 (c.gpDiv 1) s).bind fun s =>
  (gpoutConfig 2 (c.gpDiv 2) s).bind fun s =>
  (gpoutConfig 3 (c.gpDiv 3) s).bind fun s =>
  .ok (rtcConfig { s with ctrl := set (set (set s.ctrl 2 0#32) 3 0#32) 4 0#32, peri := s.sys, usb := s.pllUsb, adc := s.pllUsb })

/-- clock_get_freq, clock-rp2040.c:465-487 -/
def getFreq (s : St) : Nat → Option Nat
  | 0 => some s.sys | 1 => some s.ref | 2 => some s.peri | 3 => some s.usb | 4 => some s.adc | 5 => some s.rtc
  | 6 => some (s.gpout 0) | 7 => some (s.gpout 1) | 8 => some (s.gpout 2) | 9 => some (s.gpout 3) | _ => none

/-- rp2040 datasheet 2.18: FREF / REFDIV * FBDIV / (POSTDIV1 * POSTDIV2) -/
def pllHz (x : Nat) (p : Pll) : Option Hz := some (x * p.fbdiv, p.refdiv * (p.pd1 * p.pd2))

/-- the clocks as the registers set them, with a crystal of x Hz (datasheet 2.15): clk_sys is pll_sys divided, clk_ref the crystal divided, clk_peri clk_sys, clk_usb and clk_adc pll_usb,
clk_rtc the crystal divided by INT + FRAC / 256, the outputs clk_sys divided -/
def hw (x : Nat) (s : St) : Nat → Option Hz
  | 0 | 2 => Hz.div (pllHz x s.sysPll) s.sysDiv
  | 1 => some (x, s.refDiv)
  | 3 | 4 => pllHz x s.usbPll
  | 5 => some (x * 256, s.rtcDiv)
  | 6 => Hz.div (Hz.div (pllHz x s.sysPll) s.sysDiv) (s.gpDiv 0)
  | 7 => Hz.div (Hz.div (pllHz x s.sysPll) s.sysDiv) (s.gpDiv 1)
  | 8 => Hz.div (Hz.div (pllHz x s.sysPll) s.sysDiv) (s.gpDiv 2)
  | 9 => Hz.div (Hz.div (pllHz x s.sysPll) s.sysDiv) (s.gpDiv 3)
  | _ => none

/-- clock_rp2040_enable, clock-rp2040.c:498-516 -/
def enable (i : Nat) (s : St) : Option St := if 2 ≤ i ∧ i ≤ 9 then some { s with ctrl := set s.ctrl i (bset 11 (s.ctrl i)) } else none
/-- clock_rp2040_disable, clock-rp2040.c:527-545 -/
def disable (i : Nat) (s : St) : Option St := if 2 ≤ i ∧ i ≤ 9 then some { s with ctrl := set s.ctrl i (bclr 11 (s.ctrl i)) } else none
/-- the gate of a clock: ENABLE, bit 11 -/
def on (s : St) (i : Nat) : Bool := (s.ctrl i).getLsbD 11

end Rp

/-! ### gd32vf103 -/
namespace Gd

/-- RCU_CFG0, RCU_CFG1, the enable registers AHBEN, APB1EN, APB2EN; the records -/
structure St where
  cfg0 : BitVec 32
  cfg1 : BitVec 32
  hxOn : Bool
  en : Nat → BitVec 32
  hxtal : Nat
  ckSys : Nat
  ahb : Nat
  apb1 : Nat
  apb2 : Nat
  adc : Nat
  arch : Nat

structure Cfg where
  hxtal : Nat
  ckSys : Nat
  pllsel : Nat
  pll : Nat
  ahbDiv : Nat
  apb1Div : Nat
  apb2Div : Nat
  adcDiv : Nat

/-- (pllmf, predv0) in the order of the two loops, clock-gd32vf103.c:152-153 -/
def cands : List (Nat × Nat) := (List.range 31).flatMap fun m => (List.range 16).map fun p => (m + 2, p + 1)

/-- setup_pll, clock-gd32vf103.c:128-175 -/
def setupPll (sel freq : Nat) (s : St) : Option St :=
  if 2 ≤ sel ∨ freq = 0 ∨ 108000000 < freq then none else
  let input := if sel = 0 then 8000000 else s.hxtal
  let cfg0 := if sel = 0 then bclr 16 s.cfg0 else bset 16 s.cfg0
  (cands.find? fun c => input / c.2 * c.1 % 2 ^ 32 = freq).map fun c =>
    let cfg1 := put 4 0 (BitVec.ofNat 32 (c.2 - 1)) s.cfg1
    let cfg0 := clear 1 29 (clear 4 18 (clear 1 17 cfg0))
    let cfg0 := orIn 4 18 (BitVec.ofNat 32 (c.1 - 1)) (orIn 1 29 (BitVec.ofNat 32 ((c.1 - 1) / 16)) cfg0)
    { s with cfg0, cfg1, ckSys := freq }

/-- the switch of clock-gd32vf103.c:203-217 -/
def ahbCode : Nat → Option Nat
  | 1 => some 0 | 2 => some 8 | 4 => some 9 | 8 => some 10 | 16 => some 11 | 64 => some 12 | 128 => some 13 | 256 => some 14 | 512 => some 15 | _ => none
/-- the switches of clock-gd32vf103.c:237-246 and 267-276 -/
def apbCode : Nat → Option Nat
  | 1 => some 0 | 2 => some 4 | 4 => some 5 | 8 => some 6 | 16 => some 7 | _ => none
/-- the switch of clock-gd32vf103.c:297-315: ADCPSC2 and the field given to ADCPSC -/
def adcCode : Nat → Option (Bool × Nat)
  | 2 => some (false, 0) | 4 => some (false, 1) | 6 => some (false, 2) | 8 => some (false, 3) | 12 => some (true, 6) | 16 => some (true, 7) | _ => none

/-- setup_ahb_div, clock-gd32vf103.c:190-222 -/
def setAhb (d : Nat) (s : St) : Option St :=
  if d = 0 ∨ 108000000 < s.ckSys / d then none else (ahbCode d).map fun v => { s with cfg0 := put 4 4 (BitVec.ofNat 32 v) s.cfg0, ahb := s.ckSys / d }
/-- setup_apb1_div, clock-gd32vf103.c:224-252 -/
def setApb1 (d : Nat) (s : St) : Option St :=
  if d = 0 ∨ 54000000 < s.ahb / d then none else (apbCode d).map fun v => { s with cfg0 := put 3 8 (BitVec.ofNat 32 v) s.cfg0, apb1 := s.ahb / d }
/-- setup_apb2_div, clock-gd32vf103.c:254-282 -/
def setApb2 (d : Nat) (s : St) : Option St :=
  if d = 0 ∨ 108000000 < s.ahb / d then none else (apbCode d).map fun v => { s with cfg0 := put 3 11 (BitVec.ofNat 32 v) s.cfg0, apb2 := s.ahb / d }
/-- setup_adc_div, clock-gd32vf103.c:284-321 -/
def setAdc (d : Nat) (s : St) : Option St :=
  if d = 0 ∨ 14000000 < s.apb2 / d then none else
  (adcCode d).map fun v =>
    let r := bclr 28 (clear 2 14 s.cfg0)
    let r := if v.1 then bset 28 r else r
    { s with cfg0 := orIn 2 14 (BitVec.ofNat 32 v.2) r, adc := s.apb2 / d }

/-- the clock chosen, clock-gd32vf103.c:339-363 with setup_hxtal_busywait (112-126) and enable_pll_busywait (177-188) -/
def choose (c : Cfg) (w : Nat → Bool) (s : St) : Option St :=
  if 3 ≤ c.ckSys then none else
  if c.hxtal ≠ 0 ∧ w 0 = false then none else
  let s := if c.hxtal ≠ 0 then { s with hxOn := true, hxtal := c.hxtal } else s
  if c.ckSys = 0 then some { s with ckSys := 8000000 }
  else if c.ckSys = 1 then some { s with ckSys := s.hxtal }
  else (setupPll c.pllsel c.pll s).bind fun s => if w 1 then some s else none

/-- switch_system_clock, clock-gd32vf103.c:93-110 -/
def switch (k : Nat) (w : Bool) (s : St) : Option St := if w then some { s with cfg0 := put 2 0 (BitVec.ofNat 32 k) s.cfg0, arch := s.ckSys / 4 } else none

/-- clock_gd32vf103_init, clock-gd32vf103.c:332-377 -/
def init (c : Cfg) (w : Nat → Bool) (s : St) : Option St :=
  (choose c w s).bind fun s => (switch c.ckSys (w 2) s).bind fun s =>
  (setAhb c.ahbDiv s).bind fun s => (setApb1 c.apb1Div s).bind fun s => (setApb2 c.apb2Div s).bind fun s => setAdc c.adcDiv s

/-- clock_get_freq, clock-gd32vf103.c:445-462 -/
def getFreq (s : St) : Nat → Option Nat
  | 0 => some s.ckSys | 1 => some s.ahb | 2 => some s.apb1 | 3 => some s.apb2 | 4 => some s.adc | 5 => some 40000 | _ => none

/-- user manual, RCU_CFG0: PLLMF[4:0], the factor as a fraction -/
def mult (v : Nat) : Nat × Nat := if v ≤ 12 then (v + 2, 1) else if v = 13 then (13, 2) else if v ≤ 15 then (16, 1) else (v + 1, 1)
/-- AHBPSC -/
def ahbDiv (v : Nat) : Nat := if v < 8 then 1 else if v ≤ 11 then 2 ^ (v - 7) else 2 ^ (v - 6)
/-- APB1PSC, APB2PSC -/
def apbDiv (v : Nat) : Nat := if v < 4 then 1 else 2 ^ (v - 3)
/-- ADCPSC[2:0]: 100: /2, 101: /12, 110: /8, 111: /16 -/
def adcDiv : Nat → Nat
  | 0 | 4 => 2 | 1 => 4 | 2 => 6 | 3 | 6 => 8 | 5 => 12 | _ => 16

/-- PLLMF[4] is bit 29, PLLMF[3:0] bits 21:18; PLLSEL, bit 16: IRC8M / 2 or PREDV0; PREDV0SEL, bit 16 of CFG1: the crystal, or PLL1 (never started) -/
def pllHz (x : Nat) (s : St) : Option Hz :=
  let m := mult ((get 1 29 s.cfg0).toNat * 16 + (get 4 18 s.cfg0).toNat)
  if s.cfg0.getLsbD 16 = false then some (4000000 * m.1, m.2)
  else if s.cfg1.getLsbD 16 || !s.hxOn then none
  else some (x * m.1, ((get 4 0 s.cfg1).toNat + 1) * m.2)

/-- SCS -/
def sysHz (x : Nat) (s : St) : Option Hz :=
  match (get 2 0 s.cfg0).toNat with
  | 0 => some (8000000, 1)
  | 1 => if s.hxOn then some (x, 1) else none
  | 2 => pllHz x s
  | _ => none

/-- the clocks as the registers set them, with a crystal of x Hz -/
def hw (x : Nat) (s : St) : Nat → Option Hz
  | 0 => sysHz x s
  | 1 => Hz.div (sysHz x s) (ahbDiv (get 4 4 s.cfg0).toNat)
  | 2 => Hz.div (Hz.div (sysHz x s) (ahbDiv (get 4 4 s.cfg0).toNat)) (apbDiv (get 3 8 s.cfg0).toNat)
  | 3 => Hz.div (Hz.div (sysHz x s) (ahbDiv (get 4 4 s.cfg0).toNat)) (apbDiv (get 3 11 s.cfg0).toNat)
  | 4 => Hz.div (Hz.div (Hz.div (sysHz x s) (ahbDiv (get 4 4 s.cfg0).toNat)) (apbDiv (get 3 11 s.cfg0).toNat))
      (adcDiv ((get 1 28 s.cfg0).toNat * 4 + (get 2 14 s.cfg0).toNat))
  | 5 => some (40000, 1)
  | _ => none

/-- clock_gd32vf103_enable, clock-gd32vf103.c:388-409 -/
def enable (k : Nat) (s : St) : Option St :=
  if 0x4f ≤ k then none else if k / 32 < 3 then some { s with en := Rp.set s.en (k / 32) (bset (k % 32) (s.en (k / 32))) } else none
/-- clock_gd32vf103_disable, clock-gd32vf103.c:420-441 -/
def disable (k : Nat) (s : St) : Option St :=
  if 0x4f ≤ k then none else if k / 32 < 3 then some { s with en := Rp.set s.en (k / 32) (bclr (k % 32) (s.en (k / 32))) } else none
/-- the gate of a peripheral: bus k / 32, bit k % 32 -/
def on (s : St) (k : Nat) : Bool := (s.en (k / 32)).getLsbD (k % 32)

end Gd

/-! ### tinyavr -/
namespace Tiny

/-- MCLKCTRLA, MCLKCTRLB, MCLKLOCK; the records -/
structure St where
  a : BitVec 8
  b : BitVec 8
  lock : Bool
  freqsel : Nat
  main : Nat
  div : Nat

structure Cfg where
  clksel : Nat
  clkout : Bool
  presc : Bool
  pdiv : Nat
  lock : Bool

/-- hardware: MCLKCTRLA and MCLKCTRLB do not change once MCLKLOCK is set -/
def wrA (v : BitVec 8) (s : St) : St := if s.lock then s else { s with a := v }
def wrB (v : BitVec 8) (s : St) : St := if s.lock then s else { s with b := v }

/-- parse_osccfg, clock-tinyavr.c:45-62; `fuse` is FUSE.OSCCFG -/
def osc (fuse : BitVec 8) : Option Nat :=
  if (fuse &&& 3#8) = 1#8 then some 16000000 else if (fuse &&& 3#8) = 2#8 then some 20000000 else none

/-- the switch of setup_prescaler, clock-tinyavr.c:88-104 -/
def pdivs : Nat → Option Nat
  | 0 => some 2 | 1 => some 4 | 2 => some 8 | 3 => some 16 | 4 => some 32 | 5 => some 64
  | 8 => some 6 | 9 => some 10 | 10 => some 12 | 11 => some 24 | 12 => some 48 | _ => none

/-- setup_prescaler, clock-tinyavr.c:84-109, and the else branch of 152-156 -/
def prescaler (c : Cfg) (s : St) : Option St :=
  if c.presc then (pdivs c.pdiv).map fun d => { wrB (orIn 4 1 (BitVec.ofNat 8 c.pdiv) 1#8) s with div := d }
  else some { wrB 0#8 s with div := 1 }

/-- setup_osc20m, setup_osculp32k, clock-tinyavr.c:64-82 -/
def select (k : Nat) (s : St) : Option St :=
  if k = 0 then some { wrA 0#8 s with main := s.freqsel } else if k = 1 then some { wrA 1#8 s with main := 32768 } else none

/-- clock_tinyavr_init, clock-tinyavr.c:120-165 -/
def init (fuse : BitVec 8) (c : Cfg) (s : St) : Option St :=
  (osc fuse).bind fun f => (select c.clksel { s with freqsel := f }).bind fun s =>
  (prescaler c (if c.clkout then wrA (bset 7 s.a) s else s)).map fun s => if c.lock then { s with lock := true } else s

/-- clock_get_freq, clock-tinyavr.c:167-184 -/
def getFreq (s : St) : Nat → Option Nat
  | 0 => some (s.main / s.div) | 1 => some 32768 | 2 => some 1024 | 3 => some s.freqsel | _ => none

/-- the fuse selects the frequency of the oscillator -/
def oscHz (fuse : BitVec 8) : Option Hz := match (get 2 0 fuse).toNat with | 1 => some (16000000, 1) | 2 => some (20000000, 1) | _ => none
/-- CLKSEL; 2 and 3 are the crystal and the external clock -/
def mainHz (fuse : BitVec 8) (s : St) : Option Hz := match (get 2 0 s.a).toNat with | 0 => oscHz fuse | 1 => some (32768, 1) | _ => none
/-- PDIV, with PEN -/
def presHw (b : BitVec 8) : Option Nat :=
  if b.getLsbD 0 = false then some 1 else
  match (get 4 1 b).toNat with
  | 0 => some 2 | 1 => some 4 | 2 => some 8 | 3 => some 16 | 4 => some 32 | 5 => some 64 | 8 => some 6 | 9 => some 10 | 10 => some 12 | 11 => some 24 | 12 => some 48 | _ => none

def hw (fuse : BitVec 8) (s : St) : Nat → Option Hz
  | 0 => (presHw s.b).bind fun d => Hz.div (mainHz fuse s) d
  | 1 => some (32768, 1)
  | 2 => some (32768, 32)
  | 3 => oscHz fuse
  | _ => none

end Tiny

/-! ### f28379x -/
namespace F28

/-- OSCCLKSRCSEL = XTAL, IMULT, PLLSYSCLKDIV; the records; PCLKCRn -/
structure St where
  xtal : Bool
  imult : Nat
  divsel : Nat
  clksrc : Nat
  cpuclk : Nat
  pclk : Nat → BitVec 32

structure Cfg where
  clksrc : Nat
  freq : Nat
  pll : Nat

/-- (divsel, imult) in the order of the two loops, clock-f28379x.c:159-160 -/
def cands : List (Nat × Nat) := (List.range 62).flatMap fun d => (List.range 127).map fun i => (d + 2, i + 1)

/-- configure_pll, clock-f28379x.c:153-170 with pll_setup (106-151); the product is an unsigned long -/
def pll (freq : Nat) (w : Bool) (s : St) : Option St :=
  (cands.find? fun c => freq = s.clksrc * c.2 % 2 ^ 32 / c.1).bind fun c => if w then some { s with cpuclk := freq, imult := c.2 % 128, divsel := (c.1 - 1) % 64 } else none

/-- clock_f28379x_init, clock-f28379x.c:181-193 with configure_xtal_sel (77-92); the source INTOSC2 is that of the reset: it is not selected again -/
def init (c : Cfg) (w : Bool) (s : St) : Option St :=
  if 2 ≤ c.clksrc then none else pll c.pll w (if c.clksrc = 1 then { s with clksrc := c.freq, xtal := true } else { s with clksrc := 10000000 })

/-- clock_get_freq, clock-f28379x.c:243-257 -/
def getFreq (s : St) : Nat → Option Nat
  | 0 => some s.cpuclk | 1 | 2 => some 10000000 | 3 => some (s.cpuclk / 4) | 4 => some (s.cpuclk / 2) | _ => none

/-- technical reference manual: PLLSYSCLKDIV = 0 is /1, n is /2n -/
def sysHz (x : Nat) (s : St) : Option Hz := some ((if s.xtal then x else 10000000) * s.imult, if s.divsel = 0 then 1 else 2 * s.divsel)
/-- LOSPCP and PERCLKDIVSEL are left as after the reset: /4 and /2 -/
def hw (x : Nat) (s : St) : Nat → Option Hz
  | 0 => sysHz x s | 1 | 2 => some (10000000, 1) | 3 => Hz.div (sysHz x s) 4 | 4 => Hz.div (sysHz x s) 2 | _ => none

/-- clock_f28379x_pclk_enable, clock-f28379x.c:204-216; `n` is CLOCK_F28379X_PCLK_COUNT -/
def enable (n k : Nat) (s : St) : Option St := if n ≤ k then none else some { s with pclk := Rp.set s.pclk (k / 32) (bset (k % 32) (s.pclk (k / 32))) }
/-- clock_f28379x_pclk_disable, clock-f28379x.c:227-239 -/
def disable (n k : Nat) (s : St) : Option St := if n ≤ k then none else some { s with pclk := Rp.set s.pclk (k / 32) (bclr (k % 32) (s.pclk (k / 32))) }
def on (s : St) (k : Nat) : Bool := (s.pclk (k / 32)).getLsbD (k % 32)

end F28

/-! ### stm8 -/
namespace Stm8

/-- CMSR, SWCR.SWEN, CKDIVR; PCKENR1, PCKENR2; the records -/
structure St where
  cmsr : BitVec 8
  swen : Bool
  ckdivr : BitVec 8
  pcken1 : BitVec 8
  pcken2 : BitVec 8
  master : Nat
  cpu : Nat

structure Cfg where
  ckm : Nat
  hse : Nat
  hsidiv : Nat
  cpudiv : Nat

/-- hardware: SWR is written and CMSR polled; the switch is made when SWEN is set (automatic mode), when the clock is already the one asked there is nothing to do -/
def switch (v : BitVec 8) (s : St) : Option St := if s.cmsr = v ∨ s.swen then some { s with cmsr := v } else none

/-- switch_to_hsi, switch_to_hse, switch_to_lsi, clock-stm8.c:80-154; `w`: the oscillator is ready in time -/
def master (c : Cfg) (w : Bool) (s : St) : Option St :=
  if c.ckm = 0 then
    if 4 ≤ c.hsidiv ∨ w = false then none else
    (switch 0xe1#8 s).map fun s => { s with ckdivr := put 2 3 (BitVec.ofNat 8 c.hsidiv) s.ckdivr, master := 16000000 / 2 ^ c.hsidiv }
  else if c.ckm = 1 then
    if c.hse < 1000000 ∨ 24000000 < c.hse ∨ w = false then none else (switch 0xb4#8 s).map fun s => { s with master := c.hse }
  else if c.ckm = 2 then
    if w = false then none else (switch 0xd2#8 s).map fun s => { s with master := 128000 }
  else none

/-- clock_stm8_init, clock-stm8.c:156-192 -/
def init (c : Cfg) (w : Bool) (s : St) : Option St :=
  if 8 ≤ c.cpudiv then none else
  (master c w s).map fun s => { s with ckdivr := put 3 0 (BitVec.ofNat 8 c.cpudiv) s.ckdivr, cpu := s.master / 2 ^ c.cpudiv }

/-- clock_get_freq, clock-stm8.c:214-227 -/
def getFreq (s : St) : Nat → Option Nat
  | 0 => some s.cpu | 1 => some s.master | 2 => some 128000 | _ => none

/-- CMSR: e1 HSI divided by HSIDIV, b4 HSE, d2 LSI -/
def masterHz (x : Nat) (s : St) : Option Hz :=
  if s.cmsr = 0xe1#8 then some (16000000, 2 ^ (get 2 3 s.ckdivr).toNat) else if s.cmsr = 0xb4#8 then some (x, 1) else if s.cmsr = 0xd2#8 then some (128000, 1) else none

def hw (x : Nat) (s : St) : Nat → Option Hz
  | 0 => Hz.div (masterHz x s) (2 ^ (get 3 0 s.ckdivr).toNat) | 1 => masterHz x s | 2 => some (128000, 1) | _ => none

/-- clock_stm8_pck_enable, clock-stm8.c:194-202 -/
def enable (k : Nat) (s : St) : Option St :=
  if 16 ≤ k then none else if k ≤ 7 then some { s with pcken1 := bset k s.pcken1 } else some { s with pcken2 := bset (k % 8) s.pcken2 }
/-- clock_stm8_pck_disable, clock-stm8.c:204-212 -/
def disable (k : Nat) (s : St) : Option St :=
  if 16 ≤ k then none else if k ≤ 7 then some { s with pcken1 := bclr k s.pcken1 } else some { s with pcken2 := bclr (k % 8) s.pcken2 }
/-- PCKEN10 to PCKEN17, PCKEN20 to PCKEN27 -/
def on (s : St) (k : Nat) : Bool := if k < 8 then s.pcken1.getLsbD k else s.pcken2.getLsbD (k - 8)

end Stm8
end Pico.Clock
