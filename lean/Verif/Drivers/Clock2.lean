import Verif.Drivers.Clock
/-
The clock drivers, continued (C95, C96): drivers/clock: renesas_ra4, atmel_pmc, stm32h7xx.
The conventions are those of Clock.lean.
-/
namespace Pico.Clock
open Field

/-- the specification, for a clock that can be off: told as 0 then -/
def Told (rep : Option Nat) (real : Option Hz) : Prop := Tells rep real ∨ (real = none ∧ rep = some 0)

/-- a bank of registers of gates: identifier k is bit k % 32 of register k / 32 -/
def gset (en : Nat → BitVec 32) (k : Nat) : Nat → BitVec 32 := Rp.set en (k / 32) (bset (k % 32) (en (k / 32)))
def gclr (en : Nat → BitVec 32) (k : Nat) : Nat → BitVec 32 := Rp.set en (k / 32) (bclr (k % 32) (en (k / 32)))
def gbit (en : Nat → BitVec 32) (k : Nat) : Bool := (en (k / 32)).getLsbD (k % 32)

/-! ### renesas_ra4 -/
namespace Ra4

/-- SCKDIVCR, SCKSCR, MSTPCRA-D; the records -/
structure St where
  divcr : BitVec 32
  cksel : Nat
  mstp : Nat → BitVec 32
  mosc : Nat
  hoco : Nat
  main : Nat
  fck : Nat
  ick : Nat
  pcka : Nat
  pckb : Nat
  pckc : Nat
  pckd : Nat

structure Cfg where
  mosel : Nat
  mosc : Nat
  cksel : Nat
  pll : Nat
  fck : Nat
  ick : Nat
  pcka : Nat
  pckb : Nat
  pckc : Nat
  pckd : Nat

/-- hoco_get_freq, clock-renesas_ra4.c:190-213; `ofs` is the field HOCOFRQ1 of OFS1 -/
def hocoFreq : Nat → Option Nat
  | 0 => some 24000000 | 2 => some 32000000 | 4 => some 48000000 | 5 => some 64000000 | _ => none

/-- setup_main_oscillator, clock-renesas_ra4.c:215-230 -/
def mainOsc (c : Cfg) (s : St) : Option St := if 2 ≤ c.mosel ∨ 20000000 < c.mosc then none else some { s with mosc := c.mosc }

/-- setup_clock_source, clock-renesas_ra4.c:254-276, with setup_hoco (238-252) and setup_pll (232-236): PLL always fails -/
def source (c : Cfg) (w : Bool) (s : St) : Option St :=
  match c.cksel with
  | 0 => if w then some { s with main := s.hoco, cksel := 0 } else none
  | 1 => some { s with main := 8000000, cksel := 1 }
  | 2 => some { s with main := 32768, cksel := 2 }
  | 3 => some { s with main := s.mosc, cksel := 3 }
  | 4 => some { s with main := 32768, cksel := 4 }
  | _ => none

/-- the dividers, clock-renesas_ra4.c:301-306 -/
def divReg (c : Cfg) : BitVec 32 :=
  orIn 3 0 (BitVec.ofNat 32 c.pckd) (orIn 3 4 (BitVec.ofNat 32 c.pckc) (orIn 3 8 (BitVec.ofNat 32 c.pckb) (orIn 3 12 (BitVec.ofNat 32 c.pcka)
    (orIn 3 24 (BitVec.ofNat 32 c.ick) (orIn 3 28 (BitVec.ofNat 32 c.fck) 0#32)))))

/-- clock_renesas_ra4_init, clock-renesas_ra4.c:287-326 -/
def init (ofs : Nat) (c : Cfg) (w : Bool) (s : St) : Option St :=
  if 7 ≤ c.fck ∨ 7 ≤ c.ick ∨ 7 ≤ c.pcka ∨ 7 ≤ c.pckb ∨ 7 ≤ c.pckc ∨ 7 ≤ c.pckd then none else
  (hocoFreq ofs).bind fun h => (mainOsc c { s with divcr := divReg c, hoco := h }).bind fun s => (source c w s).map fun s =>
    { s with fck := s.main / 2 ^ c.fck, ick := s.main / 2 ^ c.ick, pcka := s.main / 2 ^ c.pcka, pckb := s.main / 2 ^ c.pckb, pckc := s.main / 2 ^ c.pckc, pckd := s.main / 2 ^ c.pckd }

/-- clock_get_freq, clock-renesas_ra4.c:384-404 -/
def getFreq (s : St) : Nat → Option Nat
  | 0 => some s.ick | 1 => some s.fck | 2 => some s.pcka | 3 => some s.pckb | 4 => some s.pckb | 5 => some s.pckc | 14 => some 15000000 | _ => none

/-- HOCO: OFS1.HOCOFRQ1 -/
def hocoHz : Nat → Option Hz
  | 0 => some (24000000, 1) | 2 => some (32000000, 1) | 4 => some (48000000, 1) | 5 => some (64000000, 1) | _ => none

/-- the system clock: HOCO as OFS1 says, MOCO, LOCO, the main crystal of x Hz and the crystal of 32768 Hz if they run (`mos`, `sos`), PLL -/
def srcHz (x ofs : Nat) (mos sos : Bool) (s : St) : Option Hz :=
  match s.cksel with
  | 0 => hocoHz ofs
  | 1 => some (8000000, 1)
  | 2 => some (32768, 1)
  | 3 => if mos then some (x, 1) else none
  | 4 => if sos then some (32768, 1) else none
  | _ => none

/-- the clocks as the registers set them (hardware manual 8.2.1: each field of SCKDIVCR divides by 2^n; IWDTCLK is 15 kHz) -/
def hw (x ofs : Nat) (mos sos : Bool) (s : St) : Nat → Option Hz
  | 0 => Hz.div (srcHz x ofs mos sos s) (2 ^ (get 3 24 s.divcr).toNat)
  | 1 => Hz.div (srcHz x ofs mos sos s) (2 ^ (get 3 28 s.divcr).toNat)
  | 2 => Hz.div (srcHz x ofs mos sos s) (2 ^ (get 3 12 s.divcr).toNat)
  | 3 => Hz.div (srcHz x ofs mos sos s) (2 ^ (get 3 8 s.divcr).toNat)
  | 4 => Hz.div (srcHz x ofs mos sos s) (2 ^ (get 3 4 s.divcr).toNat)
  | 5 => Hz.div (srcHz x ofs mos sos s) (2 ^ (get 3 0 s.divcr).toNat)
  | 14 => some (15000, 1)
  | _ => none

/-- clock_renesas_ra4_module_start, clock-renesas_ra4.c:337-354: the bits stop the modules -/
def start (m : Nat) (s : St) : Option St := if 127 < m then none else some { s with mstp := gclr s.mstp m }
/-- clock_renesas_ra4_module_stop, clock-renesas_ra4.c:365-382 -/
def stop (m : Nat) (s : St) : Option St := if 127 < m then none else some { s with mstp := gset s.mstp m }
/-- a module runs when its bit is clear -/
def on (s : St) (m : Nat) : Bool := !gbit s.mstp m

end Ra4

/-! ### atmel_pmc -/
namespace Pmc

/-- CKGR_MOR, CKGR_PLLAR, UPLLEN, PMC_MCKR, PMC_PCKx; the gates of the programmable clocks and of the peripherals; the records -/
structure St where
  mor : BitVec 32
  pllar : BitVec 32
  uen : Bool
  mckr : BitVec 32
  pckr : Nat → BitVec 32
  pckOn : Nat → Bool
  pidOn : Nat → Bool
  slck : Nat
  mainck : Nat
  pllack : Nat
  upll : Nat
  hclk : Nat
  mck : Nat
  pck : Nat → Nat

structure Cfg where
  mainck : Nat
  mosc : Nat
  plla : Nat
  upll : Nat
  css : Nat
  pres : Nat
  mdiv : Nat

/-- slck_probe, clock-atmel_pmc.c:129-137 -/
def slck (x32 : Bool) (s : St) : St := { s with slck := if x32 then 32768 else 32000 }

/-- the switch of clock-atmel_pmc.c:149-154 -/
def rcf : Nat → Option Nat
  | 4000000 => some 0 | 8000000 => some 1 | 12000000 => some 2 | _ => none

/-- mainck_setup, clock-atmel_pmc.c:139-180 (the start-up time and the key are not kept); `w`: the waits end in time -/
def mainck (c : Cfg) (w : Bool) (s : St) : Option St :=
  if 2 ≤ c.mainck then none
  else if c.mainck = 0 then (rcf c.mosc).bind fun v => if w then some { s with mor := orIn 3 4 (BitVec.ofNat 32 v) (bset 3 0#32), mainck := c.mosc } else none
  else if c.mosc = 0 then none
  else if w then some { s with mor := bclr 3 (bset 24 (bset 0 (bset 3 0#32))), mainck := c.mosc } else none

/-- the product and the division of the loop, clock-atmel_pmc.c:193: unsigned long -/
def mula (plla main d : Nat) : Nat := plla * d % 2 ^ 32 / main

/-- plla_setup, clock-atmel_pmc.c:182-222 -/
def plla (c : Cfg) (w : Bool) (s : St) : Option St :=
  if c.plla / 2 < s.mainck then none else
  (((List.range 255).map (· + 1)).find? fun d => mula c.plla s.mainck d * s.mainck % 2 ^ 32 / d = c.plla).bind fun d =>
  if 2048 ≤ mula c.plla s.mainck d then none
  else if w then some { s with
    pllar := orIn 8 0 (BitVec.ofNat 32 d) (orIn 11 16 (BitVec.ofNat 32 (mula c.plla s.mainck d) - 1#32) (orIn 6 8 0x3f#32 (bset 29 0#32))), pllack := c.plla }
  else none

/-- upll_setup, clock-atmel_pmc.c:224-254 -/
def upll (c : Cfg) (w : Bool) (s : St) : Option St :=
  if 3 ≤ c.upll then none
  else if c.upll = 0 then some { s with uen := false }
  else if w then some (if c.upll = 2 then { s with mckr := bset 13 s.mckr, upll := 240000000, uen := true } else { s with mckr := bclr 13 s.mckr, upll := 480000000, uen := true })
  else none

/-- mckr_pres, clock-atmel_pmc.c:256-272 -/
def presCode : Nat → Option Nat
  | 1 => some 0 | 2 => some 1 | 3 => some 7 | 4 => some 2 | 8 => some 3 | 16 => some 4 | 32 => some 5 | 64 => some 6 | _ => none
/-- mckr_mdiv, clock-atmel_pmc.c:274-286 -/
def mdivCode : Nat → Option Nat
  | 1 => some 0 | 2 => some 1 | 3 => some 3 | 4 => some 2 | _ => none

/-- the record of a source, clock-atmel_pmc.c:332-338 -/
def srcRec (css : Nat) (s : St) : Nat := match css with | 0 => s.slck | 1 => s.mainck | 2 => s.pllack | _ => s.upll

/-- hclk_mck_setup, clock-atmel_pmc.c:288-345 -/
def hclk (c : Cfg) (w : Bool) (s : St) : Option St :=
  if 4 ≤ c.css then none else
  (presCode c.pres).bind fun p => (mdivCode c.mdiv).bind fun m =>
  if w then some { s with mckr := put 2 0 (BitVec.ofNat 32 c.css) (put 2 8 (BitVec.ofNat 32 m) (put 3 4 (BitVec.ofNat 32 p) s.mckr)),
                          mck := srcRec c.css s / (c.pres * c.mdiv), hclk := srcRec c.css s / c.pres }
  else none

/-- clock_atmel_pmc_init, clock-atmel_pmc.c:356-371 -/
def init (x32 : Bool) (c : Cfg) (w : Nat → Bool) (s : St) : Option St :=
  (mainck c (w 0) (slck x32 s)).bind fun s => (if c.plla ≠ 0 then plla c (w 1) s else some s).bind fun s => (upll c (w 2) s).bind fun s => hclk c (w 3) s

/-- clock_atmel_pmc_pck_enable, clock-atmel_pmc.c:418-442 -/
def pckEnable (i presc css : Nat) (s : St) : Option St :=
  if 8 ≤ i ∨ presc = 0 ∨ 256 < presc ∨ 5 ≤ css then none else
  some { s with pckr := Rp.set s.pckr i (orIn 3 0 (BitVec.ofNat 32 css) (orIn 8 4 (BitVec.ofNat 32 (presc - 1)) 0#32)), pckOn := Rp.set s.pckOn i true,
                pck := Rp.set s.pck i ((if css = 4 then s.mck else srcRec css s) / presc) }

/-- clock_atmel_pmc_pck_disable, clock-atmel_pmc.c:453-458.  Hardware: PMC_SCER is write-only, reads as 0, and the bits written as 1 start clocks: writing 0 does nothing (PMC_SCDR stops them) -/
def pckDisable (i : Nat) (s : St) : Option St := if 8 ≤ i then none else some s

/-- clock_get_freq, clock-atmel_pmc.c:460-480 (FCLK is not modelled) -/
def getFreq (s : St) (i : Nat) : Option Nat :=
  if i = 0 then some s.hclk else if i = 1 then some s.slck else if i = 2 then some (s.hclk / 2) else if i = 4 then some s.mck
  else if 16 ≤ i ∧ i < 24 then some (s.pck (i - 16)) else none

/-- CKGR_MOR.MOSCRCF -/
def rcHz : Nat → Option Hz
  | 0 => some (4000000, 1) | 1 => some (8000000, 1) | 2 => some (12000000, 1) | _ => none
/-- MAINCK: the crystal of x Hz (MOSCSEL), or the RC oscillator, MOSCRCF -/
def mainHz (x : Nat) (s : St) : Option Hz :=
  if s.mor.getLsbD 24 then (if s.mor.getLsbD 0 then some (x, 1) else none)
  else rcHz (get 3 4 s.mor).toNat
/-- PLLACK = MAINCK * (MULA + 1) / DIVA; off when MULA or DIVA is 0 -/
def pllaHz (x : Nat) (s : St) : Option Hz :=
  if (get 11 16 s.pllar).toNat = 0 ∨ (get 8 0 s.pllar).toNat = 0 then none
  else (mainHz x s).map fun f => (f.1 * ((get 11 16 s.pllar).toNat + 1), f.2 * (get 8 0 s.pllar).toNat)
/-- UPLL: 480 MHz, divided by 2 by UPLLDIV2 -/
def upllHz (s : St) : Option Hz := if s.uen then some (480000000, if s.mckr.getLsbD 13 then 2 else 1) else none
/-- the slow clock -/
def slowHz (x32 : Bool) : Option Hz := some (if x32 then 32768 else 32000, 1)

def srcHz (x32 : Bool) (x : Nat) (s : St) : Nat → Option Hz
  | 0 => slowHz x32 | 1 => mainHz x s | 2 => pllaHz x s | _ => upllHz s
/-- PMC_MCKR.PRES -/
def presDiv (v : Nat) : Nat := if v = 7 then 3 else 2 ^ v
/-- PMC_MCKR.MDIV -/
def mdivDiv : Nat → Nat | 0 => 1 | 1 => 2 | 2 => 4 | _ => 3

def hclkHz (x32 : Bool) (x : Nat) (s : St) : Option Hz := Hz.div (srcHz x32 x s (get 2 0 s.mckr).toNat) (presDiv (get 3 4 s.mckr).toNat)
def mckHz (x32 : Bool) (x : Nat) (s : St) : Option Hz := Hz.div (hclkHz x32 x s) (mdivDiv (get 2 8 s.mckr).toNat)
/-- a programmable clock: PMC_PCKx.CSS, PRES -/
def pckHz (x32 : Bool) (x : Nat) (s : St) (i : Nat) : Option Hz :=
  let css := (get 3 0 (s.pckr i)).toNat
  if 5 ≤ css then none else Hz.div (if css = 4 then mckHz x32 x s else srcHz x32 x s css) ((get 8 4 (s.pckr i)).toNat + 1)

/-- the clocks as the registers set them (SAM E70 datasheet 31) -/
def hw (x32 : Bool) (x : Nat) (s : St) (i : Nat) : Option Hz :=
  if i = 0 then hclkHz x32 x s else if i = 1 then slowHz x32 else if i = 2 then Hz.div (hclkHz x32 x s) 2 else if i = 4 then mckHz x32 x s
  else if 16 ≤ i ∧ i < 24 then pckHz x32 x s (i - 16) else none

/-- clock_atmel_pmc_periph_clk_enable, clock-atmel_pmc.c:382-388: PMC_PCR_PID keeps 6 bits (line 108) -/
def enable (n pid : Nat) (s : St) : Option St := if n ≤ pid then none else some { s with pidOn := Rp.set s.pidOn (pid % 64) true }
/-- clock_atmel_pmc_periph_clk_disable, clock-atmel_pmc.c:399-405 -/
def disable (n pid : Nat) (s : St) : Option St := if n ≤ pid then none else some { s with pidOn := Rp.set s.pidOn (pid % 64) false }

end Pmc

/-! ### stm32h7xx -/
namespace H7

/-- RCC_CR: HSION, HSIDIV, HSEON, CSION, HSI48ON, PLLnON; PLLCKSELR; PLLCFGR: DIVPnEN, DIVQnEN, DIVRnEN; PLLnDIVR; CFGR.SW; the enable registers; DnCCIPR; the records -/
structure St where
  hsiOn : Bool
  hsidiv : Nat
  hseOn : Bool
  csiOn : Bool
  hsi48On : Bool
  pllOn : Nat → Bool
  cksel : BitVec 32
  den : Nat → Nat → Bool
  divr : Nat → BitVec 32
  sw : Nat
  en : Nat → BitVec 32
  ccip : Nat → BitVec 32
  hsi : Nat
  hse : Nat
  src : Nat
  pll : Nat → Nat → Nat
  sys : Nat

structure Pll where
  vco : Nat
  div : Nat → Nat

structure Cfg where
  hsi : Nat
  hse : Nat
  csi : Nat
  hsi48 : Nat
  pllsrc : Nat
  pll : Nat → Pll
  sw : Nat

/-- hse_setup, clock-stm32h7xx.c:450-470 -/
def hseSetup (hz : Nat) (w : Bool) (s : St) : Option St :=
  if hz = 0 then some { s with hseOn := false } else if w then some { s with hseOn := true, hse := hz } else none
/-- the switch of clock-stm32h7xx.c:478-482 -/
def hsiRec : Nat → Nat | 0 => 64000000 | 1 => 32000000 | 2 => 16000000 | _ => 8000000
/-- hsi_setup, clock-stm32h7xx.c:472-505 -/
def hsiSetup (k : Nat) (w : Bool) (s : St) : Option St :=
  if 5 ≤ k then none else if k = 4 then some { s with hsi := 0, hsiOn := false }
  else if w then some { s with hsi := hsiRec k, hsiOn := true, hsidiv := k % 4 } else none
/-- csi_setup, clock-stm32h7xx.c:507-524 -/
def csiSetup (k : Nat) (w : Bool) (s : St) : Option St :=
  if 2 ≤ k then none else if k = 1 then (if w then some { s with csiOn := true } else none) else some { s with csiOn := false }
/-- hsi48_setup, clock-stm32h7xx.c:526-543 -/
def hsi48Setup (k : Nat) (w : Bool) (s : St) : Option St :=
  if 2 ≤ k then none else if k = 1 then (if w then some { s with hsi48On := true } else none) else some { s with hsi48On := false }
/-- the switch of clock-stm32h7xx.c:549-556: no clock is an error -/
def srcRec (k : Nat) (s : St) : Option Nat := match k with | 0 => some s.hsi | 1 => some 4000000 | 2 => some s.hse | _ => none
/-- pllsrc_setup, clock-stm32h7xx.c:545-566 -/
def srcSetup (k : Nat) (s : St) : Option St :=
  (srcRec k s).map fun f =>
    { s with src := f, pllOn := fun _ => false, cksel := put 2 0 (BitVec.ofNat 32 k) s.cksel }

/-- step 1 of pll_setup, clock-stm32h7xx.c:783-786: DIVM -/
def divm (f : Nat) : Nat := if 16000000 < f then (f + 15999999) / 16000000 else 1

/-- the value of PLLnDIVR, clock-stm32h7xx.c:749-750: subtractions of unsigned long -/
def divReg (p q r n : Nat) : BitVec 32 :=
  orIn 9 0 (BitVec.ofNat 32 n - 1#32) (orIn 6 9 (BitVec.ofNat 32 p - 1#32) (orIn 6 16 (BitVec.ofNat 32 q - 1#32) (orIn 6 24 (BitVec.ofNat 32 r - 1#32) 0#32)))

/-- the records, clock-stm32h7xx.c:805-812 -/
def out (hz n d : Nat) : Nat := if d ≠ 0 then hz * n / d else 0

/-- pll_setup, clock-stm32h7xx.c:771-815, with set_divm (613-640), divx_enable (642-685), divr_setup (738-769), pll_range_setup (687-736: only its checks) and pll_enable (568-611) -/
def pllSetup (i : Nat) (p : Pll) (w : Bool) (s : St) : Option St :=
  let m := divm s.src
  let hz := s.src / m
  if 63 < m ∨ hz = 0 then none else
  let n := p.vco / hz
  if 63 < p.div 0 ∨ 63 < p.div 1 ∨ 63 < p.div 2 ∨ 511 < n ∨ 960000000 < p.vco ∨ s.src < 1000000 then none else
  if p.vco ≠ 0 ∧ w = false then none else
  some { s with cksel := put 6 (4 + 8 * i) (BitVec.ofNat 32 m) s.cksel, den := Rp.set s.den i (fun k => decide (p.div k ≠ 0)),
                divr := Rp.set s.divr i (divReg (p.div 0) (p.div 1) (p.div 2) n), pll := Rp.set s.pll i (fun k => out hz n (p.div k)),
                pllOn := Rp.set s.pllOn i (decide (p.vco ≠ 0)) }

/-- the switch of clock-stm32h7xx.c:852-860 -/
def swRec (k : Nat) (s : St) : Nat := match k with | 0 => s.hsi | 1 => 4000000 | 2 => s.hse | _ => s.pll 0 0
/-- sw_setup, clock-stm32h7xx.c:844-878 (`w`: the voltage scaling and the switch are in time) -/
def swSetup (k : Nat) (w : Bool) (s : St) : Option St :=
  if 4 ≤ k then none else if w then some { s with sw := k, sys := swRec k s } else none

/-- clock_stm32h7xx_init, clock-stm32h7xx.c:889-912 -/
def init (c : Cfg) (w : Nat → Bool) (s : St) : Option St :=
  (hseSetup c.hse (w 0) s).bind fun s => (hsiSetup c.hsi (w 1) s).bind fun s => (csiSetup c.csi (w 2) s).bind fun s => (hsi48Setup c.hsi48 (w 3) s).bind fun s =>
  (srcSetup c.pllsrc s).bind fun s => (pllSetup 0 (c.pll 0) (w 4) s).bind fun s => (pllSetup 1 (c.pll 1) (w 5) s).bind fun s => (pllSetup 2 (c.pll 2) (w 6) s).bind fun s =>
  swSetup c.sw (w 7) s

/-- clock_get_freq, clock-stm32h7xx.c:985-1012 -/
def getFreq (s : St) : Nat → Option Nat
  | 0 => some s.sys
  | 1 => some (s.pll 0 0) | 2 => some (s.pll 0 1) | 3 => some (s.pll 0 2)
  | 4 => some (s.pll 1 0) | 5 => some (s.pll 1 1) | 6 => some (s.pll 1 2)
  | 7 => some (s.pll 2 0) | 8 => some (s.pll 2 1) | 9 => some (s.pll 2 2)
  | 10 => some s.hse | 11 => some s.hsi | 12 => some 4000000 | 13 => some 32000 | 15 => some 48000000 | _ => none

def hsiHz (s : St) : Option Hz := if s.hsiOn then some (64000000, 2 ^ s.hsidiv) else none
def hseHz (x : Nat) (s : St) : Option Hz := if s.hseOn then some (x, 1) else none
def csiHz (s : St) : Option Hz := if s.csiOn then some (4000000, 1) else none
/-- PLLCKSELR.PLLSRC -/
def srcHz (x : Nat) (s : St) : Option Hz := match (get 2 0 s.cksel).toNat with | 0 => hsiHz s | 1 => csiHz s | 2 => hseHz x s | _ => none
/-- where DIVP, DIVQ and DIVR are in PLLnDIVR: 7 bits each -/
def divAt : Nat → Nat | 0 => 9 | 1 => 16 | _ => 24
/-- an output of a PLL in integer mode: source / DIVM * (DIVN + 1) / (DIVk + 1) -/
def pllHz (x : Nat) (s : St) (i k : Nat) : Option Hz :=
  if s.pllOn i && s.den i k then
    (srcHz x s).bind fun f =>
      if (get 6 (4 + 8 * i) s.cksel).toNat = 0 then none
      else some (f.1 * ((get 9 0 (s.divr i)).toNat + 1), f.2 * ((get 6 (4 + 8 * i) s.cksel).toNat * ((get 7 (divAt k) (s.divr i)).toNat + 1)))
  else none
/-- CFGR.SW -/
def sysHz (x : Nat) (s : St) : Option Hz := match s.sw with | 0 => hsiHz s | 1 => csiHz s | 2 => hseHz x s | _ => pllHz x s 0 0

/-- the clocks as the registers set them, with a crystal of x Hz (RM0433, 8) -/
def hw (x : Nat) (s : St) : Nat → Option Hz
  | 0 => sysHz x s
  | 1 => pllHz x s 0 0 | 2 => pllHz x s 0 1 | 3 => pllHz x s 0 2
  | 4 => pllHz x s 1 0 | 5 => pllHz x s 1 1 | 6 => pllHz x s 1 2
  | 7 => pllHz x s 2 0 | 8 => pllHz x s 2 1 | 9 => pllHz x s 2 2
  | 10 => hseHz x s | 11 => hsiHz s | 12 => csiHz s | 15 => if s.hsi48On then some (48000000, 1) else none | _ => none

/-- clock_stm32h7xx_enable, clock-stm32h7xx.c:923-934; CLOCK_STM32H7XX_AXB_COUNT is one more than the last identifier, (8, 17) -/
def enable (k : Nat) (s : St) : Option St := if 8 * 32 + 18 ≤ k then none else some { s with en := gset s.en k }
/-- clock_stm32h7xx_disable, clock-stm32h7xx.c:945-956 -/
def disable (k : Nat) (s : St) : Option St := if 8 * 32 + 18 ≤ k then none else some { s with en := gclr s.en k }
def on (s : St) (k : Nat) : Bool := gbit s.en k

/-- clock_stm32h7xx_ker_sel, clock-stm32h7xx.c:968-983 -/
def kerSel (ker v : Nat) (s : St) : Option St :=
  let i := ker / 256 % 4
  let m := ker % 256 / 32
  let t := ker % 32
  if m < v then none else some { s with ccip := Rp.set s.ccip i ((s.ccip i &&& ~~~ (BitVec.ofNat 32 m <<< t)) ||| (BitVec.ofNat 32 v <<< t)) }

/-- the identifiers of clock-stm32h7xx.h:207-208: DxCCIPxR(index, mask, shift), with a mask of w bits -/
def kerId (i w t : Nat) : Nat := i * 256 ||| (2 ^ w - 1) * 32 ||| t

end H7

end Pico.Clock
