import Verif.Drivers.Clock4
/-
The clock drivers of staging (C95, C96): ch32v003, ch552, lgt8fx8p, mc9s08ptxx, stc12c5axx (the conventions are those of Clock.lean).
-/
namespace Pico.Clock
open Field

/-! ### ch32v003 -/
namespace Ch

/-- RCC.CTLR, CFGR0; AHBPCENR, APB2PCENR, APB1PCENR as 0, 1, 2; the records (clock-ch32v003.c:53-59) -/
structure St where
  ctlr : BitVec 32
  cfgr : BitVec 32
  gate : Nat → BitVec 32
  hse : Nat
  pll : Nat
  sysclk : Nat
  hclk : Nat

structure Cfg where
  sysclk : Nat
  pllsrc : Nat
  hse : Nat
  hclkDiv : Nat

/-- the waits for HSERDY, PLLRDY and SWS -/
structure Env where
  hse : Bool
  pll : Bool
  sw : Bool

/-- turn_hse_on, clock-ch32v003.c:61-78 -/
def hseOn (hz : Nat) (w : Bool) (s : St) : Option St :=
  if hz < 4000000 ∨ 25000000 < hz then none else if w then some { s with ctlr := bset 16 s.ctlr, hse := hz } else none

/-- turn_pll_on, clock-ch32v003.c:80-110 -/
def pllOn (src : Nat) (w : Bool) (s : St) : Option St :=
  match src with
  | 0 => if w then some { s with ctlr := bset 24 s.ctlr, cfgr := bclr 16 s.cfgr, pll := 24000000 * 2 } else none
  | 1 => if w then some { s with ctlr := bset 24 s.ctlr, cfgr := bset 16 s.cfgr, pll := s.hse * 2 } else none
  | _ => none

/-- switch_to, clock-ch32v003.c:112-137 -/
def switchTo (k : Nat) (w : Bool) (s : St) : Option St :=
  if w = false then none else
  match k with
  | 0 => some { s with cfgr := orIn 2 0 0#32 (clear 2 0 s.cfgr), sysclk := 24000000 }
  | 1 => some { s with cfgr := orIn 2 0 1#32 (clear 2 0 s.cfgr), sysclk := s.hse }
  | 2 => some { s with cfgr := orIn 2 0 2#32 (clear 2 0 s.cfgr), sysclk := s.pll }
  | _ => none

/-- the switch of div_hclk, clock-ch32v003.c:146-163 -/
def divCode : Nat → Option Nat
  | 1 => some 0 | 2 => some 1 | 3 => some 2 | 4 => some 3 | 5 => some 4 | 6 => some 5 | 7 => some 6 | 8 => some 7
  | 16 => some 11 | 32 => some 12 | 64 => some 13 | 128 => some 14 | 256 => some 15 | _ => none

/-- div_hclk, clock-ch32v003.c:139-168 -/
def divHclk (d : Nat) (s : St) : Option St :=
  (divCode d).map fun v => { s with cfgr := orIn 4 4 (BitVec.ofNat 32 v) (clear 4 4 s.cfgr), hclk := s.sysclk / d }

/-- clock_ch32v003_init, clock-ch32v003.c:170-198 -/
def init (c : Cfg) (e : Env) (s : St) : Option St :=
  if 3 ≤ c.sysclk ∨ 2 ≤ c.pllsrc then none else
  (if c.sysclk = 1 ∨ c.pllsrc = 1 then hseOn c.hse e.hse { s with sysclk := 24000000 } else some { s with sysclk := 24000000 }).bind fun s =>
  (if c.sysclk = 2 then pllOn c.pllsrc e.pll s else some s).bind fun s => (switchTo c.sysclk e.sw s).bind fun s => divHclk c.hclkDiv s

/-- clock_ch32v003_enable, clock-ch32v003.c:200-217 -/
def enable (k : Nat) (s : St) : Option St :=
  if 0x5d ≤ k then none else if k / 32 < 3 then some { s with gate := gset s.gate k } else none
/-- clock_ch32v003_disable, clock-ch32v003.c:219-236 -/
def disable (k : Nat) (s : St) : Option St :=
  if 0x5d ≤ k then none else if k / 32 < 3 then some { s with gate := gclr s.gate k } else none

/-- clock_get_freq, clock-ch32v003.c:238-251 -/
def getFreq (s : St) (k : Nat) : Option Nat := match k with | 0 => some s.hclk | 1 => some 1280000 | 3 => some (s.hclk / 4096) | _ => none

/-- the clocks (CH32V003 RM 3.3, 3.4): HSI 24 MHz, LSI 128 kHz, the PLL doubles -/
def hseHz (x : Nat) (s : St) : Option Hz := if s.ctlr.getLsbD 16 then some (x, 1) else none
def pllHz (x : Nat) (s : St) : Option Hz :=
  if s.ctlr.getLsbD 24 then (if s.cfgr.getLsbD 16 then (hseHz x s).map fun f => (2 * f.1, f.2) else some (48000000, 1)) else none
def sysHz (x : Nat) (s : St) : Option Hz := match (get 2 0 s.cfgr).toNat with | 0 => some (24000000, 1) | 1 => hseHz x s | 2 => pllHz x s | _ => none
def divOf (k : Nat) : Nat := if k < 8 then k + 1 else 2 ^ (k - 7)
def hclkHz (x : Nat) (s : St) : Option Hz := Hz.div (sysHz x s) (divOf (get 4 4 s.cfgr).toNat)
def hw (x : Nat) (s : St) (k : Nat) : Option Hz := match k with | 0 => hclkHz x s | 1 => some (128000, 1) | 3 => Hz.div (hclkHz x s) 4096 | _ => none

/-- the gates named by the driver (clock-ch32v003.h:36-53) -/
def gates : List Nat := [0x0, 0x2, 0x20, 0x22, 0x24, 0x25, 0x29, 0x2b, 0x2c, 0x2e, 0x40, 0x4b, 0x55, 0x5c]
def runs (s : St) (k : Nat) : Bool := gbit s.gate k

end Ch

/-! ### ch552 -/
namespace Ch5

/-- CLOCK_CFG; the record -/
structure St where
  cfg : BitVec 8
  fsys : Nat

/-- the switch of clock-ch552.c:63-73 -/
def fsysOf : Nat → Option Nat
  | 0 => some 187500 | 1 => some 750000 | 2 => some 3000000 | 3 => some 6000000 | 4 => some 12000000 | 5 => some 16000000 | 6 => some 24000000 | _ => none

/-- clock_init, clock-ch552.c:25-77 -/
def init (osc sel : Nat) (s : St) : Option St :=
  if 2 ≤ osc ∨ 7 ≤ sel then none else
  let r := if osc = 1 then bclr 7 (bset 6 s.cfg) else s.cfg
  let r := if sel < 5 then bset 4 r else r
  (fsysOf sel).map fun f => ⟨orIn 3 0 (BitVec.ofNat 8 sel) (clear 3 0 r), f⟩

/-- clock_get_freq, clock-ch552.c:79-85: the identifier of FSYS is the one refused -/
def getFreq (s : St) (k : Nat) : Option Nat := if ¬ k ≠ 0 then none else some s.fsys

/-- FPLL is 4 times the internal oscillator of 24 MHz (bOSC_EN_INT) or the crystal; its divider (CH552 datasheet, CLOCK_CFG) -/
def divOf : Nat → Option Nat
  | 0 => some 512 | 1 => some 128 | 2 => some 32 | 3 => some 16 | 4 => some 8 | 5 => some 6 | 6 => some 4 | 7 => some 3 | _ => none
def fsysHz (x : Nat) (s : St) : Option Hz :=
  (divOf (get 3 0 s.cfg).toNat).bind fun d => (if s.cfg.getLsbD 7 then some 24000000 else if s.cfg.getLsbD 6 then some x else none).map fun f => (4 * f, d)

end Ch5

/-! ### lgt8fx8p -/
namespace Lg

/-- PMCR, CLKPR; the records -/
structure St where
  pmcr : BitVec 8
  clkpr : BitVec 8
  mclk : Nat
  wdt : Nat

structure Cfg where
  erc : Nat
  mclk : Nat
  ps : Nat
  wdclks : Nat

/-- set_clkps, clock-lgt8fx8p.c:37-52: ps is tested, then not used -/
def setClkps (ps : Nat) (s : St) : Option St := if 9 ≤ ps then none else some { s with clkpr := clear 4 0 s.clkpr }

/-- clock_lgt8fx8p_init, clock-lgt8fx8p.c:67-119: PMCR and the record for the main clock -/
def main (c : Cfg) (r : BitVec 8) : Option (BitVec 8 × Nat) :=
  match c.mclk with
  | 0 => some (bset 0 (orIn 2 5 0#8 r), 32000000)
  | 1 => if c.erc = 0 then none else some (bset 3 (orIn 2 5 1#8 (bset 2 r)), c.erc)
  | 2 => some (bset 1 (orIn 2 5 2#8 r), 32000)
  | 3 => if c.erc = 0 then none else some (bset 3 (orIn 2 5 3#8 r), c.erc)
  | _ => none

/-- and for the watchdog (:105-111) -/
def dog (c : Cfg) (r : BitVec 8) : BitVec 8 × Nat := if c.wdclks ≠ 1 then (bset 0 (bclr 4 r), 32000000 / 16) else (bset 1 (bset 4 r), 32000)

def init (c : Cfg) (s : St) : Option St :=
  if 4 ≤ c.mclk ∨ 2 ≤ c.wdclks then none else
  (main c (clear 2 5 s.pmcr)).bind fun m => (setClkps c.ps { s with mclk := m.2, wdt := (dog c m.1).2 }).map fun s => { s with pmcr := (dog c m.1).1 }

/-- clock_get_freq, clock-lgt8fx8p.c:123-140 -/
def getFreq (s : St) (k : Nat) : Option Nat := if k < 4 then some s.mclk else if k = 4 then some s.wdt else none

/-- the clocks (LGT8FX8P datasheet, PMCR and CLKPR): the main clock divided by 2^CLKPS; the watchdog on HFRC / 16 or LFRC -/
def mainHz (x : Nat) (s : St) : Option Hz :=
  match (get 2 5 s.pmcr).toNat with
  | 0 => if s.pmcr.getLsbD 0 then some (32000000, 1) else none
  | 1 => if s.pmcr.getLsbD 2 then some (x, 1) else none
  | 2 => if s.pmcr.getLsbD 1 then some (32000, 1) else none
  | _ => if s.pmcr.getLsbD 3 then some (x, 1) else none
def hw (x : Nat) (s : St) (k : Nat) : Option Hz :=
  if k < 4 then (if (get 4 0 s.clkpr).toNat < 9 then Hz.div (mainHz x s) (2 ^ (get 4 0 s.clkpr).toNat) else none)
  else if k = 4 then (if s.pmcr.getLsbD 4 then (if s.pmcr.getLsbD 1 then some (32000, 1) else none) else if s.pmcr.getLsbD 0 then some (32000000, 16) else none) else none

end Lg

/-! ### mc9s08ptxx -/
namespace Mc9

/-- ICS_C1, C2, C3, bit 0 of C4, OSCSC; the records -/
structure St where
  c1 : BitVec 8
  c2 : BitVec 8
  c3 : BitVec 8
  fine : Bool
  oscsc : BitVec 8
  icsir : Nat
  bus : Nat
  ext : Nat

/-- mode: 0 FEI, 1 FBI, 2 FEE, 3 FBE -/
structure Cfg where
  mode : Nat
  xosc : Nat
  freq : Nat

/-- setup_sctrim, clock-mc9s08ptxx.c:74-87: unsigned of 16 bits -/
def sctrim (f : Nat) (s : St) : Option St :=
  if 39062 < f ∨ f < 31250 then none else some { s with c3 := BitVec.ofNat 8 (0x50 + (39062 - f) / 122), fine := false, icsir := f }

/-- fei, clock-mc9s08ptxx.c:89-112: (unsigned) of 16 bits -/
def fei (c : Cfg) (s : St) : Option St :=
  (sctrim (c.freq / 512 % 2 ^ 16) { s with c1 := bset 2 (clear 2 6 s.c1), c2 := 0#8 }).map fun s => { s with bus := c.freq }
/-- fbi, clock-mc9s08ptxx.c:114-133 -/
def fbi (c : Cfg) (s : St) : Option St :=
  (sctrim (c.freq % 2 ^ 16) { s with c1 := orIn 2 6 1#8 (clear 2 6 s.c1), c2 := 0#8 }).map fun s => { s with bus := c.freq }

/-- the loop of fee, clock-mc9s08ptxx.c:162-183 -/
def rdivOf : Nat → Nat → Nat → Option Nat
  | 0, _, _ => none
  | n + 1, r, x => if x ≤ 39062 ∧ 31250 ≤ x then some r else rdivOf n (r + 1) (x / 2)

/-- fee, clock-mc9s08ptxx.c:135-187; w is OSCINIT in time -/
def fee (c : Cfg) (w : Bool) (s : St) : Option St :=
  if c.xosc < 4000000 ∨ 20000000 < c.xosc ∨ w = false then none else
  (rdivOf 6 0 (c.xosc / 32)).map fun r => { s with oscsc := bset 7 (bset 4 (bset 2 s.oscsc)), c1 := bclr 2 (clear 2 6 (orIn 3 3 (BitVec.ofNat 8 r) (clear 3 3 s.c1))), c2 := 0#8, bus := c.freq }
/-- fbe, clock-mc9s08ptxx.c:189-204 -/
def fbe (s : St) : Option St := some { s with c1 := orIn 2 6 2#8 (clear 2 6 s.c1), c2 := 0#8 }

/-- clock_mc9s08ptxx_init, clock-mc9s08ptxx.c:206-223 -/
def init (c : Cfg) (w : Bool) (s : St) : Option St :=
  match c.mode with
  | 0 => fei c { s with ext := c.xosc } | 1 => fbi c { s with ext := c.xosc } | 2 => fee c w { s with ext := c.xosc } | 3 => fbe { s with ext := c.xosc } | _ => none

/-- clock_get_freq, clock-mc9s08ptxx.c:225-238 -/
def getFreq (s : St) (k : Nat) : Option Nat := match k with | 0 => some s.bus | 1 => some 1000 | 2 => some s.icsir | 3 => some s.ext | _ => none

/-- the clocks (MC9S08PT60 RM, ICS): `irc` is what the internal reference of this chip makes of a trim (Hz); the FLL multiplies by 512; RDIV in the high range divides by 2^(RDIV + 5); the crystal runs when OSCEN -/
def extHz (x : Nat) (s : St) : Option Hz := if s.oscsc.getLsbD 7 then some (x, 1) else none
def refHz (irc : BitVec 8 → Nat) (x : Nat) (s : St) : Option Hz :=
  if s.c1.getLsbD 2 then some (irc s.c3, 1) else if (get 3 3 s.c1).toNat < 6 ∧ s.oscsc.getLsbD 2 = true then Hz.div (extHz x s) (2 ^ ((get 3 3 s.c1).toNat + 5)) else none
def busHz (irc : BitVec 8 → Nat) (x : Nat) (s : St) : Option Hz :=
  Hz.div (match (get 2 6 s.c1).toNat with | 0 => (refHz irc x s).map (fun f => (512 * f.1, f.2)) | 1 => some (irc s.c3, 1) | 2 => extHz x s | _ => none) (2 ^ (get 3 5 s.c2).toNat)

end Mc9

/-! ### stc12c5axx -/
namespace Stc

/-- AUXR; the records -/
structure St where
  auxr : BitVec 8
  t1 : Nat
  brt : Nat

/-- clock_stc12c5axx_init, clock-stc12c5axx.c:23-45; f is SYSCLK_HZ; 0 is X1 -/
def init (f t1 brt : Nat) (s : St) : Option St :=
  if 2 ≤ t1 ∨ 2 ≤ brt then none else
  let s := if t1 = 0 then { s with auxr := bclr 6 s.auxr, t1 := f / 12 } else { s with auxr := bset 6 s.auxr, t1 := f }
  some (if brt = 0 then { s with auxr := bclr 2 s.auxr, brt := f / 12 } else { s with auxr := bset 6 s.auxr, brt := f })

/-- clock_get_freq, clock-stc12c5axx.c:47-61 -/
def getFreq (f : Nat) (s : St) (k : Nat) : Option Nat := match k with | 0 => some f | 1 => some s.t1 | 2 => some s.brt | _ => none

/-- AUXR.T1x12, BRTx12 (STC12C5A60S2 manual 2.3): without the bit, a twelfth -/
def hw (f : Nat) (s : St) (k : Nat) : Option Hz :=
  match k with | 0 => some (f, 1) | 1 => some (f, if s.auxr.getLsbD 6 then 1 else 12) | 2 => some (f, if s.auxr.getLsbD 2 then 1 else 12) | _ => none

end Stc
end Pico.Clock
