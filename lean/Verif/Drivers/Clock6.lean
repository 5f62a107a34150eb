import Verif.Drivers.Clock5
/-
The clock drivers of staging (C95, C96): stm32f10xxx, stm32f401x, stm32l4x.  The fields of a PLL that is on are read only (RM0008 7.3.2, RM0368 6.3.2, RM0394 6.4.4).
FLASH_ACR, PWR and the recorded pll_q, which nothing tells, are left out; so are the RTC (told as 32768 Hz, with nothing set up) and I2S of the f401x.
-/
namespace Pico.Clock
open Field

/-! ### the prescalers, the same in the three drivers -/
namespace Stm

/-- the switches of set_hpre, clock-stm32f10xxx.c:319-343, clock-stm32f401x.c:308-332, clock-stm32l4x.c:372-396 -/
def hpreCode : Nat → Option Nat
  | 1 => some 0 | 2 => some 8 | 4 => some 9 | 8 => some 10 | 16 => some 11 | 64 => some 12 | 128 => some 13 | 256 => some 14 | 512 => some 15 | _ => none
/-- and of set_ppre1, set_ppre2 (f10xxx:345-388, f401x:334-377, l4x:398-441) -/
def ppreCode : Nat → Option Nat
  | 1 => some 0 | 2 => some 4 | 4 => some 5 | 8 => some 6 | 16 => some 7 | _ => none

/-- set_hpre, set_ppre1, set_ppre2: RCC_CFGR with PPRE1 at t1, PPRE2 at t2; the records ahb, apb1, apb2; apb1 is limited -/
def bus (t1 t2 max ahb apb1 apb2 sys : Nat) (r : BitVec 32) : Option (BitVec 32 × Nat × Nat × Nat) :=
  (hpreCode ahb).bind fun h => (ppreCode apb1).bind fun a => if max < sys / apb1 then none else (ppreCode apb2).map fun b =>
    (orIn 3 t2 (BitVec.ofNat 32 b) (clear 3 t2 (orIn 3 t1 (BitVec.ofNat 32 a) (clear 3 t1 (orIn 4 4 (BitVec.ofNat 32 h) (clear 4 4 r))))), sys / ahb, sys / apb1, sys / apb2)

/-- the dividers of the manuals (RM0008 7.3.2) -/
def hpreOf (k : Nat) : Nat := if k < 8 then 1 else if k < 12 then 2 ^ (k - 7) else 2 ^ (k - 6)
def ppreOf (k : Nat) : Nat := if k < 4 then 1 else 2 ^ (k - 3)

end Stm

/-! ### stm32f10xxx -/
namespace F1

/-- RCC_CR, CFGR; AHBENR, APB2ENR, APB1ENR as 0, 1, 2; the records (clock-stm32f10xxx.c:220-227) -/
structure St where
  cr : BitVec 32
  cfgr : BitVec 32
  gate : Nat → BitVec 32
  pll : Nat
  sysclk : Nat
  ahb : Nat
  apb1 : Nat
  apb2 : Nat
  adc : Nat

structure Cfg where
  sysclk : Nat
  pllsrc : Nat
  hse : Nat
  pll : Nat
  ahb : Nat
  apb1 : Nat
  apb2 : Nat
  adc : Nat

/-- the waits for HSERDY, PLLRDY, SWS -/
structure Env where
  hse : Bool
  pll : Bool
  sw : Bool

/-- setup_hse, clock-stm32f10xxx.c:229-243 -/
def setupHse (hse : Nat) (w : Bool) (s : St) : Option St := if hse = 0 then some s else if w then some { s with cr := bset 16 s.cr } else none

/-- the source of the PLL, clock-stm32f10xxx.c:262-283 -/
def source (c : Cfg) (r : BitVec 32) : Option (BitVec 32 × Nat) :=
  match c.pllsrc with
  | 0 => some (bclr 16 r, 4000000)
  | 1 => if c.hse = 0 then none else some (bset 16 (bclr 17 r), c.hse)
  | 2 => if c.hse = 0 then none else some (bset 17 (bset 16 r), c.hse / 2)
  | _ => none

/-- setup_pll, clock-stm32f10xxx.c:245-311; the products are of 32 bits -/
def setupPll (c : Cfg) (w : Bool) (s : St) : Option St :=
  if 3 ≤ c.pllsrc ∨ 72000000 < c.pll then none else if c.pll = 0 then some { s with cr := bclr 24 s.cr } else
  (source c s.cfgr).bind fun x => (((List.range 15).map (· + 2)).find? fun m => decide (x.2 * m % 2 ^ 32 = c.pll)).bind fun m =>
    if w then some { s with cfgr := if s.cr.getLsbD 24 then s.cfgr else orIn 4 18 (BitVec.ofNat 32 (m - 2)) (clear 4 18 x.1), cr := bset 24 s.cr, pll := c.pll } else none

/-- setup_usb, clock-stm32f10xxx.c:313-317 -/
def setupUsb (s : St) : St := if 48000000 < s.pll then { s with cfgr := bset 22 s.cfgr } else s

/-- clock-stm32f10xxx.c:438-456 -/
def sysOf (c : Cfg) (s : St) : Option Nat :=
  match c.sysclk with | 0 => some 8000000 | 1 => if c.hse = 0 then none else some c.hse | 2 => if c.pll = 0 then none else some s.pll | _ => none

/-- the switch of set_adcpre, clock-stm32f10xxx.c:397-405 -/
def adcCode : Nat → Option Nat | 2 => some 0 | 4 => some 1 | 8 => some 2 | _ => none

/-- clock_stm32f10xxx_init, clock-stm32f10xxx.c:419-485 -/
def init (c : Cfg) (e : Env) (s : St) : Option St :=
  if 3 ≤ c.sysclk ∨ c.ahb = 0 ∨ c.apb1 = 0 ∨ c.apb2 = 0 ∨ c.adc ≤ 1 then none else
  (setupHse c.hse e.hse s).bind fun s => (setupPll c e.pll s).bind fun s => (sysOf c (setupUsb s)).bind fun f =>
  (Stm.bus 8 11 36000000 c.ahb c.apb1 c.apb2 f (setupUsb s).cfgr).bind fun b => (adcCode c.adc).bind fun a =>
  if e.sw then some { setupUsb s with cfgr := orIn 2 0 (BitVec.ofNat 32 c.sysclk) (clear 2 0 (orIn 2 14 (BitVec.ofNat 32 a) (clear 2 14 b.1))), sysclk := f, ahb := b.2.1, apb1 := b.2.2.1, apb2 := b.2.2.2, adc := b.2.2.2 / c.adc } else none

/-- clock_stm32f10xxx_enable, clock-stm32f10xxx.c:487-504 -/
def enable (k : Nat) (s : St) : Option St := if 0x5e ≤ k then none else if k / 32 < 3 then some { s with gate := gset s.gate k } else none
/-- clock_stm32f10xxx_disable, clock-stm32f10xxx.c:506-523 -/
def disable (k : Nat) (s : St) : Option St := if 0x5e ≤ k then none else if k / 32 < 3 then some { s with gate := gclr s.gate k } else none

/-- clock_get_freq, clock-stm32f10xxx.c:525-550 -/
def getFreq (s : St) (k : Nat) : Option Nat :=
  match k with
  | 0 | 3 | 4 => some s.sysclk | 1 => some 8000000 | 2 => some 48000000 | 5 | 6 | 7 | 8 => some s.ahb | 9 => some s.apb1 | 10 => some (s.apb1 / 2) | 11 => some s.apb2 | 12 => some (s.apb1 / 2) | 13 => some s.adc
  | 14 => some 32768 | 15 => some 40000 | _ => none

/-- the clocks (RM0008, figure 8 and 7.3.2) -/
def hseHz (x : Nat) (s : St) : Option Hz := if s.cr.getLsbD 16 then some (x, 1) else none
def pllHz (x : Nat) (s : St) : Option Hz :=
  if s.cr.getLsbD 24 then (if s.cfgr.getLsbD 16 then Hz.div (hseHz x s) (if s.cfgr.getLsbD 17 then 2 else 1) else some (8000000, 2)).map fun f => (f.1 * min ((get 4 18 s.cfgr).toNat + 2) 16, f.2) else none
def sysHz (x : Nat) (s : St) : Option Hz := match (get 2 0 s.cfgr).toNat with | 0 => some (8000000, 1) | 1 => hseHz x s | 2 => pllHz x s | _ => none
def hclkHz (x : Nat) (s : St) : Option Hz := Hz.div (sysHz x s) (Stm.hpreOf (get 4 4 s.cfgr).toNat)
def pclkHz (x t : Nat) (s : St) : Option Hz := Hz.div (hclkHz x s) (Stm.ppreOf (get 3 t s.cfgr).toNat)
/-- the timers run at twice the clock of the bus when that is divided -/
def timHz (x t : Nat) (s : St) : Option Hz := (pclkHz x t s).map fun f => ((if (get 3 t s.cfgr).toNat < 4 then 1 else 2) * f.1, f.2)
def usbHz (x : Nat) (s : St) : Option Hz := (pllHz x s).map fun f => if s.cfgr.getLsbD 22 then f else (2 * f.1, 3 * f.2)
def hw (x : Nat) (s : St) (k : Nat) : Option Hz :=
  match k with
  | 0 | 3 | 4 => sysHz x s | 1 => some (8000000, 1) | 2 => usbHz x s | 5 | 6 | 7 | 8 => hclkHz x s | 9 => pclkHz x 8 s | 10 => timHz x 8 s | 11 => pclkHz x 11 s | 12 => timHz x 11 s
  | 13 => Hz.div (pclkHz x 11 s) (2 * ((get 2 14 s.cfgr).toNat + 1)) | 15 => some (40000, 1) | _ => none

/-- the gates named by the driver (clock-stm32f10xxx.h:65-119) and their bits in AHBENR, APB2ENR, APB1ENR (RM0008 7.3.6-7.3.8): SDIO is bit 10 -/
def gates : List Nat := [0x0, 0x1, 0x2, 0x4, 0x6, 0x8, 0x10, 0x20, 0x22, 0x23, 0x24, 0x25, 0x26, 0x27, 0x28, 0x29, 0x2a, 0x2b, 0x2c, 0x2d, 0x2e, 0x2f, 0x33, 0x34, 0x35, 0x40, 0x41, 0x42, 0x43, 0x44, 0x45, 0x46, 0x47, 0x48, 0x4b,
  0x4e, 0x4f, 0x51, 0x52, 0x53, 0x54, 0x55, 0x56, 0x57, 0x59, 0x5b, 0x5c, 0x5d]
def gateBit (k : Nat) : Nat := if k = 0x10 then 10 else k
def runs (s : St) (k : Nat) : Bool := gbit s.gate (gateBit k)

end F1

/-! ### stm32f401x -/
namespace F4

/-- RCC_CR, PLLCFGR, CFGR; AHB1ENR, AHB2ENR, APB1ENR, APB2ENR as 0, 1, 2, 3; the records (clock-stm32f401x.c:192-199) -/
structure St where
  cr : BitVec 32
  pllcfgr : BitVec 32
  cfgr : BitVec 32
  gate : Nat → BitVec 32
  pll : Nat
  sysclk : Nat
  ahb : Nat
  apb1 : Nat
  apb2 : Nat

structure Cfg where
  sysclk : Nat
  pllsrc : Nat
  hse : Nat
  pll : Nat
  ahb : Nat
  apb1 : Nat
  apb2 : Nat

abbrev Env := F1.Env

/-- (m, n, p) in the order of the loops, clock-stm32f401x.c:265-275 -/
def cands (i : Nat) : List (Nat × Nat × Nat) :=
  (List.range (i / 1000000 + 1 - i / 2000000)).flatMap fun m => (List.range 232).flatMap fun n => [2, 4, 6, 8].map fun p => (m + i / 2000000, n + 192, p)

/-- the first that makes the frequency; a VCO above 432 MHz ends the loop on n.  No product overflows: i / m is under 4 MHz -/
def factors (i f : Nat) : Option (Nat × Nat × Nat) := (cands i).find? fun k => decide (i / k.1 * k.2.1 ≤ 432000000 ∧ i / k.1 * k.2.1 / k.2.2 = f)

/-- clock-stm32f401x.c:277-288; q = vco / 48 MHz -/
def cfgOf (i : Nat) (k : Nat × Nat × Nat) (r : BitVec 32) : BitVec 32 :=
  orIn 9 6 (BitVec.ofNat 32 k.2.1) (orIn 5 0 (BitVec.ofNat 32 k.1) (orIn 4 24 (BitVec.ofNat 32 (i / k.1 * k.2.1 / 48000000)) (orIn 2 16 (BitVec.ofNat 32 (k.2.2 / 2 - 1)) (clear 9 6 (clear 5 0 (clear 4 24 (clear 2 16 r)))))))

/-- setup_hse, clock-stm32f401x.c:201-215 -/
def setupHse (hse : Nat) (w : Bool) (s : St) : Res St := if hse = 0 then .ok s else if w then .ok { s with cr := bset 16 s.cr } else .fail

/-- setup_pll, clock-stm32f401x.c:217-306: with an input under 2 MHz the first m is 0 -/
def setupPll (c : Cfg) (w : Bool) (s : St) : Res St :=
  if 2 ≤ c.pllsrc ∨ 84000000 < c.pll then .fail else if c.pll = 0 then .ok { s with cr := bclr 24 s.cr } else
  if c.pllsrc = 1 ∧ c.hse = 0 then .fail else
  let i := if c.pllsrc = 1 then c.hse else 16000000
  let r := if c.pllsrc = 1 then bset 22 s.pllcfgr else bclr 22 s.pllcfgr
  if i < 2000000 then .undef else
  match factors i c.pll with
  | none => .fail
  | some k => if w then .ok { s with pllcfgr := if s.cr.getLsbD 24 then s.pllcfgr else cfgOf i k r, cr := bset 24 s.cr, gate := gset s.gate 0x5c, pll := c.pll } else .fail

/-- clock-stm32f401x.c:403-421 -/
def sysOf (c : Cfg) (s : St) : Option Nat :=
  match c.sysclk with | 0 => some 16000000 | 1 => if c.hse = 0 then none else some c.hse | 2 => if c.pll = 0 then none else some s.pll | _ => none

/-- clock_stm32f401x_init, clock-stm32f401x.c:388-449 -/
def init (c : Cfg) (e : Env) (s : St) : Res St :=
  if 3 ≤ c.sysclk ∨ c.ahb = 0 ∨ c.apb1 = 0 ∨ c.apb2 = 0 then .fail else
  (setupHse c.hse e.hse s).bind fun s => (setupPll c e.pll s).bind fun s =>
  match sysOf c s with
  | none => .fail
  | some f => match Stm.bus 10 13 42000000 c.ahb c.apb1 c.apb2 f s.cfgr with
    | none => .fail
    | some b => if e.sw then .ok { s with cfgr := orIn 2 0 (BitVec.ofNat 32 c.sysclk) (clear 2 0 b.1), sysclk := f, ahb := b.2.1, apb1 := b.2.2.1, apb2 := b.2.2.2 } else .fail

/-- clock_stm32f401x_enable, clock-stm32f401x.c:451-469 -/
def enable (k : Nat) (s : St) : Option St := if 0x73 ≤ k then none else if k / 32 < 4 then some { s with gate := gset s.gate k } else none
/-- clock_stm32f401x_disable, clock-stm32f401x.c:471-489 -/
def disable (k : Nat) (s : St) : Option St := if 0x73 ≤ k then none else if k / 32 < 4 then some { s with gate := gclr s.gate k } else none

/-- clock_get_freq, clock-stm32f401x.c:491-508 -/
def getFreq (s : St) (k : Nat) : Option Nat :=
  match k with | 0 => some s.sysclk | 1 | 2 => some 48000000 | 3 => some s.ahb | 4 => some s.apb1 | 5 => some s.apb2 | 6 => some 32768 | 7 => some 32000 | _ => none

/-- the clocks (RM0368, 6.2 and 6.3): VCO = input * PLLN / PLLM, PLLM of 6 bits; P and Q its outputs -/
def hseHz (x : Nat) (s : St) : Option Hz := if s.cr.getLsbD 16 then some (x, 1) else none
def vcoHz (x : Nat) (s : St) : Option Hz :=
  if s.cr.getLsbD 24 = false ∨ (get 6 0 s.pllcfgr).toNat < 2 then none else
  (if s.pllcfgr.getLsbD 22 then hseHz x s else some (16000000, 1)).map fun f => (f.1 * (get 9 6 s.pllcfgr).toNat, f.2 * (get 6 0 s.pllcfgr).toNat)
def pllHz (x : Nat) (s : St) : Option Hz := Hz.div (vcoHz x s) (2 * ((get 2 16 s.pllcfgr).toNat + 1))
def usbHz (x : Nat) (s : St) : Option Hz := if (get 4 24 s.pllcfgr).toNat < 2 then none else Hz.div (vcoHz x s) (get 4 24 s.pllcfgr).toNat
def sysHz (x : Nat) (s : St) : Option Hz := match (get 2 0 s.cfgr).toNat with | 0 => some (16000000, 1) | 1 => hseHz x s | 2 => pllHz x s | _ => none
def hclkHz (x : Nat) (s : St) : Option Hz := Hz.div (sysHz x s) (Stm.hpreOf (get 4 4 s.cfgr).toNat)
def pclkHz (x t : Nat) (s : St) : Option Hz := Hz.div (hclkHz x s) (Stm.ppreOf (get 3 t s.cfgr).toNat)
def hw (x : Nat) (s : St) (k : Nat) : Option Hz :=
  match k with | 0 => sysHz x s | 1 => usbHz x s | 3 => hclkHz x s | 4 => pclkHz x 10 s | 5 => pclkHz x 13 s | 7 => some (32000, 1) | _ => none

/-- the gates named by the driver (clock-stm32f401x.h:42-83); the bits are those of RM0368 6.3.9-6.3.12 -/
def gates : List Nat := [0x0, 0x1, 0x2, 0x3, 0x4, 0x7, 0xc, 0x15, 0x16, 0x27, 0x40, 0x41, 0x42, 0x43, 0x4b, 0x4e, 0x4f, 0x51, 0x55, 0x56, 0x57, 0x5c, 0x60, 0x64, 0x65, 0x68, 0x6b, 0x6c, 0x6d, 0x6e, 0x70, 0x71, 0x72]
def runs (s : St) (k : Nat) : Bool := gbit s.gate k

end F4

/-! ### stm32l4x -/
namespace L4

/-- RCC_CR, PLLCFGR, CFGR; AHB1ENR, AHB2ENR, AHB3ENR, APB1ENR1, APB1ENR2, APB2ENR as 0..5; the records (clock-stm32l4x.c:217-224) -/
structure St where
  cr : BitVec 32
  pllcfgr : BitVec 32
  cfgr : BitVec 32
  gate : Nat → BitVec 32
  pll : Nat
  sysclk : Nat
  ahb : Nat
  apb1 : Nat
  apb2 : Nat

abbrev Cfg := F4.Cfg

/-- the waits for HSIRDY, HSERDY, PLLRDY, SWS -/
structure Env where
  hsi : Bool
  hse : Bool
  pll : Bool
  sw : Bool

/-- (m, n, r) in the order of the loops, clock-stm32l4x.c:309-320 -/
def cands (i : Nat) : List (Nat × Nat × Nat) :=
  (List.range (i / 4000000 + 1 - i / 16000000)).flatMap fun m => (List.range 79).flatMap fun n => [2, 4, 6, 8].map fun p => (m + i / 16000000, n + 8, p)

/-- the first that makes the frequency; a VCO under 64 MHz with n = 8 ends the loop on n, so does one above 344 MHz.  No product overflows: i / m is under 32 MHz -/
def factors (i f : Nat) : Option (Nat × Nat × Nat) := (cands i).find? fun k => decide (64000000 ≤ i / k.1 * 8 ∧ i / k.1 * k.2.1 ≤ 344000000 ∧ i / k.1 * k.2.1 / k.2.2 = f)

/-- clock-stm32l4x.c:323-335 -/
def cfgOf (i : Nat) (k : Nat × Nat × Nat) (r : BitVec 32) : BitVec 32 :=
  orIn 7 8 (BitVec.ofNat 32 k.2.1) (orIn 3 4 (BitVec.ofNat 32 (k.1 - 1)) (orIn 2 21 (BitVec.ofNat 32 (i / k.1 * k.2.1 / 48000000)) (bset 24 (orIn 2 25 (BitVec.ofNat 32 (k.2.2 / 2 - 1)) (clear 7 8 (clear 3 4 (clear 2 21 (clear 2 25 r))))))))

/-- setup_hse, clock-stm32l4x.c:238-252 -/
def setupHse (hse : Nat) (w : Bool) (s : St) : Res St := if hse = 0 then .ok s else if w then .ok { s with cr := bset 16 s.cr } else .fail

/-- setup_pll, clock-stm32l4x.c:254-353: with an input under 16 MHz the first m is 0; the MSI asked, the HSI16 is taken -/
def setupPll (c : Cfg) (w : Bool) (s : St) : Res St :=
  if 4 ≤ c.pllsrc ∨ 80000000 < c.pll then .fail else if c.pll = 0 ∨ c.pllsrc = 0 then .ok { s with cr := bclr 24 s.cr } else
  if c.pllsrc = 3 ∧ c.hse = 0 then .fail else
  let i := if c.pllsrc = 3 then c.hse else 16000000
  let r := orIn 2 0 (if c.pllsrc = 3 then 3#32 else 2#32) (clear 2 0 s.pllcfgr)
  if i < 16000000 then .undef else
  match factors i c.pll with
  | none => .fail
  | some k => if w then .ok { s with pllcfgr := if s.cr.getLsbD 24 then s.pllcfgr else cfgOf i k r, cr := bset 24 s.cr, gate := gset s.gate 0x7c, pll := c.pll } else .fail

/-- the end of clock_stm32l4x_init, clock-stm32l4x.c:492-511 -/
def finish (c : Cfg) (e : Env) (f : Nat) (s : St) : Res St :=
  match Stm.bus 8 11 42000000 c.ahb c.apb1 c.apb2 f s.cfgr with
  | none => .fail
  | some b => if e.sw then .ok { s with cfgr := orIn 2 0 (BitVec.ofNat 32 c.sysclk) (clear 2 0 b.1), sysclk := f, ahb := b.2.1, apb1 := b.2.2.1, apb2 := b.2.2.2 } else .fail

/-- clock_stm32l4x_init, clock-stm32l4x.c:452-511: for the MSI it returns 0 at once -/
def init (c : Cfg) (e : Env) (s : St) : Res St :=
  if 4 ≤ c.sysclk ∨ c.ahb = 0 ∨ c.apb1 = 0 ∨ c.apb2 = 0 then .fail else
  (setupHse c.hse e.hse s).bind fun s => (setupPll c e.pll s).bind fun s =>
  match c.sysclk with
  | 0 => .ok s
  | 1 => if e.hsi then finish c e 16000000 { s with cr := bset 8 s.cr } else .fail
  | 2 => if c.hse = 0 then .fail else finish c e c.hse s
  | _ => if c.pll = 0 then .fail else finish c e s.pll s

/-- clock_stm32l4x_enable, clock-stm32l4x.c:513-533 -/
def enable (k : Nat) (s : St) : Option St := if 0xb9 ≤ k then none else if k / 32 < 6 then some { s with gate := gset s.gate k } else none
/-- clock_stm32l4x_disable, clock-stm32l4x.c:535-555 -/
def disable (k : Nat) (s : St) : Option St := if 0xb9 ≤ k then none else if k / 32 < 6 then some { s with gate := gclr s.gate k } else none

/-- clock_get_freq, clock-stm32l4x.c:557-573 -/
def getFreq (s : St) (k : Nat) : Option Nat :=
  match k with | 0 => some s.sysclk | 1 => some s.ahb | 2 => some s.apb1 | 8 => some s.apb2 | 12 => some 48000000 | 15 => some 32000 | 16 => some 32768 | _ => none

/-- the clocks (RM0394, 6.2 and 6.4); the MSI at its reset range; the 48 MHz clock is left out but for the enable of PLLQ -/
def hseHz (x : Nat) (s : St) : Option Hz := if s.cr.getLsbD 16 then some (x, 1) else none
def hsiHz (s : St) : Option Hz := if s.cr.getLsbD 8 then some (16000000, 1) else none
def msiHz (s : St) : Option Hz := if s.cr.getLsbD 0 then some (4000000, 1) else none
def inHz (x : Nat) (s : St) : Option Hz := match (get 2 0 s.pllcfgr).toNat with | 0 => none | 1 => msiHz s | 2 => hsiHz s | _ => hseHz x s
def vcoHz (x : Nat) (s : St) : Option Hz :=
  if s.cr.getLsbD 24 = false then none else (inHz x s).map fun f => (f.1 * (get 7 8 s.pllcfgr).toNat, f.2 * ((get 3 4 s.pllcfgr).toNat + 1))
def pllHz (x : Nat) (s : St) : Option Hz := if s.pllcfgr.getLsbD 24 then Hz.div (vcoHz x s) (2 * ((get 2 25 s.pllcfgr).toNat + 1)) else none
def sysHz (x : Nat) (s : St) : Option Hz := match (get 2 0 s.cfgr).toNat with | 0 => msiHz s | 1 => hsiHz s | 2 => hseHz x s | _ => pllHz x s
def hclkHz (x : Nat) (s : St) : Option Hz := Hz.div (sysHz x s) (Stm.hpreOf (get 4 4 s.cfgr).toNat)
def pclkHz (x t : Nat) (s : St) : Option Hz := Hz.div (hclkHz x s) (Stm.ppreOf (get 3 t s.cfgr).toNat)
def hw (x : Nat) (s : St) (k : Nat) : Option Hz :=
  match k with | 0 => sysHz x s | 1 => hclkHz x s | 2 => pclkHz x 8 s | 8 => pclkHz x 11 s | 15 => some (32000, 1) | _ => none

/-- the gates named by the driver (clock-stm32l4x.h:75-135); the bits are those of RM0394 6.4.16-6.4.21 -/
def gates : List Nat := [0x0, 0x1, 0x8, 0xc, 0x10, 0x20, 0x21, 0x22, 0x23, 0x24, 0x27, 0x2d, 0x30, 0x32, 0x48, 0x60, 0x61, 0x64, 0x65, 0x69, 0x6a, 0x6b, 0x6e, 0x6f, 0x71, 0x72, 0x73, 0x75, 0x76, 0x77, 0x78, 0x79, 0x7a, 0x7c, 0x7d, 0x7e, 0x7f,
  0x80, 0x81, 0x82, 0x85, 0xa0, 0xa7, 0xaa, 0xab, 0xac, 0xae, 0xb0, 0xb1, 0xb5, 0xb8]
def runs (s : St) (k : Nat) : Bool := gbit s.gate k

end L4
end Pico.Clock
