/-
The watchdog drivers (C85):
  drivers/wd: atmel_wdt, avr, gd32vf103_fwdgt, rp2040, sam3x, same5x, stm32h7xx_iwdg, ti_f28x, tinyavr
  pic32mx: WdPic.lean
  not modelled: staging mc9s08ptxx (no set-up function) and renesas_ra4_wdt (does not compile)

Time is counted in cycles of the clock of the watchdog (`Ev.tick`).  A watchdog that counts resets the system (`fired`) when `per` cycles have gone by since it was last
reloaded, or when it is reloaded less than `win` cycles after the last time.  What the registers mean, which writes the hardware ignores (write-once registers, timed
sequences, keys) follow the manuals and are trusted.  Simplifications: the phase of prescalers; waiting for synchronisation (SYNCBUSY, SR) ends at once; on rp2040 what
the reset reaches (PSM_WDSEL); starting an FWDGT/IWDG loads its reload value.
-/
namespace Pico.Wd

/-- what happens: a cycle of the clock, and the calls wd_refresh, wd_start, wd_stop -/
inductive Ev
  | tick | refresh | start | stop
  deriving DecidableEq, Repr

/-- registers; cycles since the last reload; the system was reset -/
structure St (R : Type) where
  r : R
  age : Nat
  fired : Bool

/-- what the registers say: counting, cycles to the reset, cycles during which a reload is not allowed -/
structure Cfg where
  on : Bool
  per : Nat
  win : Nat
  deriving DecidableEq, Repr

/-- hardware: a cycle -/
def tick {R : Type} (cfg : R → Cfg) (s : St R) : St R :=
  if (cfg s.r).on then { s with age := s.age + 1, fired := s.fired || decide ((cfg s.r).per ≤ s.age + 1) } else s

/-- hardware: a reload -/
def reload {R : Type} (cfg : R → Cfg) (s : St R) : St R :=
  { s with age := 0, fired := s.fired || ((cfg s.r).on && decide (s.age < (cfg s.r).win)) }

/-- hardware: counting begins, from the reload value, or does not change -/
def enable {R : Type} (cfg : R → Cfg) (r : R) (s : St R) : St R :=
  if (cfg s.r).on then { s with r := r } else { s with r := r, age := 0 }

def run {S : Type} (step : Ev → S → S) (l : List Ev) (s : S) : S := l.foldl (fun s e => step e s) s

/-- `unsigned long` -/
def m32 (x : Nat) : Nat := x % 2 ^ 32

/-! ### avr -/

/-- WDTCSR; MCUSR.WDRF: the last reset was caused by the watchdog; ctx->cycles -/
structure Avr where
  csr : BitVec 8
  wdrf : Bool
  cycles : Nat

/-- WDE; 2048 cycles of the 128 kHz clock times 2^WDP, WDP above 9 is reserved -/
def avrCfg (r : Avr) : Cfg :=
  let wdp := (r.csr.getLsbD 0).toNat + 2 * (r.csr.getLsbD 1).toNat + 4 * (r.csr.getLsbD 2).toNat + 8 * (r.csr.getLsbD 5).toNat
  ⟨r.csr.getLsbD 3, 2048 * 2 ^ wdp, 0⟩

/-- hardware: `WDTCSR = WDCE | WDE; WDTCSR = v`; the second write is accepted in the four cycles that follow the first, that is if no interrupt comes between (`irq`).
The first sets WDE and changes no other bit; WDE cannot be cleared while WDRF is set -/
def avrTimed (irq : Bool) (v : BitVec 8) (r : Avr) : Avr :=
  if irq then { r with csr := r.csr ||| 0x8 } else { r with csr := if r.wdrf then v ||| 0x8 else v }

/-- wd-avr.c:42-49 -/
def avrSetup (cycles : Nat) (s : St Avr) : Option (St Avr) := if cycles < 10 then some { s with r := { s.r with cycles := cycles } } else none

/-- wd_start, wd-avr.c:51-63 -/
def avrStart (irq : Bool) (s : St Avr) : St Avr :=
  let value := (BitVec.ofNat 8 s.r.cycles &&& 7) ||| (if s.r.cycles > 7 then 0x20 else 0) ||| 0x8
  let s := reload avrCfg s
  { s with r := avrTimed irq value s.r }

/-- wd_stop, wd-avr.c:65-74 -/
def avrStop (irq : Bool) (s : St Avr) : St Avr :=
  let s := reload avrCfg s
  { s with r := avrTimed irq 0 s.r }

/-- wd_refresh, wd-avr.c:76-80; no interrupt comes inside the timed sequences -/
def avrStep : Ev → St Avr → St Avr
  | .tick, s => tick avrCfg s
  | .refresh, s => reload avrCfg s
  | .start, s => avrStart false s
  | .stop, s => avrStop false s

/-! ### tinyavr -/

/-- CTRLA, ctx->ctrla -/
structure Tiny where
  ctrla : BitVec 8
  ctx : BitVec 8

def nib (b : BitVec 8) (i : Nat) : Nat := (b.getLsbD i).toNat + 2 * (b.getLsbD (i + 1)).toNat + 4 * (b.getLsbD (i + 2)).toNat + 8 * (b.getLsbD (i + 3)).toNat

/-- field n: 0 off, n: 2^(n+2) cycles of 1024 Hz; with a closed window, the period follows it -/
def tinyCyc (n : Nat) : Nat := if n = 0 then 0 else 2 ^ (n + 2)

def tinyCfg (r : Tiny) : Cfg := ⟨decide (nib r.ctrla 0 ≠ 0), tinyCyc (nib r.ctrla 4) + tinyCyc (nib r.ctrla 0), tinyCyc (nib r.ctrla 4)⟩

/-- wd-tinyavr.c:50-57 -/
def tinySetup (window period : Nat) (s : St Tiny) : Option (St Tiny) :=
  if window < 12 then
    if period < 12 then some { s with r := { s.r with ctx := ((BitVec.ofNat 8 window &&& 0xf) <<< 4) ||| (BitVec.ofNat 8 period &&& 0xf) } } else none
  else none

/-- wd-tinyavr.c:59-82; interrupts are held off by the hardware after the write to CCP; the first reload after enabling is always allowed -/
def tinyStep : Ev → St Tiny → St Tiny
  | .tick, s => tick tinyCfg s
  | .refresh, s => reload tinyCfg s
  | .start, s =>
    let on := (tinyCfg s.r).on
    let s := { s with r := { s.r with ctrla := s.r.ctx } }
    if on then reload tinyCfg s else { s with age := 0 }
  | .stop, s => { s with r := { s.r with ctrla := 0 } }

/-! ### same5x -/

structure Same where
  ctrla : BitVec 8
  config : BitVec 8

/-- ENABLE (bit 1), WEN (bit 2); PER and WINDOW n: 8 * 2^n cycles -/
def sameCfg (r : Same) : Cfg :=
  let w := if r.ctrla.getLsbD 2 then 8 * 2 ^ nib r.config 4 else 0
  ⟨r.ctrla.getLsbD 1, w + 8 * 2 ^ nib r.config 0, w⟩

/-- hardware: CONFIG and WEN are protected while the watchdog is enabled -/
def sameWrConfig (v : BitVec 8) (r : Same) : Same := if r.ctrla.getLsbD 1 then r else { r with config := v }
def sameWrCtrla (v : BitVec 8) (r : Same) : Same := if r.ctrla.getLsbD 1 then { r with ctrla := (v &&& ~~~ 0x4) ||| (r.ctrla &&& 0x4) } else { r with ctrla := v }

/-- wd-same5x.c:59-66 -/
def sameInit (s : St Same) : St Same := { s with r := sameWrCtrla 0 s.r }

/-- wd-same5x.c:78-90 -/
def sameSetup (period : Nat) (windowMode : Bool) (window : Nat) (s : St Same) : Option (St Same) :=
  if period < 12 then
    let r := sameWrConfig (BitVec.ofNat 8 period &&& 0xf) s.r
    if windowMode then
      if window < 12 then
        let r := sameWrConfig (r.config ||| ((BitVec.ofNat 8 window &&& 0xf) <<< 4)) r
        some { s with r := sameWrCtrla 0x4 r }
      else none
    else some { s with r := r }
  else none

/-- wd-same5x.c:92-107 -/
def sameStep : Ev → St Same → St Same
  | .tick, s => tick sameCfg s
  | .refresh, s => reload sameCfg s
  | .start, s => enable sameCfg (sameWrCtrla (s.r.ctrla ||| 0x2) s.r) s
  | .stop, s => { s with r := sameWrCtrla (s.r.ctrla &&& ~~~ 0x2) s.r }

/-! ### rp2040 -/

/-- CTRL.ENABLE, TICK.CYCLES, the value last loaded, ctx->load -/
structure Rp where
  en : Bool
  cycles : Nat
  loaded : Nat
  load : Nat

/-- the counter goes down by two (erratum RP2040-E1) every CYCLES cycles of the reference clock -/
def rpCfg (r : Rp) : Cfg := ⟨r.en, r.cycles * ((r.loaded + 1) / 2), 0⟩

/-- wd-rp2040.c:32-46; ctx->load does not fit in 24 bits -/
def rpInit (F : Nat) (s : St Rp) : Option (St Rp) :=
  if F = 0 then none
  else if F / 1000000 < 512 then some { s with r := { s.r with load := 0x1000000 * 2 - 1, cycles := F / 1000000 } } else none

/-- wd-rp2040.c:58-69 -/
def rpSetup (us : Nat) (s : St Rp) : Option (St Rp) :=
  if us = 0 then none
  else if m32 (us * 2) < 0x1000000 then some { s with r := { s.r with load := m32 (us * 2), loaded := m32 (us * 2) }, age := 0 } else none

/-- wd-rp2040.c:71-86; the counter is paused while ENABLE is 0 -/
def rpStep : Ev → St Rp → St Rp
  | .tick, s => tick rpCfg s
  | .refresh, s => { s with r := { s.r with loaded := s.r.load % 2 ^ 24 }, age := 0 }
  | .start, s => { s with r := { s.r with en := true } }
  | .stop, s => { s with r := { s.r with en := false } }

/-! ### gd32vf103_fwdgt and stm32h7xx_iwdg -/

/-- started, write access (key 0x5555), prescaler 4 * 2^psc, reload value, window -/
structure Iw where
  on : Bool
  access : Bool
  psc : Nat
  rld : Nat
  winr : Nat

/-- psc 6 and 7: 256 -/
def iwCfg (r : Iw) : Cfg := ⟨r.on, 4 * 2 ^ (min r.psc 6) * (r.rld + 1), 4 * 2 ^ (min r.psc 6) * (r.rld - r.winr)⟩

/-- hardware: a write to FWDGT_CTL or KR: 0x5555 gives access to the other registers, 0xcccc starts, 0xaaaa reloads; the others close the access.  Nothing stops it -/
def iwKey (k : Nat) (s : St Iw) : St Iw :=
  if k = 0x5555 then { s with r := { s.r with access := true } }
  else if k = 0xcccc then enable iwCfg { s.r with on := true, access := false } s
  else if k = 0xaaaa then reload iwCfg { s with r := { s.r with access := false } }
  else s

def iwPsc (v : Nat) (r : Iw) : Iw := if r.access then { r with psc := v % 8 } else r
def iwRld (v : Nat) (r : Iw) : Iw := if r.access then { r with rld := v % 4096 } else r
def iwWinr (v : Nat) (r : Iw) : Iw := if r.access then { r with winr := v % 4096 } else r

/-- the loop of wd-gd32vf103_fwdgt.c:60-68: psc_p2 and rld -/
def gdFind (nclk : Nat) : List Nat → Option (Nat × Nat)
  | [] => none
  | p :: l => if nclk / 2 ^ p ≤ 0xfff then some (p, nclk / 2 ^ p) else gdFind nclk l

/-- wd-gd32vf103_fwdgt.c:52-72; `F`: clock_get_freq -/
def gdSetup (F us : Nat) (s : St Iw) : Option (St Iw) :=
  if F = 0 then none
  else match gdFind (m32 (F * us) / 1000000) [2, 3, 4, 5, 6, 7, 8] with
    | none => none
    | some (p, rld) =>
      let s := iwKey 0x5555 s
      some { s with r := iwRld rld (iwPsc (p - 2) s.r) }

/-- wd-gd32vf103_fwdgt.c:74-89: wd_stop writes the key 0x5555 -/
def gdStep : Ev → St Iw → St Iw
  | .tick, s => tick iwCfg s
  | .refresh, s => iwKey 0xaaaa s
  | .start, s => iwKey 0xcccc s
  | .stop, s => iwKey 0x5555 s

/-- the loop of wd-stm32h7xx_iwdg.c:89-110: p, rl, win -/
def stmFind (F ms wms : Nat) : List (Nat × Nat) → Option (Nat × Nat × Nat)
  | [] => none
  | (p, pr) :: l =>
    let t := F / pr / 1000
    if m32 (ms * t) ≤ 0xfff ∧ m32 (wms * t) ≤ 0xfff then some (p, m32 (ms * t), m32 (wms * t)) else stmFind F ms wms l

/-- wd-stm32h7xx_iwdg.c:76-114; writing WINR reloads the counter -/
def stmSetup (F ms wms : Nat) (s : St Iw) : Option (St Iw) :=
  if ms = 0 ∨ wms = 0 ∨ ms < wms ∨ F = 0 then none
  else match stmFind F ms wms [(0, 4), (1, 8), (2, 16), (3, 32), (4, 64), (5, 128), (6, 256)] with
    | none => none
    | some (p, rl, win) =>
      let s := iwKey 0x5555 (iwKey 0xcccc s)
      some { s with r := iwWinr win (iwRld rl (iwPsc p s.r)), age := 0 }

/-- wd-stm32h7xx_iwdg.c:116-130: wd_stop does nothing -/
def stmStep : Ev → St Iw → St Iw
  | .tick, s => tick iwCfg s
  | .refresh, s => iwKey 0xaaaa s
  | .start, s => iwKey 0xcccc s
  | .stop, s => s

/-! ### atmel_wdt and sam3x -/

/-- WDT_MR; it was written since the reset -/
structure Sam where
  mr : BitVec 32
  locked : Bool

/-- WDDIS (bit 15), WDV (12 bits), slow clock / 128; WDD (12 bits at 16): a reload is not allowed while the counter is above it.  WDRSTEN (bit 13) off: no reset -/
def samCfg (r : Sam) : Cfg :=
  let v := (r.mr &&& 0xfff).toNat
  let d := ((r.mr >>> 16) &&& 0xfff).toNat
  ⟨!r.mr.getLsbD 15 && r.mr.getLsbD 13, 128 * v, 128 * (v - d)⟩

/-- hardware: WDT_MR can be written once -/
def samWr (v : BitVec 32) (s : St Sam) : St Sam := if s.r.locked then s else { s with r := ⟨v, true⟩, age := 0 }

/-- wd-atmel_wdt.c:64-71, wd-sam3x.c:67-74: wdv; `none`: an error, or a division by 0 -/
def samWdv (F ms : Nat) : Option Nat :=
  let freq := F / 128
  if freq = 0 ∨ 1000 / freq = 0 then none
  else
    let wdv := ms / (1000 / freq)
    if wdv = 0 ∨ 0xfff < wdv then none else some wdv

/-- wd-atmel_wdt.c:59-79 -/
def atSetup (F ms : Nat) (s : St Sam) : Option (St Sam) :=
  match samWdv F ms with
  | none => none
  | some wdv =>
    let mr := s.r.mr &&& ~~~ (0x20000000 ||| 0x0fff0000 ||| 0xfff)
    some (samWr (mr ||| ((BitVec.ofNat 32 wdv &&& 0xfff) <<< 16) ||| (BitVec.ofNat 32 wdv &&& 0xfff)) s)

/-- wd-atmel_wdt.c:81-96, wd-sam3x.c:82-97 -/
def samStep : Ev → St Sam → St Sam
  | .tick, s => tick samCfg s
  | .refresh, s => reload samCfg s
  | .start, s => samWr (s.r.mr &&& ~~~ 0x8000) s
  | .stop, s => samWr (s.r.mr ||| 0x8000) s

/-- wd-sam3x.c:41-51 -/
def s3Init (s : St Sam) : St Sam :=
  let s := samWr (s.r.mr ||| 0x8000) s
  samWr (s.r.mr ||| 0x2000) s

/-- wd-sam3x.c:63-80 -/
def s3Setup (F ms : Nat) (s : St Sam) : Option (St Sam) :=
  match samWdv F ms with
  | none => none
  | some wdv =>
    let s := samWr (s.r.mr &&& ~~~ 0xfff) s
    some (samWr (s.r.mr ||| ~~~ (BitVec.ofNat 32 wdv &&& 0xfff)) s)

/-! ### ti_f28x -/

/-- WDCR; SCSR.WDOVERRIDE -/
structure Ti where
  wdcr : BitVec 16
  override : Bool

/-- WDDIS (bit 6); 256 counts of 512 * prescaler cycles; WDPS 0, 1: 1, n: 2^(n-1).  No window (WDWCR_MIN = 0) -/
def tiCfg (r : Ti) : Cfg :=
  let ps := (r.wdcr.getLsbD 0).toNat + 2 * (r.wdcr.getLsbD 1).toNat + 4 * (r.wdcr.getLsbD 2).toNat
  ⟨!r.wdcr.getLsbD 6, 256 * 512 * 2 ^ (ps - 1), 0⟩

/-- hardware: a write to WDCR with the right WDCHK; WDDIS does not change when WDOVERRIDE is 0; WDCHK reads 0 -/
def tiWr (v : BitVec 16) (r : Ti) : Ti :=
  { r with wdcr := if r.override then v &&& ~~~ 0x38 else (v &&& ~~~ 0x78) ||| (r.wdcr &&& 0x40) }

/-- hardware: writing 1 to WDOVERRIDE clears it, until the next reset -/
def tiOverride (r : Ti) : Ti := { r with override := false }

/-- wd-ti_f28x.c:61-78, wdwcr_min = 0 -/
def tiSetup (wdps : Nat) (s : St Ti) : Option (St Ti) :=
  if wdps < 8 then some { s with r := tiWr (0x40 ||| (BitVec.ofNat 16 wdps &&& 7) ||| (5 <<< 3)) s.r } else none

/-- wd-ti_f28x.c:82-106; `SCSR |= WDOVERRIDE` writes 1 to it -/
def tiStep : Ev → St Ti → St Ti
  | .tick, s => tick tiCfg s
  | .refresh, s => reload tiCfg s
  | .start, s => enable tiCfg (tiWr (5 <<< 3) s.r) s
  | .stop, s => { s with r := let r := tiOverride s.r; tiWr (r.wdcr ||| (0x40 ||| (5 <<< 3))) r }

/-! ### Specification -/

/-- wd_start was called, and wd_stop was not called after it -/
def Started (l : List Ev) : Prop := ∃ a b, l = a ++ .start :: b ∧ .stop ∉ b

/-- at some time when the watchdog was wanted (`on`, of the events before), `P` cycles went by without a refresh; `quiet`: the events that are not refreshes -/
def Starved (on : List Ev → Prop) (quiet : Ev → Prop) (P : Nat) (l : List Ev) : Prop :=
  ∃ a b c, l = a ++ b ++ c ∧ on a ∧ (∀ e ∈ b, quiet e) ∧ P ≤ b.count .tick

/-- at some time when the watchdog was wanted, and had been reloaded (`loaded`), it was refreshed before `W` cycles went by -/
def Early (on loaded : List Ev → Prop) (quiet : Ev → Prop) (W : Nat) (l : List Ev) : Prop :=
  ∃ a b c, l = a ++ b ++ .refresh :: c ∧ on a ∧ loaded a ∧ (∀ e ∈ b, quiet e) ∧ b.count .tick < W

/-- `cycles` cycles of a clock of `F` Hz last `num / den` seconds, to `tol` cycles -/
def Lasts (F cycles num den tol : Nat) : Prop := cycles * den ≤ F * num + tol * den ∧ F * num ≤ cycles * den + tol * den

end Pico.Wd
