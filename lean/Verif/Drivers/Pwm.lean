/-
The PWM drivers (C81): pwm_set_period and pwm_set_duty_cycle of
  drivers/pwm: atsamx7x, atsamx7x_tc, avr, gd32vf103, nxp_emios, pic32mx, renesas_ra4_gpt, rp2040, sam3x, sam3x_tc, same5x_tc, stm32h7xx_tim, ti_epwm, tinyavr_tca
  staging/drivers/pwm: ch552, mc9s08ptxx_ftm, n76e003

The clock of the block runs at `F` Hz.  Numbers are naturals; conversions to narrower types and registers narrower than the value written are explicit `%`
(`unsigned long` has 32 bits; `size_t` has 32 bits, except on AVR where it has 16).  What the registers mean (cycles per count, counts per period) is taken from the
manuals and trusted.  Simplifications: edge-aligned waveforms (except avr); the clock divider chosen at setup is a parameter (`pre`; setup functions are modelled for
gd32vf103, avr and sam only); the active level is the one that lasts as long as the compare register says; waiting for synchronisation is not modelled.
-/
namespace Pico.Pwm

/-- what pwm_set_period leaves: cycles of the clock per count; ctx->ncycles; counts in a period as the hardware makes them -/
structure Per where
  pre : Nat
  n : Nat
  total : Nat
  deriving DecidableEq, Repr

/-- `(f / 1000000) * p` in 32 bits -/
def mhz (f p : Nat) : Nat := f / 1000000 * p % 2 ^ 32

/-- pwm-atsamx7x.c:231-239, pwm-sam3x.c:252-260; `w`: bits of the counter of the channel (the driver masks with 24 bits) -/
def sam (w F pre p : Nat) : Option Per :=
  if p = 0 then none
  else
    let n := mhz (F / pre) p
    some ⟨pre, n, n % 2 ^ 24 % 2 ^ w⟩

/-- pwm-atsamx7x_tc.c:244-250 (`w` = 16), pwm-sam3x_tc.c:182-188 (`w` = 32); WAVSEL = UP_RC -/
def tc (w F pre p : Nat) : Option Per :=
  let n := mhz (F / pre) p
  some ⟨pre, n, n % 2 ^ w⟩

/-- the divider selected by pwm_avr_settings.cs, from the data sheet -/
def avrPre : Nat → Nat
  | 1 => 1
  | 2 => 8
  | 3 => 64
  | 4 => 256
  | 5 => 1024
  | _ => 0

/-- set_clock_select, pwm-avr.c:67-83: ctx->prescale (before: `old`, 1 after pwm_avr_init) -/
def avrSelect (cs old : Nat) : Nat :=
  match cs with
  | 1 => 1
  | 2 => 8
  | 3 => 64
  | 5 => 1024
  | _ => old

/-- pwm_avr_waveform_t, pwm-avr.h:23-37 -/
inductive Wave where
  | fastIcr | fastOcr | phaseIcr | phaseOcr | fixed
  deriving DecidableEq, Repr

/-- counts in a period for a given TOP, data sheet -/
def Wave.counts (w : Wave) (top : Nat) : Nat :=
  match w with
  | .fastIcr | .fastOcr | .fixed => top + 1
  | .phaseIcr | .phaseOcr => 2 * top

/-- pwm-avr.c:273-304; `cs`, `prescale`: clock selected, ctx->prescale -/
def avr (wf : Wave) (cs prescale F p : Nat) : Option Per :=
  if p = 0 then none
  else
    let n := mhz (F / prescale) p % 2 ^ 16
    if n = 0 then none
    else if wf = .fixed then none
    else some ⟨avrPre cs, n, wf.counts n⟩

/-- the registers after pwm_set_duty_cycle, pwm-avr.c:306-323: TOP and the compare register of the output; `a`: the output is OCnA -/
def avrDuty (wf : Wave) (a : Bool) (n d : Nat) : Nat × Nat :=
  let ocr := d * n % 2 ^ 32 / 65536 % 2 ^ 16
  (if a && decide (wf = .fastOcr ∨ wf = .phaseOcr) then ocr else n, ocr)

/-- set_frequency and pwm_set_period, pwm-gd32vf103.c:156-173, 311-323; `f`: frequency of the settings.  The hardware divides by PSC + 1 -/
def gd32 (F f p : Nat) : Option Per :=
  if f = 0 ∨ F / f > 0xffff ∨ p = 0 then none
  else
    let n := mhz f p
    if n ≤ 0xffff then some ⟨F / f + 1, n, n + 1⟩ else none

/-- pwm-nxp_emios.c:160-177; `pre` = gpre * ucpre; the register has 24 bits (mpc5777c) -/
def emios (F pre p : Nat) : Option Per :=
  if p = 0 then none
  else
    let n := mhz (F / pre) p
    if n = 0 then none else if n < 0x100000 then some ⟨pre, n, n % 2 ^ 24⟩ else none

/-- the loops of pwm-pic32mx.c:123-136 and pwm-renesas_ra4_gpt.c:215-229 -/
def search (F p : Nat) : List Nat → Option Per
  | [] => none
  | pre :: l =>
    let n := mhz (F / pre) p
    if n ≤ 0xffff then some ⟨pre, n, n % 2 ^ 16 + 1⟩ else search F p l

/-- pwm-pic32mx.c:111-141 -/
def pic32 (F p : Nat) : Option Per := if p = 0 then none else search F p [1, 2, 4, 8, 16, 32, 64, 256]

/-- pwm-renesas_ra4_gpt.c:204-233 -/
def renesas (F p : Nat) : Option Per := if p = 0 then none else search F p [1, 4, 16, 64, 256, 1024]

/-- pwm-rp2040.c:86-108; `div`: ctx->div (1 after pwm_rp2040_pwm_init); gives the divider kept in the context too -/
def rp2040 (div F p : Nat) : Option (Per × Nat) :=
  if p = 0 then none
  else
    let n := mhz (F / div) p
    let (div, n) := if n > 0xffff then (n / 0xffff + 1, n / (n / 0xffff + 1)) else (div, n)
    if n = 0 then none else some (⟨div % 256, n, n + 1⟩, div)

/-- pwm-same5x_tc.c:240-286; `bits`: 8, 16 or 32, MPWM in the last two -/
def same5x (bits F pre p : Nat) : Option Per :=
  let n := mhz (F / pre) p
  if n < 2 ^ bits then some ⟨pre, n, n % 2 ^ bits + 1⟩ else none

/-- the loop of pwm-stm32h7xx_tim.c:391-394, from psc = `k` + 1 on -/
def stmLoop (F p : Nat) : Nat → Nat → Option Per
  | 0, _ => none
  | fuel + 1, k =>
    let n := mhz (F / (k + 1)) p
    if n > 0xffff then stmLoop F p fuel (k + 1) else some ⟨k + 1, n, n + 1⟩

/-- pwm-stm32h7xx_tim.c:381-402; at most F / 1000000 + 1 turns (`stm_ends`); PSC has 16 bits -/
def stm32 (F p : Nat) : Option Per :=
  if p = 0 then none
  else match stmLoop F p (F / 1000000 + 1) 0 with
    | none => none
    | some q => if q.n = 0 then none else some q

/-- pwm-ti_epwm.c:440-453, counting up -/
def epwm (F pre p : Nat) : Option Per :=
  if p = 0 then none
  else
    let n := mhz (F / pre) p
    if n = 0 then none else some ⟨pre, n, n % 2 ^ 16 + 1⟩

/-- pwm-tinyavr_tca.c:148-161 -/
def tinyavr (F pre p : Nat) : Option Per :=
  if p = 0 then none
  else
    let n := mhz (F / pre) p % 2 ^ 16
    some ⟨pre, n, n % 2 ^ 16 + 1⟩

/-- the loop of pwm-mc9s08ptxx_ftm.c:173-176: mod, ps -/
def ftmLoop : Nat → Nat → Nat → Nat × Nat
  | 0, mod, ps => (mod, ps)
  | fuel + 1, mod, ps => if mod > 65535 then ftmLoop fuel (mod / 2) (ps + 1) else (mod, ps)

/-- staging pwm-mc9s08ptxx_ftm.c:161-199; `sc`: the prescaler (a power of 2) in SC before; SC is written back at the end, so that the new one is lost -/
def ftm (sc F p : Nat) : Option Per :=
  let r := ftmLoop 32 (mhz F p) 0
  if r.1 = 0 then none else some ⟨2 ^ sc, r.1, r.1 + 1⟩

/-- staging pwm-n76e003.c:176-195: PWMPL, PWMPH -/
def n76 (F pre p : Nat) : Option Per :=
  if p = 0 then none
  else
    let n := mhz (F / pre) p
    if n < 65536 then some ⟨pre, n, n % 256 + 256 * (n / 256 % 256) + 1⟩ else none

/-- staging pwm-ch552.c:42-53: 256 counts of PWM_CK_SE cycles; `none` if the divisor is 0 -/
def ch552 (F p : Nat) : Option Per :=
  if p = 0 ∨ 1000000 / p = 0 then none
  else some ⟨F / 256 / (1000000 / p) % 256, 256, 256⟩

/-! ### pwm_set_duty_cycle: the compare register -/

/-- `(duty_cycle * ncycles) >> 16` in 32 bits: atsamx7x:243, avr:310, nxp_emios:181, pic32mx:150, renesas_ra4_gpt:237, rp2040:112, sam3x:264, sam3x_tc:192, same5x_tc:324,
stm32h7xx_tim:407, tinyavr_tca:167, n76e003:213 -/
def shift16 (n d : Nat) : Nat := d * n % 2 ^ 32 / 65536

/-- pwm-atsamx7x_tc.c:255 -/
def shift16p (n d : Nat) : Nat := d * n % 2 ^ 32 / 65536 + 1

/-- `duty_cycle * ncycles / PWM_DUTY_CYCLE_MAX`: gd32vf103:328, ti_epwm:458, mc9s08ptxx_ftm:204 -/
def divMax (n d : Nat) : Nat := d * n % 2 ^ 32 / 65535

/-- pwm-ch552.c:57 -/
def shift8 (d : Nat) : Nat := d / 256

/-- pwm-pic32mx.c:147-151 -/
def pic32Duty (invert : Bool) (n d : Nat) : Nat := shift16 n (if invert then 65535 - d else d) % 2 ^ 16

/-! ### Specification -/

/-- the period lasts `p` microseconds, to one count of the timer: |pre * total / F - p / 10^6| <= pre / F, multiplied out -/
def PeriodOk (F p : Nat) (q : Per) : Prop :=
  0 < q.pre * q.total ∧ q.pre * q.total * 1000000 ≤ F * p + q.pre * 1000000 ∧ F * p ≤ q.pre * q.total * 1000000 + q.pre * 1000000

/-- the output is active for d / 65535 of the period, to `t` counts -/
def DutyOk (t d total c : Nat) : Prop := 65535 * c ≤ d * total + 65535 * t ∧ d * total ≤ 65535 * c + 65535 * t

end Pico.Pwm
