/-
The period of the tick: what arch_init / arch_timer_init program in the timer of each port.

A timer is clocked at `F` Hz, divided by `pre`; a tick comes every `counts` counts.  Numbers are naturals; every conversion of
the C code to a narrower type and every register narrower than the value written to it is an explicit `%`.  What the
registers mean (`pre`, and how many counts a value stands for) is taken from the manuals of the devices and trusted.
-/
namespace Pico.Tick

/-- a timer that runs: a tick every `counts` counts of `pre` cycles -/
structure Prog where
  pre : Nat
  counts : Nat
  deriving DecidableEq

/-- cycles from one tick to the next -/
def Prog.period (p : Prog) : Nat := p.pre * p.counts

/-! ## Specification -/

/-- **C65** The time between two ticks differs from `F / hz` cycles (a quotient of rationals, the inequalities are multiplied
by `hz`) by at most one count of the timer. -/
def Close (F hz : Nat) (p : Prog) : Prop :=
  F ≤ (p.period + p.pre) * hz ∧ p.period * hz ≤ F + p.pre * hz

/-- The timer runs, at the right frequency. -/
def Right (F hz : Nat) (p : Option Prog) : Prop := ∃ q, p = some q ∧ 0 < q.period ∧ Close F hz q

theorem div_bounds (F hz : Nat) (h : 0 < hz) : F / hz * hz ≤ F ∧ F < (F / hz + 1) * hz := by
  have h1 := Nat.div_add_mod F hz
  have h2 := Nat.mod_lt F h
  have h3 : hz * (F / hz) = F / hz * hz := Nat.mul_comm _ _
  constructor
  · omega
  · rw [Nat.add_mul, Nat.one_mul]; omega

/-- enough: within one count of the quotient of integers -/
theorem close_of {F hz : Nat} {p : Prog} (hz0 : 0 < hz) (h1 : F / hz < p.period + p.pre) (h2 : p.period ≤ F / hz + p.pre) :
    Close F hz p := by
  obtain ⟨b1, b2⟩ := div_bounds F hz hz0
  constructor
  · exact Nat.le_trans (Nat.le_of_lt b2) (Nat.mul_le_mul_right _ h1)
  · calc p.period * hz ≤ (F / hz + p.pre) * hz := Nat.mul_le_mul_right _ h2
      _ = F / hz * hz + p.pre * hz := Nat.add_mul _ _ _
      _ ≤ F + p.pre * hz := Nat.add_le_add_right b1 _

/-- too short -/
theorem not_close_lt {F hz : Nat} {p : Prog} (hz0 : 0 < hz) (h : p.period + p.pre < F / hz) : ¬ Close F hz p := by
  intro ⟨h1, _⟩
  have b := (div_bounds F hz hz0).1
  have h2 : (p.period + p.pre + 1) * hz ≤ F / hz * hz := Nat.mul_le_mul_right _ h
  rw [Nat.add_mul, Nat.one_mul] at h2
  omega

/-- too long -/
theorem not_close_gt {F hz : Nat} {p : Prog} (hz0 : 0 < hz) (h : F / hz + p.pre < p.period) : ¬ Close F hz p := by
  intro ⟨_, h1⟩
  have b := (div_bounds F hz hz0).2
  have h2 : (F / hz + 1 + p.pre) * hz ≤ p.period * hz := Nat.mul_le_mul_right _ (by omega)
  rw [Nat.add_mul] at h2
  omega

theorem right_some {F hz : Nat} {q : Prog} (hp : 0 < q.pre) (hc : 0 < q.counts) (h : Close F hz q) : Right F hz (some q) :=
  ⟨q, rfl, Nat.mul_pos hp hc, h⟩
theorem not_right_none {F hz : Nat} : ¬ Right F hz none := fun ⟨_, h, _⟩ => by cases h
theorem not_right_some {F hz : Nat} {q : Prog} (h : ¬ Close F hz q) : ¬ Right F hz (some q) := fun ⟨r, h1, _, h2⟩ =>
  h (by cases h1; exact h2)

/-- `x - 1` in unsigned arithmetic of `w` bits -/
def pred (w x : Nat) : Nat := (x + (2 ^ w - 1)) % 2 ^ w

theorem pred_pos {w x : Nat} (h0 : 0 < x) (h : x ≤ 2 ^ w) : pred w x = x - 1 := by
  have hp : 0 < 2 ^ w := Nat.two_pow_pos w
  unfold pred
  rw [show x + (2 ^ w - 1) = x - 1 + 2 ^ w by omega, Nat.add_mod_right, Nat.mod_eq_of_lt (by omega)]

/-! ## Cortex-M SysTick -/

/-- arch/arm/armv6-m/picoRTOS_port.c:46-49, armv7-m/picoRTOS_port.c:47-50, armv7e-m/picoRTOS_port.c:47-50: SYST_RVR is 24
bits wide; it counts from RVR down to 0; a reload value of 0 stops it (ARMv7-M ARM B3.3.1) -/
def systick (F hz : Nat) : Option Prog :=
  let rvr := pred 32 (F / hz) % 2 ^ 24
  if rvr = 0 then none else some ⟨1, rvr + 1⟩

theorem systick_right (F hz : Nat) (h0 : 0 < hz) (h1 : 2 ≤ F / hz) (h2 : F / hz ≤ 2 ^ 24) : Right F hz (systick F hz) := by
  unfold systick
  rw [pred_pos (by omega) (by omega), Nat.mod_eq_of_lt (by omega)]
  rw [if_neg (by omega)]
  refine right_some ?_ ?_ (close_of h0 ?_ ?_) <;> simp only [Prog.period] <;> omega

/-- Nothing refuses a longer period, and then it is not programmed (C65 is false): 200 MHz at 10 Hz. -/
theorem systick_wrong (F hz : Nat) (h0 : 0 < hz) (hF : F < 2 ^ 32) (h : 2 ^ 24 < F / hz) : ¬ Right F hz (systick F hz) := by
  have hd : F / hz ≤ F := Nat.div_le_self _ _
  unfold systick
  rw [pred_pos (by omega) (by omega)]
  by_cases hz' : (F / hz - 1) % 2 ^ 24 = 0
  · rw [if_pos hz']; exact not_right_none
  · rw [if_neg hz']
    refine not_right_some (not_close_lt h0 ?_)
    simp only [Prog.period]
    have hlt := Nat.mod_lt (F / hz - 1) (show 0 < 2 ^ 24 by decide)
    have hdm := Nat.div_add_mod (F / hz - 1) (2 ^ 24)
    have hq : 1 ≤ (F / hz - 1) / 2 ^ 24 := (Nat.le_div_iff_mul_le (by decide)).2 (by omega)
    omega

/-! ## AVR -/

/-- the prescaler chosen for `ocr`, avr/timer-tc0.c:48-63 and mach-attiny88/timer-tc0.c:39-56; `first` is what is recorded as
prescaler when there is none to apply -/
def tc0Pre (first ocr : Nat) : Nat :=
  if ocr < 0x100 then first else if ocr < 0x800 then 8 else if ocr < 0x4000 then 64 else if ocr < 0x10000 then 256 else 1024

/-- avr/timer-tc0.c:34-66 (megaAVR): OCR0A is one byte; the assertions of lines 46 and 65 leave the function before OCR0A and
the handler are set -/
def tc0 (F hz : Nat) : Option Prog :=
  let ocr := pred 32 (F / hz)
  if ocr < 0x40000 then
    let p := tc0Pre 0 ocr
    if p = 0 then none else some ⟨p, (ocr / p) % 256 + 1⟩
  else none

/-- mach-attiny88/timer-tc0.c:29-58, computed by the preprocessor (the case of F < hz, where OCR is negative, is not
modelled) -/
def tc0Tiny (F hz : Nat) : Option Prog :=
  let ocr := F / hz - 1
  if ocr < 0x40000 then some ⟨tc0Pre 1 ocr, (ocr / tc0Pre 1 ocr) % 256 + 1⟩ else none

theorem tc0_close {F hz p : Nat} (h0 : 0 < hz) (hp : 0 < p) (h1 : 1 ≤ F / hz) (h2 : F / hz - 1 < 256 * p) :
    Close F hz ⟨p, ((F / hz - 1) / p) % 256 + 1⟩ := by
  have hq : (F / hz - 1) / p < 256 := (Nat.div_lt_iff_lt_mul hp).2 (by omega)
  rw [Nat.mod_eq_of_lt hq]
  have hdm := Nat.div_add_mod (F / hz - 1) p
  have hm := Nat.mod_lt (F / hz - 1) hp
  refine close_of h0 ?_ ?_
  · simp only [Prog.period]; rw [Nat.mul_add]; omega
  · simp only [Prog.period]; rw [Nat.mul_add]; omega

theorem tc0_right (F hz : Nat) (h0 : 0 < hz) (h1 : 0x100 < F / hz) (h2 : F / hz ≤ 0x40000) : Right F hz (tc0 F hz) := by
  unfold tc0
  rw [pred_pos (by omega) (by omega), if_pos (by omega)]
  have key : ∃ p, tc0Pre 0 (F / hz - 1) = p ∧ 0 < p ∧ F / hz - 1 < 256 * p := by
    unfold tc0Pre
    rw [if_neg (by omega)]
    split
    · exact ⟨8, rfl, by omega, by omega⟩
    · split
      · exact ⟨64, rfl, by omega, by omega⟩
      · split
        · exact ⟨256, rfl, by omega, by omega⟩
        · exact ⟨1024, rfl, by omega, by omega⟩
  obtain ⟨p, e, hp, hb⟩ := key
  simp only [e]
  rw [if_neg (by omega)]
  exact right_some hp (Nat.succ_pos _) (tc0_close h0 hp (by omega) hb)

/-- A tick of 256 cycles or less stops the system at start (line 65: no prescaler is recorded as prescaler 0, which the
assertion refuses), although the timer can do it; and so do more than 2^18 cycles. -/
theorem tc0_wrong (F hz : Nat) (hF : F < 2 ^ 32) (h : F / hz ≤ 0x100 ∨ 0x40000 < F / hz) : tc0 F hz = none := by
  have hd : F / hz ≤ F := Nat.div_le_self _ _
  unfold tc0
  rcases Nat.eq_zero_or_pos (F / hz) with h0 | h0
  · rw [h0]
    rw [if_neg (by decide)]
  · rw [pred_pos h0 (by omega)]
    rcases h with h | h
    · rw [if_pos (by omega)]
      have e : tc0Pre 0 (F / hz - 1) = 0 := if_pos (by omega)
      simp only [e, if_true]
    · rw [if_neg (by omega)]

theorem tc0Tiny_right (F hz : Nat) (h0 : 0 < hz) (h1 : 1 ≤ F / hz) (h2 : F / hz ≤ 0x40000) : Right F hz (tc0Tiny F hz) := by
  unfold tc0Tiny
  simp only []
  rw [if_pos (by omega)]
  have key : ∃ p, tc0Pre 1 (F / hz - 1) = p ∧ 0 < p ∧ F / hz - 1 < 256 * p := by
    unfold tc0Pre
    split
    · exact ⟨1, rfl, by omega, by omega⟩
    · split
      · exact ⟨8, rfl, by omega, by omega⟩
      · split
        · exact ⟨64, rfl, by omega, by omega⟩
        · split
          · exact ⟨256, rfl, by omega, by omega⟩
          · exact ⟨1024, rfl, by omega, by omega⟩
  obtain ⟨p, e, hp, hb⟩ := key
  simp only [e]
  exact right_some hp (Nat.succ_pos _) (tc0_close h0 hp h1 hb)

/-- avr/timer-rtc.c:34-42: 32768 Hz, RTC_PER is 16 bits, counts from 0 to RTC_PER -/
def rtc (hz : Nat) : Option Prog := some ⟨1, pred 16 (32768 / hz) + 1⟩

theorem rtc_right (hz : Nat) (h0 : 0 < hz) (h1 : hz ≤ 32768) : Right 32768 hz (rtc hz) := by
  have : 1 ≤ 32768 / hz := (Nat.le_div_iff_mul_le h0).2 (by omega)
  have h2 : 32768 / hz ≤ 32768 := Nat.div_le_self _ _
  unfold rtc
  rw [pred_pos this (by omega)]
  refine right_some ?_ ?_ (close_of h0 ?_ ?_) <;> simp only [Prog.period] <;> omega

/-! ## HCS08 -/

/-- the loop of hcs08/mach-mc9s08ptxx/timer-mtim1.c:47-58; `n` prescalers are left, `none`: arch_break (nothing starts the
timer after it).  The counter counts from 0 to MOD. -/
def mtimLoop : (n ps mod : Nat) → Option Prog
  | 0, _, _ => none
  | n + 1, ps, mod => if mod ≤ 255 then some ⟨2 ^ ps, mod + 1⟩ else mtimLoop n (ps + 1) (mod / 2)

/-- hcs08/mach-mc9s08ptxx/timer-mtim1.c:42-62 -/
def mtim1 (F hz : Nat) : Option Prog := mtimLoop 9 0 (F / hz + 1)

theorem mtimLoop_eq : ∀ (n ps m : Nat), m < 256 * 2 ^ (n - 1) → 0 < n →
    ∃ k, mtimLoop n ps m = some ⟨2 ^ (ps + k), m / 2 ^ k + 1⟩ ∧ (0 < k → 128 ≤ m / 2 ^ k) := by
  intro n
  induction n with
  | zero => intro _ _ _ h; omega
  | succ n ih =>
    intro ps m hm _
    unfold mtimLoop
    by_cases h : m ≤ 255
    · rw [if_pos h]
      exact ⟨0, by simp, by omega⟩
    · rw [if_neg h]
      have hn : 0 < n := by
        rcases n with _ | n
        · simp at hm; omega
        · omega
      have hm2 : m / 2 < 256 * 2 ^ (n - 1) := by
        obtain ⟨n', rfl⟩ : ∃ n', n = n' + 1 := ⟨n - 1, by omega⟩
        simp only [Nat.add_sub_cancel] at hm ⊢
        rw [Nat.pow_succ] at hm
        omega
      obtain ⟨k, e, hk⟩ := ih (ps + 1) (m / 2) hm2 hn
      have hd : m / 2 / 2 ^ k = m / 2 ^ (k + 1) := by rw [Nat.div_div_eq_div_mul, Nat.pow_succ, Nat.mul_comm]
      refine ⟨k + 1, ?_, fun _ => ?_⟩
      · rw [e, hd, show ps + 1 + k = ps + (k + 1) by omega]
      · rcases Nat.eq_zero_or_pos k with hk0 | hk0
        · subst hk0; simp; omega
        · rw [← hd]; exact hk hk0

/-- The exact period, when there is one: one count more than the quotient rounded up (of one more than the number of cycles). -/
theorem mtim1_period (F hz : Nat) (h : F / hz + 1 < 2 ^ 16) :
    ∃ k, mtim1 F hz = some ⟨2 ^ k, (F / hz + 1) / 2 ^ k + 1⟩ ∧ (0 < k → 128 ≤ (F / hz + 1) / 2 ^ k) := by
  obtain ⟨k, e, hk⟩ := mtimLoop_eq 9 0 (F / hz + 1) (by omega) (by omega)
  rw [Nat.zero_add] at e
  exact ⟨k, e, hk⟩

/-- It is never shorter than asked and at most two counts longer. -/
theorem mtim1_partial (F hz : Nat) (h0 : 0 < hz) (h : F / hz + 1 < 2 ^ 16) :
    ∃ q, mtim1 F hz = some q ∧ F ≤ q.period * hz ∧ q.period * hz ≤ F + 2 * q.pre * hz := by
  obtain ⟨k, e, _⟩ := mtim1_period F hz h
  refine ⟨_, e, ?_⟩
  obtain ⟨b1, b2⟩ := div_bounds F hz h0
  have hp : 0 < 2 ^ k := Nat.two_pow_pos k
  have hdm := Nat.div_add_mod (F / hz + 1) (2 ^ k)
  have hm := Nat.mod_lt (F / hz + 1) hp
  simp only [Prog.period]
  rw [Nat.mul_add, Nat.mul_one]
  constructor
  · refine Nat.le_trans (Nat.le_of_lt b2) (Nat.mul_le_mul_right _ ?_)
    omega
  · refine Nat.le_trans (Nat.mul_le_mul_right hz (show _ ≤ F / hz + 2 * 2 ^ k by omega)) ?_
    rw [Nat.add_mul]; omega

/-- Up to 254 cycles it is two cycles too long (C65 is false). -/
theorem mtim1_wrong (F hz : Nat) (h0 : 0 < hz) (h : F / hz ≤ 254) :
    mtim1 F hz = some ⟨1, F / hz + 2⟩ ∧ ¬ Right F hz (mtim1 F hz) := by
  have e : mtim1 F hz = some ⟨1, F / hz + 2⟩ := by
    show (if F / hz + 1 ≤ 255 then _ else _) = _
    rw [if_pos (by omega)]
  refine ⟨e, ?_⟩
  rw [e]
  refine not_right_some (not_close_gt h0 ?_)
  simp only [Prog.period]; omega

theorem mtimLoop_none : ∀ (n ps m : Nat), 256 * 2 ^ n ≤ 2 * m → mtimLoop n ps m = none := by
  intro n
  induction n with
  | zero => intro _ _ _; rfl
  | succ n ih =>
    intro ps m hm
    have h1 : 1 ≤ 2 ^ n := Nat.one_le_two_pow
    have h2 : 2 ^ (n + 1) = 2 * 2 ^ n := by rw [Nat.pow_succ, Nat.mul_comm]
    rw [h2] at hm
    unfold mtimLoop
    rw [if_neg (by omega)]
    exact ih _ _ (by omega)

/-- From 65535 cycles on the system stops at start. -/
theorem mtim1_none (F hz : Nat) (h : 2 ^ 16 ≤ F / hz + 1) : mtim1 F hz = none :=
  mtimLoop_none 9 0 _ (by omega)

/-- hcs08/mach-mc9s08ptxx/timer-rtc.c:43-51: bus clock, no division; MODH:MODL is 16 bits, counts from 0 to it -/
def hcsRtc (F hz : Nat) : Option Prog := some ⟨1, (F / hz + 1) % 65536 + 1⟩

theorem hcsRtc_wrong (F hz : Nat) (h0 : 0 < hz) : ¬ Right F hz (hcsRtc F hz) := by
  unfold hcsRtc
  apply not_right_some
  rcases Nat.lt_or_ge (F / hz + 1) 65536 with h | h
  · refine not_close_gt h0 ?_
    simp only [Prog.period]; omega
  · refine not_close_lt h0 ?_
    simp only [Prog.period]; omega

/-- two cycles too long if it fits -/
theorem hcsRtc_partial (F hz : Nat) (h : F / hz + 1 < 65536) : hcsRtc F hz = some ⟨1, F / hz + 2⟩ := by
  unfold hcsRtc
  rw [Nat.mod_eq_of_lt h]

/-! ## STM8 auto-wakeup unit -/

/-- stm8/mach-stm8s/timer-awu.c:57-60 -/
def awuLoop (awutb apr : Nat) : Nat × Nat :=
  if apr > 64 then awuLoop (awutb + 1) (apr / 2) else (awutb, apr)
termination_by apr

/-- stm8/mach-stm8s/timer-awu.c:52-67: LSI, 128 kHz; `unsigned int` is 16 bits.  The time base AWUTB = k (1 to 13) divides by
2^(k-1), and APR_DIV = APR + 2 (RM0016 table 26). -/
def awu (hz : Nat) : Option Prog :=
  let r := awuLoop 1 ((128000 / hz) % 65536)
  some ⟨2 ^ (r.1 % 16 - 1), (pred 16 (pred 16 r.2)) % 64 + 2⟩

theorem awuLoop_eq : ∀ (n apr k : Nat), apr ≤ n → 2 ≤ apr →
    ∃ j, awuLoop k apr = (k + j, apr / 2 ^ j) ∧ apr / 2 ^ j ≤ 64 ∧ 2 ≤ apr / 2 ^ j ∧ (0 < j → 2 ^ (j + 5) < apr) := by
  intro n
  induction n with
  | zero => intro apr k h1 h2; omega
  | succ n ih =>
    intro apr k h1 h2
    unfold awuLoop
    by_cases h : apr > 64
    · rw [if_pos h]
      obtain ⟨j, e, h3, h4, h5⟩ := ih (apr / 2) (k + 1) (by omega) (by omega)
      have hd : apr / 2 / 2 ^ j = apr / 2 ^ (j + 1) := by rw [Nat.div_div_eq_div_mul, Nat.pow_succ, Nat.mul_comm]
      refine ⟨j + 1, ?_, by rw [← hd]; exact h3, by rw [← hd]; exact h4, fun _ => ?_⟩
      · rw [e, hd, show k + 1 + j = k + (j + 1) by omega]
      · rcases Nat.eq_zero_or_pos j with hj | hj
        · subst hj; exact h
        · have h6 := h5 hj
          rw [show j + 1 + 5 = j + 5 + 1 by omega, Nat.pow_succ]
          omega
    · rw [if_neg h]
      exact ⟨0, by simp, by simp; omega, by simp; omega, by omega⟩

theorem awu_right (hz : Nat) (h0 : 2 ≤ hz) (h1 : hz ≤ 64000) : Right 128000 hz (awu hz) := by
  have h2 : 2 ≤ 128000 / hz := (Nat.le_div_iff_mul_le (by omega)).2 (by omega)
  have h3 : 128000 / hz ≤ 64000 := by
    have : 128000 / hz ≤ 128000 / 2 := Nat.div_le_div_left h0 (by omega)
    omega
  unfold awu
  rw [Nat.mod_eq_of_lt (show 128000 / hz < 65536 by omega)]
  obtain ⟨j, e, h4, h5, h6⟩ := awuLoop_eq _ (128000 / hz) 1 (Nat.le_refl _) h2
  rw [e]
  simp only []
  have hj : j ≤ 10 := by
    rcases Nat.lt_or_ge 10 j with h | h
    · have h7 := h6 (by omega)
      have h8 : 2 ^ 16 ≤ 2 ^ (j + 5) := Nat.pow_le_pow_right (by decide) (by omega)
      omega
    · exact h
  rw [Nat.mod_eq_of_lt (show 1 + j < 16 by omega), show 1 + j - 1 = j by omega]
  have hp : 0 < 2 ^ j := Nat.two_pow_pos j
  have hdm := Nat.div_add_mod (128000 / hz) (2 ^ j)
  have hm := Nat.mod_lt (128000 / hz) hp
  have e2 : pred 16 (pred 16 (128000 / hz / 2 ^ j)) % 64 + 2 = 128000 / hz / 2 ^ j := by
    generalize 128000 / hz / 2 ^ j = q at h4 h5
    rw [pred_pos (show 0 < q by omega) (by omega), pred_pos (show 0 < q - 1 by omega) (by omega), Nat.mod_eq_of_lt (by omega)]
    omega
  rw [e2]
  refine right_some ?_ ?_ (close_of (by omega) ?_ ?_) <;> simp only [Prog.period] <;> omega

/-- At 1 Hz the period does not fit in 16 bits, and ticks come about twice too fast. -/
theorem awu_wrong : awu 1 = some ⟨1024, 61⟩ ∧ ¬ Right 128000 1 (awu 1) := by
  have e : awu 1 = some ⟨1024, 61⟩ := by
    unfold awu
    rw [show 128000 / 1 % 65536 = 62464 from rfl]
    have : awuLoop 1 62464 = (11, 61) := by
      repeat (rw [awuLoop]; simp only [gt_iff_lt, Nat.reduceLT, if_true, if_false, Nat.reduceDiv, Nat.reduceAdd])
    rw [this]
    decide
  exact ⟨e, by rw [e]; exact not_right_some (not_close_lt (by decide) (by decide))⟩

/-! ## 8051 -/

/-- 8051/mach-cy7c6801xa/timer-t2.c:43-61, mach-ch552/timer-t2.c:48-70: timer 2 counts up from RCAP2 to 65535 and reloads;
`unsigned int` is 16 bits -/
def t2 (F hz : Nat) : Option Prog :=
  let period := F / hz
  if period > 0xffff then
    some ⟨12, 65536 - (65535 + 65536 - (period / 12) % 65536 + 1) % 65536⟩
  else
    some ⟨4, 65536 - (65535 + 65536 - (period / 4) % 65536 + 1) % 65536⟩

theorem t2_right (F hz : Nat) (h0 : 0 < hz) (h1 : 4 ≤ F / hz) (h2 : F / hz < 12 * 65536) : Right F hz (t2 F hz) := by
  unfold t2
  simp only []
  split
  · refine right_some ?_ ?_ (close_of h0 ?_ ?_) <;> simp only [Prog.period] <;> omega
  · refine right_some ?_ ?_ (close_of h0 ?_ ?_) <;> simp only [Prog.period] <;> omega

/-- Longer periods are cut (48 MHz at less than 62 Hz on cy7c6801xa). -/
theorem t2_wrong (F hz : Nat) (h0 : 0 < hz) (h : 12 * 65537 < F / hz) : ¬ Right F hz (t2 F hz) := by
  unfold t2
  simp only []
  rw [if_pos (by omega)]
  refine not_right_some (not_close_lt h0 ?_)
  simp only [Prog.period]
  omega

/-- 8051/mach-mcs51/timer-t2.c:42-55: 12 cycles per count.  With DCEN the direction is given by a pin: up, from RCAP2 to
65535; down, from 65535 to RCAP2 (`up`). -/
def t2mcs (up : Bool) (F hz : Nat) : Option Prog :=
  let value := 65535 - (F / hz / 12) % 65536
  some ⟨12, if up = true then 65536 - value else 65535 - value⟩

theorem t2mcs_right (up : Bool) (F hz : Nat) (h0 : 0 < hz) (h1 : 12 ≤ F / hz) (h : F / hz < 12 * 65536) : Right F hz (t2mcs up F hz) := by
  unfold t2mcs
  refine right_some ?_ ?_ (close_of h0 ?_ ?_) <;> simp only [Prog.period] <;> generalize F / hz = n at h h1 ⊢ <;> cases up <;> simp <;> omega

theorem t2mcs_wrong (up : Bool) (F hz : Nat) (h0 : 0 < hz) (h : 12 * 65540 < F / hz) : ¬ Right F hz (t2mcs up F hz) := by
  unfold t2mcs
  refine not_right_some (not_close_lt h0 ?_)
  simp only [Prog.period]
  cases up <;> simp <;> omega

/-- 8051/mach-n76e003/timer-t2.c:54-67: 16 cycles per count, from 0 to RCMP2, then cleared (`extra`: whether that takes one
count, which the data sheet leaves open) -/
def t2n76 (extra : Bool) (F hz : Nat) : Option Prog :=
  some ⟨16, (F / hz / 16) % 65536 + (if extra = true then 1 else 0)⟩

theorem t2n76_right (extra : Bool) (F hz : Nat) (h0 : 0 < hz) (h1 : 16 ≤ F / hz) (h : F / hz < 16 * 65536) :
    Right F hz (t2n76 extra F hz) := by
  unfold t2n76
  refine right_some ?_ ?_ (close_of h0 ?_ ?_) <;> simp only [Prog.period] <;> generalize F / hz = n at h h1 ⊢ <;> cases extra <;> simp <;> omega

theorem t2n76_wrong (extra : Bool) (F hz : Nat) (h0 : 0 < hz) (h : 16 * 65540 < F / hz) :
    ¬ Right F hz (t2n76 extra F hz) := by
  unfold t2n76
  refine not_right_some (not_close_lt h0 ?_)
  simp only [Prog.period]
  cases extra <;> simp <;> omega

/-- 8051/mach-n76e003/timer-wkt.c:37-60: LIRC, 10 kHz; the 8-bit counter goes up from RWK to 255 -/
def wkt (hz : Nat) : Option Prog :=
  let period := 10000 / hz
  let p := if period > 4095 then 64 else if period > 1023 then 16 else if period > 255 then 4 else 1
  some ⟨p, 256 - (256 - period / p) % 256⟩

theorem wkt_right (hz : Nat) (h0 : 0 < hz) (h1 : hz ≤ 10000) : Right 10000 hz (wkt hz) := by
  have h2 : 1 ≤ 10000 / hz := (Nat.le_div_iff_mul_le h0).2 (by omega)
  have h3 : 10000 / hz ≤ 10000 := Nat.div_le_self _ _
  unfold wkt
  simp only []
  refine right_some ?_ ?_ (close_of h0 ?_ ?_) <;> simp only [Prog.period] <;> split <;> (try split) <;> (try split) <;> omega

/-! ## RISC-V, PowerPC, C28x, MIPS -/

/-- timers with a 32-bit period or reload register: counts of the quotient of the frequencies, of `pre` cycles each
* rv32ec STK, riscv/rv32ec/mach-ch32v003/timer-stk.c:31-39, pre = 1
* rv32imac, riscv/rv32imac/picoRTOS_port.c:24-27, pre = 1 (C58 for the comparator)
* e200 decrementer, powerpc/e200z7/timer-dec.c:22-29, pre = 1
* e200z4 PIT, mach-mpc574x/timer-pit.c:68, pre = 1 (cycles of the clock of the PIT)
* e200z4 STM, mach-mpc574x/timer-stm.c:58, pre = 2
* C28x CPU timer 2, c2000/c28x/picoRTOS_port.c:51, pre = 1
* MIPS core timer, mips/m51xx/picoRTOS_port.c:44-45, pre = 2 -/
def wide (pre F hz : Nat) : Option Prog := some ⟨pre, (F / hz / pre) % 2 ^ 32⟩

theorem wide_right (pre F hz : Nat) (h0 : 0 < hz) (hp : 0 < pre) (h : pre ≤ F / hz) (hF : F < 2 ^ 32) :
    Right F hz (wide pre F hz) := by
  have h1 : F / hz / pre ≤ F := Nat.le_trans (Nat.div_le_self _ _) (Nat.div_le_self _ _)
  unfold wide
  rw [Nat.mod_eq_of_lt (by omega)]
  have hdm := Nat.div_add_mod (F / hz) pre
  have hm := Nat.mod_lt (F / hz) hp
  have hq : 1 ≤ F / hz / pre := (Nat.le_div_iff_mul_le hp).2 (by omega)
  refine right_some ?_ ?_ (close_of h0 ?_ ?_) <;> simp only [Prog.period] <;> omega

/-- e200z7 STM, powerpc/e200z7/mach-mpc577x/timer-stm.c:54-75: the clock of the STM is that of the core divided by
2^(FMPERDIV+1), where FMPERDIV is a field of the register at ADDR_SIU + 0x9a0.  The code reads a word at
`(uint32_t*)ADDR_SIU + 0x9a0`, that is at ADDR_SIU + 0x2680.  `siu` is memory by offset from ADDR_SIU. -/
def fm (w : BitVec 32) : Nat := ((w >>> 20) &&& 3#32).toNat
def stmZ7 (siu : Nat → BitVec 32) (F hz : Nat) : Option Prog :=
  some ⟨2 ^ (fm (siu 0x9a0) + 1), F / hz / 2 ^ (fm (siu (4 * 0x9a0)) + 1)⟩

theorem fm_le (w : BitVec 32) : fm w ≤ 3 := by
  unfold fm
  rw [BitVec.toNat_and]
  exact Nat.and_le_right

theorem stmZ7_partial (siu : Nat → BitVec 32) (F hz : Nat) (h0 : 0 < hz) (hN : 16 ≤ F / hz)
    (h : fm (siu (4 * 0x9a0)) = fm (siu 0x9a0)) :
    Right F hz (stmZ7 siu F hz) := by
  unfold stmZ7
  rw [h]
  have hp : 0 < 2 ^ (fm (siu 0x9a0) + 1) := Nat.two_pow_pos _
  have hdm := Nat.div_add_mod (F / hz) (2 ^ (fm (siu 0x9a0) + 1))
  have hm := Nat.mod_lt (F / hz) hp
  have h16 : 2 ^ (fm (siu 0x9a0) + 1) ≤ 16 :=
    Nat.pow_le_pow_right (n := 2) (j := 4) (by decide) (by have := fm_le (siu 0x9a0); omega)
  have hq : 1 ≤ F / hz / 2 ^ (fm (siu 0x9a0) + 1) := (Nat.le_div_iff_mul_le hp).2 (by omega)
  refine right_some ?_ ?_ (close_of h0 ?_ ?_) <;> simp only [Prog.period] <;> omega

/-- The right register does not matter: if the other one reads as 0 while the clock of the STM is divided by more than 2, the
period is at least doubled (for ticks of 64 cycles or more). -/
theorem stmZ7_wrong (siu : Nat → BitVec 32) (F hz : Nat) (h0 : 0 < hz) (h : fm (siu (4 * 0x9a0)) = 0)
    (h1 : 0 < fm (siu 0x9a0)) (hN : 64 ≤ F / hz) : ¬ Right F hz (stmZ7 siu F hz) := by
  unfold stmZ7
  rw [h]
  refine not_right_some (not_close_gt h0 ?_)
  simp only [Prog.period]
  have h3 := fm_le (siu 0x9a0)
  generalize fm (siu 0x9a0) = f at h1 h3
  have hf : f = 1 ∨ f = 2 ∨ f = 3 := by omega
  rcases hf with rfl | rfl | rfl <;> simp only [Nat.reduceAdd, Nat.reducePow] <;> omega

/-- e200 decrementer: timer-dec.c:26 clears TBEN (bit 14) of HID0, which enables the time base and the decrementer, whatever it
was -/
def hid0 (w : BitVec 32) : BitVec 32 := w &&& ~~~((1#32 <<< 14) ||| (1#32 <<< 13))

theorem dec_disabled (w : BitVec 32) : (hid0 w).getLsbD 14 = false := by
  unfold hid0
  rw [BitVec.getLsbD_and]
  rw [show (~~~((1#32 <<< 14) ||| (1#32 <<< 13))).getLsbD 14 = false by decide, Bool.and_false]

/-! ## RP2040 -/

/-- the least divider from `div` on with a quotient of at most 65535, arm/armv6-m/mach-rp2040/picoRTOS-SMP_port.c:55-60 -/
def rpDiv (n div : Nat) : Nat := if n / div > 0xffff then rpDiv n (div + 1) else div
termination_by n - div
decreasing_by
  rename_i h
  have hd : 0 < div := by
    rcases Nat.eq_zero_or_pos div with h0 | h0
    · subst h0; simp at h
    · exact h0
  have h1 : 65536 * div ≤ n := (Nat.le_div_iff_mul_le hd).1 h
  omega

/-- arm/armv6-m/mach-rp2040/picoRTOS-SMP_port.c:52-70: the integer part of the divider is 8 bits (11:4 of PWM_DIV; 0 is not a
divider), the counter goes from 0 to PWM_TOP, 16 bits -/
def rpPwm (F hz : Nat) : Option Prog :=
  let div := rpDiv (F / hz) 1
  if div % 256 = 0 then none else some ⟨div % 256, pred 16 (F / hz / div) + 1⟩

theorem rpDiv_spec : ∀ (k n div : Nat), n - div ≤ k → 0 < div → (1 < div → 65536 * (div - 1) ≤ n) →
    0 < rpDiv n div ∧ n / rpDiv n div ≤ 0xffff ∧ (1 < rpDiv n div → 65536 * (rpDiv n div - 1) ≤ n) := by
  intro k
  induction k with
  | zero =>
    intro n div hk hd hb
    unfold rpDiv
    by_cases h : n / div > 0xffff
    · have h1 : 65536 * div ≤ n := (Nat.le_div_iff_mul_le hd).1 h
      omega
    · rw [if_neg h]; exact ⟨hd, by omega, hb⟩
  | succ k ih =>
    intro n div hk hd hb
    unfold rpDiv
    by_cases h : n / div > 0xffff
    · have h1 : 65536 * div ≤ n := (Nat.le_div_iff_mul_le hd).1 h
      rw [if_pos h]
      exact ih n (div + 1) (by omega) (by omega) (fun _ => h1)
    · rw [if_neg h]; exact ⟨hd, by omega, hb⟩

theorem rpPwm_right (F hz : Nat) (h0 : 0 < hz) (h1 : 1 ≤ F / hz) (h2 : F / hz < 65536 * 255) : Right F hz (rpPwm F hz) := by
  obtain ⟨a, b, c⟩ := rpDiv_spec _ (F / hz) 1 (Nat.le_refl _) (by omega) (by omega)
  unfold rpPwm
  simp only []
  generalize hd : rpDiv (F / hz) 1 = d at a b c
  have hd256 : d < 256 := by
    rcases Nat.lt_or_ge 1 d with h | h
    · have := c h; omega
    · omega
  have hdn : d ≤ F / hz := by
    rcases Nat.lt_or_ge 1 d with h | h
    · have := c h; omega
    · omega
  rw [Nat.mod_eq_of_lt hd256, if_neg (by omega)]
  have hq : 1 ≤ F / hz / d := (Nat.le_div_iff_mul_le a).2 (by omega)
  rw [pred_pos hq (by omega), show F / hz / d - 1 + 1 = F / hz / d by omega]
  have hdm := Nat.div_add_mod (F / hz) d
  have hm := Nat.mod_lt (F / hz) a
  refine right_some ?_ ?_ (close_of h0 ?_ ?_) <;> simp only [Prog.period] <;> omega

/-- the divider does not fit: 125 MHz at 7 Hz -/
theorem rpPwm_wrong (F hz : Nat) (h0 : 0 < hz) (h : 65536 * 256 ≤ F / hz) : ¬ Right F hz (rpPwm F hz) := by
  obtain ⟨a, b, c⟩ := rpDiv_spec _ (F / hz) 1 (Nat.le_refl _) (by omega) (by omega)
  unfold rpPwm
  simp only []
  generalize hd : rpDiv (F / hz) 1 = d at a b c
  have hdm := Nat.div_add_mod (F / hz) d
  have hm := Nat.mod_lt (F / hz) a
  have hd2 : 257 ≤ d := by
    rcases Nat.lt_or_ge d 257 with h' | h'
    · exfalso
      have : d * (F / hz / d) ≤ 256 * 65535 := Nat.mul_le_mul (by omega) b
      omega
    · exact h'
  by_cases hz' : d % 256 = 0
  · rw [if_pos hz']; exact not_right_none
  · rw [if_neg hz']
    refine not_right_some (not_close_lt h0 ?_)
    have hq : 1 ≤ F / hz / d := (Nat.le_div_iff_mul_le a).2 (by
      have := c (by omega); omega)
    rw [pred_pos hq (by omega), show F / hz / d - 1 + 1 = F / hz / d by omega]
    simp only [Prog.period]
    have h256 : d % 256 ≤ 255 := by omega
    have : d % 256 * (F / hz / d) ≤ 255 * 65535 := Nat.mul_le_mul h256 b
    omega

/-! ## Hosts -/

/-- pthread/linux/picoRTOS_port.c:74-79: microseconds; an interval of 0 stops the timer -/
def itimer (hz : Nat) : Option Prog :=
  let us := 1 / hz * 1000000 + (1000000 / hz) % 1000000
  if us = 0 then none else some ⟨1, us⟩

theorem itimer_right (hz : Nat) (h0 : 0 < hz) (h1 : hz ≤ 1000000) : Right 1000000 hz (itimer hz) := by
  have h2 : 1 ≤ 1000000 / hz := (Nat.le_div_iff_mul_le h0).2 (by omega)
  unfold itimer
  simp only []
  rcases Nat.lt_or_ge 1 hz with h | h
  · have h3 : 1000000 / hz < 1000000 := Nat.div_lt_self (by omega) h
    rw [Nat.div_eq_of_lt h, Nat.mod_eq_of_lt h3, if_neg (by omega)]
    refine right_some ?_ ?_ (close_of h0 ?_ ?_) <;> simp only [Prog.period] <;> omega
  · have : hz = 1 := by omega
    subst this
    exact right_some (by decide) (by decide) (close_of h0 (by decide) (by decide))

/-- win32/picoRTOS_port.c:75: milliseconds, without what the tick and Sleep themselves take -/
def sleepMs (hz : Nat) : Option Prog := if 1000 / hz = 0 then none else some ⟨1, 1000 / hz⟩

theorem sleepMs_right (hz : Nat) (h0 : 0 < hz) (h1 : hz ≤ 1000) : Right 1000 hz (sleepMs hz) := by
  have h2 : 1 ≤ 1000 / hz := (Nat.le_div_iff_mul_le h0).2 (by omega)
  unfold sleepMs
  rw [if_neg (by omega)]
  refine right_some ?_ ?_ (close_of h0 ?_ ?_) <;> simp only [Prog.period] <;> omega

/-! ## Concrete cases -/

/-- 16 MHz, 1 kHz: within the hypotheses of the positive theorems, and the values programmed -/
example : systick 16000000 1000 = some ⟨1, 16000⟩ ∧ tc0 16000000 1000 = some ⟨64, 250⟩ ∧ wkt 1000 = some ⟨1, 10⟩ ∧
    t2 12000000 1000 = some ⟨4, 3000⟩ ∧ t2n76 true 16000000 1000 = some ⟨16, 1001⟩ ∧ wide 2 8000000 1000 = some ⟨2, 4000⟩ ∧
    rtc 1000 = some ⟨1, 32⟩ ∧ mtim1 8000000 1000 = some ⟨32, 251⟩ ∧ itimer 100 = some ⟨1, 10000⟩ := by decide

/-- and of the negative ones -/
example : ¬ Right 200000000 10 (systick 200000000 10) ∧ ¬ Right 48000000 50 (t2 48000000 50) ∧
    ¬ Right 8000000 100 (hcsRtc 8000000 100) ∧ tc0 1000000 10000 = none ∧ ¬ Right 125000000 7 (rpPwm 125000000 7) :=
  ⟨systick_wrong _ _ (by decide) (by decide) (by decide), t2_wrong _ _ (by decide) (by decide), hcsRtc_wrong _ _ (by decide),
    tc0_wrong _ _ (by decide) (by decide), rpPwm_wrong _ _ (by decide) (by decide)⟩

end Pico.Tick
