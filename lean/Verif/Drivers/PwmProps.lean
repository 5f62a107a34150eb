/-
The PWM drivers (C81): theorems.
-/
import Verif.Drivers.Pwm
namespace Pico.Pwm

/-- error of the truncation of the frequency to MHz -/
theorem mul_split (F pre p : Nat) : F * p = pre * (F / pre / 1000000 * p) * 1000000 + F % (pre * 1000000) * p := by
  have h := Nat.div_add_mod F (pre * 1000000)
  rw [← Nat.div_div_eq_div_mul] at h
  calc F * p = (pre * 1000000 * (F / pre / 1000000) + F % (pre * 1000000)) * p := by rw [h]
    _ = pre * (F / pre / 1000000 * p) * 1000000 + F % (pre * 1000000) * p := by rw [Nat.add_mul]; congr 1; ac_rfl

/-- `total = r + c` counts, where `r` is what is left of the number of counts wanted after truncation by `M`: right iff nothing was truncated and the clock
is a whole number of MHz (or the period short enough for it not to matter) -/
theorem reg_iff (F pre p M r c nn : Nat) (hpre : 0 < pre) (hM : 3 ≤ M) (hc : c ≤ 1) (hr : r = F / pre / 1000000 * p % M) :
    PeriodOk F p ⟨pre, nn, r + c⟩ ↔ 0 < r + c ∧ F / pre / 1000000 * p < M ∧ F % (pre * 1000000) * p ≤ (1 + c) * (pre * 1000000) := by
  have hs := mul_split F pre p
  generalize F / pre / 1000000 * p = K at hs hr ⊢
  generalize F % (pre * 1000000) * p = E at hs ⊢
  have hpos : 0 < pre * (r + c) ↔ 0 < r + c := by
    constructor
    · intro h; exact Nat.pos_of_mul_pos_left h
    · intro h; exact Nat.mul_pos hpre h
  simp only [PeriodOk]
  rw [hpos, hs]
  have h3 : r ≠ K → pre * (r + 3) ≤ pre * K := by
    intro hne
    refine Nat.mul_le_mul_left _ ?_
    by_cases hK : K < M
    · exact absurd (hr.trans (Nat.mod_eq_of_lt hK)) hne
    · have := Nat.div_add_mod K M
      have h2 : M * 1 ≤ M * (K / M) := Nat.mul_le_mul_left _ (Nat.div_pos (by omega) (by omega))
      omega
  have hK : r = K ↔ K < M := by
    constructor
    · intro h; rw [h] at hr; rw [hr]; exact Nat.mod_lt _ (by omega)
    · intro h; rw [hr]; exact Nat.mod_eq_of_lt h
  rw [← hK]
  have e3 : pre * (r + 3) = pre * r + 3 * pre := by rw [Nat.mul_add, Nat.mul_comm pre 3]
  have ec : c = 0 ∨ c = 1 := by omega
  by_cases hk : r = K
  · subst hk
    rcases ec with rfl | rfl
    · rw [Nat.add_zero]
      generalize pre * r = A
      constructor
      · rintro ⟨a, b, d⟩; exact ⟨a, rfl, by omega⟩
      · rintro ⟨a, _, d⟩; exact ⟨a, by omega, by omega⟩
    · rw [Nat.mul_add, Nat.mul_one]
      generalize pre * r = A
      constructor
      · rintro ⟨a, b, d⟩; exact ⟨a, rfl, by omega⟩
      · rintro ⟨a, _, d⟩; exact ⟨a, by omega, by omega⟩
  · have h4 := h3 hk
    rw [e3] at h4
    constructor
    · rintro ⟨_, _, d⟩
      exfalso
      rcases ec with rfl | rfl
      · rw [Nat.add_zero] at d
        generalize pre * r = A at *
        generalize pre * K = B at *
        omega
      · rw [Nat.mul_add, Nat.mul_one] at d
        generalize pre * r = A at *
        generalize pre * K = B at *
        omega
    · rintro ⟨_, h, _⟩; exact absurd h hk

/-- whole number of MHz: the last condition of `reg_iff` holds -/
theorem whole (F pre p c : Nat) (h : F % (pre * 1000000) = 0) : F % (pre * 1000000) * p ≤ (1 + c) * (pre * 1000000) := by rw [h]; simp

theorem mhz_mod (f p w : Nat) (h : w ≤ 32) : mhz f p % 2 ^ w = f / 1000000 * p % 2 ^ w := Nat.mod_mod_of_dvd _ (Nat.pow_dvd_pow 2 h)

/-! ### Periods -/

/-- **C81, sam** -/
theorem sam_period (w F pre p : Nat) (q : Per) (hw : 2 ≤ w ∧ w ≤ 24) (hpre : 0 < pre) (h : sam w F pre p = some q) :
    PeriodOk F p q ↔ 0 < q.total ∧ F / pre / 1000000 * p < 2 ^ w ∧ F % (pre * 1000000) * p ≤ pre * 1000000 := by
  unfold sam at h
  split at h
  · cases h
  · cases h
    have := reg_iff F pre p (2 ^ w) (mhz (F / pre) p % 2 ^ 24 % 2 ^ w) 0 (mhz (F / pre) p) hpre
      (Nat.le_trans (by decide : 3 ≤ 2 ^ 2) (Nat.pow_le_pow_right (by decide) hw.1)) (by decide)
      (by rw [Nat.mod_mod_of_dvd _ (Nat.pow_dvd_pow 2 hw.2)]; exact mhz_mod _ _ _ (by omega))
    simpa using this

/-- **C81, tc** -/
theorem tc_period (w F pre p : Nat) (q : Per) (hw : 2 ≤ w ∧ w ≤ 32) (hpre : 0 < pre) (h : tc w F pre p = some q) :
    PeriodOk F p q ↔ 0 < q.total ∧ F / pre / 1000000 * p < 2 ^ w ∧ F % (pre * 1000000) * p ≤ pre * 1000000 := by
  unfold tc at h
  cases h
  have := reg_iff F pre p (2 ^ w) (mhz (F / pre) p % 2 ^ w) 0 (mhz (F / pre) p) hpre
    (Nat.le_trans (by decide : 3 ≤ 2 ^ 2) (Nat.pow_le_pow_right (by decide) hw.1)) (by decide) (mhz_mod _ _ _ (by omega))
  simpa using this

/-- **C81, avr**, fast PWM, with the prescaler known to the driver -/
theorem avr_period_fast (wf : Wave) (cs F p : Nat) (q : Per) (hwf : wf = .fastIcr ∨ wf = .fastOcr) (hpre : 0 < avrPre cs) (h : avr wf cs (avrPre cs) F p = some q) :
    PeriodOk F p q ↔ F / avrPre cs / 1000000 * p < 2 ^ 16 ∧ F % (avrPre cs * 1000000) * p ≤ 2 * (avrPre cs * 1000000) := by
  unfold avr at h
  split at h
  · cases h
  · dsimp only at h
    split at h
    · cases h
    · split at h
      · cases h
      · cases h
        have e : wf.counts (mhz (F / avrPre cs) p % 2 ^ 16) = mhz (F / avrPre cs) p % 2 ^ 16 + 1 := by rcases hwf with rfl | rfl <;> rfl
        rw [e]
        have := reg_iff F (avrPre cs) p (2 ^ 16) (mhz (F / avrPre cs) p % 2 ^ 16) 1 (mhz (F / avrPre cs) p % 2 ^ 16) hpre (by decide) (by decide) (mhz_mod _ _ _ (by decide))
        simpa using this

/-- the prescaler known to the driver is the one selected, except for CLKIO_256 -/
theorem avr_select (cs : Nat) (h1 : 1 ≤ cs) (h2 : cs ≤ 5) (old : Nat) : avrSelect cs old = avrPre cs ↔ cs ≠ 4 ∨ old = 256 := by
  have : cs = 1 ∨ cs = 2 ∨ cs = 3 ∨ cs = 4 ∨ cs = 5 := by omega
  rcases this with rfl | rfl | rfl | rfl | rfl <;> simp [avrSelect, avrPre]

/-- **C81, avr, refuted**: phase-correct waveforms last twice as long -/
theorem avr_phase_wrong (wf : Wave) (cs F p : Nat) (q : Per) (hwf : wf = .phaseIcr ∨ wf = .phaseOcr) (hpre : 0 < avrPre cs) (hF : F % (avrPre cs * 1000000) = 0)
    (hk : 1 < F / avrPre cs / 1000000 * p) (hn : F / avrPre cs / 1000000 * p < 2 ^ 16) (h : avr wf cs (avrPre cs) F p = some q) : ¬ PeriodOk F p q := by
  unfold avr at h
  split at h
  · cases h
  · dsimp only at h
    split at h
    · cases h
    · split at h
      · cases h
      · cases h
        have e : wf.counts (mhz (F / avrPre cs) p % 2 ^ 16) = 2 * (mhz (F / avrPre cs) p % 2 ^ 16) := by rcases hwf with rfl | rfl <;> rfl
        rw [e, mhz_mod _ _ _ (by decide), Nat.mod_eq_of_lt hn]
        have hs := mul_split F (avrPre cs) p
        rw [hF, Nat.zero_mul, Nat.add_zero] at hs
        generalize F / avrPre cs / 1000000 * p = K at *
        simp only [PeriodOk]
        rintro ⟨_, hb, _⟩
        rw [hs] at hb
        have h2 : avrPre cs * (2 * K) * 1000000 = avrPre cs * K * 1000000 + avrPre cs * K * 1000000 := by
          rw [← Nat.add_mul, ← Nat.mul_add, ← Nat.two_mul]
        have h3 : avrPre cs * 2 * 1000000 ≤ avrPre cs * K * 1000000 := Nat.mul_le_mul_right _ (Nat.mul_le_mul_left _ (by omega))
        omega

/-- **C81, avr, refuted**: CLKIO_256 after pwm_avr_init: the period is 256 times too long -/
theorem avr_256_wrong (wf : Wave) (F p : Nat) (q : Per) (hF : F % 1000000 = 0) (hn : F / 1000000 * p < 2 ^ 16) (h : avr wf 4 (avrSelect 4 1) F p = some q) : ¬ PeriodOk F p q := by
  unfold avr at h
  split at h
  · cases h
  · dsimp only at h
    split at h
    · cases h
    · rename_i hn0
      split at h
      · cases h
      · rename_i hf
        cases h
        have h1 : avrSelect 4 1 = 1 := rfl
        rw [h1, Nat.div_one, mhz_mod _ _ _ (by decide), Nat.mod_eq_of_lt hn] at hn0 ⊢
        have hs := mul_split F 1 p
        rw [Nat.one_mul, Nat.div_one, Nat.one_mul, hF, Nat.zero_mul, Nat.add_zero] at hs
        generalize F / 1000000 * p = K at *
        have hc : K + 1 ≤ wf.counts K := by
          cases wf <;> simp only [Wave.counts] <;> omega
        simp only [PeriodOk]
        rintro ⟨_, hb, _⟩
        have : avrPre 4 = 256 := rfl
        rw [this, hs] at hb
        omega

/-- **C81, avr, refuted**: when TOP is OCRnA, pwm_set_duty_cycle of the output A changes the period -/
theorem avr_top_wrong (wf : Wave) (hwf : wf = .fastOcr ∨ wf = .phaseOcr) (n d : Nat) (hn : n < 65536) (hd : d < 65536) :
    (avrDuty wf true n d).1 = (avrDuty wf true n d).2 ∧ (0 < n → (avrDuty wf true n d).1 < n) := by
  have h : (avrDuty wf true n d) = (d * n % 2 ^ 32 / 65536 % 2 ^ 16, d * n % 2 ^ 32 / 65536 % 2 ^ 16) := by
    rcases hwf with rfl | rfl <;> simp [avrDuty]
  rw [h]
  refine ⟨rfl, fun h0 => ?_⟩
  show d * n % 2 ^ 32 / 65536 % 2 ^ 16 < n
  have h1 : d * n ≤ 65535 * n := Nat.mul_le_mul_right _ (by omega)
  have h2 : d * n < 65536 * n := by omega
  have h3 : d * n % 2 ^ 32 / 65536 < n := (Nat.div_lt_iff_lt_mul (by decide)).2 (by have := Nat.mod_le (d * n) (2 ^ 32); omega)
  exact Nat.lt_of_le_of_lt (Nat.mod_le _ _) h3

/-- otherwise TOP is left -/
theorem avr_top_kept (wf : Wave) (a : Bool) (n d : Nat) (h : a = false ∨ (wf ≠ .fastOcr ∧ wf ≠ .phaseOcr)) : (avrDuty wf a n d).1 = n := by
  rcases h with rfl | ⟨h1, h2⟩
  · rfl
  · simp [avrDuty, h1, h2]

/-- **C81, gd32vf103, refuted**: the prescaler is one too many: the period is right only if it is too short for that to show (it is longer by n counts) -/
theorem gd32_wrong (F f p : Nat) (q : Per) (hf : 0 < f) (hF : F % f = 0) (hf6 : f % 1000000 = 0) (h0 : 0 < F) (hn : f / 1000000 * p < 2 ^ 32)
    (h : gd32 F f p = some q) : PeriodOk F p q → f / 1000000 * p = 0 := by
  unfold gd32 at h
  split at h
  · cases h
  · dsimp only at h
    split at h
    · cases h
      rintro ⟨_, hb, _⟩
      simp only [mhz, Nat.mod_eq_of_lt hn] at hb
      obtain ⟨k, rfl⟩ := Nat.dvd_of_mod_eq_zero hf6
      obtain ⟨m, rfl⟩ := Nat.dvd_of_mod_eq_zero hF
      have e1 : 1000000 * k / 1000000 = k := Nat.mul_div_cancel_left k (by decide)
      have e2 : 1000000 * k * m / (1000000 * k) = m := Nat.mul_div_cancel_left m hf
      rw [e1, e2] at hb
      rw [e1]
      have h3 : 1000000 * k * m * p = m * (k * p) * 1000000 := by ac_rfl
      rw [h3] at hb
      generalize k * p = K at *
      have h4 : (m + 1) * (K + 1) = m * K + K + (m + 1) := by
        rw [Nat.mul_add, Nat.add_mul m 1 K, Nat.mul_one, Nat.one_mul]
      rw [h4] at hb
      generalize m * K = Z at *
      omega
    · cases h

/-- **C81, nxp_emios** -/
theorem emios_period (F pre p : Nat) (q : Per) (hpre : 0 < pre) (h : emios F pre p = some q) :
    PeriodOk F p q ↔ F / pre / 1000000 * p < 2 ^ 32 ∧ F % (pre * 1000000) * p ≤ pre * 1000000 := by
  unfold emios at h
  split at h
  · cases h
  · dsimp only at h
    split at h
    · cases h
    · rename_i h0
      split at h
      · cases h
        have := reg_iff F pre p (2 ^ 32) (mhz (F / pre) p) 0 (mhz (F / pre) p) hpre (by decide) (by decide) rfl
        rw [Nat.add_zero] at this
        rw [show mhz (F / pre) p % 2 ^ 24 = mhz (F / pre) p from Nat.mod_eq_of_lt (by omega), this]
        simp only [Nat.add_zero, Nat.one_mul]
        exact ⟨fun x => x.2, fun x => ⟨by omega, x⟩⟩
      · cases h

/-- **C81, nxp_emios, refuted**: periods that the 24 bits of the register can hold are refused, from 2^20 counts on; shorter ones (not 0) are not -/
theorem emios_refuses (F pre p : Nat) (hp : 0 < p) (hn : F / pre / 1000000 * p < 2 ^ 24) (h0 : 0 < F / pre / 1000000 * p) : emios F pre p = none ↔ 2 ^ 20 ≤ F / pre / 1000000 * p := by
  have e : mhz (F / pre) p = F / pre / 1000000 * p := Nat.mod_eq_of_lt (by omega)
  simp only [emios, e]
  rw [if_neg (by omega), if_neg (by omega)]
  by_cases c : F / pre / 1000000 * p < 0x100000
  · rw [if_pos c]; simp only [reduceCtorEq, false_iff]; omega
  · rw [if_neg c]; simp only [true_iff]; omega

theorem search_some (F p : Nat) (l : List Nat) (q : Per) (h : search F p l = some q) : q.pre ∈ l ∧ q.n = mhz (F / q.pre) p ∧ q.n ≤ 0xffff ∧ q.total = q.n + 1 := by
  induction l with
  | nil => cases h
  | cons a l ih =>
    unfold search at h
    dsimp only at h
    split at h
    · rename_i hn
      cases h; exact ⟨List.mem_cons_self, rfl, hn, by show mhz _ _ % 2 ^ 16 + 1 = _; rw [Nat.mod_eq_of_lt (by omega)]⟩
    · exact ⟨List.mem_cons_of_mem _ (ih h).1, (ih h).2⟩

/-- the first divider that fits is taken; refused only if none fits -/
theorem search_first (F p : Nat) (l : List Nat) (hl : l.Pairwise (· < ·)) :
    (∀ q, search F p l = some q → ∀ a ∈ l, a < q.pre → 0xffff < mhz (F / a) p) ∧ (search F p l = none ↔ ∀ a ∈ l, 0xffff < mhz (F / a) p) := by
  induction l with
  | nil => exact ⟨fun q h => (by simp [search] at h), (by simp [search])⟩
  | cons b l ih =>
    obtain ⟨hb, hl⟩ := List.pairwise_cons.1 hl
    obtain ⟨ih1, ih2⟩ := ih hl
    by_cases c : mhz (F / b) p ≤ 0xffff
    · refine ⟨fun q h a ha hlt => ?_, ?_⟩
      · simp only [search, if_pos c, Option.some.injEq] at h
        subst h
        rcases List.mem_cons.1 ha with rfl | ha
        · exact absurd hlt (Nat.lt_irrefl _)
        · exact absurd (hb a ha) (Nat.lt_asymm hlt)
      · simp only [search, if_pos c, reduceCtorEq, false_iff]
        intro h
        have := h b List.mem_cons_self
        omega
    · refine ⟨fun q h a ha hlt => ?_, ?_⟩
      · simp only [search, if_neg c] at h
        rcases List.mem_cons.1 ha with rfl | ha
        · omega
        · exact ih1 q h a ha hlt
      · simp only [search, if_neg c, ih2, List.mem_cons, forall_eq_or_imp]
        exact ⟨fun h => ⟨by omega, h⟩, fun h => h.2⟩

theorem search_period (F p : Nat) (l : List Nat) (q : Per) (hl : ∀ a ∈ l, 0 < a) (h : search F p l = some q) :
    PeriodOk F p q ↔ F / q.pre / 1000000 * p < 2 ^ 32 ∧ F % (q.pre * 1000000) * p ≤ 2 * (q.pre * 1000000) := by
  obtain ⟨h1, h2, h3, h4⟩ := search_some F p l q h
  have := reg_iff F q.pre p (2 ^ 32) (mhz (F / q.pre) p) 1 q.n (hl _ h1) (by decide) (by decide) rfl
  have e : q = ⟨q.pre, q.n, mhz (F / q.pre) p + 1⟩ := by cases q; simp_all
  rw [← e] at this
  rw [this]
  exact ⟨fun x => x.2, fun x => ⟨by omega, x⟩⟩

/-- **C81, pic32mx** -/
theorem pic32_period (F p : Nat) (q : Per) (h : pic32 F p = some q) :
    PeriodOk F p q ↔ F / q.pre / 1000000 * p < 2 ^ 32 ∧ F % (q.pre * 1000000) * p ≤ 2 * (q.pre * 1000000) := by
  unfold pic32 at h
  split at h
  · cases h
  · exact search_period F p _ q (by decide) h

/-- **C81, renesas_ra4** -/
theorem renesas_period (F p : Nat) (q : Per) (h : renesas F p = some q) :
    PeriodOk F p q ↔ F / q.pre / 1000000 * p < 2 ^ 32 ∧ F % (q.pre * 1000000) * p ≤ 2 * (q.pre * 1000000) := by
  unfold renesas at h
  split at h
  · cases h
  · exact search_period F p _ q (by decide) h

/-- **C81, pic32mx and renesas_ra4**: of the dividers of the timer the smallest that fits is taken, and a period is refused only if none fits -/
theorem pic32_best (F p : Nat) (hp : 0 < p) : (∀ q, pic32 F p = some q → ∀ k ≤ 8, k ≠ 7 → 2 ^ k < q.pre → 0xffff < mhz (F / 2 ^ k) p) ∧
    (pic32 F p = none ↔ ∀ k ≤ 8, k ≠ 7 → 0xffff < mhz (F / 2 ^ k) p) := by
  obtain ⟨h1, h2⟩ := search_first F p [1, 2, 4, 8, 16, 32, 64, 256] (by decide)
  have hm : ∀ k ≤ 8, k ≠ 7 → 2 ^ k ∈ [1, 2, 4, 8, 16, 32, 64, 256] := by decide
  have hm' : ∀ a ∈ [1, 2, 4, 8, 16, 32, 64, 256], ∃ k, k ≤ 8 ∧ k ≠ 7 ∧ a = 2 ^ k := by
    intro a ha
    simp only [List.mem_cons, List.not_mem_nil, or_false] at ha
    rcases ha with rfl | rfl | rfl | rfl | rfl | rfl | rfl | rfl
    · exact ⟨0, by decide⟩
    · exact ⟨1, by decide⟩
    · exact ⟨2, by decide⟩
    · exact ⟨3, by decide⟩
    · exact ⟨4, by decide⟩
    · exact ⟨5, by decide⟩
    · exact ⟨6, by decide⟩
    · exact ⟨8, by decide⟩
  simp only [pic32, if_neg (Nat.ne_of_gt hp)]
  refine ⟨fun q hq k hk h7 => h1 q hq _ (hm k hk h7), ?_⟩
  rw [h2]
  constructor
  · intro h k hk h7; exact h _ (hm k hk h7)
  · intro h a ha; obtain ⟨k, hk, h7, rfl⟩ := hm' a ha; exact h k hk h7

theorem renesas_best (F p : Nat) (hp : 0 < p) : (∀ q, renesas F p = some q → ∀ k ≤ 5, 4 ^ k < q.pre → 0xffff < mhz (F / 4 ^ k) p) ∧
    (renesas F p = none ↔ ∀ k ≤ 5, 0xffff < mhz (F / 4 ^ k) p) := by
  obtain ⟨h1, h2⟩ := search_first F p [1, 4, 16, 64, 256, 1024] (by decide)
  have hm : ∀ k ≤ 5, 4 ^ k ∈ [1, 4, 16, 64, 256, 1024] := by decide
  have hm' : ∀ a ∈ [1, 4, 16, 64, 256, 1024], ∃ k, k ≤ 5 ∧ a = 4 ^ k := by
    intro a ha
    simp only [List.mem_cons, List.not_mem_nil, or_false] at ha
    rcases ha with rfl | rfl | rfl | rfl | rfl | rfl
    · exact ⟨0, by decide⟩
    · exact ⟨1, by decide⟩
    · exact ⟨2, by decide⟩
    · exact ⟨3, by decide⟩
    · exact ⟨4, by decide⟩
    · exact ⟨5, by decide⟩
  simp only [renesas, if_neg (Nat.ne_of_gt hp)]
  refine ⟨fun q hq k hk => h1 q hq _ (hm k hk), ?_⟩
  rw [h2]
  constructor
  · intro h k hk; exact h _ (hm k hk)
  · intro h a ha; obtain ⟨k, hk, rfl⟩ := hm' a ha; exact h k hk

/-- **C81, rp2040**, as long as the divider of the context is 1 and the new one fits: a whole number of MHz is enough -/
theorem rp2040_period (F p d : Nat) (q : Per) (hF : F % 1000000 = 0) (hn : F / 1000000 * p < 65535 * 255) (h : rp2040 1 F p = some (q, d)) :
    PeriodOk F p q ∧ d = q.pre := by
  unfold rp2040 at h
  split at h
  · cases h
  · dsimp only at h
    rw [Nat.div_one] at h
    have e : mhz F p = F / 1000000 * p := Nat.mod_eq_of_lt (by omega)
    rw [e] at h
    have hs := mul_split F 1 p
    rw [Nat.one_mul, Nat.div_one, Nat.one_mul, hF, Nat.zero_mul, Nat.add_zero] at hs
    generalize F / 1000000 * p = K at *
    by_cases hk : K > 0xffff
    · rw [if_pos hk] at h
      dsimp only at h
      have hd : K / 0xffff + 1 < 256 := by
        have : K / 0xffff < 255 := (Nat.div_lt_iff_lt_mul (by decide)).2 (by omega)
        omega
      generalize hD : K / 0xffff + 1 = D at h hd
      have hD0 : 0 < D := by omega
      split at h
      · cases h
      · simp only [Option.some.injEq, Prod.mk.injEq] at h
        obtain ⟨rfl, rfl⟩ := h
        rw [Nat.mod_eq_of_lt hd]
        have h1 := Nat.mul_div_le K D
        have h2 := Nat.div_add_mod K D
        have h3 := Nat.mod_lt K hD0
        have e2 : D * (K / D + 1) = D * (K / D) + D := by rw [Nat.mul_add, Nat.mul_one]
        refine ⟨⟨Nat.mul_pos hD0 (Nat.succ_pos _), ?_, ?_⟩, rfl⟩
        · show D * (K / D + 1) * 1000000 ≤ F * p + D * 1000000
          rw [hs, e2]; omega
        · show F * p ≤ D * (K / D + 1) * 1000000 + D * 1000000
          rw [hs, e2]; omega
    · rw [if_neg hk] at h
      dsimp only at h
      split at h
      · cases h
      · cases h
        refine ⟨?_, rfl⟩
        simp only [PeriodOk, hs]
        omega

/-- **C81, rp2040, refuted**: once a long period has left a divider D in the context, a period that needs a divider again is about D times too short -/
theorem rp2040_wrong (D F p : Nat) (q : Per) (d : Nat) (hD : 2 ≤ D) (hk : 0xffff < F / D / 1000000 * p) (hn : F / D / 1000000 * p < 65535 * 255)
    (h : rp2040 D F p = some (q, d)) : ¬ PeriodOk F p q := by
  unfold rp2040 at h
  split at h
  · cases h
  · dsimp only at h
    have e : mhz (F / D) p = F / D / 1000000 * p := Nat.mod_eq_of_lt (by omega)
    rw [e] at h
    have hs := mul_split F D p
    generalize F / D / 1000000 * p = K at *
    rw [if_pos hk] at h
    dsimp only at h
    have hd : K / 0xffff + 1 < 256 := by
      have : K / 0xffff < 255 := (Nat.div_lt_iff_lt_mul (by decide)).2 (by omega)
      omega
    have hd0 : 0 < K / 0xffff + 1 := by omega
    generalize K / 0xffff + 1 = E at h hd hd0
    split at h
    · cases h
    · simp only [Option.some.injEq, Prod.mk.injEq] at h
      obtain ⟨rfl, rfl⟩ := h
      rw [Nat.mod_eq_of_lt hd]
      rintro ⟨_, _, hc⟩
      have h1 : E * (K / E + 1) = E * (K / E) + E := by rw [Nat.mul_add, Nat.mul_one]
      have h2 := Nat.mul_div_le K E
      have h3 : 2 * K ≤ D * K := Nat.mul_le_mul_right _ hD
      have hc' : F * p ≤ E * (K / E + 1) * 1000000 + E * 1000000 := hc
      rw [h1, hs] at hc'
      generalize E * (K / E) = A at *
      generalize D * K = B at *
      omega

/-- **C81, same5x** -/
theorem same5x_period (bits F pre p : Nat) (q : Per) (hpre : 0 < pre) (h : same5x bits F pre p = some q) :
    PeriodOk F p q ↔ F / pre / 1000000 * p < 2 ^ 32 ∧ F % (pre * 1000000) * p ≤ 2 * (pre * 1000000) := by
  unfold same5x at h
  dsimp only at h
  split at h
  · cases h
    have := reg_iff F pre p (2 ^ 32) (mhz (F / pre) p) 1 (mhz (F / pre) p) hpre (by decide) (by decide) rfl
    rw [show mhz (F / pre) p % 2 ^ bits = mhz (F / pre) p from Nat.mod_eq_of_lt (by assumption), this]
    exact ⟨fun x => x.2, fun x => ⟨by omega, x⟩⟩
  · cases h

theorem stmLoop_some (F p : Nat) (fuel : Nat) : ∀ k q, stmLoop F p fuel k = some q → k < q.pre ∧ q.n = mhz (F / q.pre) p ∧ q.n ≤ 0xffff ∧ q.total = q.n + 1 := by
  induction fuel with
  | zero => intro k q h; cases h
  | succ fuel ih =>
    intro k q h
    unfold stmLoop at h
    dsimp only at h
    split at h
    · obtain ⟨h1, h2⟩ := ih _ _ h
      exact ⟨by omega, h2⟩
    · cases h; exact ⟨Nat.lt_succ_self _, rfl, Nat.le_of_not_lt (by assumption), rfl⟩

/-- the loop ends: at the latest when the clock is divided to less than 1 MHz -/
theorem stm_ends (F p : Nat) : ∀ fuel k, F / 1000000 + 1 ≤ fuel + k → 0 < fuel → stmLoop F p fuel k ≠ none := by
  intro fuel
  induction fuel with
  | zero => intro k _ h; omega
  | succ fuel ih =>
    intro k hk _
    unfold stmLoop
    dsimp only
    split
    · rename_i h
      by_cases hf : fuel = 0
      · exfalso
        subst hf
        have hlt : F / (k + 1) < 1000000 := by
          rw [Nat.div_lt_iff_lt_mul (by omega)]
          have := Nat.div_add_mod F 1000000
          have := Nat.mod_lt F (show 0 < 1000000 by decide)
          have : 1000000 * (F / 1000000) ≤ 1000000 * k := Nat.mul_le_mul_left _ (by omega)
          omega
        have : mhz (F / (k + 1)) p = 0 := by unfold mhz; rw [Nat.div_eq_of_lt hlt]; simp
        omega
      · exact ih _ (by omega) (by omega)
    · simp

/-- **C81, stm32h7xx** -/
theorem stm32_period (F p : Nat) (q : Per) (h : stm32 F p = some q) :
    PeriodOk F p q ↔ F / q.pre / 1000000 * p < 2 ^ 32 ∧ F % (q.pre * 1000000) * p ≤ 2 * (q.pre * 1000000) := by
  unfold stm32 at h
  split at h
  · cases h
  · split at h
    · cases h
    · rename_i q' hq
      split at h
      · cases h
      · cases h
        obtain ⟨h1, h2, h3, h4⟩ := stmLoop_some F p _ _ _ hq
        have := reg_iff F q.pre p (2 ^ 32) (mhz (F / q.pre) p) 1 q.n (by omega) (by decide) (by decide) rfl
        have e : q = ⟨q.pre, q.n, mhz (F / q.pre) p + 1⟩ := by cases q; simp_all
        rw [← e] at this
        rw [this]
        exact ⟨fun x => x.2, fun x => ⟨by omega, x⟩⟩

/-- **C81, stm32h7xx**: periods over 65 ms are refused (if no product overflows), although the hardware can make them -/
theorem stm32_long (F p : Nat) (hp : 0xffff < p) (hn : F / 1000000 * p < 2 ^ 32) : stm32 F p = none := by
  unfold stm32
  rw [if_neg (by omega)]
  cases hq : stmLoop F p (F / 1000000 + 1) 0 with
  | none => rfl
  | some q =>
    dsimp only
    obtain ⟨h1, h2, h3, h4⟩ := stmLoop_some F p _ _ _ hq
    rw [if_pos]
    have h5 : F / q.pre / 1000000 ≤ F / 1000000 := Nat.div_le_div_right (Nat.div_le_self _ _)
    have h6 : F / q.pre / 1000000 * p ≤ F / 1000000 * p := Nat.mul_le_mul_right _ h5
    have h7 : q.n = F / q.pre / 1000000 * p := by rw [h2]; exact Nat.mod_eq_of_lt (by omega)
    rcases Nat.eq_zero_or_pos (F / q.pre / 1000000) with h8 | h8
    · rw [h7, h8, Nat.zero_mul]
    · have : 1 * p ≤ F / q.pre / 1000000 * p := Nat.mul_le_mul_right _ h8
      omega

/-- ... and the search for a prescaler degrades the precision: at 200 MHz, 10 ms are 8.7 ms -/
theorem stm32_wrong : stm32 200000000 10000 = some ⟨29, 60000, 60001⟩ ∧ ¬ PeriodOk 200000000 10000 ⟨29, 60000, 60001⟩ := by
  constructor
  · decide +kernel
  · intro h; exact absurd h.2.2 (by decide)

/-- **C81, ti_epwm** -/
theorem epwm_period (F pre p : Nat) (q : Per) (hpre : 0 < pre) (h : epwm F pre p = some q) :
    PeriodOk F p q ↔ F / pre / 1000000 * p < 2 ^ 16 ∧ F % (pre * 1000000) * p ≤ 2 * (pre * 1000000) := by
  unfold epwm at h
  split at h
  · cases h
  · dsimp only at h
    split at h
    · cases h
    · cases h
      have := reg_iff F pre p (2 ^ 16) (mhz (F / pre) p % 2 ^ 16) 1 (mhz (F / pre) p) hpre (by decide) (by decide) (mhz_mod _ _ _ (by decide))
      rw [this]
      exact ⟨fun x => x.2, fun x => ⟨by omega, x⟩⟩

/-- **C81, tinyavr** -/
theorem tinyavr_period (F pre p : Nat) (q : Per) (hpre : 0 < pre) (h : tinyavr F pre p = some q) :
    PeriodOk F p q ↔ F / pre / 1000000 * p < 2 ^ 16 ∧ F % (pre * 1000000) * p ≤ 2 * (pre * 1000000) := by
  unfold tinyavr at h
  split at h
  · cases h
  · cases h
    have := reg_iff F pre p (2 ^ 16) (mhz (F / pre) p % 2 ^ 16 % 2 ^ 16) 1 (mhz (F / pre) p % 2 ^ 16) hpre (by decide) (by decide)
      (by rw [Nat.mod_mod]; exact mhz_mod _ _ _ (by decide))
    rw [this]
    exact ⟨fun x => x.2, fun x => ⟨by omega, x⟩⟩

theorem ftmLoop_small (fuel mod ps : Nat) (h : mod ≤ 65535) : ftmLoop fuel mod ps = (mod, ps) := by
  cases fuel with
  | zero => rfl
  | succ n => unfold ftmLoop; rw [if_neg (by omega)]

theorem ftmLoop_le (fuel : Nat) : ∀ mod ps, mod < 2 ^ (16 + fuel) → (ftmLoop fuel mod ps).1 ≤ 65535 := by
  induction fuel with
  | zero => intro mod ps h; show mod ≤ 65535; omega
  | succ n ih =>
    intro mod ps h
    unfold ftmLoop
    split
    · apply ih
      rw [show 16 + (n + 1) = (16 + n) + 1 by omega, Nat.pow_succ] at h
      omega
    · show mod ≤ 65535; omega

/-- **C81, mc9s08ptxx**: right without prescaler -/
theorem ftm_period (F p : Nat) (q : Per) (hn : F / 1000000 * p ≤ 65535) (h : ftm 0 F p = some q) :
    PeriodOk F p q ↔ F % 1000000 * p ≤ 2000000 := by
  unfold ftm at h
  have e : mhz F p = F / 1000000 * p := Nat.mod_eq_of_lt (by omega)
  rw [e, ftmLoop_small _ _ _ hn] at h
  dsimp only at h
  split at h
  · cases h
  · cases h
    have := reg_iff F 1 p 65536 (F / 1000000 * p) 1 (F / 1000000 * p) (by decide) (by decide) (by decide) (by rw [Nat.div_one, Nat.mod_eq_of_lt (by omega)])
    rw [Nat.div_one, Nat.one_mul] at this
    have h1 : (2:Nat) ^ 0 = 1 := rfl
    rw [h1, this]
    exact ⟨fun x => x.2.2, fun x => ⟨by omega, by omega, x⟩⟩

/-- **C81, mc9s08ptxx, refuted**: a period that needs a prescaler is shortened without it -/
theorem ftm_wrong (F p : Nat) (q : Per) (hn : 65540 < F / 1000000 * p) (hn2 : F / 1000000 * p < 2 ^ 32) (h : ftm 0 F p = some q) : ¬ PeriodOk F p q := by
  unfold ftm at h
  have e : mhz F p = F / 1000000 * p := Nat.mod_eq_of_lt hn2
  rw [e] at h
  have hle : (ftmLoop 32 (F / 1000000 * p) 0).1 ≤ 65535 := ftmLoop_le 32 _ _ (Nat.lt_of_lt_of_le hn2 (by decide))
  dsimp only at h
  have hs := mul_split F 1 p
  rw [Nat.one_mul, Nat.div_one, Nat.one_mul] at hs
  generalize F / 1000000 * p = K at *
  generalize (ftmLoop 32 K 0).1 = r at *
  split at h
  · cases h
  · cases h
    rintro ⟨_, _, hc⟩
    have hc' : F * p ≤ 2 ^ 0 * (r + 1) * 1000000 + 2 ^ 0 * 1000000 := hc
    omega

/-- **C81, n76e003** -/
theorem n76_period (F pre p : Nat) (q : Per) (hpre : 0 < pre) (h : n76 F pre p = some q) :
    PeriodOk F p q ↔ F / pre / 1000000 * p < 2 ^ 32 ∧ F % (pre * 1000000) * p ≤ 2 * (pre * 1000000) := by
  unfold n76 at h
  split at h
  · cases h
  · dsimp only at h
    split at h
    · cases h
      have := reg_iff F pre p (2 ^ 32) (mhz (F / pre) p) 1 (mhz (F / pre) p) hpre (by decide) (by decide) rfl
      rw [show mhz (F / pre) p % 256 + 256 * (mhz (F / pre) p / 256 % 256) = mhz (F / pre) p by omega, this]
      exact ⟨fun x => x.2, fun x => ⟨by omega, x⟩⟩
    · cases h

/-- **C81, ch552**: right when all divisions are exact and the divider fits -/
theorem ch552_period (F p : Nat) (q : Per) (h1 : F % 256 = 0) (h2 : 1000000 % p = 0) (h3 : F / 256 % (1000000 / p) = 0) (h4 : F / 256 / (1000000 / p) < 256) (h0 : 256 ≤ F)
    (h : ch552 F p = some q) : PeriodOk F p q := by
  unfold ch552 at h
  split at h
  · cases h
  · rename_i hne
    cases h
    obtain ⟨a, rfl⟩ := Nat.dvd_of_mod_eq_zero h1
    obtain ⟨b, hb⟩ := Nat.dvd_of_mod_eq_zero h2
    have hp : 0 < p := by omega
    have hd : 1000000 / p = b := by rw [hb]; exact Nat.mul_div_cancel_left _ hp
    have ha : 256 * a / 256 = a := Nat.mul_div_cancel_left _ (by decide)
    rw [hd] at hne h3 h4 ⊢
    rw [ha] at h3 h4 ⊢
    obtain ⟨m, rfl⟩ := Nat.dvd_of_mod_eq_zero h3
    have hb0 : 0 < b := by omega
    have hm' : b * m / b = m := Nat.mul_div_cancel_left _ hb0
    rw [hm'] at h4 ⊢
    rw [Nat.mod_eq_of_lt h4]
    have e : 256 * (b * m) * p = m * 256 * 1000000 := by rw [hb]; ac_rfl
    have hm : 0 < m := by
      rcases Nat.eq_zero_or_pos m with rfl | hm
      · simp at h0
      · exact hm
    unfold PeriodOk
    simp only [e]
    omega

/-- ... at 16 MHz 1 ms is not -/
theorem ch552_wrong : ch552 16000000 1000 = some ⟨62, 256, 256⟩ ∧ ¬ PeriodOk 16000000 1000 ⟨62, 256, 256⟩ := by
  constructor
  · decide +kernel
  · intro h; exact absurd h.2.2 (by decide)

/-! ### Duty cycles -/

/-- **C81**: `>> 16` drivers whose period has n counts -/
theorem duty_shift (n d c : Nat) (hn : n ≤ 65537) (hd : d ≤ 65535) (hc : c ≤ 1) : DutyOk (2 + c) d (n + c) (shift16 n d) ∧ shift16 n d ≤ n := by
  have h1 : d * n ≤ 65535 * 65537 := Nat.mul_le_mul hd hn
  have h2 : d * n ≤ 65535 * n := Nat.mul_le_mul_right _ hd
  have h3 : d * c ≤ 65535 * c := Nat.mul_le_mul_right _ hd
  unfold shift16 DutyOk
  rw [Nat.mod_eq_of_lt (by omega), Nat.mul_add]
  generalize d * n = P at *
  generalize d * c = Q at *
  constructor
  · constructor <;> omega
  · omega

theorem duty_shift_zero (n : Nat) : shift16 n 0 = 0 := by simp [shift16]

/-- the largest duty cycle is one count short of the whole period: the output is never constantly active -/
theorem duty_shift_full (n : Nat) (h0 : 1 ≤ n) (hn : n ≤ 65536) : shift16 n 65535 = n - 1 := by
  unfold shift16
  rw [Nat.mod_eq_of_lt (by omega)]
  omega

theorem duty_shift_mono (n d d' : Nat) (hn : n ≤ 65537) (hd : d' ≤ 65535) (h : d ≤ d') : shift16 n d ≤ shift16 n d' := by
  have h1 : d' * n ≤ 65535 * 65537 := Nat.mul_le_mul hd hn
  have h2 : d * n ≤ d' * n := Nat.mul_le_mul_right _ h
  unfold shift16
  rw [Nat.mod_eq_of_lt (by omega), Nat.mod_eq_of_lt (by omega)]
  exact Nat.div_le_div_right h2

/-- **C81, refuted** for longer periods (timers of more than 16 bits: sam, tc, emios, same5x in mode 32, rp2040 excepted): the product overflows -/
theorem duty_shift_overflow (n c : Nat) (hn : 65540 < n) (hc : c ≤ 1) : ¬ DutyOk 3 65535 (n + c) (shift16 n 65535) := by
  have h : shift16 n 65535 < 65536 := by
    unfold shift16
    rw [Nat.div_lt_iff_lt_mul (by decide)]
    exact Nat.lt_of_lt_of_eq (Nat.mod_lt _ (by decide)) (by decide)
  rintro ⟨_, h2⟩
  omega

/-- **C81, atsamx7x_tc**: one count more, so that 65535 gives the whole period (0 is handled by the actions of the compare register) -/
theorem duty_tc (n d : Nat) (hn : n ≤ 65536) (hd : d ≤ 65535) (h0 : 1 ≤ n) : DutyOk 2 d n (shift16p n d) ∧ shift16p n 65535 = n := by
  have h1 : d * n ≤ 65535 * 65536 := Nat.mul_le_mul hd hn
  constructor
  · unfold shift16p DutyOk
    rw [Nat.mod_eq_of_lt (by omega)]
    have h2 : d * n ≤ 65535 * n := Nat.mul_le_mul_right _ hd
    generalize d * n = P at *
    constructor <;> omega
  · have := duty_shift_full n h0 hn
    unfold shift16 at this
    unfold shift16p
    omega

/-- **C81**: `/ 65535` drivers (gd32vf103, ti_epwm, mc9s08ptxx) -/
theorem duty_div (n d c : Nat) (hn : n ≤ 65537) (hd : d ≤ 65535) (hc : c ≤ 1) : DutyOk (1 + c) d (n + c) (divMax n d) ∧ divMax n 0 = 0 ∧ divMax n 65535 = n := by
  have h1 : d * n ≤ 65535 * 65537 := Nat.mul_le_mul hd hn
  have h3 : d * c ≤ 65535 * c := Nat.mul_le_mul_right _ hd
  refine ⟨?_, by simp [divMax], ?_⟩
  · unfold divMax DutyOk
    rw [Nat.mod_eq_of_lt (by omega), Nat.mul_add]
    generalize d * n = P at *
    generalize d * c = Q at *
    constructor <;> omega
  · unfold divMax
    rw [Nat.mod_eq_of_lt (by omega)]
    omega

/-- **C81, ti_epwm, refuted** when the number of counts does not fit -/
theorem duty_div_overflow (n : Nat) (hn : 65541 < n) : ¬ DutyOk 3 65535 n (divMax n 65535) := by
  have h : divMax n 65535 < 65538 := by
    unfold divMax
    rw [Nat.div_lt_iff_lt_mul (by decide)]
    exact Nat.lt_of_lt_of_le (Nat.mod_lt (65535 * n) (show 0 < 2 ^ 32 by decide)) (by decide)
  rintro ⟨_, h2⟩
  omega

/-- **C81, ch552** -/
theorem duty_ch552 (d : Nat) (hd : d ≤ 65535) : DutyOk 1 d 256 (shift8 d) := by
  unfold DutyOk shift8
  constructor <;> omega

/-- **C81, pic32mx**: `invert` gives the complement, to two counts -/
theorem duty_pic32 (invert : Bool) (n d : Nat) (hn : n ≤ 65535) (hd : d ≤ 65535) :
    DutyOk 3 (if invert then 65535 - d else d) (n + 1) (pic32Duty invert n d) := by
  have hd' : (if invert then 65535 - d else d) ≤ 65535 := by cases invert <;> simp <;> omega
  unfold pic32Duty
  have h := duty_shift n (if invert then 65535 - d else d) 1 (by omega) hd' (by decide)
  rw [Nat.mod_eq_of_lt (by omega)]
  exact h.1

/-! ### The hypotheses are met -/

example : sam 24 150000000 1 1000 = some ⟨1, 150000, 150000⟩ ∧ PeriodOk 150000000 1000 ⟨1, 150000, 150000⟩ := by
  constructor
  · decide
  · refine ⟨?_, ?_, ?_⟩ <;> decide
example : pic32 80000000 20000 = some ⟨32, 40000, 40001⟩ := by decide
example : rp2040 1 125000000 10000 = some (⟨20, 62500, 62501⟩, 20) := by decide
example : (rp2040 20 125000000 20000).map (fun q => (q.1, q.2)) = some (⟨2, 60000, 60001⟩, 2) := by decide
example : gd32 108000000 1000000 1000 = some ⟨109, 1000, 1001⟩ := by decide
example : avr .fastIcr 2 (avrPre 2) 16000000 1000 = some ⟨8, 2000, 2001⟩ := by decide
example : avr .phaseIcr 2 (avrPre 2) 16000000 1000 = some ⟨8, 2000, 4000⟩ := by decide
example : avr .fastIcr 4 (avrSelect 4 1) 16000000 1000 = some ⟨256, 16000, 16001⟩ := by decide
example : ftm 0 20000000 5000 = some ⟨1, 50000, 50001⟩ := by decide
example : ch552 25600000 1000 = some ⟨100, 256, 256⟩ := by decide
example : shift16 1000 32768 = 500 := by decide

end Pico.Pwm
