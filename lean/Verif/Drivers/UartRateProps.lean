/-
The UART drivers (C82): baud rates, theorems.
-/
import Verif.Drivers.UartRate
namespace Pico.UartRate

/-- from steps of the divider to a relative error -/
theorem within_of (F b k : Nat) (d : Div) (t : Nat) (h : RateOk F b d t) (hk : k * t ≤ d.den * F) : Within F b d k := by
  obtain ⟨h1, h2, h3, h4⟩ := h
  refine ⟨h1, h2, ?_, ?_⟩
  · have := Nat.mul_le_mul_left k h3
    rw [Nat.mul_add] at this
    omega
  · have := Nat.mul_le_mul_left k h4
    rw [Nat.mul_add] at this
    omega

/-- an integer divider `r` of step `g`: right iff it is the quotient (or next to it) -/
theorem rate_iff (F b g r : Nat) (hD : 0 < g * b) :
    RateOk F b ⟨g * r, 1⟩ (g * b) ↔ 0 < r ∧ (r = F / (g * b) ∨ r = F / (g * b) + 1 ∨ (r + 1 = F / (g * b) ∧ F % (g * b) = 0)) := by
  have hF := Nat.div_add_mod F (g * b)
  have hm := Nat.mod_lt F hD
  have hg : 0 < g := Nat.pos_of_mul_pos_right hD
  have e : g * r * b = g * b * r := by ac_rfl
  simp only [RateOk, Nat.one_mul]
  rw [e]
  generalize g * b = D at *
  generalize F / D = q at *
  generalize F % D = m at *
  subst hF
  have hpos : 0 < g * r ↔ 0 < r := ⟨fun h => Nat.pos_of_mul_pos_left h, fun h => Nat.mul_pos hg h⟩
  rw [hpos]
  constructor
  · rintro ⟨h0, _, h1, h2⟩
    refine ⟨h0, ?_⟩
    have h3 : r < q + 2 := by
      refine Nat.lt_of_mul_lt_mul_left (a := D) ?_
      rw [Nat.mul_add]; omega
    have h4 : q ≤ r + 1 := by
      refine Nat.le_of_mul_le_mul_left (c := D) ?_ hD
      rw [Nat.mul_add]; omega
    rcases Nat.lt_or_ge r q with h | h
    · right; right
      have h5 : r + 1 = q := by omega
      refine ⟨h5, ?_⟩
      rw [← h5, Nat.mul_add] at h2
      omega
    · omega
  · rintro ⟨h0, h⟩
    refine ⟨h0, by decide, ?_⟩
    rcases h with rfl | rfl | ⟨rfl, rfl⟩
    · omega
    · rw [Nat.mul_add]; omega
    · rw [Nat.mul_add]; omega

/-- registers of `M` values holding the quotient -/
theorem mod_iff (F b g M : Nat) (hD : 0 < g * b) (hM : 3 ≤ M) :
    RateOk F b ⟨g * (F / (g * b) % M), 1⟩ (g * b) ↔ 0 < F / (g * b) ∧ F / (g * b) < M := by
  rw [rate_iff F b g _ hD]
  generalize F / (g * b) = q
  by_cases h : q < M
  · rw [Nat.mod_eq_of_lt h]
    constructor
    · intro ⟨h1, _⟩; exact ⟨h1, h⟩
    · intro ⟨h1, _⟩; exact ⟨h1, Or.inl rfl⟩
  · have h1 : q % M + M ≤ q := by
      have := Nat.div_add_mod q M
      have h2 : M * 1 ≤ M * (q / M) := Nat.mul_le_mul_left _ (Nat.div_pos (by omega) (by omega))
      omega
    constructor
    · rintro ⟨_, h2⟩; omega
    · rintro ⟨_, h2⟩; omega

/-- registers of `M` values holding the quotient less one -/
theorem pred_iff (F b g M r : Nat) (hD : 0 < g * b) (hM : 3 ≤ M) (h0 : F / (g * b) = 0 → r = M)
    (hr : 0 < F / (g * b) → r = (F / (g * b) - 1) % M + 1) :
    RateOk F b ⟨g * r, 1⟩ (g * b) ↔ 1 ≤ F / (g * b) ∧ F / (g * b) ≤ M := by
  rw [rate_iff F b g _ hD]
  generalize F / (g * b) = q at *
  rcases Nat.eq_zero_or_pos q with hq | hq
  · rw [h0 hq, hq]; omega
  · rw [hr hq]
    have h1 : (q - 1) % M < M := Nat.mod_lt _ (by omega)
    by_cases h : q ≤ M
    · rw [Nat.mod_eq_of_lt (by omega)]
      constructor
      · intro _; omega
      · intro _; exact ⟨by omega, Or.inl (by omega)⟩
    · have h1 : (q - 1) % M + M ≤ q - 1 := by
        have := Nat.div_add_mod (q - 1) M
        have h2 : M * 1 ≤ M * ((q - 1) / M) := Nat.mul_le_mul_left _ (Nat.div_pos (by omega) (by omega))
        omega
      omega

theorem m32_16 (b : Nat) (h : b < 2 ^ 28) : m32 (b * 16) = 16 * b := by unfold m32; rw [Nat.mod_eq_of_lt (by omega), Nat.mul_comm]
theorem m32_16' (b : Nat) (h : b < 2 ^ 28) : m32 (16 * b) = 16 * b := by unfold m32; rw [Nat.mod_eq_of_lt (by omega)]
theorem m32_id (x : Nat) (h : x < 2 ^ 32) : m32 x = x := Nat.mod_eq_of_lt h

/-- `x - 1` in 32 bits -/
theorem m32_pred (x : Nat) (h : x < 2 ^ 32) : m32 (x + (2 ^ 32 - 1)) = if x = 0 then 2 ^ 32 - 1 else x - 1 := by
  unfold m32
  split
  · subst_vars; rfl
  · omega

theorem div_lt (F b : Nat) (hF : F < 2 ^ 31) : F / b < 2 ^ 32 := Nat.lt_of_le_of_lt (Nat.div_le_self _ _) (by omega)

/-- **C82, atsamx7x and sam3x** -/
theorem sam_rate (F b : Nat) (d : Div) (hb : 0 < b ∧ b < 2 ^ 28) (h : sam F b = some d) :
    RateOk F b d (16 * b) ↔ 0 < F / (16 * b) ∧ F / (16 * b) < 65536 := by
  unfold sam at h
  cases h
  rw [m32_16 b hb.2]
  exact mod_iff F b 16 65536 (by omega) (by decide)

/-- **C82, atsamx7x_usart**: half a step -/
theorem usart_rate (F b : Nat) (d : Div) (hb : 0 < b ∧ b < 2 ^ 27) (hF : F < 2 ^ 31) (h : usart F b = some d) :
    RateOk F b d (8 * b) ↔ 8 * b ≤ F ∧ F + 8 * b < 65536 * (16 * b) := by
  unfold usart at h
  cases h
  rw [m32_16 b (by omega), m32_id _ (by omega)]
  have h8 : 16 * b / 2 = 8 * b := by omega
  rw [h8]
  have hD := Nat.div_add_mod (F + 8 * b) (16 * b)
  have hm := Nat.mod_lt (F + 8 * b) (show 0 < 16 * b by omega)
  have hlt : (F + 8 * b) / (16 * b) < 65536 ↔ F + 8 * b < 65536 * (16 * b) := Nat.div_lt_iff_lt_mul (by omega)
  have hpos : 0 < (F + 8 * b) / (16 * b) ↔ 16 * b ≤ F + 8 * b := by
    rw [Nat.div_pos_iff]; omega
  generalize (F + 8 * b) / (16 * b) = q at *
  generalize (F + 8 * b) % (16 * b) = m at *
  have e : 16 * b * q = 16 * (b * q) := Nat.mul_assoc _ _ _
  rw [e] at hD
  simp only [RateOk, Nat.one_mul]
  by_cases hq : q < 65536
  · rw [Nat.mod_eq_of_lt hq]
    have e2 : 16 * q * b = 16 * (b * q) := by ac_rfl
    rw [e2]
    constructor
    · rintro ⟨h1, _⟩; exact ⟨by omega, hlt.1 hq⟩
    · rintro ⟨h1, h2⟩
      have := hpos.2 (by omega)
      exact ⟨by omega, by decide, by omega, by omega⟩
  · constructor
    · rintro ⟨_, _, _, h4⟩
      exfalso
      have h1 : q % 65536 + 65536 ≤ q := by omega
      have h2 : b * (q % 65536 + 65536) ≤ b * q := Nat.mul_le_mul_left _ h1
      rw [Nat.mul_add] at h2
      have e2 : 16 * (q % 65536) * b = 16 * (b * (q % 65536)) := by ac_rfl
      rw [e2] at h4
      omega
    · rintro ⟨_, h2⟩; exact absurd (hlt.2 h2) hq

/-- **C82, avr** -/
theorem avr_rate (F b : Nat) (d : Div) (hb : 0 < b) (hF : F < 2 ^ 31) (h : avr F b = some d) :
    RateOk F b d (8 * b) ↔ 1 ≤ F / (8 * b) ∧ F / (8 * b) ≤ 4096 := by
  unfold avr at h
  cases h
  rw [m32_pred _ (Nat.lt_of_le_of_lt (Nat.div_le_self _ _) (div_lt _ _ hF)), Nat.div_div_eq_div_mul]
  refine pred_iff F b 8 4096 _ (by omega) (by decide) ?_ ?_
  · intro h; rw [if_pos h]
  · intro h
    rw [if_neg (by omega)]
    omega

/-- **C82, pic32mx** -/
theorem pic32_rate (F b : Nat) (d : Div) (hb : 0 < b ∧ b < 2 ^ 28) (hF : F < 2 ^ 31) (h : pic32 F b = some d) :
    RateOk F b d (16 * b) ↔ 1 ≤ F / (16 * b) ∧ F / (16 * b) ≤ 65536 := by
  unfold pic32 at h
  cases h
  rw [m32_pred _ (div_lt _ _ hF), m32_16 b hb.2]
  refine pred_iff F b 16 65536 _ (by omega) (by decide) ?_ ?_
  · intro h; rw [if_pos h]
  · intro h
    rw [if_neg (by omega)]

/-- **C82, tinyavr**: BAUD is a whole number of 64ths, the fraction is not used -/
theorem tinyavr_rate (F b : Nat) (d : Div) (hb : 0 < b) (h : tinyavr F b = some d) :
    RateOk F b d (64 * (16 * b)) ↔ 0 < F / (16 * b) ∧ F / (16 * b) < 1024 := by
  unfold tinyavr at h
  cases h
  rw [Nat.div_div_eq_div_mul]
  have hh := mod_iff F b 16 1024 (by omega) (by decide)
  have e : m32 (F / (16 * b) * 64) % 65536 = 64 * (F / (16 * b) % 1024) := by unfold m32; omega
  rw [e, ← hh]
  simp only [RateOk, Nat.one_mul]
  generalize F / (16 * b) % 1024 = r
  have e2 : 16 * (64 * r) * b = 64 * (16 * r * b) := by ac_rfl
  rw [e2]
  constructor
  · rintro ⟨h1, h2, h3, h4⟩; exact ⟨by omega, by omega, by omega, by omega⟩
  · rintro ⟨h1, h2, h3, h4⟩; exact ⟨by omega, by omega, by omega, by omega⟩

/-- **C82, mc9s08ptxx** -/
theorem mc9_rate (F b : Nat) (d : Div) (hb : 0 < b) (h : mc9 F b = some d) :
    RateOk F b d (16 * b) ↔ 0 < F / (16 * b) ∧ F / (16 * b) < 8192 := by
  unfold mc9 at h
  cases h
  have e : F / 16 / b / 256 % 32 * 256 + F / 16 / b % 256 = F / (16 * b) % 8192 := by rw [← Nat.div_div_eq_div_mul]; omega
  rw [e]
  exact mod_iff F b 16 8192 (by omega) (by decide)

theorem raLoop_some (F b : Nat) (hb : 0 < b ∧ b < 2 ^ 21) (hF : F < 2 ^ 31) (l : List Nat) (hl : ∀ c ∈ l, 1 ≤ c ∧ c ≤ 64) : ∀ d, raLoop F b l = some d →
    ∃ c ∈ l, ∃ n, n ≤ 255 ∧ F / (32 * c * b) = n + 1 ∧ d = ⟨32 * c * (n + 1), 1⟩ := by
  induction l with
  | nil => intro d h; cases h
  | cons c l ih =>
    intro d h
    unfold raLoop at h
    have hc := hl c (List.mem_cons_self ..)
    have e : m32 (64 * c / 2 * b) = 32 * c * b := by
      have : 64 * c / 2 = 32 * c := by omega
      rw [this]
      refine m32_id _ ?_
      calc 32 * c * b ≤ 32 * 64 * b := Nat.mul_le_mul_right _ (by omega)
        _ < 2 ^ 32 := by omega
    rw [e, m32_pred _ (div_lt _ _ hF)] at h
    dsimp only at h
    by_cases hz : F / (32 * c * b) = 0
    · rw [if_pos hz, if_neg (by decide)] at h
      obtain ⟨c', h1, h2⟩ := ih (fun c hc => hl c (List.mem_cons_of_mem _ hc)) d h
      exact ⟨c', List.mem_cons_of_mem _ h1, h2⟩
    · rw [if_neg hz] at h
      split at h
      · rename_i hle
        cases h
        exact ⟨c, List.mem_cons_self .., _, hle, (Nat.succ_pred_eq_of_ne_zero hz).symm, rfl⟩
      · obtain ⟨c', h1, h2⟩ := ih (fun c hc => hl c (List.mem_cons_of_mem _ hc)) d h
        exact ⟨c', List.mem_cons_of_mem _ h1, h2⟩

/-- **C82, renesas_ra4_sci**: always right (to one step of BRR for the clock chosen), or refused -/
theorem renesas_rate (F b : Nat) (d : Div) (hb : 0 < b ∧ b < 2 ^ 21) (hF : F < 2 ^ 31) (h : renesas F b = some d) :
    ∃ c, (c = 1 ∨ c = 4 ∨ c = 16 ∨ c = 64) ∧ RateOk F b d (32 * c * b) := by
  obtain ⟨c, hc, n, hn, hq, rfl⟩ := raLoop_some F b hb hF [1, 4, 16, 64] (by decide) d h
  refine ⟨c, by simpa using hc, ?_⟩
  have hc0 : 0 < c := by
    simp only [List.mem_cons, List.not_mem_nil, or_false] at hc; omega
  rw [rate_iff F b (32 * c) (n + 1) (Nat.mul_pos (by omega) hb.1)]
  exact ⟨by omega, Or.inl hq.symm⟩

theorem raLoop_cons (F b c : Nat) (l : List Nat) (hc : 1 ≤ c ∧ c ≤ 64) (hb : 0 < b ∧ b < 2 ^ 21) (hF : F < 2 ^ 31) :
    raLoop F b (c :: l) = none ↔ (F < 32 * c * b ∨ 257 * (32 * c * b) ≤ F) ∧ raLoop F b l = none := by
  have e : m32 (64 * c / 2 * b) = 32 * c * b := by
    have : 64 * c / 2 = 32 * c := by omega
    rw [this]
    refine m32_id _ ?_
    calc 32 * c * b ≤ 32 * 64 * b := Nat.mul_le_mul_right _ (by omega)
      _ < 2 ^ 32 := by omega
  have hpos : 0 < 32 * c * b := Nat.mul_pos (by omega) hb.1
  have h1 : 1 ≤ F / (32 * c * b) ↔ 32 * c * b ≤ F := by rw [Nat.one_le_div_iff hpos]
  have h2 : F / (32 * c * b) < 257 ↔ F < 257 * (32 * c * b) := Nat.div_lt_iff_lt_mul hpos
  rw [raLoop, e, m32_pred _ (div_lt _ _ hF)]
  generalize F / (32 * c * b) = q at *
  generalize 32 * c * b = D at *
  by_cases hz : q = 0
  · rw [if_pos hz, if_neg (by decide)]
    constructor
    · intro h; exact ⟨by omega, h⟩
    · intro h; exact h.2
  · rw [if_neg hz]
    by_cases hq : q - 1 ≤ 0xff
    · rw [if_pos hq]
      constructor
      · intro h; cases h
      · rintro ⟨h, _⟩; omega
    · rw [if_neg hq]
      constructor
      · intro h; exact ⟨by omega, h⟩
      · intro h; exact h.2

/-- **C82, renesas_ra4_sci**: refused exactly when no divider gives the rate -/
theorem renesas_none (F b : Nat) (hb : 0 < b ∧ b < 2 ^ 21) (hF : F < 2 ^ 31) : renesas F b = none ↔ F < 32 * b ∨ 526336 * b ≤ F := by
  unfold renesas
  rw [raLoop_cons _ _ _ _ (by decide) hb hF, raLoop_cons _ _ _ _ (by decide) hb hF, raLoop_cons _ _ _ _ (by decide) hb hF, raLoop_cons _ _ _ _ (by decide) hb hF]
  simp only [raLoop, and_true]
  omega

/-- each prescaler is at most twice the one before -/
def chk : Nat → List Nat → Bool
  | _, [] => true
  | a, c :: l => decide (0 < c ∧ c ≤ 2 * a) && chk c l

theorem stmLoop_next (F b : Nat) (hb : 0 < b) (l : List Nat) : ∀ prev, 0 < prev → 65535 < F / prev / b → chk prev l = true →
    ∀ d, stmLoop F b l = some d → ∃ p ∈ l, 0 < p ∧ 16 ≤ F / (p * b) ∧ d = ⟨p * (F / (p * b)), 1⟩ := by
  induction l with
  | nil => intro _ _ _ _ d h; cases h
  | cons p l ih =>
    intro prev hp0 hp hch d h
    rw [chk, Bool.and_eq_true, decide_eq_true_eq] at hch
    obtain ⟨⟨hc1, hc2⟩, hc3⟩ := hch
    unfold stmLoop at h
    dsimp only at h
    split at h
    · have h16 : 16 ≤ F / (p * b) := by
        rw [Nat.le_div_iff_mul_le (Nat.mul_pos hc1 hb)]
        rw [Nat.div_div_eq_div_mul, Nat.lt_iff_add_one_le, Nat.le_div_iff_mul_le (Nat.mul_pos hp0 hb)] at hp
        have h1 : p * b ≤ 2 * prev * b := Nat.mul_le_mul_right _ hc2
        rw [Nat.mul_assoc] at h1
        omega
      rw [Nat.div_div_eq_div_mul, if_neg (by omega)] at h
      cases h
      exact ⟨p, List.mem_cons_self .., hc1, h16, rfl⟩
    · obtain ⟨p', h1, h2⟩ := ih p hc1 (by omega) hc3 d h
      exact ⟨p', List.mem_cons_of_mem _ h1, h2⟩

/-- **C82, stm32h7xx**: right (to one step for the prescaler chosen) unless the rate is above F / 16, which is not refused -/
theorem stm32_rate (F b : Nat) (d : Div) (hb : 0 < b) (h : stm32 F b = some d) :
    ∃ p ∈ [1, 2, 4, 6, 8, 10, 12, 16, 32, 64, 128, 256], RateOk F b d (p * b) ↔ 16 * b ≤ F := by
  unfold stm32 at h
  rw [stmLoop, Nat.div_one] at h
  have hiff : 16 ≤ F / b ↔ 16 * b ≤ F := Nat.le_div_iff_mul_le hb
  split at h
  · refine ⟨1, by decide, ?_⟩
    rw [Nat.one_mul]
    by_cases hq : F / b < 16
    · rw [if_pos hq] at h
      cases h
      constructor
      · rintro ⟨h0, _⟩; exact absurd h0 (by decide)
      · intro h; omega
    · rw [if_neg hq] at h
      cases h
      have := rate_iff F b 1 (F / b) (by omega)
      simp only [Nat.one_mul] at this ⊢
      rw [this]
      constructor
      · intro _; omega
      · intro _; exact ⟨by omega, Or.inl trivial⟩
  · obtain ⟨p, h1, h2, h3, rfl⟩ := stmLoop_next F b hb _ 1 (by decide) (by rw [Nat.div_one]; omega) (by decide) d h
    refine ⟨p, List.mem_cons_of_mem _ h1, ?_⟩
    rw [rate_iff F b p _ (Nat.mul_pos h2 hb)]
    constructor
    · intro _
      have : 16 * (p * b) ≤ F := (Nat.le_div_iff_mul_le (Nat.mul_pos h2 hb)).1 h3
      have h4 : 1 * b ≤ p * b := Nat.mul_le_mul_right _ h2
      omega
    · intro _; exact ⟨by omega, Or.inl rfl⟩

theorem stmLoop_none (F b : Nat) (l : List Nat) : stmLoop F b l = none ↔ ∀ p ∈ l, 65535 < F / p / b := by
  induction l with
  | nil => simp [stmLoop]
  | cons p l ih =>
    rw [stmLoop]
    by_cases h : F / p / b ≤ 0xffff
    · rw [if_pos h]
      constructor
      · intro h; cases h
      · intro h'; exact absurd (h' p (List.mem_cons_self ..)) (by omega)
    · rw [if_neg h, ih]
      constructor
      · intro h' q hq
        rcases List.mem_cons.1 hq with rfl | hq
        · omega
        · exact h' q hq
      · intro h' q hq; exact h' q (List.mem_cons_of_mem _ hq)

/-- **C82, stm32h7xx**: refused exactly below F / 2^24 -/
theorem stm32_none (F b : Nat) (hb : 0 < b) : stm32 F b = none ↔ 2 ^ 24 * b ≤ F := by
  unfold stm32
  rw [stmLoop_none]
  have e : ∀ p, 0 < p → (65535 < F / p / b ↔ 65536 * (p * b) ≤ F) := fun p hp => by
    rw [Nat.div_div_eq_div_mul, Nat.lt_iff_add_one_le, Nat.le_div_iff_mul_le (Nat.mul_pos hp hb)]
  constructor
  · intro h
    have := (e 256 (by decide)).1 (h 256 (by decide))
    omega
  · intro h p hp
    have hp' : 1 ≤ p ∧ p ≤ 256 := (by decide : ∀ p ∈ [1, 2, 4, 6, 8, 10, 12, 16, 32, 64, 128, 256], 1 ≤ p ∧ p ≤ 256) p hp
    rw [e p hp'.1]
    have : p * b ≤ 256 * b := Nat.mul_le_mul_right _ hp'.2
    omega

/-- **C82, nxp_linflexd**: to one cycle, unless the fraction rounds up to 16, which is stored as 0 -/
theorem lin_rate (F b : Nat) (d : Div) (hb : 0 < b ∧ b < 2 ^ 23) (h : lin F b = some d) :
    RateOk F b d b ↔ 0 < F / (16 * b) ∧ F / (16 * b) < 65536 ∧ 2 * (F % (16 * b)) < 31 * b := by
  unfold lin at h
  cases h
  rw [m32_16' b (by omega)]
  have hF := Nat.div_add_mod F (16 * b)
  have hm := Nat.mod_lt F (show 0 < 16 * b by omega)
  generalize F / (16 * b) = q at *
  generalize F % (16 * b) = m at *
  rw [m32_id (m * 16) (by omega), m32_id _ (by omega)]
  have hf := Nat.div_add_mod (m * 16 + 16 * b / 2) (16 * b)
  have hg := Nat.mod_lt (m * 16 + 16 * b / 2) (show 0 < 16 * b by omega)
  have hlt : (m * 16 + 16 * b / 2) / (16 * b) < 16 ↔ m * 16 + 16 * b / 2 < 16 * (16 * b) := Nat.div_lt_iff_lt_mul (by omega)
  have hle : (m * 16 + 16 * b / 2) / (16 * b) < 17 := by rw [Nat.div_lt_iff_lt_mul (by omega)]; omega
  generalize (m * 16 + 16 * b / 2) / (16 * b) = f at *
  generalize (m * 16 + 16 * b / 2) % (16 * b) = g at *
  rw [Nat.mul_assoc] at hf hF
  simp only [RateOk, Nat.one_mul]
  by_cases hi : q % 65536 = 0
  · rw [if_pos hi]
    constructor
    · rintro ⟨h0, _⟩; omega
    · intro _; omega
  · rw [if_neg hi]
    have e : ∀ x, (16 * (q % 65536) + x) * b = 16 * (b * (q % 65536)) + b * x := fun x => by
      rw [Nat.add_mul]; congr 1 <;> ac_rfl
    rw [e]
    by_cases hq : q < 65536
    · rw [Nat.mod_eq_of_lt hq] at hi ⊢
      by_cases hf16 : f < 16
      · rw [Nat.mod_eq_of_lt hf16]
        have := hlt.1 hf16
        generalize b * q = Q at *
        generalize b * f = X at *
        constructor
        · intro _; omega
        · intro _; omega
      · have h16 : f = 16 := by omega
        subst h16
        rw [Nat.mod_self, Nat.mul_zero]
        generalize b * q = Q at *
        have : ¬ m * 16 + 16 * b / 2 < 16 * (16 * b) := fun h => hf16 (hlt.2 h)
        constructor
        · rintro ⟨_, _, _, h4⟩; omega
        · rintro ⟨_, _, h3⟩; omega
    · constructor
      · rintro ⟨_, _, _, h4⟩
        exfalso
        have h1 : q % 65536 + 65536 ≤ q := by omega
        have h2 : b * (q % 65536 + 65536) ≤ b * q := Nat.mul_le_mul_left _ h1
        rw [Nat.mul_add] at h2
        have h5 : b * (f % 16) ≤ b * 16 := Nat.mul_le_mul_left _ (by omega)
        generalize b * q = Q at *
        generalize b * (q % 65536) = Q' at *
        generalize b * (f % 16) = X at *
        omega
      · rintro ⟨_, h2, _⟩; exact absurd h2 hq

/-- **C82, gd32vf103**: exact condition (to one cycle) -/
theorem gd32_rate (F b : Nat) (d : Div) (hb : 0 < b ∧ b < 2 ^ 24) (h : gd32 F b = some d) :
    RateOk F b d b ↔ F / (16 * b) < 4096 ∧ F % (16 * b) * 16 / (F / (16 * b)) % 16 * b ≤ F % (16 * b) + b ∧
      F % (16 * b) ≤ F % (16 * b) * 16 / (F / (16 * b)) % 16 * b + b := by
  unfold gd32 at h
  dsimp only at h
  rw [m32_16' b (by omega)] at h
  have hF := Nat.div_add_mod F (16 * b)
  have hm := Nat.mod_lt F (show 0 < 16 * b by omega)
  split at h
  · cases h
  · rename_i hne
    cases h
    rw [m32_id _ (by omega)]
    generalize F / (16 * b) = q at *
    generalize F % (16 * b) = m at *
    have hx : m * 16 / q % 16 < 16 := Nat.mod_lt _ (by decide)
    generalize m * 16 / q % 16 = x at *
    rw [Nat.mul_assoc] at hF
    simp only [RateOk, Nat.one_mul]
    have e : ∀ r, (16 * r + x) * b = 16 * (b * r) + x * b := fun r => by
      rw [Nat.add_mul]; congr 1; ac_rfl
    rw [e]
    have hxb : x * b ≤ 15 * b := Nat.mul_le_mul_right _ (by omega)
    generalize x * b = X at *
    by_cases hq : q < 4096
    · rw [Nat.mod_eq_of_lt hq]
      generalize b * q = Q at *
      constructor
      · rintro ⟨_, _, h3, h4⟩; exact ⟨hq, by omega, by omega⟩
      · rintro ⟨_, h3, h4⟩; exact ⟨by omega, by decide, by omega, by omega⟩
    · constructor
      · rintro ⟨_, _, _, h4⟩
        exfalso
        have h1 : q % 4096 + 4096 ≤ q := by omega
        have h2 : b * (q % 4096 + 4096) ≤ b * q := Nat.mul_le_mul_left _ h1
        rw [Nat.mul_add] at h2
        generalize b * q = Q at *
        generalize b * (q % 4096) = Q' at *
        omega
      · rintro ⟨h, _⟩; exact absurd h hq

/-- **C82, gd32vf103**: the fraction is arbitrary, so the error is up to 16 cycles -/
theorem gd32_coarse (F b : Nat) (d : Div) (hb : 0 < b ∧ b < 2 ^ 24) (hq : F / (16 * b) < 4096) (h : gd32 F b = some d) : RateOk F b d (16 * b) := by
  unfold gd32 at h
  dsimp only at h
  rw [m32_16' b (by omega)] at h
  have hF := Nat.div_add_mod F (16 * b)
  have hm := Nat.mod_lt F (show 0 < 16 * b by omega)
  split at h
  · cases h
  · rename_i hne
    cases h
    rw [Nat.mod_eq_of_lt hq]
    generalize m32 (F % (16 * b) * 16) / (F / (16 * b)) = y
    have hx : y % 16 < 16 := Nat.mod_lt _ (by decide)
    generalize y % 16 = x at *
    generalize F / (16 * b) = q at *
    generalize F % (16 * b) = m at *
    rw [Nat.mul_assoc] at hF
    simp only [RateOk, Nat.one_mul]
    have e : (16 * q + x) * b = 16 * (b * q) + x * b := by
      rw [Nat.add_mul]; congr 1; ac_rfl
    rw [e]
    have hxb : x * b ≤ 15 * b := Nat.mul_le_mul_right _ (by omega)
    generalize x * b = X at *
    generalize b * q = Q at *
    exact ⟨by omega, by decide, by omega, by omega⟩

/-- **C82, gd32vf103, refuted**: 115200 baud at 108 MHz, 9600 baud at 54 MHz -/
theorem gd32_wrong : (∃ d, gd32 108000000 115200 = some d ∧ ¬ RateOk 108000000 115200 d 115200) ∧ ∃ d, gd32 54000000 9600 = some d ∧ ¬ RateOk 54000000 9600 d 9600 := by
  refine ⟨⟨_, rfl, ?_⟩, ⟨_, rfl, ?_⟩⟩ <;> (unfold RateOk; decide)

/-- **C82, gd32vf103, refuted**: rates above F / 16 trap (division by 0) -/
theorem gd32_trap (F b : Nat) (hb : b < 2 ^ 28) : gd32 F b = none ↔ F < 16 * b ∨ b = 0 := by
  unfold gd32
  dsimp only
  rw [m32_16' b hb]
  have : F / (16 * b) = 0 ↔ F < 16 * b ∨ b = 0 := by
    rw [Nat.div_eq_zero_iff]; omega
  rw [← this]
  by_cases h : F / (16 * b) = 0
  · rw [if_pos h]; exact ⟨fun _ => h, fun _ => rfl⟩
  · rw [if_neg h]
    constructor
    · intro h'; cases h'
    · intro h'; exact absurd h' h

/-- pl011: what the generator gets -/
theorem pl011_eq (F b : Nat) (d : Div) (hb : 0 < b ∧ b < 2 ^ 21) (hq : 0 < F / (16 * b) ∧ F / (16 * b) < 65536) (h : pl011 F b = some d) :
    RateOk F b d b ↔ F % (16 * b) * 100 / (16 * b) % 64 * b ≤ 4 * (F % (16 * b)) + b ∧ 4 * (F % (16 * b)) ≤ F % (16 * b) * 100 / (16 * b) % 64 * b + b := by
  unfold pl011 at h
  dsimp only at h
  rw [m32_16' b (by omega), Nat.mod_eq_of_lt hq.2, if_neg (by omega)] at h
  cases h
  have hF := Nat.div_add_mod F (16 * b)
  have hm := Nat.mod_lt F (show 0 < 16 * b by omega)
  rw [m32_id _ (by omega)]
  generalize F % (16 * b) * 100 / (16 * b) % 64 = x
  generalize F / (16 * b) = q at *
  generalize F % (16 * b) = m at *
  rw [Nat.mul_assoc] at hF
  simp only [RateOk]
  have e : (64 * q + x) * b = 64 * (b * q) + x * b := by
    rw [Nat.add_mul]; congr 1; ac_rfl
  rw [e]
  generalize x * b = X at *
  generalize b * q = Q at *
  constructor
  · rintro ⟨h1, h2, h3, h4⟩; omega
  · rintro ⟨h3, h4⟩; exact ⟨by omega, by decide, by omega, by omega⟩

/-- **C82, arm_pl011**: the fraction is in 100ths instead of 64ths: right (to 1/64 of 16 cycles) when it is small -/
theorem pl011_right (F b : Nat) (d : Div) (hb : 0 < b ∧ b < 2 ^ 21) (hq : 0 < F / (16 * b) ∧ F / (16 * b) < 65536) (hm : 9 * (F % (16 * b)) ≤ 4 * b)
    (h : pl011 F b = some d) : RateOk F b d b := by
  rw [pl011_eq F b d hb hq h]
  generalize F % (16 * b) = m at *
  have h1 := Nat.div_add_mod (m * 100) (16 * b)
  have h2 := Nat.mod_lt (m * 100) (show 0 < 16 * b by omega)
  have h3 : m * 100 / (16 * b) < 64 := by rw [Nat.div_lt_iff_lt_mul (by omega)]; omega
  rw [Nat.mod_eq_of_lt h3]
  generalize m * 100 / (16 * b) = x at *
  generalize m * 100 % (16 * b) = y at *
  have e : 16 * b * x = 16 * (x * b) := by ac_rfl
  rw [e] at h1
  generalize x * b = X at *
  omega

/-- **C82, arm_pl011, refuted**: and wrong for all fractions above 8/9 of a cycle (of 16) -/
theorem pl011_wrong (F b : Nat) (d : Div) (hb : 0 < b ∧ b < 2 ^ 21) (hq : 0 < F / (16 * b) ∧ F / (16 * b) < 65536) (hm : 8 * b < 9 * (F % (16 * b)))
    (h : pl011 F b = some d) : ¬ RateOk F b d b := by
  rw [pl011_eq F b d hb hq h]
  have hm2 := Nat.mod_lt F (show 0 < 16 * b by omega)
  generalize F % (16 * b) = m at *
  have h1 := Nat.div_add_mod (m * 100) (16 * b)
  have h2 := Nat.mod_lt (m * 100) (show 0 < 16 * b by omega)
  have h3 : m * 100 / (16 * b) < 100 := by rw [Nat.div_lt_iff_lt_mul (by omega)]; omega
  generalize m * 100 / (16 * b) = x at *
  generalize m * 100 % (16 * b) = y at *
  have e : 16 * b * x = 16 * (x * b) := by ac_rfl
  rw [e] at h1
  by_cases hx : x < 64
  · rw [Nat.mod_eq_of_lt hx]
    generalize x * b = X at *
    omega
  · have hx' : x % 64 = x - 64 := by omega
    rw [hx', Nat.sub_mul]
    have : 64 * b ≤ x * b := Nat.mul_le_mul_right _ (by omega)
    generalize x * b = X at *
    omega

/-- **C82, arm_pl011, refuted**: rates above F / 16 and below F / 2^20 are accepted -/
theorem pl011_range (F b : Nat) (d : Div) (hb : 0 < b ∧ b < 2 ^ 21) (hq : F / (16 * b) = 0 ∨ 65536 ≤ F / (16 * b)) (h : pl011 F b = some d) : ¬ RateOk F b d b := by
  unfold pl011 at h
  dsimp only at h
  rw [m32_16' b (by omega)] at h
  cases h
  by_cases hi : F / (16 * b) % 65536 = 0
  · rw [if_pos hi]
    rintro ⟨h0, _⟩
    exact absurd h0 (by decide)
  · rw [if_neg hi]
    have hF := Nat.div_add_mod F (16 * b)
    have hm := Nat.mod_lt F (show 0 < 16 * b by omega)
    generalize m32 (F % (16 * b) * 100) / (16 * b) = y
    have hx : y % 64 < 64 := Nat.mod_lt _ (by decide)
    generalize y % 64 = x at *
    generalize F / (16 * b) = q at *
    generalize F % (16 * b) = m at *
    rw [Nat.mul_assoc] at hF
    rintro ⟨_, _, _, h4⟩
    have h4' : 4 * F ≤ (64 * (q % 65536) + x) * b + b := h4
    have e : (64 * (q % 65536) + x) * b = 64 * (b * (q % 65536)) + x * b := by
      rw [Nat.add_mul]; congr 1; ac_rfl
    rw [e] at h4'
    have hxb : x * b ≤ 63 * b := Nat.mul_le_mul_right _ (by omega)
    have h1 : q % 65536 + 65536 ≤ q := by omega
    have h2 : b * (q % 65536 + 65536) ≤ b * q := Nat.mul_le_mul_left _ h1
    rw [Nat.mul_add] at h2
    generalize b * q = Q at *
    generalize b * (q % 65536) = Q' at *
    generalize x * b = X at *
    omega

/-- sercom: the register -/
theorem sercom_eq (F b : Nat) (d : Div) (hb : 0 < b ∧ b < 2 ^ 18) (hF : 0 < F) (h : sercom F b = some d) :
    0 < 16384 * b / F ∧ 16 * b ≤ F ∧ d = ⟨1048576, 64 * (16384 * b / F)⟩ := by
  unfold sercom at h
  dsimp only at h
  rw [m32_16 b (by omega)] at h
  have e : m32 (16 * b * 1024) = 16384 * b := by unfold m32; omega
  rw [e] at h
  split at h
  · rename_i hle
    have hk : 16384 * b / F ≤ 1024 := by
      rw [Nat.div_le_iff_le_mul_add_pred hF]
      have : F * 1024 = 1024 * F := Nat.mul_comm _ _
      omega
    generalize 16384 * b / F = k at *
    split at h
    · cases h
      refine ⟨by omega, hle, ?_⟩
      congr 1
      omega
    · cases h
  · cases h

/-- **C82, atmel_sercom**: the register is computed in steps of 64, so that the rate is right (to one step) only if 2^14 * b is just above a multiple of F -/
theorem sercom_rate (F b : Nat) (d : Div) (hb : 0 < b ∧ b < 2 ^ 18) (hF : 0 < F) (h : sercom F b = some d) :
    RateOk F b d F ↔ 64 * (16384 * b % F) ≤ F := by
  obtain ⟨h1, _, rfl⟩ := sercom_eq F b d hb hF h
  have hD := Nat.div_add_mod (16384 * b) F
  generalize 16384 * b / F = k at *
  generalize 16384 * b % F = m at *
  simp only [RateOk]
  have e : 64 * k * F = 64 * (F * k) := by ac_rfl
  rw [e]
  generalize F * k = Q at *
  constructor
  · rintro ⟨_, _, h3, h4⟩; omega
  · intro h5; exact ⟨by decide, by omega, by omega, by omega⟩

/-- **C82, atmel_sercom**: and the rate is always the slower one of the multiples of F / 2^14 around it -/
theorem sercom_slow (F b : Nat) (d : Div) (hb : 0 < b ∧ b < 2 ^ 18) (hF : 0 < F) (h : sercom F b = some d) :
    d.den * F ≤ d.num * b ∧ d.num * b < (d.den + 64) * F := by
  obtain ⟨h1, _, rfl⟩ := sercom_eq F b d hb hF h
  have hD := Nat.div_add_mod (16384 * b) F
  have hm := Nat.mod_lt (16384 * b) hF
  show 64 * (16384 * b / F) * F ≤ 1048576 * b ∧ 1048576 * b < (64 * (16384 * b / F) + 64) * F
  generalize 16384 * b / F = k at *
  generalize 16384 * b % F = m at *
  have e : (64 * k + 64) * F = 64 * (F * k) + 64 * F := by rw [Nat.add_mul]; congr 1; ac_rfl
  have e' : 64 * k * F = 64 * (F * k) := by ac_rfl
  rw [e, e']
  generalize F * k = Q at *
  omega

/-- **C82, atmel_sercom, refuted**: 9600 baud at 48 MHz is 8 % off; below F / 16384 it is refused -/
theorem sercom_wrong : (∃ d, sercom 48000000 9600 = some d ∧ ¬ Within 48000000 9600 d 12) ∧ sercom 120000000 4800 = none := by
  refine ⟨⟨_, rfl, ?_⟩, by decide⟩
  unfold Within; decide

theorem th1_eq (n : Nat) (h : n < 2 ^ 32) : th1 n = if n = 0 then 256 else (n - 1) % 256 + 1 := by
  unfold th1 m32
  split <;> omega

theorem r3_eq (n : Nat) (h : n < 2 ^ 32) : r3 n = if n = 0 then 65536 else (n - 1) % 65536 + 1 := by
  unfold r3 m32
  split <;> omega

/-- timer 1 reload with rounding, `g` = 32 or 16 cycles per count -/
theorem th1_rate (F b g : Nat) (hb : 0 < b) (hg : g = 16 ∨ g = 32) (hn : (F / g + b / 2) / b < 2 ^ 32) :
    RateOk F b ⟨g * th1 ((F / g + b / 2) / b), 1⟩ (g * b) ↔ 1 ≤ (F / g + b / 2) / b ∧ (F / g + b / 2) / b ≤ 256 := by
  rw [th1_eq _ hn, rate_iff F b g _ (by rcases hg with rfl | rfl <;> omega), ← Nat.div_div_eq_div_mul]
  have h1 : F / g / b ≤ (F / g + b / 2) / b := Nat.div_le_div_right (by omega)
  have h2 : (F / g + b / 2) / b ≤ F / g / b + 1 := by
    rw [← Nat.add_div_right _ hb]
    exact Nat.div_le_div_right (by omega)
  generalize (F / g + b / 2) / b = n at *
  generalize F / g / b = q at *
  by_cases h0 : n = 0
  · rw [if_pos h0]; omega
  · rw [if_neg h0]
    constructor
    · rintro ⟨_, h⟩; omega
    · rintro ⟨_, h⟩
      refine ⟨by omega, ?_⟩
      have : (n - 1) % 256 + 1 = n := by omega
      omega

/-- **C82, 8051** -/
theorem mcs51_rate (F b : Nat) (d : Div) (hb : 0 < b ∧ b < 2 ^ 31) (hF : F < 2 ^ 31) (h : mcs51 F b = some d) :
    RateOk F b d (32 * b) ↔ 1 ≤ (F / 32 + b / 2) / b ∧ (F / 32 + b / 2) / b ≤ 256 := by
  unfold mcs51 at h
  cases h
  exact th1_rate F b 32 hb.1 (Or.inr rfl) (Nat.lt_of_le_of_lt (Nat.div_le_self _ _) (by omega))

/-- **C82, 8051_irqdriven** -/
theorem mcs51i_rate (F b : Nat) (d : Div) (hb : 0 < b ∧ b < 2 ^ 31) (hF : F < 2 ^ 31) (h : mcs51i F b = some d) :
    RateOk F b d (16 * b) ↔ 1 ≤ (F / 16 + b / 2) / b ∧ (F / 16 + b / 2) / b ≤ 256 := by
  unfold mcs51i at h
  cases h
  exact th1_rate F b 16 hb.1 (Or.inl rfl) (Nat.lt_of_le_of_lt (Nat.div_le_self _ _) (by omega))

/-- **C82, n76e003 UART0 on timer 1** -/
theorem n76t1_rate (F b : Nat) (d : Div) (hb : 0 < b) (hF : F < 2 ^ 31) (h : n76t1 F b = some d) :
    RateOk F b d (16 * b) ↔ 1 ≤ F / (16 * b) ∧ F / (16 * b) ≤ 256 := by
  unfold n76t1 at h
  split at h
  · cases h
  · cases h
    rw [Nat.div_div_eq_div_mul, th1_eq _ (div_lt _ _ hF)]
    refine pred_iff F b 16 256 _ (by omega) (by decide) ?_ ?_
    · intro h; rw [if_pos h]
    · intro h; rw [if_neg (by omega)]

/-- **C82, n76e003 UART0 on timer 3** -/
theorem n76t3_rate (F b : Nat) (d : Div) (hb : 0 < b) (hF : F < 2 ^ 31) (h : n76t3 F b = some d) :
    RateOk F b d (16 * b) ↔ 1 ≤ F / (16 * b) ∧ F / (16 * b) ≤ 65536 := by
  unfold n76t3 at h
  split at h
  · cases h
  · cases h
    rw [Nat.div_div_eq_div_mul, r3_eq _ (div_lt _ _ hF)]
    refine pred_iff F b 16 65536 _ (by omega) (by decide) ?_ ?_
    · intro h; rw [if_pos h]
    · intro h; rw [if_neg (by omega)]

/-- **C82, n76e003 UART1, refuted**: half the rate asked -/
theorem n76u1_wrong (F b : Nat) (d : Div) (hb : 0 < b) (hF : F < 2 ^ 31) (hq : 3 ≤ F / (16 * b) ∧ F / (16 * b) ≤ 65536) (h : n76u1 F b = some d) :
    d = ⟨2 * (16 * (F / (16 * b))), 1⟩ ∧ ¬ RateOk F b d (32 * b) := by
  unfold n76u1 at h
  split at h
  · cases h
  · rw [Nat.div_div_eq_div_mul, r3_eq _ (div_lt _ _ hF), if_neg (by omega)] at h
    have e : (F / (16 * b) - 1) % 65536 + 1 = F / (16 * b) := by omega
    rw [e] at h
    cases h
    have hD := Nat.div_add_mod F (16 * b)
    have hm := Nat.mod_lt F (show 0 < 16 * b by omega)
    constructor
    · congr 1; omega
    · generalize F / (16 * b) = q at *
      generalize F % (16 * b) = m at *
      rintro ⟨_, _, h3, _⟩
      have h3' : 32 * q * b ≤ 1 * F + 32 * b := h3
      have e1 : 32 * q * b = 32 * (b * q) := by ac_rfl
      rw [e1] at h3'
      rw [Nat.mul_assoc] at hD
      have : b * 3 ≤ b * q := Nat.mul_le_mul_left _ hq.1
      generalize b * q = Q at *
      omega

/-! ### The hypotheses are met -/

example : sam 150000000 115200 = some ⟨1296, 1⟩ ∧ Within 150000000 115200 ⟨1296, 1⟩ 50 := by unfold Within; decide
example : usart 150000000 115200 = some ⟨1296, 1⟩ := by decide
example : avr 16000000 9600 = some ⟨1664, 1⟩ ∧ avr 16000000 300 = some ⟨20560, 1⟩ := by decide
example : avr 16000000 300 = some ⟨20560, 1⟩ ∧ ¬ RateOk 16000000 300 ⟨20560, 1⟩ (8 * 300) := by unfold RateOk; decide
example : pic32 100000000 9600 = some ⟨10416, 1⟩ := by decide
example : tinyavr 20000000 115200 = some ⟨10240, 64⟩ ∧ tinyavr 20000000 1200 = some ⟨16 * (17 * 64), 64⟩ := by decide
example : renesas 48000000 115200 = some ⟨416, 1⟩ ∧ renesas 48000000 9600 = some ⟨4992, 1⟩ := by decide
example : stm32 200000000 115200 = some ⟨1736, 1⟩ ∧ stm32 200000000 1200 = some ⟨166664, 1⟩ := by decide
example : lin 80000000 115200 = some ⟨694, 1⟩ := by decide
example : lin 80000000 117000 = some ⟨684, 1⟩ := by decide
example : pl011 125000000 115200 = some ⟨4305, 4⟩ := by decide
example : sercom 48000000 115200 = some ⟨1048576, 2496⟩ := by decide
example : mcs51 11059200 9600 = some ⟨1152, 1⟩ := by decide
example : n76u1 16000000 9600 = some ⟨3328, 1⟩ := by decide

end Pico.UartRate
