import Verif.Drivers.TwiRateProps
/-
C99: the bit rates of the other TWI drivers.
-/
namespace Pico.TwiRate

/-! ### GD32VF103 -/

/-- **C99, gd32vf103**, standard mode: right if the clock is an even multiple of the rate -/
theorem gd_rate_partial {F b k : Nat} {d : Div} (h : gd F b = some d) (hb : 0 < b) (hs : b ≤ 100000) (hk : 0 < k) (hF : F = 2 * k * b) : NotFaster F b d ∧ Near F b 0 d := by
  have hq : F / b = 2 * k := by rw [hF]; exact Nat.mul_div_cancel _ hb
  unfold gd at h
  dsimp only at h
  rw [hq] at h
  by_cases h1 : F < 2000000 ∨ F > 60000000
  · rw [if_pos h1] at h; cases h
  rw [if_neg h1] at h
  by_cases h2 : 2 * k / 2 ≤ 0xfff
  · rw [if_pos h2, if_pos hs] at h
    rw [← Option.some.inj h, show 2 * k / 2 + 2 * k / 2 = 2 * k by omega]
    exact exact_of F b _ (by omega) hF
  · rw [if_neg h2] at h; cases h

/-- fast mode: not faster, but one and a half times too slow -/
theorem gd_fast {F b : Nat} {d : Div} (h : gd F b = some d) (hs : 100000 < b) (hq : 4 ≤ F / b) : NotFaster F b d ∧ ¬ Near F b (F / b / 2 - 2) d := by
  unfold gd at h
  dsimp only at h
  by_cases h1 : F < 2000000 ∨ F > 60000000
  · rw [if_pos h1] at h; cases h
  rw [if_neg h1] at h
  by_cases h2 : F / b / 2 ≤ 0xfff
  · rw [if_pos h2, if_neg (show ¬ b ≤ 100000 by omega)] at h
    rw [← Option.some.inj h]
    refine ⟨notFaster_of F b _ (by omega) (by omega), ?_⟩
    intro c
    have c : b * (F / b / 2 + 2 * (F / b / 2)) ≤ (F + b * (F / b / 2 - 2)) * 1 := c
    have h3 := lt_succ F b (by omega)
    have h4 : b * (F / b + 1 + (F / b / 2 - 2)) ≤ b * (F / b / 2 + 2 * (F / b / 2)) := Nat.mul_le_mul_left _ (by omega)
    rw [Nat.mul_add] at h4
    omega
  · rw [if_neg h2] at h; cases h

/-- 54 MHz, 99 kbit/s: 99.26; 54 MHz, 400 kbit/s: 268.7 -/
theorem gd_sample : (∃ d, gd 54000000 99000 = some d ∧ ¬ NotFaster 54000000 99000 d) ∧ (∃ d, gd 54000000 100000 = some d) ∧
    (∃ d, gd 54000000 400000 = some d ∧ 54000000 * d.den < 269000 * d.num) :=
  ⟨⟨⟨544, 1⟩, by decide, by show ¬ (_ < _); decide⟩, ⟨⟨540, 1⟩, by decide⟩, ⟨⟨201, 1⟩, by decide, by decide⟩⟩

/-- the interface is told the frequency of its clock the first time -/
theorem gd_clk {F : Nat} (h : F ≤ 60000000) : gdClk 0 F = F / 1000000 := by
  unfold gdClk
  rw [Nat.zero_and, Nat.zero_or, show 0x3f = 2 ^ 6 - 1 from rfl, Nat.and_two_pow_sub_one_eq_mod]
  omega

/-- but not after a change of the clock -/
theorem gd_clk_stale : gdClk (gdClk 0 8000000) 54000000 = 62 := by decide

/-! ### HCS08 -/

theorem mc9Find_some {b : Nat} {d : Div} : ∀ {l : List (Nat × Nat)}, mc9Find b l = some d → ∃ p ∈ l, 2 ^ p.1 * mc9Table.getD p.2 0 = b ∧ d = ⟨2 ^ p.1 * mc9Divider p.2, 1⟩ := by
  intro l
  induction l with
  | nil => intro h; cases h
  | cons p l ih =>
    intro h
    obtain ⟨k, c⟩ := p
    unfold mc9Find at h
    by_cases hc : 2 ^ k * mc9Table.getD c 0 = b
    · rw [if_pos hc] at h
      exact ⟨(k, c), List.mem_cons_self .., hc, (Option.some.inj h).symm⟩
    · rw [if_neg hc] at h
      obtain ⟨p, hp, r⟩ := ih h
      exact ⟨p, List.mem_cons_of_mem _ hp, r⟩

/-- **C99, mc9s08ptxx**: the rate asked is compared with the divider: 100 and 400 kbit/s are always refused -/
theorem mc9_refused {F b : Nat} (h : 15360 < b) : mc9 F b = none := by
  cases e : mc9 F b with
  | none => rfl
  | some d =>
    exfalso
    obtain ⟨p, hp, hb, _⟩ := mc9Find_some e
    have : ∀ p ∈ mc9All, 2 ^ p.1 * mc9Table.getD p.2 0 ≤ 15360 := by decide +kernel
    have := this p hp
    omega

/-- and what is accepted makes the divider, not the rate: too fast if the clock is faster than twice the square of the rate -/
theorem mc9_wrong {F b : Nat} {d : Div} (h : mc9 F b = some d) (hF : (b + 1) * (2 * b) ≤ F) : ¬ NotFaster F b d := by
  obtain ⟨p, hp, hb, hd⟩ := mc9Find_some h
  have key : ∀ p ∈ mc9All, 2 ^ p.1 * mc9Divider p.2 ≤ 2 * (2 ^ p.1 * mc9Table.getD p.2 0) := by decide +kernel
  have hk := key p hp
  rw [hb] at hk
  rw [hd]
  intro c
  have c : F * 1 < (b + 1) * (2 ^ p.1 * mc9Divider p.2) := c
  have := Nat.mul_le_mul_left (b + 1) hk
  omega

/-- 16 MHz, 1280 bit/s: 12.5 kbit/s -/
theorem mc9_sample : ∃ d, mc9 16000000 1280 = some d ∧ (1280 + 1) * (2 * 1280) ≤ 16000000 := ⟨⟨1280, 1⟩, by decide +kernel, by decide⟩

/-! ### N76E003 -/

/-- **C99, n76e003**: right if the clock is a multiple of four times the rate, up to 1024 -/
theorem n76_rate_partial {F b k : Nat} {d : Div} (h : n76 F b = some d) (hb : 0 < b) (hk : 0 < k) (hk2 : k ≤ 256) (hF : F = 4 * k * b) : NotFaster F b d ∧ Near F b 0 d := by
  have hq : F / b = 4 * k := by rw [hF]; exact Nat.mul_div_cancel _ hb
  unfold n76 at h
  rw [hq, show m32 (4 * k / 4 + (2 ^ 32 - 1)) % 256 = k - 1 by unfold m32; omega, show 4 * (k - 1 + 1) = 4 * k by omega] at h
  rw [← Option.some.inj h]
  exact exact_of F b _ (by omega) hF

/-- 16 MHz: 300 kbit/s makes 307; 10 kbit/s makes 27 -/
theorem n76_fast : (∃ d, n76 16000000 300000 = some d ∧ ¬ NotFaster 16000000 300000 d) ∧ (∃ d, n76 16000000 10000 = some d ∧ 27000 * d.num < 16000000 * d.den) ∧
    16000000 = 4 * 40 * 100000 :=
  ⟨⟨⟨52, 1⟩, by decide, by show ¬ (_ < _); decide⟩, ⟨⟨576, 1⟩, by decide, by decide⟩, by decide⟩

/-! ### NXP -/

/-- **C99, nxp_i2c**: clock / rate is written as the code of a divider. Below 64 the code's divider is larger than the code: not faster -/
theorem nxp_rate_partial {F b : Nat} {d : Div} (h : nxp F b = some d) (hb : 0 < b) (hq : F / b < 64) : NotFaster F b d := by
  unfold nxp at h
  rw [if_pos (by omega)] at h
  have key : ∀ i, i < 64 → i + 13 ≤ nxpDivider i := by decide +kernel
  have := key (F / b) hq
  rw [← Option.some.inj h]
  exact notFaster_of F b _ hb (by omega)

/-- but too slow, by more than 12 cycles of the at most 63 asked -/
theorem nxp_slow {F b : Nat} {d : Div} (h : nxp F b = some d) (hb : 0 < b) (hq : F / b < 64) : ¬ Near F b 12 d := by
  unfold nxp at h
  rw [if_pos (by omega)] at h
  have key : ∀ i, i < 64 → i + 13 ≤ nxpDivider i := by decide +kernel
  have hk := key (F / b) hq
  rw [← Option.some.inj h]
  intro c
  have c : b * nxpDivider (F / b) ≤ (F + b * 12) * 1 := c
  have h1 := lt_succ F b hb
  have h2 : b * (F / b + 1 + 12) ≤ b * nxpDivider (F / b) := Nat.mul_le_mul_left _ (by omega)
  rw [Nat.mul_add] at h2
  omega

/-- 6.4 MHz, 100 kbit/s: 160; 10 MHz, 100 kbit/s: 17 -/
theorem nxp_sample : (∃ d, nxp 6400000 100000 = some d ∧ ¬ NotFaster 6400000 100000 d) ∧ (∃ d, nxp 10000000 100000 = some d ∧ 10000000 * d.den < 17500 * d.num) ∧
    nxp 40000000 100000 = none :=
  ⟨⟨⟨40, 1⟩, by decide, by show ¬ (_ < _); decide⟩, ⟨⟨576, 1⟩, by decide, by decide⟩, by decide⟩

/-! ### STM32H7 -/

theorem div_swap (F a b : Nat) : F / a / b = F / b / a := by
  rw [Nat.div_div_eq_div_mul, Nat.div_div_eq_div_mul, Nat.mul_comm]

theorem stmLoop_some {F b : Nat} {r : Nat × Nat} : ∀ {n k : Nat}, stmLoop F b n k = some r →
    0 < r.1 ∧ r.2 = F / r.1 / b / 2 ∧ r.2 ≤ 255 ∧ k < r.1 ∧ ∀ j, k < j → j < r.1 → 255 < F / j / b / 2 := by
  intro n
  induction n with
  | zero => intro k h; cases h
  | succ n ih =>
    intro k h
    unfold stmLoop at h
    by_cases hc : F / (k + 1) / b / 2 ≤ 255
    · rw [if_pos hc] at h
      have := (Option.some.inj h).symm
      subst this
      exact ⟨by show 0 < k + 1; omega, rfl, hc, by show k < k + 1; omega, fun j h1 h2 => by have h2 : j < k + 1 := h2; omega⟩
    · rw [if_neg hc] at h
      obtain ⟨h1, h2, h3, h4, h5⟩ := ih h
      refine ⟨h1, h2, h3, by omega, fun j hj hj2 => ?_⟩
      by_cases e : j = k + 1
      · rw [e]; omega
      · exact h5 j (by omega) hj2

/-- the loop ends -/
theorem stm_ends {F b : Nat} : ∃ r, stmLoop F b (F + 1) 0 = some r := by
  have key : ∀ n k, F ≤ n + k → ∃ r, stmLoop F b (n + 1) k = some r := by
    intro n
    induction n with
    | zero =>
      intro k hk
      unfold stmLoop
      rw [Nat.div_eq_of_lt (show F < k + 1 by omega), Nat.zero_div, Nat.zero_div, if_pos (by omega)]
      exact ⟨_, rfl⟩
    | succ n ih =>
      intro k hk
      unfold stmLoop
      by_cases hc : F / (k + 1) / b / 2 ≤ 255
      · rw [if_pos hc]; exact ⟨_, rfl⟩
      · rw [if_neg hc]; exact ih (k + 1) (by omega)
  exact key F 0 (by omega)

/-- **C99, stm32h7xx**, clock / rate at most 1023 (prescaler 1 or 2): with at least 4 cycles of synchronization, not faster, and slower by these cycles at most -/
theorem stm_rate_partial {sync F b : Nat} {d : Div} (h : stm sync F b = some d) (hb : 0 < b) (hs : 4 ≤ sync) (hl : 4 ≤ F / b) (hh : F / b < 1024) :
    NotFaster F b d ∧ Near F b sync d := by
  unfold stm at h
  obtain ⟨⟨k, p⟩, hr, hd⟩ := Option.map_eq_some_iff.1 h
  obtain ⟨h1, h2, h3, _, h5⟩ := stmLoop_some hr
  have h1 : 0 < k := h1
  have h2 : p = F / k / b / 2 := h2
  have h3 : p ≤ 255 := h3
  have hk : k ≤ 2 := by
    by_contra hc
    have := h5 2 (by omega) (by show 2 < k; omega)
    rw [div_swap F 2 b] at this
    omega
  have e : F / k / b / 2 = F / b / k / 2 := by rw [div_swap F k b]
  rw [e] at h2
  have hd : d = ⟨((k + (2 ^ 32 - 1)) % 16 + 1) * ((m32 (p + (2 ^ 32 - 1)) % 256 + 1) + (m32 (p + (2 ^ 32 - 1)) % 256 + 1)) + sync, 1⟩ := hd.symm
  have hkk : k = 1 ∨ k = 2 := by omega
  rcases hkk with rfl | rfl
  · rw [Nat.div_one] at h2
    have hp : m32 (p + (2 ^ 32 - 1)) % 256 + 1 = p := by unfold m32; omega
    rw [hp, show (1 + (2 ^ 32 - 1)) % 16 + 1 = 1 from rfl, Nat.one_mul] at hd
    rw [hd]
    exact ⟨notFaster_of F b _ hb (by omega), near_of F b _ _ (by omega)⟩
  · have hp : m32 (p + (2 ^ 32 - 1)) % 256 + 1 = p := by unfold m32; omega
    rw [hp, show (2 + (2 ^ 32 - 1)) % 16 + 1 = 2 from rfl] at hd
    rw [hd]
    exact ⟨notFaster_of F b _ hb (by omega), near_of F b _ _ (by omega)⟩

theorem stm_regs {sync F b k p : Nat} (h : stmLoop F b (F + 1) 0 = some (k, p)) :
    stm sync F b = some ⟨((k + (2 ^ 32 - 1)) % 16 + 1) * ((m32 (p + (2 ^ 32 - 1)) % 256 + 1) + (m32 (p + (2 ^ 32 - 1)) % 256 + 1)) + sync, 1⟩ := by
  unfold stm; rw [h]; rfl

/-- below clock / 8192 the prescaler does not hold: a bit lasts no more than 8192 cycles, too fast -/
theorem stm_low {sync F b : Nat} {d : Div} (h : stm sync F b = some d) (hF : (b + 1) * (8192 + sync) ≤ F) : ¬ NotFaster F b d := by
  unfold stm at h
  obtain ⟨⟨k, p⟩, _, hd⟩ := Option.map_eq_some_iff.1 h
  have hd : d = ⟨((k + (2 ^ 32 - 1)) % 16 + 1) * ((m32 (p + (2 ^ 32 - 1)) % 256 + 1) + (m32 (p + (2 ^ 32 - 1)) % 256 + 1)) + sync, 1⟩ := hd.symm
  rw [hd]
  intro c
  have c : F * 1 < (b + 1) * (((k + (2 ^ 32 - 1)) % 16 + 1) * ((m32 (p + (2 ^ 32 - 1)) % 256 + 1) + (m32 (p + (2 ^ 32 - 1)) % 256 + 1)) + sync) := c
  have h1 : ((k + (2 ^ 32 - 1)) % 16 + 1) * ((m32 (p + (2 ^ 32 - 1)) % 256 + 1) + (m32 (p + (2 ^ 32 - 1)) % 256 + 1)) ≤ 8192 := Nat.le_trans (Nat.mul_le_mul (show _ ≤ 16 by omega) (show _ ≤ 512 by omega)) (by decide)
  have h2 := Nat.mul_le_mul_left (b + 1) (Nat.add_le_add_right h1 sync)
  omega

/-- every rate is accepted -/
theorem stm_accepts (sync F b : Nat) : ∃ d, stm sync F b = some d := by
  obtain ⟨r, hr⟩ := @stm_ends F b
  unfold stm; rw [hr]; exact ⟨_, rfl⟩

/-- for example 64 MHz: 400 kbit/s is within the theorem, 1 kbit/s is too fast -/
theorem stm_sample : 4 ≤ 64000000 / 400000 ∧ 64000000 / 400000 < 1024 ∧ (1000 + 1) * (8192 + 4) ≤ 64000000 := by decide

/-! ### PIC32MX -/

/-- what the driver computes for bit rates up to 4 Mbit/s -/
theorem pic32_eq {w F b : Nat} {d : Div} (h : pic32 w F b = some d) (hb : 0 < b) (hb2 : b ≤ 4000000) (hw : F / (1000000000 / (1000000000 / (b * 2) - 104)) - 2 < 2 ^ w)
    (hF : 2 ≤ F / (1000000000 / (1000000000 / (b * 2) - 104))) (hF2 : F < 2 ^ 31) :
    d = ⟨2 * (F / (1000000000 / (1000000000 / (b * 2) - 104))) * 1000000000 + 208 * F, 1000000000⟩ := by
  have hx : 125 ≤ 1000000000 / (b * 2) := (Nat.le_div_iff_mul_le (by omega)).2 (by omega)
  have hx2 : 1000000000 / (b * 2) ≤ 1000000000 := Nat.div_le_self _ _
  unfold pic32 at h
  dsimp only at h
  rw [show m32 (b * 2) = b * 2 by unfold m32; omega] at h
  generalize 1000000000 / (b * 2) = t0 at *
  rw [show m32 (t0 + (2 ^ 32 - 104)) = t0 - 104 by unfold m32; omega] at h
  have hle : F / (1000000000 / (t0 - 104)) ≤ F := Nat.div_le_self _ _
  by_cases hc : b * 2 = 0 ∨ t0 - 104 = 0 ∨ 1000000000 / (t0 - 104) = 0
  · rw [if_pos hc] at h; cases h
  rw [if_neg hc] at h
  generalize F / (1000000000 / (t0 - 104)) = q at *
  rw [show m32 (q + (2 ^ 32 - 2)) = q - 2 by unfold m32; omega, Nat.mod_eq_of_lt hw, show q - 2 + 2 = q by omega] at h
  exact (Option.some.inj h).symm

/-- **C99, pic32mx**, bit rates up to 4 Mbit/s that the register can make: a bit is too short by less than 2 cycles and 2 ns -/
theorem pic32_rate_partial {w F b : Nat} {d : Div} (h : pic32 w F b = some d) (hb : 0 < b) (hb2 : b ≤ 4000000) (hw : F / (1000000000 / (1000000000 / (b * 2) - 104)) - 2 < 2 ^ w)
    (hF : 2 ≤ F / (1000000000 / (1000000000 / (b * 2) - 104))) (hF2 : F < 2 ^ 31) :
    F * d.den < b * (d.num + 2 * 1000000000 + 2 * F) := by
  have hd := pic32_eq h hb hb2 hw hF hF2
  have hx : 125 ≤ 1000000000 / (b * 2) := (Nat.le_div_iff_mul_le (by omega)).2 (by omega)
  have h1 := lt_succ 1000000000 (b * 2) (by omega)
  have hF0 : 0 < F := by
    rcases Nat.eq_zero_or_pos F with h0 | h0
    · rw [h0, Nat.zero_div] at hF; omega
    · exact h0
  rw [hd]
  show F * 1000000000 < b * (2 * (F / (1000000000 / (1000000000 / (b * 2) - 104))) * 1000000000 + 208 * F + 2 * 1000000000 + 2 * F)
  generalize 1000000000 / (b * 2) = t0 at *
  have ht : ∃ t, t0 = t + 104 := ⟨t0 - 104, by omega⟩
  obtain ⟨t, rfl⟩ := ht
  rw [show t + 104 - 104 = t by omega] at *
  have hc0 : 0 < 1000000000 / t := by
    rcases Nat.eq_zero_or_pos (1000000000 / t) with h0 | h0
    · rw [h0, Nat.div_zero] at hF; omega
    · exact h0
  have h2 := mul_le 1000000000 t
  have h3 := lt_succ F (1000000000 / t) hc0
  generalize 1000000000 / t = c at *
  generalize F / c = q at *
  -- F < c (q+1), t c ≤ 10^9, 10^9 < 2 b (t + 105)
  have h4 : t * F ≤ 1000000000 * (q + 1) := by
    calc t * F ≤ t * (c * (q + 1)) := Nat.mul_le_mul_left _ (Nat.le_of_lt h3)
      _ = (t * c) * (q + 1) := by ring
      _ ≤ 1000000000 * (q + 1) := Nat.mul_le_mul_right _ h2
  have h5 : 1000000000 * F < b * 2 * (t + 104 + 1) * F := (Nat.mul_lt_mul_right hF0).2 h1
  have h6 : b * 2 * (t * F) ≤ b * 2 * (1000000000 * (q + 1)) := Nat.mul_le_mul_left _ h4
  nlinarith

/-- and from 10 kbit/s on it is too long by no more than one part in 20000 -/
theorem pic32_near_partial {w F b : Nat} {d : Div} (h : pic32 w F b = some d) (hb : 10000 ≤ b) (hb2 : b ≤ 4000000) (hw : F / (1000000000 / (1000000000 / (b * 2) - 104)) - 2 < 2 ^ w)
    (hF : 2 ≤ F / (1000000000 / (1000000000 / (b * 2) - 104))) (hF2 : F < 2 ^ 31) :
    20000 * (b * d.num) ≤ 20001 * (F * d.den) := by
  have hd := pic32_eq h (by omega) hb2 hw hF hF2
  have hx : 125 ≤ 1000000000 / (b * 2) := (Nat.le_div_iff_mul_le (by omega)).2 (by omega)
  have hx2 : 1000000000 / (b * 2) ≤ 50000 := Nat.le_of_lt_succ ((Nat.div_lt_iff_lt_mul (by omega)).2 (by omega))
  have h1 := mul_le 1000000000 (b * 2)
  rw [hd]
  show 20000 * (b * (2 * (F / (1000000000 / (1000000000 / (b * 2) - 104))) * 1000000000 + 208 * F)) ≤ 20001 * (F * 1000000000)
  generalize 1000000000 / (b * 2) = t0 at *
  have ht : ∃ t, t0 = t + 104 := ⟨t0 - 104, by omega⟩
  obtain ⟨t, rfl⟩ := ht
  rw [show t + 104 - 104 = t by omega] at *
  have h2 := lt_succ 1000000000 t (by omega)
  generalize 1000000000 / t = c at *
  have h3 := mul_le F c
  generalize F / c = q at *
  -- c q ≤ F, 10^9 < t (c + 1), 2 b (t + 104) ≤ 10^9
  have h4 : 1000000000 * q ≤ t * F + t * q := by
    calc 1000000000 * q ≤ t * (c + 1) * q := Nat.mul_le_mul_right _ (Nat.le_of_lt h2)
      _ = t * (c * q) + t * q := by ring
      _ ≤ t * F + t * q := Nat.add_le_add_right (Nat.mul_le_mul_left _ h3) _
  have h5 : 20001 * t * q ≤ 1000000000 * q := Nat.mul_le_mul_right _ (by omega)
  have h6 : 20000 * (1000000000 * q) ≤ 20001 * (t * F) := by nlinarith
  have h7 : 2 * b * (20000 * (1000000000 * q)) ≤ 2 * b * (20001 * (t * F)) := Nat.mul_le_mul_left _ h6
  have h8 : b * 2 * (t + 104) * F ≤ 1000000000 * F := Nat.mul_le_mul_right _ h1
  nlinarith

/-- 40 MHz, 400 kbit/s: 406 -/
theorem pic32_fast : ∃ d, pic32 16 40000000 400000 = some d ∧ ¬ NotFaster 40000000 400000 d ∧ 406000 * d.num < 40000000 * d.den :=
  ⟨⟨98320000000, 1000000000⟩, by decide, by show ¬ (_ < _); decide, by decide⟩

/-- 1 MHz, 400 kbit/s, which cannot be made, is accepted: 7 bit/s -/
theorem pic32_slow : ∃ d, pic32 16 1000000 400000 = some d ∧ 1000000 * d.den < 8 * d.num :=
  ⟨_, rfl, by decide⟩

/-- 40 MHz, 100 kbit/s is within the theorem -/
theorem pic32_sample : 40000000 / (1000000000 / (1000000000 / (100000 * 2) - 104)) - 2 < 2 ^ 12 ∧ 2 ≤ 40000000 / (1000000000 / (1000000000 / (100000 * 2) - 104)) := by decide

end Pico.TwiRate
