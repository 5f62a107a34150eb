import Mathlib.Tactic.Linarith
import Mathlib.Tactic.Ring
import Verif.Drivers.TwiRate
/-
C99: the bit rates of the TWI drivers.
-/
namespace Pico.TwiRate

/-! ### arithmetic -/

/-- with `q = F / b`, `F` is below `b * (q + 1)` -/
theorem lt_succ (F b : Nat) (hb : 0 < b) : F < b * (F / b + 1) := by
  have := Nat.div_add_mod F b
  have := Nat.mod_lt F hb
  rw [Nat.mul_add, Nat.mul_one]; omega

theorem mul_le (F b : Nat) : b * (F / b) ≤ F := Nat.mul_div_le F b

theorem notFaster_of (F b n : Nat) (hb : 0 < b) (h : F / b + 1 ≤ n) : NotFaster F b ⟨n, 1⟩ := by
  show F * 1 < (b + 1) * n
  have h1 := lt_succ F b hb
  have h2 : b * (F / b + 1) ≤ b * n := Nat.mul_le_mul_left b h
  rw [Nat.add_mul]; omega

theorem near_of (F b k n : Nat) (h : n ≤ F / b + k) : Near F b k ⟨n, 1⟩ := by
  show b * n ≤ (F + b * k) * 1
  have h1 := mul_le F b
  have h2 : b * n ≤ b * (F / b + k) := Nat.mul_le_mul_left b h
  rw [Nat.mul_add] at h2; omega

theorem exact_of (F b n : Nat) (hn : 0 < n) (h : F = n * b) : NotFaster F b ⟨n, 1⟩ ∧ Near F b 0 ⟨n, 1⟩ := by
  constructor
  · show F * 1 < (b + 1) * n
    rw [h, Nat.add_mul, Nat.mul_comm n b]; omega
  · show b * n ≤ (F + b * 0) * 1
    rw [h, Nat.mul_comm n b]; omega

/-! ### AVR -/

theorem avrFind_some {F b : Nat} {d : Div} : ∀ {l : List (Nat × Nat)}, avrFind F b l = some d →
    ∃ p ∈ l, F / (16 + 2 * p.1 * 2 ^ p.2) = b ∧ d = ⟨16 + 2 * (p.1 % 256) * 4 ^ (p.2 / 2 % 4), 1⟩ := by
  intro l
  induction l with
  | nil => intro h; cases h
  | cons p l ih =>
    intro h
    obtain ⟨t, s⟩ := p
    unfold avrFind at h
    by_cases hc : F / (16 + 2 * t * 2 ^ s) = b
    · rw [if_pos hc] at h
      exact ⟨(t, s), List.mem_cons_self .., hc, (Option.some.inj h).symm⟩
    · rw [if_neg hc] at h
      obtain ⟨p, hp, r⟩ := ih h
      exact ⟨p, List.mem_cons_of_mem _ hp, r⟩

theorem avrFind_none {F b : Nat} : ∀ {l : List (Nat × Nat)}, avrFind F b l = none → ∀ p ∈ l, F / (16 + 2 * p.1 * 2 ^ p.2) ≠ b := by
  intro l
  induction l with
  | nil => intro _ p hp; cases hp
  | cons p l ih =>
    intro h q hq
    obtain ⟨t, s⟩ := p
    unfold avrFind at h
    by_cases hc : F / (16 + 2 * t * 2 ^ s) = b
    · rw [if_pos hc] at h; cases h
    · rw [if_neg hc] at h
      rcases List.mem_cons.1 hq with rfl | hq
      · exact hc
      · exact ih h q hq

theorem mem_avrAll (t s : Nat) : (t, s) ∈ avrAll ↔ t < 256 ∧ (s = 0 ∨ s = 2 ∨ s = 4 ∨ s = 6) := by
  unfold avrAll
  simp only [List.mem_flatMap, List.mem_range, List.mem_cons, Prod.mk.injEq, List.not_mem_nil, or_false]
  constructor
  · rintro ⟨a, ha, h⟩
    rcases h with ⟨rfl, h⟩ | ⟨rfl, h⟩ | ⟨rfl, h⟩ | ⟨rfl, h⟩ <;> exact ⟨ha, by omega⟩
  · rintro ⟨ha, h⟩
    exact ⟨t, ha, by omega⟩

theorem avr_form (t s : Nat) (h : (t, s) ∈ avrAll) : 16 + 2 * (t % 256) * 4 ^ (s / 2 % 4) = 16 + 2 * t * 2 ^ s := by
  obtain ⟨h1, h2⟩ := (mem_avrAll t s).1 h
  rw [Nat.mod_eq_of_lt h1]
  rcases h2 with rfl | rfl | rfl | rfl <;> rfl

/-- **C99, AVR**: the bit rate is the one asked: not one bit per second away -/
theorem avr_rate {F b : Nat} {d : Div} (h : avr F b = some d) : NotFaster F b d ∧ Near F b 0 d := by
  obtain ⟨⟨t, s⟩, hp, he, hd⟩ := avrFind_some h
  have hf := avr_form t s hp
  have he : F / (16 + 2 * t * 2 ^ s) = b := he
  have hd : d = ⟨16 + 2 * (t % 256) * 4 ^ (s / 2 % 4), 1⟩ := hd
  rw [hf] at hd
  have hpos : 0 < 16 + 2 * t * 2 ^ s := by omega
  generalize 16 + 2 * t * 2 ^ s = n at hd he hpos
  rw [hd]
  constructor
  · show F * 1 < (b + 1) * n
    have := lt_succ F n hpos
    rw [he] at this
    rw [Nat.mul_comm (b + 1)]; omega
  · show b * n ≤ (F + b * 0) * 1
    have := mul_le F n
    rw [he] at this
    rw [Nat.mul_comm b]; omega

/-- what is refused is what no setting makes -/
theorem avr_refuses {F b : Nat} : avr F b = none ↔ ∀ twbr twps, twbr < 256 → twps < 4 → F / (16 + 2 * twbr * 4 ^ twps) ≠ b := by
  constructor
  · intro h t k ht hk
    have := avrFind_none h (t, 2 * k) ((mem_avrAll _ _).2 ⟨ht, by omega⟩)
    have e : 4 ^ k = 2 ^ (2 * k) := by rw [Nat.pow_mul]
    rw [e]; exact this
  · intro h
    cases e : avr F b with
    | none => rfl
    | some d =>
      exfalso
      obtain ⟨⟨t, s⟩, hp, he, _⟩ := avrFind_some e
      obtain ⟨h1, h2⟩ := (mem_avrAll t s).1 hp
      have he : F / (16 + 2 * t * 2 ^ s) = b := he
      refine h t (s / 2) h1 (by omega) ?_
      rw [show 4 ^ (s / 2) = 2 ^ s by rcases h2 with rfl | rfl | rfl | rfl <;> rfl]; exact he

/-! ### DesignWare -/

/-- **C99, dw_apb_i2c**, bit rates of at least clock / 131071: not faster, and slower by 8 cycles and the spike filter -/
theorem dw_rate_partial {spk F b : Nat} {d : Div} (h : dw spk F b = some d) (hb : 0 < b) (hlow : F / b < 131072) (hhigh : 16 ≤ F / b) :
    NotFaster F b d ∧ Near F b (8 + spk) d := by
  have hd := Option.some.inj h
  rw [← hd, Nat.mod_eq_of_lt (show F / b / 2 < 65536 by omega), Nat.max_eq_left (show 6 ≤ F / b / 2 by omega), Nat.max_eq_left (show 8 ≤ F / b / 2 by omega)]
  exact ⟨notFaster_of F b _ hb (by omega), near_of F b _ _ (by omega)⟩

/-- 125 MHz, 900 bit/s: the counts do not hold, 15 kbit/s -/
theorem dw_low : ∃ d, dw 7 125000000 900 = some d ∧ 15000 * d.num < 125000000 * d.den ∧ ¬ NotFaster 125000000 900 d :=
  ⟨⟨7831, 1⟩, by decide, by decide, by show ¬ (_ < _); decide⟩

/-! ### SERCOM -/

/-- above 1 Mbit/s: right if the clock is an even multiple of the rate -/
theorem sercom_high_partial {F b k : Nat} {d : Div} (h : sercom F b = some d) (hb : 1000000 < b) (hk : 0 < k) (hk2 : k ≤ 256) (hF : F = 2 * k * b) : NotFaster F b d ∧ Near F b 0 d := by
  have hq : F / b = 2 * k := by rw [hF]; exact Nat.mul_div_cancel _ (by omega)
  unfold sercom at h
  dsimp only at h
  generalize m32 (0x10000 * m32 (1024 + (2 ^ 32 - m32 (m32 (b * 16) * 1024) / F))) / 1024 = baud at h
  by_cases h1 : baud < 0x10000
  · rw [if_pos h1, if_pos hb, hq, show m32 (2 * k / 2 + (2 ^ 32 - 1)) = k - 1 by unfold m32; omega, Nat.mod_eq_of_lt (show k - 1 < 256 by omega)] at h
    have hd := Option.some.inj h
    rw [← hd, show 2 + 2 * (k - 1) = 2 * k by omega]
    exact exact_of F b _ (by omega) hF
  · rw [if_neg h1] at h; cases h

/-- 120 MHz, 3.4 Mbit/s: 3.53 -/
theorem sercom_high_fast : ∃ d, sercom 120000000 3400000 = some d ∧ ¬ NotFaster 120000000 3400000 d ∧ 3520000 * d.num ≤ 120000000 * d.den :=
  ⟨⟨34, 1⟩, by decide, by show ¬ (_ < _); decide, by decide⟩

/-- up to 1 Mbit/s the eight bits kept of a number meant for a UART: a bit is never longer than 520 cycles, so that slower rates are exceeded -/
theorem sercom_wrong {F b : Nat} {d : Div} (h : sercom F b = some d) (hb : b ≤ 1000000) (hs : (b + 1) * 520 ≤ F) : ¬ NotFaster F b d := by
  unfold sercom at h
  dsimp only at h
  generalize m32 (0x10000 * m32 (1024 + (2 ^ 32 - m32 (m32 (b * 16) * 1024) / F))) / 1024 = baud at h
  by_cases h1 : baud < 0x10000
  · rw [if_pos h1, if_neg (show ¬ b > 1000000 by omega)] at h
    have hd := Option.some.inj h
    rw [← hd]
    intro c
    have c : F * 1 < (b + 1) * (10 + 2 * (m32 (baud + (2 ^ 32 - 1)) % 256)) := c
    have : (b + 1) * (10 + 2 * (m32 (baud + (2 ^ 32 - 1)) % 256)) ≤ (b + 1) * 520 := Nat.mul_le_mul_left _ (by omega)
    omega
  · rw [if_neg h1] at h; cases h

/-- 120 MHz, 100 kbit/s is accepted -/
theorem sercom_sample : ∃ d, sercom 120000000 100000 = some d ∧ (100000 + 1) * 520 ≤ 120000000 ∧ ¬ NotFaster 120000000 100000 d :=
  ⟨_, rfl, by decide, sercom_wrong rfl (by decide) (by decide)⟩

/-! ### SAM3X -/

theorem samFind_some {q : Nat} {d : Div} : ∀ {l : List (Nat × Nat)}, samFind q l = some d →
    ∃ l1 p l2, l = l1 ++ p :: l2 ∧ p.2 * 2 ^ p.1 + 4 = q ∧ d = ⟨(p.2 / 2 * 2 ^ p.1 + 4) + (p.2 / 2 * 2 ^ p.1 + 4), 1⟩ := by
  intro l
  induction l with
  | nil => intro h; cases h
  | cons p l ih =>
    intro h
    obtain ⟨k, c⟩ := p
    unfold samFind at h
    by_cases hc : c * 2 ^ k + 4 = q
    · rw [if_pos hc] at h
      exact ⟨[], (k, c), l, rfl, hc, (Option.some.inj h).symm⟩
    · rw [if_neg hc] at h
      obtain ⟨l1, p, l2, r1, r2⟩ := ih h
      exact ⟨(k, c) :: l1, p, l2, by rw [r1]; rfl, r2⟩

theorem mem_samAll (k c : Nat) : (k, c) ∈ samAll ↔ k < 8 ∧ c < 256 := by
  unfold samAll
  simp only [List.mem_flatMap, List.mem_range, List.mem_map, Prod.mk.injEq]
  constructor
  · rintro ⟨a, ha, b, hb, rfl, rfl⟩; exact ⟨ha, hb⟩
  · rintro ⟨ha, hb⟩; exact ⟨k, ha, c, hb, rfl, rfl⟩

/-- **C99, sam3x**: a bit is 4 cycles longer than asked, less 2^CKDIV (up to 128) if the number found is odd -/
theorem sam_rate_partial {F b : Nat} {d : Div} (h : sam F b = some d) (hb : 0 < b) :
    Near F b 4 d ∧ F * d.den < b * (d.num + 125) := by
  obtain ⟨l1, ⟨k, c⟩, l2, hl, he, hd⟩ := samFind_some h
  have hm : (k, c) ∈ samAll := by rw [hl]; exact List.mem_append_right _ (List.mem_cons_self ..)
  obtain ⟨hk, hc⟩ := (mem_samAll k c).1 hm
  have he : c * 2 ^ k + 4 = F / b := he
  have hd : d = ⟨(c / 2 * 2 ^ k + 4) + (c / 2 * 2 ^ k + 4), 1⟩ := hd
  have h1 : c / 2 * 2 ^ k + c / 2 * 2 ^ k ≤ c * 2 ^ k := by
    rw [← Nat.add_mul]; exact Nat.mul_le_mul_right _ (by omega)
  have h2 : c * 2 ^ k ≤ c / 2 * 2 ^ k + c / 2 * 2 ^ k + 2 ^ k := by
    have : c ≤ c / 2 + c / 2 + 1 := by omega
    calc c * 2 ^ k ≤ (c / 2 + c / 2 + 1) * 2 ^ k := Nat.mul_le_mul_right _ this
      _ = _ := by ring
  have h3 : 2 ^ k ≤ 128 := by
    have : (2 : Nat) ^ k ≤ 2 ^ 7 := Nat.pow_le_pow_right (by omega) (by omega)
    omega
  rw [hd]
  refine ⟨near_of F b _ _ (by omega), ?_⟩
  show F * 1 < b * ((c / 2 * 2 ^ k + 4) + (c / 2 * 2 ^ k + 4) + 125)
  have h4 := lt_succ F b hb
  have h5 : b * (F / b + 1) ≤ b * ((c / 2 * 2 ^ k + 4) + (c / 2 * 2 ^ k + 4) + 125) := Nat.mul_le_mul_left _ (by omega)
  omega

/-- the first setting found is the one with the smallest CKDIV -/
theorem samFind_range {q : Nat} {d : Div} (h : samFind q samAll = some d) (hq : q ≤ 259) : ∃ c, c < 256 ∧ c + 4 = q ∧ d = ⟨(c / 2 + 4) + (c / 2 + 4), 1⟩ := by
  have e : samAll = (List.range 256).map (fun c => (0, c)) ++ (List.range' 1 7).flatMap (fun k => (List.range 256).map (fun c => (k, c))) := by
    unfold samAll
    rw [show List.range 8 = 0 :: List.range' 1 7 from rfl, List.flatMap_cons]
  rw [e] at h
  have key : ∀ (l : List Nat) (r : List (Nat × Nat)), (q - 4) ∈ l → 4 ≤ q → samFind q (l.map (fun c => (0, c)) ++ r) = some ⟨((q - 4) / 2 + 4) + ((q - 4) / 2 + 4), 1⟩ := by
    intro l r
    induction l with
    | nil => intro hm; cases hm
    | cons a l ih =>
      intro hm h4
      show samFind q ((0, a) :: (l.map (fun c => (0, c)) ++ r)) = _
      unfold samFind
      by_cases hc : a * 2 ^ 0 + 4 = q
      · rw [if_pos hc, show a = q - 4 by omega, Nat.pow_zero, Nat.mul_one]
      · rw [if_neg hc]
        refine ih ?_ h4
        rcases List.mem_cons.1 hm with hm | hm
        · exfalso; omega
        · exact hm
  have h4 : 4 ≤ q := by
    obtain ⟨_, p, _, _, hp, _⟩ := samFind_some h
    omega
  rw [key _ _ (List.mem_range.2 (by omega)) h4] at h
  exact ⟨q - 4, by omega, by omega, (Option.some.inj h).symm⟩

/-- **C99, sam3x**: if clock / rate is at most 259, not faster -/
theorem sam_fast {F b : Nat} {d : Div} (h : sam F b = some d) (hb : 0 < b) (hq : F / b ≤ 259) : NotFaster F b d := by
  obtain ⟨c, _, h1, hd⟩ := samFind_range h hq
  rw [hd]
  exact notFaster_of F b _ hb (by omega)

/-- 84 MHz, 41095 bit/s: 41176 -/
theorem sam_faster : ∃ d, sam 84000000 41095 = some d ∧ ¬ NotFaster 84000000 41095 d ∧ 41176 * d.num ≤ 84000000 * d.den :=
  ⟨⟨2040, 1⟩, by decide +kernel, by show ¬ (_ < _); decide, by decide⟩

/-- 84 MHz, 50 kbit/s is refused, though dividers of 1676 and 1684 can be made -/
theorem sam_refused : sam 84000000 50000 = none := by decide +kernel

/-- 84 MHz, 400 kbit/s -/
theorem sam_sample : ∃ d, sam 84000000 400000 = some d ∧ 84000000 / 400000 ≤ 259 := ⟨⟨214, 1⟩, by decide +kernel, by decide⟩

/-! ### Renesas RA4 -/

theorem raLoop_some {F b : Nat} {d : Div} : ∀ {l : List Nat}, raLoop F b l = some d → ∃ k ∈ l, F / b / (2 ^ k * 2) ≤ 31 ∧ d = ⟨2 ^ k * ((F / b / (2 ^ k * 2) + 1) + (F / b / (2 ^ k * 2) + 1)), 1⟩ := by
  intro l
  induction l with
  | nil => intro h; cases h
  | cons k l ih =>
    intro h
    unfold raLoop at h
    dsimp only at h
    by_cases hc : F / b / (2 ^ k * 2) ≤ 31
    · rw [if_pos hc] at h
      exact ⟨k, List.mem_cons_self .., hc, (Option.some.inj h).symm⟩
    · rw [if_neg hc] at h
      obtain ⟨k', hm, r⟩ := ih h
      exact ⟨k', List.mem_cons_of_mem _ hm, r⟩

theorem raLoop_none {F b : Nat} : ∀ {l : List Nat}, raLoop F b l = none → ∀ k ∈ l, 31 < F / b / (2 ^ k * 2) := by
  intro l
  induction l with
  | nil => intro _ k hk; cases hk
  | cons k l ih =>
    intro h k' hk
    unfold raLoop at h
    dsimp only at h
    by_cases hc : F / b / (2 ^ k * 2) ≤ 31
    · rw [if_pos hc] at h; cases h
    · rw [if_neg hc] at h
      rcases List.mem_cons.1 hk with rfl | hk
      · omega
      · exact ih h k' hk

/-- **C99, renesas_ra4**: not faster than asked; a bit is longer by no more than 256 cycles -/
theorem renesas_rate {F b : Nat} {d : Div} (h : renesas F b = some d) (hb : 0 < b) : NotFaster F b d ∧ Near F b 256 d := by
  obtain ⟨k, hm, _, hd⟩ := raLoop_some h
  have hk : k ≤ 7 := by simp only [List.mem_cons, List.not_mem_nil, or_false] at hm; omega
  have h3 : 2 ^ k ≤ 128 := by
    have : (2 : Nat) ^ k ≤ 2 ^ 7 := Nat.pow_le_pow_right (by omega) hk
    omega
  have hp : 0 < 2 ^ k * 2 := by have : 0 < (2 : Nat) ^ k := Nat.pow_pos (by omega); omega
  have e : 2 ^ k * ((F / b / (2 ^ k * 2) + 1) + (F / b / (2 ^ k * 2) + 1)) = 2 ^ k * 2 * (F / b / (2 ^ k * 2) + 1) := by ring
  rw [e] at hd
  have h1 := lt_succ (F / b) (2 ^ k * 2) hp
  have h2 := mul_le (F / b) (2 ^ k * 2)
  rw [hd]
  refine ⟨notFaster_of F b _ hb (by omega), near_of F b _ _ ?_⟩
  rw [Nat.mul_add]; omega

/-- refused only if clock / rate is too large for the slowest setting -/
theorem renesas_accepts {F b : Nat} (h : F / b < 8192) : ∃ d, renesas F b = some d := by
  cases e : renesas F b with
  | some d => exact ⟨d, rfl⟩
  | none =>
    have := raLoop_none e 7 (by decide)
    rw [show 2 ^ 7 * 2 = 256 from rfl] at this
    omega

/-! ### TI F28x -/

theorem tiLoop_some {F b : Nat} {r : Nat × Nat} : ∀ {l : List Nat}, tiLoop F b l = some r → r.1 ∈ l ∧ r.2 = m32 (F / r.1 / b + (2 ^ 32 - tiD r.1)) ∧ r.2 < 131072 := by
  intro l
  induction l with
  | nil => intro h; cases h
  | cons k l ih =>
    intro h
    unfold tiLoop at h
    dsimp only at h
    by_cases hc : m32 (F / k / b + (2 ^ 32 - tiD k)) < 131072
    · rw [if_pos hc] at h
      have := (Option.some.inj h).symm
      subst this
      exact ⟨List.mem_cons_self .., rfl, hc⟩
    · rw [if_neg hc] at h
      obtain ⟨h1, h2⟩ := ih h
      exact ⟨List.mem_cons_of_mem _ h1, h2⟩

theorem ti_first (F b : Nat) (hl : 7 ≤ F / b) (hh : F / b < 131079) : tiRegs F b = some (1, F / b - 7) := by
  unfold tiRegs
  rw [show List.range 256 = List.range (255 + 1) from rfl, List.range_succ_eq_map, List.map_cons, show 0 + 1 = 1 from rfl]
  unfold tiLoop
  dsimp only
  rw [Nat.div_one, show tiD 1 = 7 from rfl, show m32 (F / b + (2 ^ 32 - 7)) = F / b - 7 by unfold m32; omega, if_pos (by omega)]

/-- **C99, ti_f28x**, if the prescaler is not needed: not faster, and 7 cycles slower -/
theorem ti_rate_partial {F b : Nat} {d : Div} (h : ti F b = some d) (hb : 0 < b) (hl : 7 ≤ F / b) (hh : F / b < 131079) : NotFaster F b d ∧ Near F b 7 d := by
  unfold ti at h
  rw [ti_first F b hl hh] at h
  have hd : _ = d := Option.some.inj h
  rw [← hd]
  show NotFaster F b ⟨((F / b - 7) / 2 % 65536 + 7) + ((F / b - 7) / 2 % 65536 + 7), 1⟩ ∧ Near F b 7 ⟨((F / b - 7) / 2 % 65536 + 7) + ((F / b - 7) / 2 % 65536 + 7), 1⟩
  exact ⟨notFaster_of F b _ hb (by omega), near_of F b _ _ (by omega)⟩

/-- then the module runs at the clock's frequency: the manual wants 7 to 12 MHz -/
theorem ti_module {F b : Nat} (hl : 7 ≤ F / b) (hh : F / b < 131079) : ∃ p, tiRegs F b = some (1, p) := ⟨_, ti_first F b hl hh⟩

/-- 100 MHz, 100 bit/s: the prescaler is not written, 800 bit/s -/
theorem ti_low : ∃ d, ti 100000000 100 = some d ∧ ¬ NotFaster 100000000 100 d ∧ 799 * d.num ≤ 100000000 * d.den :=
  ⟨⟨125008, 1⟩, by decide +kernel, by show ¬ (_ < _); decide, by decide⟩

theorem ti_sample : ∃ d, ti 100000000 400000 = some d ∧ 7 ≤ 100000000 / 400000 ∧ 100000000 / 400000 < 131079 := ⟨⟨256, 1⟩, by decide +kernel, by decide, by decide⟩

end Pico.TwiRate
