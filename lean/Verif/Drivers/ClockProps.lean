import Verif.Drivers.Clock
/-
C95, C96: rp2040, gd32vf103.
-/
namespace Pico.Clock
open Field

theorem tells_div {r k : Nat} {f : Option Hz} (h : Tells (some r) f) (hk : 0 < k) : Tells (some (r / k)) (Hz.div f k) := by
  obtain ⟨n, d, rfl, hd, hr⟩ := h
  refine ⟨n, d * k, rfl, Nat.mul_pos hd hk, ?_⟩
  simp only [Option.some.injEq] at hr
  rw [hr, Nat.div_div_eq_div_mul]

theorem tells_self (n : Nat) : Tells (some n) (some (n, 1)) := ⟨n, 1, rfl, Nat.one_pos, by rw [Nat.div_one]⟩

theorem Res.bind_ok {α β : Type} {r : Res α} {f : α → Res β} {b : β} (h : r.bind f = .ok b) : ∃ a, r = .ok a ∧ f a = .ok b := by
  cases r with
  | fail => cases h
  | undef => cases h
  | ok a => exact ⟨a, rfl, h⟩

namespace Rp

theorem ldiv_eq (a b : Nat) (h : b < 2 ^ 31) : ldiv a b = a / b := by
  unfold ldiv
  have : (BitVec.ofNat 32 b).toInt = (b : Int) := by
    rw [BitVec.toInt_eq_toNat_of_lt (by simp only [BitVec.toNat_ofNat]; omega), BitVec.toNat_ofNat, Nat.mod_eq_of_lt (by omega)]
  rw [this]
  rfl

theorem set_same {α : Type} (f : Nat → α) (i : Nat) (v : α) : set f i v i = v := by simp [set]
theorem set_ne {α : Type} (f : Nat → α) (i j : Nat) (v : α) (h : j ≠ i) : set f i v j = f j := by simp [set, h]

/-! the search -/

theorem search_ok (x hz : Nat) (l : List Pll) (c : Pll) (h : search x hz l = .ok c) : c ∈ l ∧ x / c.refdiv * c.fbdiv / (c.pd1 * c.pd2) = hz := by
  induction l with
  | nil => cases h
  | cons a l ih =>
    unfold search at h
    by_cases h1 : 2 ^ 31 ≤ x / a.refdiv * a.fbdiv
    · rw [if_pos h1] at h; cases h
    · rw [if_neg h1] at h
      by_cases h2 : x / a.refdiv * a.fbdiv / (a.pd1 * a.pd2) = hz
      · rw [if_pos h2] at h
        cases h
        exact ⟨List.mem_cons_self, h2⟩
      · rw [if_neg h2] at h
        obtain ⟨h3, h4⟩ := ih h
        exact ⟨List.mem_cons_of_mem _ h3, h4⟩

theorem search_append (x hz : Nat) (l m : List Pll) (hb : ∀ c ∈ l, x / c.refdiv * c.fbdiv < 2 ^ 31)
    (hm : ∃ c ∈ l, x / c.refdiv * c.fbdiv / (c.pd1 * c.pd2) = hz) : ∃ c ∈ l, search x hz (l ++ m) = .ok c := by
  induction l with
  | nil => obtain ⟨c, hc, _⟩ := hm; cases hc
  | cons a l ih =>
    have h1 : ¬ 2 ^ 31 ≤ x / a.refdiv * a.fbdiv := Nat.not_le.2 (hb a List.mem_cons_self)
    show ∃ c ∈ a :: l, search x hz (a :: (l ++ m)) = .ok c
    unfold search
    rw [if_neg h1]
    by_cases h2 : x / a.refdiv * a.fbdiv / (a.pd1 * a.pd2) = hz
    · rw [if_pos h2]; exact ⟨a, List.mem_cons_self, rfl⟩
    · rw [if_neg h2]
      obtain ⟨c, hc, he⟩ := hm
      have hc' : c ∈ l := by
        rcases List.mem_cons.1 hc with rfl | h
        · exact absurd he h2
        · exact h
      obtain ⟨c', h3, h4⟩ := ih (fun c hc => hb c (List.mem_cons_of_mem _ hc)) ⟨c, hc', he⟩
      exact ⟨c', List.mem_cons_of_mem _ h3, h4⟩

/-- the candidates with refdiv 1 and fbdiv below 128 -/
def low : List Pll := (List.range 112).flatMap fun f => (List.range 7).flatMap fun p => (List.range 7).map fun q => ⟨1, f + 16, p + 1, q + 1⟩

theorem cands_low : ∃ m, cands = low ++ m := by
  have h1 : List.range 63 = 0 :: (List.range 62).map (· + 1) := by rw [List.range_succ_eq_map]
  have h2 : List.range 304 = List.range 112 ++ (List.range 192).map (112 + ·) := List.range_add (n := 112) (m := 192)
  unfold cands low
  rw [h1, List.flatMap_cons, h2, List.flatMap_append, List.append_assoc]
  exact ⟨_, rfl⟩

theorem mem_low (c : Pll) : c ∈ low ↔ c.refdiv = 1 ∧ 16 ≤ c.fbdiv ∧ c.fbdiv < 128 ∧ 1 ≤ c.pd1 ∧ c.pd1 ≤ 7 ∧ 1 ≤ c.pd2 ∧ c.pd2 ≤ 7 := by
  unfold low
  simp only [List.mem_flatMap, List.mem_map, List.mem_range]
  constructor
  · rintro ⟨f, hf, p, hp, q, hq, rfl⟩
    show 1 = 1 ∧ 16 ≤ f + 16 ∧ f + 16 < 128 ∧ 1 ≤ p + 1 ∧ p + 1 ≤ 7 ∧ 1 ≤ q + 1 ∧ q + 1 ≤ 7
    omega
  · obtain ⟨r, f, p, q⟩ := c
    rintro ⟨h1, h2, h3, h4, h5, h6, h7⟩
    have h1 : r = 1 := h1
    have h2 : 16 ≤ f := h2
    have h3 : f < 128 := h3
    have h4 : 1 ≤ p := h4
    have h5 : p ≤ 7 := h5
    have h6 : 1 ≤ q := h6
    have h7 : q ≤ 7 := h7
    refine ⟨f - 16, by omega, p - 1, by omega, q - 1, by omega, ?_⟩
    rw [h1, Nat.sub_add_cancel h2, Nat.sub_add_cancel h4, Nat.sub_add_cancel h6]

/-- the rates the PLL makes from the crystal with a feedback divider of 16 to 127 and no reference divider -/
def Reach (x hz : Nat) : Prop := ∃ f p q, 16 ≤ f ∧ f < 128 ∧ 1 ≤ p ∧ p ≤ 7 ∧ 1 ≤ q ∧ q ≤ 7 ∧ x * f / (p * q) = hz

/-- such a rate is found, and the PLL runs at it -/
theorem pll_right (x hz : Nat) (hx : x ≤ 15000000) (hr : Reach x hz) (hz0 : hz ≠ 0) :
    ∃ p, pllConfig x hz true = .ok p ∧ Tells (some hz) (pllHz x p) := by
  obtain ⟨f, p, q, h1, h2, h3, h4, h5, h6, h7⟩ := hr
  obtain ⟨m, hm⟩ := cands_low
  have hb : ∀ c ∈ low, x / c.refdiv * c.fbdiv < 2 ^ 31 := by
    intro c hc
    obtain ⟨e1, _, e2, _⟩ := (mem_low c).1 hc
    rw [e1, Nat.div_one]
    calc x * c.fbdiv ≤ 15000000 * 127 := Nat.mul_le_mul hx (by omega)
      _ < 2 ^ 31 := by decide
  obtain ⟨c, hc, hs⟩ := search_append x hz low m hb ⟨⟨1, f, p, q⟩, (mem_low _).2 ⟨rfl, h1, h2, h3, h4, h5, h6⟩, by
    show x / 1 * f / (p * q) = hz
    rw [Nat.div_one]; exact h7⟩
  obtain ⟨e1, e2, e3, e4, e5, e6, e7⟩ := (mem_low c).1 hc
  have he := (search_ok x hz _ c hs).2
  refine ⟨pllSetup c, ?_, ?_⟩
  · unfold pllConfig
    rw [if_neg hz0, hm, hs]
    rfl
  · refine ⟨x * (c.fbdiv % 128), (c.refdiv % 32) * ((c.pd1 % 8) * (c.pd2 % 8)), rfl, ?_, ?_⟩
    · rw [e1, Nat.mod_eq_of_lt (show c.pd1 < 8 by omega), Nat.mod_eq_of_lt (show c.pd2 < 8 by omega)]
      exact Nat.mul_pos Nat.one_pos (Nat.mul_pos (by omega) (by omega))
    · rw [e1, Nat.mod_eq_of_lt e3, Nat.mod_eq_of_lt (show c.pd1 < 8 by omega), Nat.mod_eq_of_lt (show c.pd2 < 8 by omega)]
      rw [e1, Nat.div_one] at he
      rw [← he, Nat.mod_eq_of_lt (show 1 < 32 by decide), Nat.one_mul]

/-- what the steps leave behind, all together -/
theorem init_ok (c : Cfg) (w : Nat → Bool) (s s' : St) (h : init c w s = .ok s') :
    0 < c.xosc ∧ c.xosc ≤ 15000000 ∧ 0 < c.refDiv ∧ c.refDiv < 4 ∧ 0 < c.sysDiv ∧ (∀ i, i < 4 → 0 < c.gpDiv i) ∧
    pllConfig c.xosc c.pllSys true = .ok s'.sysPll ∧ pllConfig c.xosc 48000000 true = .ok s'.usbPll ∧
    s'.sysDiv = c.sysDiv % 2 ^ 24 ∧ s'.refDiv = c.refDiv % 4 ∧ (∀ i, i < 4 → s'.gpDiv i = c.gpDiv i % 2 ^ 24) ∧
    s'.rtcDiv = (c.xosc / 46875) % 2 ^ 24 * 256 + (c.xosc % 46875 * 100 / 46875) % 256 ∧
    s'.sys = ldiv c.pllSys c.sysDiv ∧ s'.ref = ldiv c.xosc c.refDiv ∧ s'.peri = s'.sys ∧ s'.usb = 48000000 ∧ s'.adc = 48000000 ∧ s'.rtc = 46875 ∧
    (∀ i, i < 4 → s'.gpout i = ldiv s'.sys (c.gpDiv i)) ∧ (∀ i, 2 ≤ i → i ≤ 9 → on s' i = false) := by
  unfold init at h
  by_cases h0 : c.xosc = 0
  · rw [if_pos h0] at h; cases h
  rw [if_neg h0] at h
  obtain ⟨s1, e1, h⟩ := Res.bind_ok h
  unfold xoscConfig at e1
  by_cases x1 : 15000000 < c.xosc
  · rw [if_pos x1] at e1; cases e1
  rw [if_neg x1] at e1
  cases x2 : w 0 <;> rw [x2] at e1
  · cases e1
  have e1 : Res.ok _ = Res.ok s1 := e1
  rw [Res.ok.injEq] at e1
  obtain ⟨s2, e2, h⟩ := Res.bind_ok h
  unfold refConfig at e2
  by_cases x3 : c.refDiv = 0 ∨ 4 ≤ c.refDiv
  · rw [if_pos x3] at e2; cases e2
  rw [if_neg x3] at e2
  cases x4 : w 1 <;> rw [x4] at e2
  · cases e2
  have e2 : Res.ok _ = Res.ok s2 := e2
  rw [Res.ok.injEq] at e2
  cases x5 : w 2 <;> rw [x5] at h
  · cases h
  have h : (pllConfig s2.xosc c.pllSys (w 3)).bind _ = .ok s' := h
  obtain ⟨p1, e3, h⟩ := Res.bind_ok h
  have h : (pllConfig s2.xosc 48000000 (w 4)).bind _ = .ok s' := h
  obtain ⟨p2, e4, h⟩ := Res.bind_ok h
  have hl : ∀ x hz l p, pllConfig x hz l = .ok p → pllConfig x hz true = .ok p := by
    intro x hz l p hp
    cases l
    · unfold pllConfig at hp
      by_cases hh : hz = 0
      · rw [if_pos hh] at hp; cases hp
      · rw [if_neg hh] at hp
        obtain ⟨a, _, ha⟩ := Res.bind_ok hp
        cases ha
    · exact hp
  have k3 := hl _ _ _ _ e3
  have k4 := hl _ _ _ _ e4
  have hx2 : s2.xosc = c.xosc := by rw [← e2, ← e1]
  rw [hx2] at k3 k4
  obtain ⟨s3, e5, h⟩ := Res.bind_ok h
  unfold sysConfig at e5
  by_cases x6 : c.sysDiv = 0
  · rw [if_pos x6] at e5; cases e5
  rw [if_neg x6] at e5
  cases x7 : w 5 <;> rw [x7] at e5
  · cases e5
  have e5 : Res.ok _ = Res.ok s3 := e5
  rw [Res.ok.injEq] at e5
  obtain ⟨g0, f0, h⟩ := Res.bind_ok h
  obtain ⟨g1, f1, h⟩ := Res.bind_ok h
  obtain ⟨g2, f2, h⟩ := Res.bind_ok h
  obtain ⟨g3, f3, h⟩ := Res.bind_ok h
  unfold gpoutConfig at f0 f1 f2 f3
  by_cases y0 : c.gpDiv 0 = 0
  · rw [if_pos y0] at f0; cases f0
  by_cases y1 : c.gpDiv 1 = 0
  · rw [if_pos y1] at f1; cases f1
  by_cases y2 : c.gpDiv 2 = 0
  · rw [if_pos y2] at f2; cases f2
  by_cases y3 : c.gpDiv 3 = 0
  · rw [if_pos y3] at f3; cases f3
  rw [if_neg y0, Res.ok.injEq] at f0
  rw [if_neg y1, Res.ok.injEq] at f1
  rw [if_neg y2, Res.ok.injEq] at f2
  rw [if_neg y3, Res.ok.injEq] at f3
  rw [Res.ok.injEq] at h
  subst h f3 f2 f1 f0 e5 e2 e1
  have off : ∀ v : BitVec 32, v = 0#32 ∨ v = orIn 3 5 3#32 0#32 ∨ v = orIn 4 5 6#32 0#32 → v.getLsbD 11 = false := by
    rintro v (rfl | rfl | rfl) <;> decide
  have four : ∀ P : Nat → Prop, P 0 → P 1 → P 2 → P 3 → ∀ i, i < 4 → P i := by
    intro P a b c d i hi
    match i, hi with
    | 0, _ => exact a
    | 1, _ => exact b
    | 2, _ => exact c
    | 3, _ => exact d
  refine ⟨by omega, by omega, by omega, by omega, by omega, four _ (by omega) (by omega) (by omega) (by omega), k3, k4, rfl, rfl, four _ rfl rfl rfl rfl, rfl, rfl, rfl, rfl, rfl, rfl, rfl,
    four _ rfl rfl rfl rfl, ?_⟩
  intro i hi hj
  match i, hi, hj with
  | 2, _, _ => exact off _ (Or.inl rfl)
  | 3, _, _ => exact off _ (Or.inl rfl)
  | 4, _, _ => exact off _ (Or.inl rfl)
  | 5, _, _ => exact off _ (Or.inr (Or.inl rfl))
  | 6, _, _ => exact off _ (Or.inr (Or.inr rfl))
  | 7, _, _ => exact off _ (Or.inr (Or.inr rfl))
  | 8, _, _ => exact off _ (Or.inr (Or.inr rfl))
  | 9, _, _ => exact off _ (Or.inr (Or.inr rfl))

/-- **C95, rp2040**: for the rates the PLLs reach with the feedback dividers that fit and for dividers of 24 bits, every clock but the RTC is as told; the RTC too when the crystal is a
multiple of 46875 Hz.  What is missing: the other rates (pll_133, rtc_wrong) -/
theorem freq_partial (c : Cfg) (w : Nat → Bool) (s s' : St) (h : init c w s = .ok s') (hr : Reach c.xosc c.pllSys) (hu : Reach c.xosc 48000000)
    (hd : c.sysDiv < 2 ^ 24) (hg : ∀ i, i < 4 → c.gpDiv i < 2 ^ 24) (i : Nat) (hi : i ≤ 9) (h5 : i = 5 → 46875 ∣ c.xosc) :
    Tells (getFreq s' i) (hw c.xosc s' i) := by
  obtain ⟨a1, a2, a3, a4, a5, a6, a7, a8, a9, a10, a11, a12, a13, a14, a15, a16, a17, a18, a19, _⟩ := init_ok c w s s' h
  have hz0 : c.pllSys ≠ 0 := by
    intro e
    rw [pllConfig, if_pos e] at a7
    cases a7
  obtain ⟨p, b1, b2⟩ := pll_right c.xosc c.pllSys a2 hr hz0
  rw [a7, Res.ok.injEq] at b1
  rw [← b1] at b2
  obtain ⟨q, b3, b4⟩ := pll_right c.xosc 48000000 a2 hu (by decide)
  rw [a8, Res.ok.injEq] at b3
  rw [← b3] at b4
  have hsys : Tells (some s'.sys) (Hz.div (pllHz c.xosc s'.sysPll) s'.sysDiv) := by
    rw [a13, ldiv_eq _ _ (by omega), a9, Nat.mod_eq_of_lt hd]
    exact tells_div b2 a5
  have hgp : ∀ j, j < 4 → Tells (some (s'.gpout j)) (Hz.div (Hz.div (pllHz c.xosc s'.sysPll) s'.sysDiv) (s'.gpDiv j)) := by
    intro j hj
    have := hg j hj
    rw [a19 j hj, ldiv_eq _ _ (by omega), a11 j hj, Nat.mod_eq_of_lt this]
    exact tells_div hsys (a6 j hj)
  match i, hi with
  | 0, _ => exact hsys
  | 1, _ =>
    show Tells (some s'.ref) (some (c.xosc, s'.refDiv))
    rw [a14, ldiv_eq _ _ (by omega), a10, Nat.mod_eq_of_lt a4]
    exact ⟨_, _, rfl, a3, rfl⟩
  | 2, _ =>
    show Tells (some s'.peri) _
    rw [a15]; exact hsys
  | 3, _ =>
    show Tells (some s'.usb) _
    rw [a16]; exact b4
  | 4, _ =>
    show Tells (some s'.adc) _
    rw [a17]; exact b4
  | 5, _ =>
    obtain ⟨k, hk⟩ := h5 rfl
    show Tells (some s'.rtc) (some (c.xosc * 256, s'.rtcDiv))
    rw [a18, a12, hk, Nat.mul_mod_right, Nat.mul_div_cancel_left _ (by decide), Nat.mod_eq_of_lt (by omega)]
    simp only [Nat.zero_mul, Nat.zero_div, Nat.zero_mod, Nat.add_zero]
    refine ⟨_, _, rfl, by omega, ?_⟩
    rw [Nat.mul_assoc, Nat.mul_div_cancel _ (by omega)]
  | 6, _ => exact hgp 0 (by decide)
  | 7, _ => exact hgp 1 (by decide)
  | 8, _ => exact hgp 2 (by decide)
  | 9, _ => exact hgp 3 (by decide)

/-- the usual settings of the board meet the hypotheses: 12 MHz, 125 MHz -/
theorem sample : Reach 12000000 125000000 ∧ Reach 12000000 48000000 ∧ 46875 ∣ 12000000 :=
  ⟨⟨125, 6, 2, by decide⟩, ⟨16, 2, 2, by decide⟩, 256, by decide⟩

/-- every rate reached is accepted when the waits are in time -/
theorem accepts (c : Cfg) (s : St) (h0 : 0 < c.xosc) (h1 : c.xosc ≤ 15000000) (h2 : 0 < c.refDiv) (h3 : c.refDiv < 4) (h4 : 0 < c.sysDiv) (h5 : ∀ i, i < 4 → 0 < c.gpDiv i)
    (hr : Reach c.xosc c.pllSys) (hz : c.pllSys ≠ 0) (hu : Reach c.xosc 48000000) : ∃ s', init c (fun _ => true) s = .ok s' := by
  obtain ⟨p, b1, _⟩ := pll_right c.xosc c.pllSys h1 hr hz
  obtain ⟨q, b3, _⟩ := pll_right c.xosc 48000000 h1 hu (by decide)
  have g : ∀ i d s, 0 < d → gpoutConfig i d s = .ok { s with ctrl := set s.ctrl (6 + i) (orIn 4 5 6#32 0#32), gpDiv := set s.gpDiv i (d % 2 ^ 24), gpout := set s.gpout i (ldiv s.sys d) } := by
    intro i d s hd
    rw [gpoutConfig, if_neg (by omega)]
  unfold init xoscConfig refConfig sysConfig
  simp only [if_neg (show ¬ c.xosc = 0 by omega), if_neg (show ¬ 15000000 < c.xosc by omega), if_neg (show ¬ (c.refDiv = 0 ∨ 4 ≤ c.refDiv) by omega), if_neg (show ¬ c.sysDiv = 0 by omega),
    Bool.not_true, Bool.false_eq_true, if_false, Res.bind, b1, b3, g 0 _ _ (h5 0 (by decide)), g 1 _ _ (h5 1 (by decide)), g 2 _ _ (h5 2 (by decide)), g 3 _ _ (h5 3 (by decide))]
  exact ⟨_, rfl⟩

/-- **C95 refuted, rp2040**: 133 MHz from 12 MHz, the maximum of the data sheet.  The feedback divider, 133, is cut to 7 bits: the PLL would make 5 MHz, and 133 MHz is told -/
theorem pll_133 : pllConfig 12000000 133000000 true = .ok ⟨1, 5, 2, 6⟩ ∧ ¬ Tells (some 133000000) (pllHz 12000000 ⟨1, 5, 2, 6⟩) := by
  refine ⟨by decide +kernel, ?_⟩
  rintro ⟨n, d, h1, _, h2⟩
  simp only [pllHz, Option.some.injEq, Prod.mk.injEq] at h1 h2
  rw [← h1.1, ← h1.2] at h2
  revert h2
  decide

/-- a rate the PLL does not make ends, at 12 MHz, in a product past the range of int: undefined, instead of the error -/
theorem pll_overflow : pllConfig 12000000 1 true = .undef := by decide +kernel

/-- **C95 refuted, rp2040, RTC**: at 13 MHz the fraction is written in hundredths, the hardware takes 256ths: 46909 Hz, 46875 told -/
theorem rtc_wrong (c : Cfg) (w : Nat → Bool) (s s' : St) (h : init c w s = .ok s') (hc : c.xosc = 13000000) :
    hw c.xosc s' 5 = some (13000000 * 256, 277 * 256 + 33) ∧ getFreq s' 5 = some 46875 ∧ ¬ Tells (getFreq s' 5) (hw c.xosc s' 5) := by
  obtain ⟨_, _, _, _, _, _, _, _, _, _, _, a12, _, _, _, _, _, a18, _, _⟩ := init_ok c w s s' h
  have h1 : hw c.xosc s' 5 = some (13000000 * 256, 277 * 256 + 33) := by
    show some (c.xosc * 256, s'.rtcDiv) = _
    rw [a12, hc]
  have h2 : getFreq s' 5 = some 46875 := by
    show some s'.rtc = _
    rw [a18]
  refine ⟨h1, h2, ?_⟩
  rw [h1, h2]
  rintro ⟨n, d, h1, _, h2⟩
  simp only [Option.some.injEq, Prod.mk.injEq] at h1 h2
  rw [← h1.1, ← h1.2] at h2
  revert h2
  decide

/-- **C96, rp2040**: enable and disable gate exactly the clock asked; after the initialisation they are all off -/
theorem enable_does (i : Nat) (s s' : St) (h : enable i s = some s') : on s' i = true ∧ (∀ j, j ≠ i → s'.ctrl j = s.ctrl j) ∧ (∀ k, k ≠ 11 → (s'.ctrl i).getLsbD k = (s.ctrl i).getLsbD k) ∧
    ∀ x j, getFreq s' j = getFreq s j ∧ hw x s' j = hw x s j := by
  unfold enable at h
  by_cases h1 : 2 ≤ i ∧ i ≤ 9
  · rw [if_pos h1, Option.some.injEq] at h
    subst h
    refine ⟨?_, ?_, ?_, ?_⟩
    · show (set s.ctrl i (bset 11 (s.ctrl i)) i).getLsbD 11 = true
      rw [set_same, bset_same _ _ (by decide)]
    · intro j hj; exact set_ne _ _ _ _ hj
    · intro k hk
      show (set s.ctrl i (bset 11 (s.ctrl i)) i).getLsbD k = _
      rw [set_same, bset_ne _ _ _ hk]
    · intro x j; exact ⟨rfl, rfl⟩
  · rw [if_neg h1] at h; cases h

theorem disable_does (i : Nat) (s s' : St) (h : disable i s = some s') : on s' i = false ∧ (∀ j, j ≠ i → s'.ctrl j = s.ctrl j) ∧ (∀ k, k ≠ 11 → (s'.ctrl i).getLsbD k = (s.ctrl i).getLsbD k) ∧
    ∀ x j, getFreq s' j = getFreq s j ∧ hw x s' j = hw x s j := by
  unfold disable at h
  by_cases h1 : 2 ≤ i ∧ i ≤ 9
  · rw [if_pos h1, Option.some.injEq] at h
    subst h
    refine ⟨?_, ?_, ?_, ?_⟩
    · show (set s.ctrl i (bclr 11 (s.ctrl i)) i).getLsbD 11 = false
      rw [set_same, bclr_same]
    · intro j hj; exact set_ne _ _ _ _ hj
    · intro k hk
      show (set s.ctrl i (bclr 11 (s.ctrl i)) i).getLsbD k = _
      rw [set_same, bclr_ne _ _ _ hk]
    · intro x j; exact ⟨rfl, rfl⟩
  · rw [if_neg h1] at h; cases h

theorem gates_accepted (i : Nat) (h : 2 ≤ i ∧ i ≤ 9) (s : St) : (∃ s', enable i s = some s') ∧ ∃ s', disable i s = some s' := by
  unfold enable disable
  rw [if_pos h, if_pos h]
  exact ⟨⟨_, rfl⟩, ⟨_, rfl⟩⟩

theorem init_off (c : Cfg) (w : Nat → Bool) (s s' : St) (h : init c w s = .ok s') : ∀ i, 2 ≤ i → i ≤ 9 → on s' i = false :=
  (init_ok c w s s' h).2.2.2.2.2.2.2.2.2.2.2.2.2.2.2.2.2.2.2

end Rp
end Pico.Clock
