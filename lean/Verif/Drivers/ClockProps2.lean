import Verif.Drivers.ClockProps
/-
C95, C96: gd32vf103, tinyavr, f28379x, stm8.
-/
namespace Pico.Clock
open Field

theorem get_one {n : Nat} (t : Nat) (r : BitVec n) (hn : 1 < n) : (get 1 t r).toNat = (r.getLsbD t).toNat := by
  have h : get 1 t r = BitVec.ofNat n (r.getLsbD t).toNat := by
    apply BitVec.eq_of_getLsbD_eq
    intro i hi
    rw [get_bit, BitVec.getLsbD_ofNat]
    cases i with
    | zero => simp [hi]; cases r.getLsbD t <;> rfl
    | succ i =>
      rw [decide_eq_false (by omega), Bool.false_and]
      cases r.getLsbD t
      · simp
      · show false = (decide (i + 1 < n) && (1 : Nat).testBit (i + 1))
        rw [show (1 : Nat).testBit (i + 1) = false by simp [Nat.testBit_succ]]
        simp
  have hp : 1 < 2 ^ n := Nat.one_lt_two_pow (by omega)
  rw [h, BitVec.toNat_ofNat, Nat.mod_eq_of_lt]
  cases r.getLsbD t
  · exact Nat.lt_of_lt_of_le Nat.zero_lt_one (Nat.le_of_lt hp)
  · exact hp

theorem bind_some {α β : Type} {r : Option α} {f : α → Option β} {b : β} (h : r.bind f = some b) : ∃ a, r = some a ∧ f a = some b := by
  cases r with
  | none => cases h
  | some a => exact ⟨a, rfl, h⟩

theorem map_some {α β : Type} {r : Option α} {f : α → β} {b : β} (h : r.map f = some b) : ∃ a, r = some a ∧ f a = b := by
  cases r with
  | none => cases h
  | some a => exact ⟨a, rfl, by simpa using h⟩

theorem tells_not {r n d : Nat} (h : n / d ≠ r) : ¬ Tells (some r) (some (n, d)) := by
  rintro ⟨n', d', h1, _, h2⟩
  simp only [Option.some.injEq, Prod.mk.injEq] at h1 h2
  rw [← h1.1, ← h1.2] at h2
  exact h h2.symm

namespace Gd

/-- what the system clock depends on -/
def SameSys (s s' : St) : Prop :=
  get 2 0 s'.cfg0 = get 2 0 s.cfg0 ∧ get 1 29 s'.cfg0 = get 1 29 s.cfg0 ∧ get 4 18 s'.cfg0 = get 4 18 s.cfg0 ∧ s'.cfg0.getLsbD 16 = s.cfg0.getLsbD 16 ∧ s'.cfg1 = s.cfg1 ∧ s'.hxOn = s.hxOn

theorem same_sys (x : Nat) (s s' : St) (h : SameSys s s') : sysHz x s' = sysHz x s := by
  obtain ⟨h1, h2, h3, h4, h5, h6⟩ := h
  unfold sysHz pllHz
  rw [h1, h2, h3, h4, h5, h6]

theorem SameSys.trans {a b c : St} (h : SameSys a b) (k : SameSys b c) : SameSys a c := by
  obtain ⟨h1, h2, h3, h4, h5, h6⟩ := h
  obtain ⟨k1, k2, k3, k4, k5, k6⟩ := k
  exact ⟨k1.trans h1, k2.trans h2, k3.trans h3, k4.trans h4, k5.trans h5, k6.trans h6⟩

theorem ahb_code (d v : Nat) (h : ahbCode d = some v) : v < 16 ∧ ahbDiv v = d := by
  unfold ahbCode at h
  split at h <;> first | cases h; decide | cases h
theorem apb_code (d v : Nat) (h : apbCode d = some v) : v < 8 ∧ apbDiv v = d := by
  unfold apbCode at h
  split at h <;> first | cases h; decide | cases h
theorem adc_code (d : Nat) (b : Bool) (v : Nat) (h : adcCode d = some (b, v)) (h12 : d ≠ 12) : adcDiv (b.toNat * 4 + v % 4) = d := by
  unfold adcCode at h
  split at h <;> first | (cases h; decide) | (exact absurd rfl h12) | cases h

theorem ahb_step (d : Nat) (s s' : St) (h : setAhb d s = some s') :
    SameSys s s' ∧ 0 < d ∧ ahbDiv (get 4 4 s'.cfg0).toNat = d ∧ s'.ahb = s.ckSys / d ∧ s'.ckSys = s.ckSys := by
  unfold setAhb at h
  by_cases h0 : d = 0 ∨ 108000000 < s.ckSys / d
  · rw [if_pos h0] at h; cases h
  rw [if_neg h0] at h
  obtain ⟨v, hv, rfl⟩ := map_some h
  obtain ⟨h1, h2⟩ := ahb_code d v hv
  refine ⟨⟨get_put_other _ _ _ _ _ _ (by decide), get_put_other _ _ _ _ _ _ (by decide), get_put_other _ _ _ _ _ _ (by decide), put_bit _ _ _ _ _ (by decide), rfl, rfl⟩, by omega, ?_, rfl, rfl⟩
  show ahbDiv (get 4 4 (put 4 4 (BitVec.ofNat 32 v) s.cfg0)).toNat = d
  rw [get_put_nat _ _ _ _ (by decide) h1, h2]

theorem apb1_step (d : Nat) (s s' : St) (h : setApb1 d s = some s') :
    SameSys s s' ∧ 0 < d ∧ apbDiv (get 3 8 s'.cfg0).toNat = d ∧ s'.apb1 = s.ahb / d ∧ s'.ckSys = s.ckSys ∧ s'.ahb = s.ahb ∧ get 4 4 s'.cfg0 = get 4 4 s.cfg0 := by
  unfold setApb1 at h
  by_cases h0 : d = 0 ∨ 54000000 < s.ahb / d
  · rw [if_pos h0] at h; cases h
  rw [if_neg h0] at h
  obtain ⟨v, hv, rfl⟩ := map_some h
  obtain ⟨h1, h2⟩ := apb_code d v hv
  refine ⟨⟨get_put_other _ _ _ _ _ _ (by decide), get_put_other _ _ _ _ _ _ (by decide), get_put_other _ _ _ _ _ _ (by decide), put_bit _ _ _ _ _ (by decide), rfl, rfl⟩, by omega, ?_, rfl, rfl, rfl,
    get_put_other _ _ _ _ _ _ (by decide)⟩
  show apbDiv (get 3 8 (put 3 8 (BitVec.ofNat 32 v) s.cfg0)).toNat = d
  rw [get_put_nat _ _ _ _ (by decide) h1, h2]

theorem apb2_step (d : Nat) (s s' : St) (h : setApb2 d s = some s') :
    SameSys s s' ∧ 0 < d ∧ apbDiv (get 3 11 s'.cfg0).toNat = d ∧ s'.apb2 = s.ahb / d ∧ s'.ckSys = s.ckSys ∧ s'.ahb = s.ahb ∧ s'.apb1 = s.apb1 ∧
    get 4 4 s'.cfg0 = get 4 4 s.cfg0 ∧ get 3 8 s'.cfg0 = get 3 8 s.cfg0 := by
  unfold setApb2 at h
  by_cases h0 : d = 0 ∨ 108000000 < s.ahb / d
  · rw [if_pos h0] at h; cases h
  rw [if_neg h0] at h
  obtain ⟨v, hv, rfl⟩ := map_some h
  obtain ⟨h1, h2⟩ := apb_code d v hv
  refine ⟨⟨get_put_other _ _ _ _ _ _ (by decide), get_put_other _ _ _ _ _ _ (by decide), get_put_other _ _ _ _ _ _ (by decide), put_bit _ _ _ _ _ (by decide), rfl, rfl⟩, by omega, ?_, rfl, rfl, rfl, rfl,
    get_put_other _ _ _ _ _ _ (by decide), get_put_other _ _ _ _ _ _ (by decide)⟩
  show apbDiv (get 3 11 (put 3 11 (BitVec.ofNat 32 v) s.cfg0)).toNat = d
  rw [get_put_nat _ _ _ _ (by decide) h1, h2]

/-- the register written by setup_adc_div -/
def adcReg (v : Bool × Nat) (r : BitVec 32) : BitVec 32 := orIn 2 14 (BitVec.ofNat 32 v.2) (if v.1 then bset 28 (bclr 28 (clear 2 14 r)) else bclr 28 (clear 2 14 r))

theorem adc_other (v : Bool × Nat) (r : BitVec 32) (w t : Nat) (h : (t + w ≤ 14 ∨ 16 ≤ t) ∧ (t + w ≤ 28 ∨ 29 ≤ t)) : get w t (adcReg v r) = get w t r := by
  unfold adcReg
  rw [get_orIn_other _ _ _ _ _ _ (by omega)]
  have h1 : get w t (bclr 28 (clear 2 14 r)) = get w t r := by rw [get_bclr_other _ _ _ _ (by omega), get_clear_other _ _ _ _ _ (by omega)]
  cases v.1
  · exact h1
  · show get w t (bset 28 (bclr 28 (clear 2 14 r))) = _
    rw [get_bset_other _ _ _ _ (by omega), h1]

theorem adc_field (v : Bool × Nat) (r : BitVec 32) : (get 2 14 (adcReg v r)).toNat = v.2 % 4 := by
  unfold adcReg
  rw [get_orIn_same _ _ _ _ (by decide)]
  · have : BitVec.ofNat 32 v.2 &&& mask 32 2 = get 2 0 (put 2 0 (BitVec.ofNat 32 v.2) 0#32) := (get_put_same _ _ _ _ (by decide)).symm
    rw [this, get_put_mod _ _ _ _ (by decide)]
  · have h1 : get 2 14 (bclr 28 (clear 2 14 r)) = 0 := by rw [get_bclr_other _ _ _ _ (by decide), get_clear_same]
    cases v.1
    · exact h1
    · show get 2 14 (bset 28 (bclr 28 (clear 2 14 r))) = _
      rw [get_bset_other _ _ _ _ (by decide), h1]

theorem adc_psc2 (v : Bool × Nat) (r : BitVec 32) : (get 1 28 (adcReg v r)).toNat = v.1.toNat := by
  rw [get_one _ _ (by decide)]
  unfold adcReg
  rw [orIn_bit _ _ _ _ _ (by decide)]
  cases v.1
  · show ((bclr 28 (clear 2 14 r)).getLsbD 28 || _).toNat = 0
    rw [bclr_same]
    rfl
  · show ((bset 28 (bclr 28 (clear 2 14 r))).getLsbD 28 || _).toNat = 1
    rw [bset_same _ _ (by decide), Bool.true_or]
    rfl

theorem adc_step (d : Nat) (s s' : St) (h : setAdc d s = some s') :
    ∃ v, adcCode d = some v ∧ s' = { s with cfg0 := adcReg v s.cfg0, adc := s.apb2 / d } ∧ 0 < d := by
  unfold setAdc at h
  by_cases h0 : d = 0 ∨ 14000000 < s.apb2 / d
  · rw [if_pos h0] at h; cases h
  rw [if_neg h0] at h
  obtain ⟨v, hv, rfl⟩ := map_some h
  exact ⟨v, hv, rfl, by omega⟩

theorem adc_same (v : Bool × Nat) (s : St) (k : Nat) : SameSys s { s with cfg0 := adcReg v s.cfg0, adc := k } := by
  refine ⟨adc_other _ _ _ _ (by decide), adc_other _ _ _ _ (by decide), adc_other _ _ _ _ (by decide), ?_, rfl, rfl⟩
  have := adc_other v s.cfg0 1 16 (by decide)
  have h2 : (get 1 16 (adcReg v s.cfg0)).getLsbD 0 = (get 1 16 s.cfg0).getLsbD 0 := by rw [this]
  rw [get_bit, get_bit] at h2
  exact h2

/-- the buses: whatever the system clock is, if it is as told then so are AHB, APB1, APB2, and the ADC clock unless it is divided by 12 -/
theorem buses (c : Cfg) (x : Nat) (s1 s' : St)
    (h : ((setAhb c.ahbDiv s1).bind fun s => (setApb1 c.apb1Div s).bind fun s => (setApb2 c.apb2Div s).bind fun s => setAdc c.adcDiv s) = some s')
    (hs : Tells (some s1.ckSys) (sysHz x s1)) (i : Nat) (hi : i ≤ 5) (h12 : i = 4 → c.adcDiv ≠ 12) : Tells (getFreq s' i) (hw x s' i) := by
  obtain ⟨s2, e2, h⟩ := bind_some h
  obtain ⟨s3, e3, h⟩ := bind_some h
  obtain ⟨s4, e4, h⟩ := bind_some h
  obtain ⟨a1, a2, a3, a4, a5⟩ := ahb_step _ _ _ e2
  obtain ⟨b1, b2, b3, b4, b5, b6, b7⟩ := apb1_step _ _ _ e3
  obtain ⟨c1, c2, c3, c4, c5, c6, c7, c8, c9⟩ := apb2_step _ _ _ e4
  obtain ⟨v, hv, rfl, d0⟩ := adc_step _ _ _ h
  have hsame := ((a1.trans b1).trans c1).trans (adc_same v s4 (s4.apb2 / c.adcDiv))
  have f0 : Tells (some s4.ckSys) (sysHz x { s4 with cfg0 := adcReg v s4.cfg0, adc := s4.apb2 / c.adcDiv }) := by
    rw [same_sys x _ _ hsame, c5, b5, a5]; exact hs
  have f1 : Tells (some s4.ahb) (Hz.div (sysHz x { s4 with cfg0 := adcReg v s4.cfg0, adc := s4.apb2 / c.adcDiv }) (ahbDiv (get 4 4 (adcReg v s4.cfg0)).toNat)) := by
    rw [adc_other _ _ _ _ (by decide), c8, b7, a3, c6, b6, a4, ← a5, ← b5, ← c5]
    exact tells_div f0 a2
  have f3 : Tells (some s4.apb2) (Hz.div (Hz.div (sysHz x { s4 with cfg0 := adcReg v s4.cfg0, adc := s4.apb2 / c.adcDiv }) (ahbDiv (get 4 4 (adcReg v s4.cfg0)).toNat))
      (apbDiv (get 3 11 (adcReg v s4.cfg0)).toNat)) := by
    rw [adc_other _ _ 3 11 (by decide), c3, c4, ← c6]
    exact tells_div f1 c2
  match i, hi with
  | 0, _ => exact f0
  | 1, _ => exact f1
  | 2, _ =>
    show Tells (some s4.apb1) (Hz.div (Hz.div _ (ahbDiv (get 4 4 (adcReg v s4.cfg0)).toNat)) (apbDiv (get 3 8 (adcReg v s4.cfg0)).toNat))
    rw [adc_other _ _ 3 8 (by decide), c9, b3, c7, b4, ← b6, ← c6]
    exact tells_div f1 b2
  | 3, _ => exact f3
  | 4, _ =>
    show Tells (some (s4.apb2 / c.adcDiv)) (Hz.div (Hz.div (Hz.div _ (ahbDiv (get 4 4 (adcReg v s4.cfg0)).toNat)) (apbDiv (get 3 11 (adcReg v s4.cfg0)).toNat))
      (adcDiv ((get 1 28 (adcReg v s4.cfg0)).toNat * 4 + (get 2 14 (adcReg v s4.cfg0)).toNat)))
    rw [adc_psc2, adc_field, adc_code _ v.1 v.2 hv (h12 rfl)]
    exact tells_div f3 d0
  | 5, _ => exact tells_self 40000

theorem init_parts (c : Cfg) (w : Nat → Bool) (s s' : St) (h : init c w s = some s') :
    ∃ s1, choose c w s = some s1 ∧ c.ckSys < 3 ∧
      ((setAhb c.ahbDiv { s1 with cfg0 := put 2 0 (BitVec.ofNat 32 c.ckSys) s1.cfg0, arch := s1.ckSys / 4 }).bind fun s =>
        (setApb1 c.apb1Div s).bind fun s => (setApb2 c.apb2Div s).bind fun s => setAdc c.adcDiv s) = some s' := by
  obtain ⟨s1, e1, h⟩ := bind_some h
  obtain ⟨s2, e2, h⟩ := bind_some h
  unfold switch at e2
  cases hw2 : w 2 <;> rw [hw2] at e2
  · cases e2
  have e2 : some _ = some s2 := e2
  rw [Option.some.injEq] at e2
  subst e2
  refine ⟨s1, e1, ?_, h⟩
  unfold choose at e1
  by_cases h3 : 3 ≤ c.ckSys
  · rw [if_pos h3] at e1; cases e1
  · omega

theorem sysHz_sel (x k : Nat) (s1 : St) (r : Nat) (hk : k < 3) : sysHz x { s1 with cfg0 := put 2 0 (BitVec.ofNat 32 k) s1.cfg0, arch := r } =
    if k = 0 then some (8000000, 1) else if k = 1 then (if s1.hxOn then some (x, 1) else none) else pllHz x s1 := by
  unfold sysHz
  rw [get_put_nat _ _ _ _ (by decide) (by omega)]
  match k, hk with
  | 0, _ => rfl
  | 1, _ => rfl
  | 2, _ =>
    show pllHz x { s1 with cfg0 := put 2 0 (BitVec.ofNat 32 2) s1.cfg0, arch := r } = pllHz x s1
    unfold pllHz
    rw [get_put_other _ _ _ _ _ _ (by decide), get_put_other _ _ _ _ _ _ (by decide), put_bit _ _ _ _ _ (by decide)]

/-- **C95, gd32vf103, without the PLL**: the internal oscillator, or the crystal whose frequency was given: every clock is as told (but for the ADC divided by 12) -/
theorem freq_partial (c : Cfg) (w : Nat → Bool) (s s' : St) (h : init c w s = some s') (hc : c.ckSys = 0 ∨ (c.ckSys = 1 ∧ c.hxtal ≠ 0))
    (i : Nat) (hi : i ≤ 5) (h12 : i = 4 → c.adcDiv ≠ 12) : Tells (getFreq s' i) (hw c.hxtal s' i) := by
  obtain ⟨s1, e1, h3, h⟩ := init_parts c w s s' h
  refine buses c c.hxtal _ s' h ?_ i hi h12
  rw [sysHz_sel _ _ _ _ h3]
  show Tells (some s1.ckSys) _
  unfold choose at e1
  rw [if_neg (by omega)] at e1
  rcases hc with hc | ⟨hc, hx⟩
  · by_cases hw0 : c.hxtal ≠ 0 ∧ w 0 = false
    · rw [if_pos hw0] at e1; cases e1
    rw [if_neg hw0] at e1
    simp only [hc, if_true, Option.some.injEq] at e1
    rw [← e1, if_pos hc]
    exact tells_self _
  · by_cases hw0 : c.hxtal ≠ 0 ∧ w 0 = false
    · rw [if_pos hw0] at e1; cases e1
    rw [if_neg hw0] at e1
    simp only [hc, if_pos hx, if_true, Option.some.injEq, show ¬ (1 = 0) by decide, if_false] at e1
    rw [← e1, if_neg (by omega), if_pos hc]
    exact tells_self _

/-! the PLL -/

/-- the register CFG0 written by setup_pll for a factor m -/
def pllReg (m : Nat) (r : BitVec 32) : BitVec 32 :=
  orIn 4 18 (BitVec.ofNat 32 (m - 1)) (orIn 1 29 (BitVec.ofNat 32 ((m - 1) / 16)) (clear 1 29 (clear 4 18 (clear 1 17 r))))

theorem and_mask_mod (w v : Nat) (hw : w ≤ 32) : (BitVec.ofNat 32 v &&& mask 32 w).toNat = v % 2 ^ w := by
  have : BitVec.ofNat 32 v &&& mask 32 w = get w 0 (put w 0 (BitVec.ofNat 32 v) 0#32) := (get_put_same _ _ _ _ (by omega)).symm
  rw [this, get_put_mod _ _ _ _ (by omega)]

theorem pllReg_factor (m : Nat) (r : BitVec 32) (hm : 2 ≤ m) (hm' : m ≤ 32) : (get 1 29 (pllReg m r)).toNat * 16 + (get 4 18 (pllReg m r)).toNat = m - 1 := by
  unfold pllReg
  rw [get_orIn_other 4 18 1 29 _ _ (by decide), get_orIn_same 1 29 _ _ (by decide) (get_clear_same _ _ _), get_orIn_same 4 18 _ _ (by decide)]
  · rw [and_mask_mod _ _ (by decide), and_mask_mod _ _ (by decide)]; omega
  · rw [get_orIn_other _ _ _ _ _ _ (by decide), get_clear_other _ _ _ _ _ (by decide), get_clear_same]

theorem pllReg_bit16 (m : Nat) (r : BitVec 32) : (pllReg m r).getLsbD 16 = r.getLsbD 16 := by
  unfold pllReg
  rw [orIn_bit _ _ _ _ _ (by decide), orIn_bit _ _ _ _ _ (by decide), clear_bit, clear_bit, clear_bit]
  simp

theorem mem_cands (m p : Nat) (h : (m, p) ∈ cands) : 2 ≤ m ∧ m ≤ 32 ∧ 1 ≤ p ∧ p ≤ 16 := by
  unfold cands at h
  simp only [List.mem_flatMap, List.mem_map, List.mem_range, Prod.mk.injEq] at h
  obtain ⟨a, ha, b, hb, h1, h2⟩ := h
  omega

/-- the factor and the pre-divider found make the rate asked, by the driver's reckoning; the rate told is the rate asked; what the PLL really makes is x times the factor the manual gives for
the code m - 1 -/
theorem pll_found (c : Cfg) (w : Nat → Bool) (s s1 : St) (h : choose c w s = some s1) (hc : c.ckSys = 2) (hp : c.pllsel = 1) (hx : c.hxtal ≠ 0) (hs : s.cfg1.getLsbD 16 = false) :
    ∃ m p, 2 ≤ m ∧ m ≤ 32 ∧ 1 ≤ p ∧ p ≤ 16 ∧ c.hxtal / p * m % 2 ^ 32 = c.pll ∧ s1.ckSys = c.pll ∧ 0 < c.pll ∧ c.pll ≤ 108000000 ∧
      pllHz c.hxtal s1 = some (c.hxtal * (mult (m - 1)).1, p * (mult (m - 1)).2) := by
  unfold choose at h
  rw [if_neg (by omega)] at h
  by_cases hw0 : c.hxtal ≠ 0 ∧ w 0 = false
  · rw [if_pos hw0] at h; cases h
  rw [if_neg hw0] at h
  simp only [hc, if_pos hx, show ¬ (2 = 0) by decide, show ¬ (2 = 1) by decide, if_false] at h
  obtain ⟨s2, e2, h⟩ := bind_some h
  cases hw1 : w 1 <;> rw [hw1] at h
  · cases h
  have h : some s2 = some s1 := h
  rw [Option.some.injEq] at h
  subst h
  unfold setupPll at e2
  by_cases h0 : 2 ≤ c.pllsel ∨ c.pll = 0 ∨ 108000000 < c.pll
  · rw [if_pos h0] at e2; cases e2
  rw [if_neg h0] at e2
  simp only [hp, show ¬ (1 = 0) by decide, if_false] at e2
  obtain ⟨⟨m, p⟩, e3, rfl⟩ := map_some e2
  have hm := List.mem_of_find?_eq_some e3
  have he := List.find?_some e3
  simp only [decide_eq_true_eq] at he
  obtain ⟨q1, q2, q3, q4⟩ := mem_cands m p hm
  refine ⟨m, p, q1, q2, q3, q4, he, rfl, by omega, by omega, ?_⟩
  have key : ∀ (cfg1 : BitVec 32) (st : St), st.cfg0 = pllReg m (bset 16 s.cfg0) → st.cfg1 = put 4 0 (BitVec.ofNat 32 (p - 1)) s.cfg1 → st.hxOn = true →
      pllHz c.hxtal st = some (c.hxtal * (mult (m - 1)).1, p * (mult (m - 1)).2) := by
    intro cfg1 st k1 k2 k3
    unfold pllHz
    rw [k1, k2, k3, pllReg_factor m _ q1 q2, pllReg_bit16, bset_same _ _ (by decide), put_bit _ _ _ _ _ (by decide), hs, get_put_nat _ _ _ _ (by decide) (by omega), Nat.sub_add_cancel q3]
    rfl
  exact key s.cfg1 _ rfl rfl rfl

/-- **C95, gd32vf103, PLL on the crystal**: when no factor under 16 gives the rate and the pre-dividers that give it divide the crystal, every clock is as told.  What is missing: the factors
under 16 (pll_wrong), the PLL on the internal oscillator (irc_wrong) -/
theorem pll_partial (c : Cfg) (w : Nat → Bool) (s s' : St) (h : init c w s = some s') (hc : c.ckSys = 2) (hp : c.pllsel = 1) (hx : c.hxtal ≠ 0) (hx2 : c.hxtal ≤ 32000000)
    (hs : s.cfg1.getLsbD 16 = false) (h16 : ∀ m p, 1 ≤ p → p ≤ 16 → c.hxtal / p * m = c.pll → 16 ≤ m ∧ p ∣ c.hxtal)
    (i : Nat) (hi : i ≤ 5) (h12 : i = 4 → c.adcDiv ≠ 12) : Tells (getFreq s' i) (hw c.hxtal s' i) := by
  obtain ⟨s1, e1, h3, h⟩ := init_parts c w s s' h
  refine buses c c.hxtal _ s' h ?_ i hi h12
  rw [sysHz_sel _ _ _ _ h3, if_neg (by omega), if_neg (by omega)]
  obtain ⟨m, p, q1, q2, q3, q4, q5, q6, q7, q8, q9⟩ := pll_found c w s s1 e1 hc hp hx hs
  have hlt : c.hxtal / p * m < 2 ^ 32 :=
    calc c.hxtal / p * m ≤ 32000000 * 32 := Nat.mul_le_mul (Nat.le_trans (Nat.div_le_self _ _) hx2) q2
      _ < 2 ^ 32 := by decide
  rw [Nat.mod_eq_of_lt hlt] at q5
  obtain ⟨r1, r2⟩ := h16 m p q3 q4 q5
  show Tells (some s1.ckSys) (pllHz c.hxtal s1)
  rw [q6, q9]
  have hm : mult (m - 1) = (m, 1) := by
    unfold mult
    by_cases h17 : m = 16
    · subst h17; rfl
    · rw [if_neg (by omega), if_neg (by omega), if_neg (by omega), Nat.sub_add_cancel (by omega)]
  rw [hm]
  refine ⟨_, _, rfl, by omega, ?_⟩
  show some c.pll = some (c.hxtal * m / (p * 1))
  rw [Nat.mul_one, ← q5, Nat.mul_comm c.hxtal m, Nat.mul_div_assoc _ r2, Nat.mul_comm]

/-- 8 MHz and 108 MHz meet the hypotheses -/
theorem sample_108 : ∀ m p, 1 ≤ p → p ≤ 16 → 8000000 / p * m = 108000000 → 16 ≤ m ∧ p ∣ 8000000 := by
  intro m p h1 h2 h
  have key : ∀ p : Fin 17, 1 ≤ p.val → 108000000 % (8000000 / p.val) = 0 → 16 ≤ 108000000 / (8000000 / p.val) ∧ p.val ∣ 8000000 := by decide
  have hpos : 0 < 8000000 / p := Nat.div_pos (by omega) (by omega)
  have := key ⟨p, by omega⟩ h1 (by show 108000000 % (8000000 / p) = 0; rw [← h, Nat.mul_mod_right])
  have h5 : 108000000 / (8000000 / p) = m := by rw [← h, Nat.mul_div_cancel_left _ hpos]
  rw [h5] at this
  exact this

/-- **C95 refuted, gd32vf103, PLL**: the code written is the factor minus one, the code of the next factor up to 13: 96 MHz from a crystal of 8 MHz is told, and the PLL makes 104 MHz -/
theorem pll_wrong (c : Cfg) (w : Nat → Bool) (s s1 : St) (h : choose c w s = some s1) (hc : c.ckSys = 2) (hp : c.pllsel = 1) (hx : c.hxtal = 8000000) (hf : c.pll = 96000000)
    (hs : s.cfg1.getLsbD 16 = false) : s1.ckSys = 96000000 ∧ pllHz c.hxtal s1 = some (8000000 * 13, 1) := by
  have hx0 : c.hxtal ≠ 0 := by omega
  unfold choose at h
  rw [if_neg (by omega)] at h
  by_cases hw0 : c.hxtal ≠ 0 ∧ w 0 = false
  · rw [if_pos hw0] at h; cases h
  rw [if_neg hw0] at h
  simp only [hc, if_pos hx0, show ¬ (2 = 0) by decide, show ¬ (2 = 1) by decide, if_false] at h
  obtain ⟨s2, e2, h⟩ := bind_some h
  cases hw1 : w 1 <;> rw [hw1] at h
  · cases h
  have h : some s2 = some s1 := h
  rw [Option.some.injEq] at h
  subst h
  unfold setupPll at e2
  rw [if_neg (by omega)] at e2
  have hfind : (cands.find? fun c => 8000000 / c.2 * c.1 % 2 ^ 32 = 96000000) = some (12, 1) := by decide +kernel
  simp only [hp, show ¬ (1 = 0) by decide, if_false, hx, hf, hfind, Option.map_some, Option.some.injEq] at e2
  subst e2
  refine ⟨rfl, ?_⟩
  have key : ∀ (st : St), st.cfg0 = pllReg 12 (bset 16 s.cfg0) → st.cfg1 = put 4 0 (BitVec.ofNat 32 0) s.cfg1 → st.hxOn = true → pllHz c.hxtal st = some (8000000 * 13, 1) := by
    intro st k1 k2 k3
    unfold pllHz
    rw [k1, k2, k3, pllReg_factor 12 _ (by decide) (by decide), pllReg_bit16, bset_same _ _ (by decide), put_bit _ _ _ _ _ (by decide), hs, get_put_nat _ _ _ _ (by decide) (by decide), hx]
    rfl
  exact key _ rfl rfl rfl

/-- **C95 refuted, gd32vf103, PLL on the internal oscillator**: the PLL takes it divided by 2: 64 MHz are told, the PLL makes 36 MHz -/
theorem irc_wrong (s s1 : St) (h : setupPll 0 64000000 s = some s1) (x : Nat) : s1.ckSys = 64000000 ∧ pllHz x s1 = some (4000000 * 9, 1) := by
  unfold setupPll at h
  rw [if_neg (by decide)] at h
  have hfind : (cands.find? fun c => 8000000 / c.2 * c.1 % 2 ^ 32 = 64000000) = some (8, 1) := by decide +kernel
  simp only [if_true, hfind, Option.map_some, Option.some.injEq] at h
  subst h
  refine ⟨rfl, ?_⟩
  have key : ∀ (st : St), st.cfg0 = pllReg 8 (bclr 16 s.cfg0) → pllHz x st = some (4000000 * 9, 1) := by
    intro st k1
    unfold pllHz
    rw [k1, pllReg_factor 8 _ (by decide) (by decide), pllReg_bit16, bclr_same]
    rfl
  exact key _ rfl

/-- **C95 refuted, gd32vf103, ADC**: a divider of 12 is written as that of 8 -/
theorem adc_wrong (s s' : St) (h : setAdc 12 s = some s') : s'.adc = s.apb2 / 12 ∧ adcDiv ((get 1 28 s'.cfg0).toNat * 4 + (get 2 14 s'.cfg0).toNat) = 8 := by
  obtain ⟨v, hv, rfl, _⟩ := adc_step _ _ _ h
  have hv : some (true, 6) = some v := hv
  rw [Option.some.injEq] at hv
  subst hv
  refine ⟨rfl, ?_⟩
  show adcDiv ((get 1 28 (adcReg (true, 6) s.cfg0)).toNat * 4 + (get 2 14 (adcReg (true, 6) s.cfg0)).toNat) = 8
  rw [adc_psc2, adc_field]
  rfl

/-- **C96, gd32vf103** -/
theorem enable_does (k : Nat) (s s' : St) (h : enable k s = some s') : ∀ j, on s' j = (decide (j = k) || on s j) := by
  unfold enable at h
  by_cases h0 : 0x4f ≤ k
  · rw [if_pos h0] at h; cases h
  rw [if_neg h0, if_pos (by omega), Option.some.injEq] at h
  subst h
  intro j
  unfold on
  by_cases hb : j / 32 = k / 32
  · show (Rp.set s.en (k / 32) (bset (k % 32) (s.en (k / 32))) (j / 32)).getLsbD (j % 32) = _
    rw [hb, Rp.set_same, bset_bit _ _ _ (by omega)]
    congr 1
    exact decide_eq_decide.2 (by omega)
  · show (Rp.set s.en (k / 32) (bset (k % 32) (s.en (k / 32))) (j / 32)).getLsbD (j % 32) = _
    rw [Rp.set_ne _ _ _ _ hb, decide_eq_false (by omega), Bool.false_or]

theorem disable_does (k : Nat) (s s' : St) (h : disable k s = some s') : ∀ j, on s' j = (!decide (j = k) && on s j) := by
  unfold disable at h
  by_cases h0 : 0x4f ≤ k
  · rw [if_pos h0] at h; cases h
  rw [if_neg h0, if_pos (by omega), Option.some.injEq] at h
  subst h
  intro j
  unfold on
  by_cases hb : j / 32 = k / 32
  · show (Rp.set s.en (k / 32) (bclr (k % 32) (s.en (k / 32))) (j / 32)).getLsbD (j % 32) = _
    rw [hb, Rp.set_same, bclr_bit _ _ _]
    congr 2
    exact decide_eq_decide.2 (by omega)
  · show (Rp.set s.en (k / 32) (bclr (k % 32) (s.en (k / 32))) (j / 32)).getLsbD (j % 32) = _
    rw [Rp.set_ne _ _ _ _ hb, decide_eq_false (by omega), Bool.not_false, Bool.true_and]

theorem gates_accepted (k : Nat) (h : k < 0x4f) (s : St) : (∃ s', enable k s = some s') ∧ ∃ s', disable k s = some s' := by
  have h1 : ¬ 0x4f ≤ k := by omega
  have h2 : k / 32 < 3 := by omega
  unfold enable disable
  simp only [if_neg h1, if_pos h2]
  exact ⟨⟨_, rfl⟩, ⟨_, rfl⟩⟩

/-- USART0 (0x4e), the last one, is accepted -/
example (s : St) : ∃ s', enable 0x4e s = some s' := ⟨_, rfl⟩

end Gd
end Pico.Clock
