/-
Bit fields of registers, as drivers write them: `REG &= ~(M << t); REG |= (v & M) << t` with M = 2^w - 1.
-/
namespace Pico.Field

/-- w ones -/
def mask (n w : Nat) : BitVec n := BitVec.ofNat n (2 ^ w - 1)

/-- the field of w bits at t -/
def get {n : Nat} (w t : Nat) (r : BitVec n) : BitVec n := (r >>> t) &&& mask n w

/-- `r &= ~(M << t)` -/
def clear {n : Nat} (w t : Nat) (r : BitVec n) : BitVec n := r &&& ~~~ (mask n w <<< t)

/-- `r |= (v & M) << t` -/
def orIn {n : Nat} (w t : Nat) (v r : BitVec n) : BitVec n := r ||| ((v &&& mask n w) <<< t)

def put {n : Nat} (w t : Nat) (v r : BitVec n) : BitVec n := orIn w t v (clear w t r)

theorem mask_bit (n w i : Nat) : (mask n w).getLsbD i = (decide (i < n) && decide (i < w)) := by
  simp [mask, BitVec.getLsbD_ofNat, Nat.testBit_two_pow_sub_one]

theorem get_bit {n : Nat} (w t : Nat) (r : BitVec n) (i : Nat) : (get w t r).getLsbD i = (decide (i < w) && r.getLsbD (t + i)) := by
  simp only [get, BitVec.getLsbD_and, BitVec.getLsbD_ushiftRight, mask_bit]
  by_cases h : i < n
  · simp [h, Bool.and_comm]
  · have : r.getLsbD (t + i) = false := BitVec.getLsbD_of_ge _ _ (by omega)
    simp [this]

theorem clear_bit {n : Nat} (w t : Nat) (r : BitVec n) (i : Nat) : (clear w t r).getLsbD i = (r.getLsbD i && !(decide (t ≤ i) && decide (i < t + w))) := by
  by_cases h : i < n
  · simp only [clear, BitVec.getLsbD_and, BitVec.getLsbD_not, BitVec.getLsbD_shiftLeft, mask_bit, h, decide_true, Bool.true_and]
    congr 2
    rw [Bool.eq_iff_iff]
    simp only [Bool.and_eq_true, Bool.not_eq_true', decide_eq_false_iff_not, decide_eq_true_eq]
    omega
  · have : r.getLsbD i = false := BitVec.getLsbD_of_ge _ _ (by omega)
    simp [clear, this]

theorem orIn_bit {n : Nat} (w t : Nat) (v r : BitVec n) (i : Nat) (h : i < n) :
    (orIn w t v r).getLsbD i = (r.getLsbD i || (decide (t ≤ i) && decide (i < t + w) && v.getLsbD (i - t))) := by
  simp only [orIn, BitVec.getLsbD_or, BitVec.getLsbD_shiftLeft, BitVec.getLsbD_and, mask_bit, h, decide_true, Bool.true_and]
  congr 1
  rw [Bool.eq_iff_iff]
  simp only [Bool.and_eq_true, Bool.not_eq_true', decide_eq_false_iff_not, decide_eq_true_eq]
  constructor
  · rintro ⟨h1, h2, h3, h4⟩; exact ⟨⟨by omega, by omega⟩, h2⟩
  · rintro ⟨⟨h1, h2⟩, h3⟩; exact ⟨by omega, h3, by omega, by omega⟩

/-- writing a field leaves the others -/
theorem get_orIn_other {n : Nat} (w t w' t' : Nat) (v r : BitVec n) (h : t' + w' ≤ t ∨ t + w ≤ t') : get w' t' (orIn w t v r) = get w' t' r := by
  apply BitVec.eq_of_getLsbD_eq
  intro i hi
  rw [get_bit, get_bit]
  by_cases c : i < w'
  · by_cases c2 : t' + i < n
    · rw [orIn_bit _ _ _ _ _ c2]
      have : (decide (t ≤ t' + i) && decide (t' + i < t + w)) = false := by
        rw [Bool.eq_false_iff]; simp only [ne_eq, Bool.and_eq_true, decide_eq_true_eq]; omega
      simp [this]
    · rw [BitVec.getLsbD_of_ge _ _ (by omega), BitVec.getLsbD_of_ge _ _ (by omega)]
  · simp [c]

theorem get_clear_other {n : Nat} (w t w' t' : Nat) (r : BitVec n) (h : t' + w' ≤ t ∨ t + w ≤ t') : get w' t' (clear w t r) = get w' t' r := by
  apply BitVec.eq_of_getLsbD_eq
  intro i hi
  rw [get_bit, get_bit]
  by_cases c : i < w'
  · rw [clear_bit]
    have : (decide (t ≤ t' + i) && decide (t' + i < t + w)) = false := by
      rw [Bool.eq_false_iff]; simp only [ne_eq, Bool.and_eq_true, decide_eq_true_eq]; omega
    simp [this]
  · simp [c]

theorem get_clear_same {n : Nat} (w t : Nat) (r : BitVec n) : get w t (clear w t r) = 0 := by
  apply BitVec.eq_of_getLsbD_eq
  intro i hi
  rw [get_bit, clear_bit]
  by_cases c : i < w <;> simp [c]

/-- the field or-ed into zeros -/
theorem get_orIn_same {n : Nat} (w t : Nat) (v r : BitVec n) (h : t + w ≤ n) (h0 : get w t r = 0) : get w t (orIn w t v r) = v &&& mask n w := by
  apply BitVec.eq_of_getLsbD_eq
  intro i hi
  have e := congrArg (·.getLsbD i) h0
  simp only [get_bit] at e
  rw [get_bit, BitVec.getLsbD_and, mask_bit]
  by_cases c : i < w
  · rw [orIn_bit _ _ _ _ _ (by omega)]
    have e : r.getLsbD (t + i) = false := by simpa [c] using e
    simp [c, e, hi]
  · simp [c]

theorem get_put_same {n : Nat} (w t : Nat) (v r : BitVec n) (h : t + w ≤ n) : get w t (put w t v r) = v &&& mask n w :=
  get_orIn_same w t v _ h (get_clear_same w t r)

theorem get_put_other {n : Nat} (w t w' t' : Nat) (v r : BitVec n) (h : t' + w' ≤ t ∨ t + w ≤ t') : get w' t' (put w t v r) = get w' t' r := by
  rw [put, get_orIn_other _ _ _ _ _ _ h, get_clear_other _ _ _ _ _ h]

/-- a number below 2^w is unchanged by the mask -/
theorem and_mask (n w x : Nat) (hn : w ≤ n) (h : x < 2 ^ w) : (BitVec.ofNat n x &&& mask n w).toNat = x := by
  rw [BitVec.toNat_and, mask, BitVec.toNat_ofNat, BitVec.toNat_ofNat]
  have h1 : 2 ^ w ≤ 2 ^ n := Nat.pow_le_pow_right (by decide) hn
  have h2 := Nat.two_pow_pos w
  rw [Nat.mod_eq_of_lt (by omega), Nat.mod_eq_of_lt (by omega), Nat.and_two_pow_sub_one_eq_mod, Nat.mod_eq_of_lt h]

/-- `r |= (1 << i)` -/
def bset {n : Nat} (i : Nat) (r : BitVec n) : BitVec n := r ||| (BitVec.ofNat n 1 <<< i)

/-- `r &= ~(1 << i)` -/
def bclr {n : Nat} (i : Nat) (r : BitVec n) : BitVec n := r &&& ~~~ (BitVec.ofNat n 1 <<< i)

theorem one_bit (n i j : Nat) (h : j < n) : (BitVec.ofNat n 1 <<< i).getLsbD j = decide (j = i) := by
  rw [BitVec.getLsbD_shiftLeft, show BitVec.ofNat n 1 = 1#n from rfl, BitVec.getLsbD_one, Bool.eq_iff_iff]
  simp only [Bool.and_eq_true, Bool.not_eq_true', decide_eq_false_iff_not, decide_eq_true_eq]
  omega

theorem bset_bit {n : Nat} (i j : Nat) (r : BitVec n) (h : j < n) : (bset i r).getLsbD j = (decide (j = i) || r.getLsbD j) := by
  rw [bset, BitVec.getLsbD_or, one_bit _ _ _ h, Bool.or_comm]

theorem bclr_bit {n : Nat} (i j : Nat) (r : BitVec n) : (bclr i r).getLsbD j = (!decide (j = i) && r.getLsbD j) := by
  by_cases h : j < n
  · rw [bclr, BitVec.getLsbD_and, BitVec.getLsbD_not, one_bit _ _ _ h, Bool.and_comm]
    simp [h]
  · rw [BitVec.getLsbD_of_ge _ _ (by omega), BitVec.getLsbD_of_ge _ _ (by omega), Bool.and_false]

theorem bset_ne {n : Nat} (i j : Nat) (r : BitVec n) (h : j ≠ i) : (bset i r).getLsbD j = r.getLsbD j := by
  by_cases c : j < n
  · rw [bset_bit _ _ _ c]; simp [h]
  · rw [BitVec.getLsbD_of_ge _ _ (by omega), BitVec.getLsbD_of_ge _ _ (by omega)]

theorem bset_same {n : Nat} (i : Nat) (r : BitVec n) (h : i < n) : (bset i r).getLsbD i = true := by
  rw [bset_bit _ _ _ h]; simp

theorem bclr_ne {n : Nat} (i j : Nat) (r : BitVec n) (h : j ≠ i) : (bclr i r).getLsbD j = r.getLsbD j := by
  rw [bclr_bit]; simp [h]

theorem bclr_same {n : Nat} (i : Nat) (r : BitVec n) : (bclr i r).getLsbD i = false := by
  rw [bclr_bit]; simp

theorem put_bit {n : Nat} (w t i : Nat) (v r : BitVec n) (h : i < t ∨ t + w ≤ i) : (put w t v r).getLsbD i = r.getLsbD i := by
  by_cases hn : i < n
  · have e : (decide (t ≤ i) && decide (i < t + w)) = false := by
      rw [Bool.eq_false_iff]; simp only [ne_eq, Bool.and_eq_true, decide_eq_true_eq]; omega
    rw [put, orIn_bit _ _ _ _ _ hn, clear_bit, e]
    simp
  · rw [BitVec.getLsbD_of_ge _ _ (by omega), BitVec.getLsbD_of_ge _ _ (by omega)]

theorem get_bset_other {n : Nat} (i w t : Nat) (r : BitVec n) (h : i < t ∨ t + w ≤ i) : get w t (bset i r) = get w t r := by
  apply BitVec.eq_of_getLsbD_eq
  intro j hj
  rw [get_bit, get_bit]
  by_cases c : j < w
  · by_cases c2 : t + j < n
    · rw [bset_bit _ _ _ c2, show decide (t + j = i) = false by simp; omega, Bool.false_or]
    · rw [BitVec.getLsbD_of_ge _ _ (by omega), BitVec.getLsbD_of_ge _ _ (by omega)]
  · simp [c]

theorem get_bclr_other {n : Nat} (i w t : Nat) (r : BitVec n) (h : i < t ∨ t + w ≤ i) : get w t (bclr i r) = get w t r := by
  apply BitVec.eq_of_getLsbD_eq
  intro j hj
  rw [get_bit, get_bit]
  by_cases c : j < w
  · rw [bclr_bit, show decide (t + j = i) = false by simp; omega]; simp
  · simp [c]

/-- the value of a field just written, when it fits -/
theorem get_put_nat {n : Nat} (w t x : Nat) (r : BitVec n) (h : t + w ≤ n) (hx : x < 2 ^ w) : (get w t (put w t (BitVec.ofNat n x) r)).toNat = x := by
  rw [get_put_same _ _ _ _ h, and_mask _ _ _ (by omega) hx]

/-- the value of a field just written, in general -/
theorem get_put_mod {n : Nat} (w t x : Nat) (r : BitVec n) (h : t + w ≤ n) : (get w t (put w t (BitVec.ofNat n x) r)).toNat = x % 2 ^ w := by
  rw [get_put_same _ _ _ _ h, BitVec.toNat_and, mask, BitVec.toNat_ofNat, BitVec.toNat_ofNat]
  have h1 : 2 ^ w ≤ 2 ^ n := Nat.pow_le_pow_right (by decide) (by omega)
  have h2 := Nat.two_pow_pos w
  rw [Nat.mod_eq_of_lt (show 2 ^ w - 1 < 2 ^ n by omega), Nat.and_two_pow_sub_one_eq_mod, Nat.mod_mod_of_dvd _ (Nat.pow_dvd_pow 2 (by omega))]

end Pico.Field
