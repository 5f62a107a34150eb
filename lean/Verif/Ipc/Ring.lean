import Verif.Basic

/-!
# Arithmetic of ring buffers with a power-of-two size and masked indexes
-/

namespace Pico.Ring

/-- The machine word of a count modulo the size. -/
def ix (sw n A : Nat) : BitVec sw := BitVec.ofNat sw (A % n)

theorem mod_lt {sw k : Nat} (hk : k ≤ sw) (A : Nat) : A % 2 ^ k < 2 ^ sw :=
  Nat.lt_of_lt_of_le (Nat.mod_lt _ (Nat.two_pow_pos k)) (Nat.pow_le_pow_right (by omega) hk)

theorem ix_toNat {sw k : Nat} (hk : k ≤ sw) (A : Nat) : (ix sw (2 ^ k) A).toNat = A % 2 ^ k := by
  unfold ix
  rw [BitVec.toNat_ofNat, Nat.mod_eq_of_lt (mod_lt hk A)]

theorem ix_inj {sw k : Nat} (hk : k ≤ sw) {A B : Nat} : ix sw (2 ^ k) A = ix sw (2 ^ k) B ↔ A % 2 ^ k = B % 2 ^ k := by
  constructor
  · intro h
    have := congrArg BitVec.toNat h
    rwa [ix_toNat hk, ix_toNat hk] at this
  · intro h; unfold ix; rw [h]

/-- `(x + 1) & mask`. -/
theorem ix_next {sw k : Nat} (hk : k ≤ sw) (A : Nat) :
    (ix sw (2 ^ k) A + 1) &&& BitVec.ofNat sw (2 ^ k - 1) = ix sw (2 ^ k) (A + 1) := by
  apply BitVec.eq_of_toNat_eq
  rw [BitVec.toNat_and, BitVec.toNat_add, ix_toNat hk, ix_toNat hk]
  have hle : 2 ^ k ≤ 2 ^ sw := Nat.pow_le_pow_right (by omega) hk
  have hpos : 0 < 2 ^ k := Nat.two_pow_pos k
  have h1 : (BitVec.ofNat sw (2 ^ k - 1)).toNat = 2 ^ k - 1 := by
    rw [BitVec.toNat_ofNat, Nat.mod_eq_of_lt (by omega)]
  have h2 : (A % 2 ^ k + (1 : BitVec sw).toNat) % 2 ^ sw = (A % 2 ^ k + 1) % 2 ^ sw := by
    rw [show (1 : BitVec sw) = BitVec.ofNat sw 1 from rfl, BitVec.toNat_ofNat, Nat.add_mod_mod]
  rw [h1, h2, Nat.and_two_pow_sub_one_eq_mod, Nat.mod_mod_of_dvd _ (Nat.pow_dvd_pow 2 hk), Nat.mod_add_mod]

/-- Congruent numbers less than the modulus apart are equal. -/
theorem eq_of_mod_eq {n A B : Nat} (hle : A ≤ B) (hlt : B < A + n) (h : A % n = B % n) : A = B := by
  have h1 := Nat.sub_mod_eq_zero_of_mod_eq h.symm
  rw [Nat.mod_eq_of_lt (by omega)] at h1
  omega

/-- Empty: the read index follows the write index. -/
theorem empty_iff {n P W : Nat} (hle : P ≤ W) (hcap : W < P + n) : (P + n) % n = W % n ↔ W = P := by
  rw [Nat.add_mod_right]
  exact ⟨fun h => (eq_of_mod_eq hle hcap h).symm, fun h => by rw [h]⟩

/-- Full: one more and the write index would meet the read index. -/
theorem full_iff {n P W : Nat} (hn : 0 < n) (hle : P ≤ W) (hcap : W ≤ P + (n - 2)) : (W + 1) % n = (P + n - 1) % n ↔ ¬ W - P < n - 2 := by
  rcases Nat.lt_or_ge n 2 with h | h
  · have : n = 1 := by omega
    subst this
    simp [Nat.mod_one]
  · constructor
    · intro h1
      have := eq_of_mod_eq (n := n) (by omega) (by omega) h1
      omega
    · intro h1
      have : W + 1 = P + n - 1 := by omega
      rw [this]

/-- `(x & (x - 1)) == 0` accepts exactly zero and the powers of two. -/
theorem pow2_iff {sw : Nat} {x : Nat} (hx : x < 2 ^ sw) :
    (BitVec.ofNat sw x &&& (BitVec.ofNat sw x - 1)) = 0 ↔ x = 0 ∨ ∃ k, x = 2 ^ k := by
  rcases Nat.eq_zero_or_pos x with h0 | h0
  · subst h0; simp
  · have h1 : (BitVec.ofNat sw x - 1) = BitVec.ofNat sw (x - 1) := by
      apply BitVec.eq_of_toNat_eq
      have h2 : 1 < 2 ^ sw ∨ 2 ^ sw = 1 := by have := Nat.two_pow_pos sw; omega
      rcases h2 with h2 | h2
      · rw [BitVec.toNat_sub, show (1 : BitVec sw) = BitVec.ofNat sw 1 from rfl, BitVec.toNat_ofNat, BitVec.toNat_ofNat, BitVec.toNat_ofNat,
          Nat.mod_eq_of_lt hx, Nat.mod_eq_of_lt h2, Nat.mod_eq_of_lt (by omega : x - 1 < 2 ^ sw)]
        rw [show 2 ^ sw - 1 + x = 2 ^ sw + (x - 1) by omega, Nat.add_mod_left, Nat.mod_eq_of_lt (by omega)]
      · omega
    rw [h1]
    have h3 : (BitVec.ofNat sw x &&& BitVec.ofNat sw (x - 1)) = 0 ↔ x &&& (x - 1) = 0 := by
      constructor
      · intro h
        have := congrArg BitVec.toNat h
        rw [BitVec.toNat_and, BitVec.toNat_ofNat, BitVec.toNat_ofNat, Nat.mod_eq_of_lt hx, Nat.mod_eq_of_lt (by omega : x - 1 < 2 ^ sw)] at this
        simpa using this
      · intro h
        apply BitVec.eq_of_toNat_eq
        rw [BitVec.toNat_and, BitVec.toNat_ofNat, BitVec.toNat_ofNat, Nat.mod_eq_of_lt hx, Nat.mod_eq_of_lt (by omega : x - 1 < 2 ^ sw)]
        simpa using h
    rw [h3, Nat.and_sub_one_eq_zero_iff_isPowerOfTwo (by omega)]
    unfold Nat.isPowerOfTwo
    constructor
    · exact fun h => Or.inr h
    · rintro (h | h)
      · omega
      · exact h

end Pico.Ring
