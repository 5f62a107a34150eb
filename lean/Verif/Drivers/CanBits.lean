/-
Bit fields of 32-bit registers and mailboxes (used by the CAN drivers, C71-C74).

What the hardware sees is stated with `bits w lo len`, the value of bits lo .. lo+len-1 of a word (reference manuals).
What the drivers compute is stated with the C operators on the macros of the drivers (&, |, <<, >>).
Words are natural numbers; every expression below stays under 2^32 (the ones that can overflow in C carry an explicit `% 2^32`).
-/
namespace Pico.Can

abbrev Byte := BitVec 8

/-- bits lo .. lo+len-1 of a register -/
def bits (w lo len : Nat) : Nat := w / 2 ^ lo % 2 ^ len

/-- `#define X(x) (((x) & X_M) << s)` -/
def fld (m s x : Nat) : Nat := (x &&& m) <<< s

theorem or_mul_two_pow (s a b : Nat) (h : b < 2 ^ s) : a * 2 ^ s ||| b = a * 2 ^ s + b := by
  rw [Nat.mul_comm, ← Nat.two_pow_add_eq_or_of_lt h]

theorem or_mul_two_pow' (s a b : Nat) (h : b < 2 ^ s) : b ||| a * 2 ^ s = a * 2 ^ s + b := by
  rw [Nat.or_comm, or_mul_two_pow s a b h]

theorem or_mul_two_pow_left (s a b c : Nat) (h : b < 2 ^ s) (h' : c < 2 ^ s) : a * 2 ^ s ||| b ||| c = a * 2 ^ s + (b ||| c) := by
  rw [Nat.or_assoc, or_mul_two_pow s a _ (Nat.or_lt_two_pow h h')]

theorem fld_eq (k s x : Nat) : fld (2 ^ k - 1) s x = x % 2 ^ k * 2 ^ s := by
  simp [fld, Nat.and_two_pow_sub_one_eq_mod, Nat.shiftLeft_eq]

theorem and_bit (w k : Nat) : (w &&& 2 ^ k = 0) ↔ bits w k 1 = 0 := by
  have ht : w.testBit k = decide (w / 2 ^ k % 2 = 1) := Nat.testBit_eq_decide_div_mod_eq
  have hb : bits w k 1 = w / 2 ^ k % 2 := rfl
  have h2 : w / 2 ^ k % 2 < 2 := Nat.mod_lt _ (by omega)
  rw [hb]
  constructor
  · intro h
    have := congrArg (fun x => x.testBit k) h
    simp [Nat.testBit_and, Nat.testBit_two_pow, ht] at this
    omega
  · intro h
    apply Nat.eq_of_testBit_eq
    intro i
    rw [Nat.testBit_and, Nat.testBit_two_pow]
    by_cases hi : k = i
    · subst hi; simp [ht]; omega
    · simp [hi]

theorem bits_lt (w lo len : Nat) : bits w lo len < 2 ^ len := Nat.mod_lt _ (Nat.two_pow_pos _)

theorem bits_top (a s r k : Nat) (h : r < 2 ^ s) : bits (a * 2 ^ s + r) s k = a % 2 ^ k := by
  unfold bits
  rw [Nat.mul_comm, Nat.mul_add_div (Nat.two_pow_pos s), Nat.div_eq_of_lt h, Nat.add_zero]

theorem bits_low (a s r lo k : Nat) (h : lo + k ≤ s) : bits (a * 2 ^ s + r) lo k = bits r lo k := by
  unfold bits
  have : 2 ^ s = 2 ^ lo * (2 ^ k * 2 ^ (s - lo - k)) := by rw [← Nat.pow_add, ← Nat.pow_add]; congr 1; omega
  have e : a * 2 ^ s = 2 ^ lo * (2 ^ k * (a * 2 ^ (s - lo - k))) := by rw [this]; simp [Nat.mul_comm, Nat.mul_left_comm]
  rw [e, Nat.mul_add_div (Nat.two_pow_pos lo), Nat.mul_add_mod]

theorem bits_all (r k : Nat) (h : r < 2 ^ k) : bits r 0 k = r := by
  simp [bits, Nat.mod_eq_of_lt h]

/-- unsigned subtraction on 32 bits -/
theorem wsub (a b : Nat) (h : b ≤ a) (ha : a < 2 ^ 32) : (a + 2 ^ 32 - b) % 2 ^ 32 = a - b := by omega

theorem wsub_wrap (a b : Nat) (h : a < b) (hb : b ≤ 2 ^ 32) : (a + 2 ^ 32 - b) % 2 ^ 32 = a + 2 ^ 32 - b := by omega

/-- four bytes in a word, `b0` in bits 0-7 -/
def word (b0 b1 b2 b3 : Byte) : Nat := b0.toNat + b1.toNat * 2 ^ 8 + b2.toNat * 2 ^ 16 + b3.toNat * 2 ^ 24

/-- byte `k` of a word (bits 8k .. 8k+7) -/
def byteAt (w k : Nat) : Byte := BitVec.ofNat 8 (bits w (8 * k) 8)

theorem or_bytes (a b c d : Nat) (ha : a < 256) (hb : b < 256) (hc : c < 256) :
    (0 ||| d <<< 24 ||| c <<< 16 ||| b <<< 8 ||| a <<< 0) = a + b * 2 ^ 8 + c * 2 ^ 16 + d * 2 ^ 24 := by
  simp only [Nat.shiftLeft_eq, Nat.zero_or, Nat.pow_zero, Nat.mul_one]
  rw [Nat.or_assoc, Nat.or_assoc, or_mul_two_pow 8 b a (by omega), or_mul_two_pow 16 c _ (by omega), or_mul_two_pow 24 d _ (by omega)]
  omega

theorem or_bytes_rev (a b c d : Nat) (hb : b < 256) (hc : c < 256) (hd : d < 256) :
    (0 ||| d <<< 0 ||| c <<< 8 ||| b <<< 16 ||| a <<< 24) = d + c * 2 ^ 8 + b * 2 ^ 16 + a * 2 ^ 24 := by
  simp only [Nat.shiftLeft_eq, Nat.zero_or, Nat.pow_zero, Nat.mul_one]
  rw [or_mul_two_pow' 8 c d (by omega), or_mul_two_pow' 16 b _ (by omega), or_mul_two_pow' 24 a _ (by omega)]
  omega

theorem byteAt_word (b0 b1 b2 b3 : Byte) :
    byteAt (word b0 b1 b2 b3) 0 = b0 ∧ byteAt (word b0 b1 b2 b3) 1 = b1 ∧ byteAt (word b0 b1 b2 b3) 2 = b2 ∧ byteAt (word b0 b1 b2 b3) 3 = b3 := by
  have h0 := b0.isLt; have h1 := b1.isLt; have h2 := b2.isLt; have h3 := b3.isLt
  refine ⟨?_, ?_, ?_, ?_⟩ <;> apply BitVec.eq_of_toNat_eq <;> simp only [byteAt, bits, word, BitVec.toNat_ofNat] <;> omega

/-- the C cast `(uint8_t)(w >> 8k)` -/
theorem cast_shift (w k : Nat) : BitVec.ofNat 8 (w >>> (8 * k)) = byteAt w k := by
  apply BitVec.eq_of_toNat_eq
  simp [byteAt, bits, Nat.shiftRight_eq_div_pow]

end Pico.Can
