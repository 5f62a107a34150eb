import Mathlib.Logic.Function.Iterate
import Verif.Drivers.Rng
/-
Matrices over the field with two elements, to compute the period of xorshift32: a matrix is the list of the images of 1, 2, 4, ...
-/
namespace Pico.Rng

abbrev Mat := List Nat

/-- image of the vector `v` -/
def ap : Mat → Nat → Nat
  | [], _ => 0
  | r :: M, v => (if v % 2 = 1 then r else 0) ^^^ ap M (v / 2)

def mul (A B : Mat) : Mat := B.map (ap A)
def add : Mat → Mat → Mat
  | a :: A, b :: B => (a ^^^ b) :: add A B
  | _, _ => []
def ident : Mat := (List.range 32).map (2 ^ ·)

/-- xorshift32 on numbers -/
def step (v : Nat) : Nat :=
  let v := v ^^^ (v * 8192 % 4294967296)
  let v := v ^^^ (v / 131072)
  v ^^^ (v * 32 % 4294967296)

theorem step_eq (v : BitVec 32) : (xorshift32 v).toNat = step v.toNat := by
  simp [xorshift32, step, BitVec.toNat_xor, BitVec.toNat_shiftLeft, BitVec.toNat_ushiftRight, Nat.shiftLeft_eq, Nat.shiftRight_eq_div_pow]

theorem step_lt {v : Nat} (h : v < 4294967296) : step v < 4294967296 := by
  have := step_eq (BitVec.ofNat 32 v)
  rw [BitVec.toNat_ofNat, Nat.mod_eq_of_lt (by omega)] at this
  rw [← this]
  exact (xorshift32 _).isLt

theorem xor_swap (a b c d : Nat) : (a ^^^ b) ^^^ (c ^^^ d) = (a ^^^ c) ^^^ (b ^^^ d) := by
  rw [Nat.xor_assoc, Nat.xor_assoc, ← Nat.xor_assoc b, ← Nat.xor_assoc c, Nat.xor_comm b c]

theorem xor_mod2 (a b : Nat) : (a ^^^ b) % 2 = (a % 2 + b % 2) % 2 := by
  have := @Nat.xor_mod_two_pow a b 1
  simp only [Nat.pow_one] at this
  rw [this]
  rcases Nat.mod_two_eq_zero_or_one a with h | h <;> rcases Nat.mod_two_eq_zero_or_one b with h' | h' <;> rw [h, h'] <;> rfl

theorem xor_div2 (a b : Nat) : (a ^^^ b) / 2 = a / 2 ^^^ b / 2 := by
  have := @Nat.xor_div_two_pow a b 1
  simpa using this

/-- additive -/
theorem ap_xor (M : Mat) : ∀ a b, ap M (a ^^^ b) = ap M a ^^^ ap M b := by
  induction M with
  | nil => intro a b; simp [ap]
  | cons r M ih =>
    intro a b
    simp only [ap]
    rw [xor_div2, ih, xor_swap, xor_mod2]
    congr 1
    rcases Nat.mod_two_eq_zero_or_one a with h | h <;> rcases Nat.mod_two_eq_zero_or_one b with h' | h' <;> rw [h, h'] <;> simp

theorem ap_zero (M : Mat) : ap M 0 = 0 := by
  induction M with
  | nil => rfl
  | cons r M ih => simp [ap, ih]

/-- the product is the composition -/
theorem ap_mul (A B : Mat) : ∀ v, ap (mul A B) v = ap A (ap B v) := by
  induction B with
  | nil => intro v; simp [mul, ap, ap_zero]
  | cons r B ih =>
    intro v
    show ap (ap A r :: mul A B) v = _
    simp only [ap]
    rw [ih, ap_xor]
    congr 1
    split
    · rfl
    · rw [ap_zero]

theorem ap_add (A B : Mat) (h : A.length = B.length) : ∀ v, ap (add A B) v = ap A v ^^^ ap B v := by
  induction A generalizing B with
  | nil =>
    intro v
    cases B with
    | nil => simp [add, ap]
    | cons b B => simp at h
  | cons a A ih =>
    intro v
    cases B with
    | nil => simp at h
    | cons b B =>
      simp only [add, ap]
      rw [ih B (by simpa using h), xor_swap]
      congr 1
      split <;> simp

/-- an additive function is given by the images of the powers of two -/
theorem ap_of {f : Nat → Nat} (hf : ∀ a b, f (a ^^^ b) = f a ^^^ f b) (n : Nat) :
    ∀ k v, v < 2 ^ n → ap ((List.range' k n).map (fun i => f (2 ^ i))) v = f (v * 2 ^ k) := by
  have f0 : f 0 = 0 := by have := hf 0 0; simpa using this
  induction n with
  | zero => intro k v hv; have : v = 0 := by omega
            subst this; simp [ap, f0]
  | succ n ih =>
    intro k v hv
    rw [List.range'_succ, List.map_cons]
    simp only [ap]
    rw [ih (k + 1) (v / 2) (by rw [Nat.pow_succ] at hv; omega)]
    have e : v * 2 ^ k = (v % 2) * 2 ^ k ^^^ v / 2 * 2 ^ (k + 1) := by
      have h1 := Nat.two_pow_add_eq_or_of_lt (i := k + 1) (b := v % 2 * 2 ^ k) (by
        rw [Nat.pow_succ, Nat.mul_comm]; exact Nat.mul_lt_mul_of_pos_left (Nat.mod_lt _ (by decide)) (Nat.two_pow_pos k)) (v / 2)
      have h2 : v * 2 ^ k = 2 ^ (k + 1) * (v / 2) + v % 2 * 2 ^ k := by
        have := Nat.div_add_mod v 2
        calc v * 2 ^ k = (2 * (v / 2) + v % 2) * 2 ^ k := by rw [this]
          _ = _ := by rw [Nat.add_mul, Nat.pow_succ, Nat.mul_comm (2 ^ k) 2, Nat.mul_assoc, Nat.mul_assoc, Nat.mul_comm (v / 2)]
      rw [h2, h1, Nat.mul_comm (2 ^ (k + 1))]
      apply Nat.eq_of_testBit_eq
      intro i
      rw [Nat.testBit_or, Nat.testBit_xor, Nat.testBit_mul_two_pow, Nat.testBit_mul_two_pow]
      by_cases hi : i ≥ k + 1
      · have : (v % 2).testBit (i - k) = false := Nat.testBit_lt_two_pow (by
          have h1 : v % 2 < 2 := Nat.mod_lt _ (by decide)
          have h2 : 2 ^ 1 ≤ 2 ^ (i - k) := Nat.pow_le_pow_right (by decide) (by omega)
          omega)
        simp [this]
      · simp [hi]
    rw [e, hf]
    congr 1
    rcases Nat.mod_two_eq_zero_or_one v with h | h <;> rw [h] <;> simp [f0]

theorem ap_ident {v : Nat} (h : v < 4294967296) : ap ident v = v := by
  have := ap_of (f := fun v => v) (fun _ _ => rfl) 32 0 v h
  simpa [ident, List.range_eq_range'] using this

theorem step_xor (a b : Nat) : step (a ^^^ b) = step a ^^^ step b := by
  have m : ∀ k a b, (a ^^^ b) * 2 ^ k % 2 ^ 32 = (a * 2 ^ k % 2 ^ 32) ^^^ (b * 2 ^ k % 2 ^ 32) := by
    intro k a b
    rw [← Nat.shiftLeft_eq, Nat.shiftLeft_xor_distrib, Nat.xor_mod_two_pow, Nat.shiftLeft_eq, Nat.shiftLeft_eq]
  have m13 : ∀ a b, (a ^^^ b) * 8192 % 4294967296 = (a * 8192 % 4294967296) ^^^ (b * 8192 % 4294967296) := m 13
  have m5 : ∀ a b, (a ^^^ b) * 32 % 4294967296 = (a * 32 % 4294967296) ^^^ (b * 32 % 4294967296) := m 5
  have d : ∀ a b : Nat, (a ^^^ b) / 131072 = a / 131072 ^^^ b / 131072 := fun a b => @Nat.xor_div_two_pow a b 17
  simp only [step]
  rw [m13, xor_swap, d, xor_swap, m5, xor_swap]

/-- `A` is the matrix of `n` steps -/
def Rep (A : Mat) (n : Nat) : Prop := ∀ v, v < 4294967296 → ap A v = step^[n] v

theorem iter_lt (n : Nat) : ∀ {v : Nat}, v < 4294967296 → step^[n] v < 4294967296 := by
  induction n with
  | zero => intro v h; exact h
  | succ n ih => intro v h; rw [Function.iterate_succ_apply]; exact ih (step_lt h)

theorem rep_one {A : Mat} (h : A = (List.range 32).map (fun i => step (2 ^ i))) : Rep A 1 := by
  intro v hv
  have := ap_of step_xor 32 0 v hv
  rw [h, List.range_eq_range', this]
  simp

theorem rep_mul {A B C : Mat} {a b c : Nat} (hA : Rep A a) (hB : Rep B b) (h : mul A B = C ∧ a + b = c) : Rep C c := by
  intro v hv
  rw [← h.1, ap_mul, hB v hv, hA _ (iter_lt b hv), ← Function.iterate_add_apply, h.2]

theorem no_fix {A X : Mat} {n v : Nat} (hA : Rep A n) (h : mul X (add A ident) = ident) (hl : A.length = 32) (hv : v < 4294967296) (hf : step^[n] v = v) : v = 0 := by
  have e : ap (add A ident) v = 0 := by
    rw [ap_add A ident (by rw [hl]; rfl), hA v hv, hf, ap_ident hv, Nat.xor_self]
  have := ap_mul X (add A ident) v
  rw [h, e, ap_zero, ap_ident hv] at this
  exact this

end Pico.Rng
