import Verif.Arch.Soft
/-
C97: multiplication, division and remainder are right for all operands.
-/
namespace Pico.Soft

theorem Steps.trans {code : List I} {a b c : St} (h1 : Steps code a b) (h2 : Steps code b c) : Steps code a c := by
  induction h1 with
  | refl _ => exact h2
  | next s s1 _ e _ ih => exact .next s s1 c e (ih h2)

theorem Steps.one {code : List I} {a b : St} (h : step code a = some b) : Steps code a b := .next a b b h (.refl b)

theorem branch_true {c : Prop} [Decidable c] (h : c) (s : St) (t : W) : branch (decide c) s t = goto s t := by
  unfold branch; rw [decide_eq_true h]; rfl

theorem branch_false {c : Prop} [Decidable c] (h : ¬ c) (s : St) (t : W) : branch (decide c) s t = next s := by
  unfold branch; rw [decide_eq_false h]; rfl

/-! ### multiplication -/

theorem half_mul (m a b : W) (h : b &&& 1#32 = 0#32) : m + a * b = m + (a <<< 1) * (b >>> 1) := by
  have hb : b.toNat % 2 = 0 := by
    have := congrArg BitVec.toNat h
    rw [BitVec.toNat_and, show (1#32).toNat = 1 from rfl, Nat.and_one_is_mod] at this
    exact this
  congr 1
  apply BitVec.eq_of_toNat_eq
  rw [BitVec.toNat_mul, BitVec.toNat_mul, BitVec.toNat_shiftLeft, BitVec.toNat_ushiftRight, Nat.shiftLeft_eq, Nat.shiftRight_eq_div_pow, Nat.mod_mul_mod]
  have e : b.toNat = 2 * (b.toNat / 2) := by omega
  congr 1
  rw [Nat.pow_one, Nat.mul_assoc, ← e]

theorem odd_mul (m a b : W) (h : b &&& 1#32 ≠ 0#32) : m + a * b = m + a + (a <<< 1) * (b >>> 1) := by
  have hb : b.toNat % 2 = 1 := by
    rcases Nat.mod_two_eq_zero_or_one b.toNat with e | e
    · refine absurd ?_ h
      apply BitVec.eq_of_toNat_eq
      rw [BitVec.toNat_and, show (1#32).toNat = 1 from rfl, Nat.and_one_is_mod, e]; rfl
    · exact e
  rw [BitVec.add_assoc]
  congr 1
  apply BitVec.eq_of_toNat_eq
  rw [BitVec.toNat_mul, BitVec.toNat_add, BitVec.toNat_mul, BitVec.toNat_shiftLeft, BitVec.toNat_ushiftRight, Nat.shiftLeft_eq, Nat.shiftRight_eq_div_pow, Nat.mod_mul_mod, Nat.add_mod_mod]
  have e : b.toNat = 2 * (b.toNat / 2) + 1 := by omega
  congr 1
  rw [Nat.pow_one, Nat.mul_assoc]
  conv => lhs; rw [e, Nat.mul_add, Nat.mul_one]
  rw [Nat.add_comm]

/-- one turn of the loop, up to the branch -/
theorem mul_body (m b a c t ra : W) : ∃ m', Steps mul ⟨m, b, a, c, t, ra, 2#32⟩ ⟨m', b >>> 1, a <<< 1, b &&& 1#32, t, ra, 7#32⟩ ∧ m + a * b = m' + (a <<< 1) * (b >>> 1) := by
  by_cases h : b &&& 1#32 = 0#32
  · refine ⟨m, .next _ ⟨m, b, a, b &&& 1#32, t, ra, 3#32⟩ _ rfl ?_, half_mul m a b h⟩
    refine .next _ ⟨m, b, a, b &&& 1#32, t, ra, 5#32⟩ _ (congrArg some (branch_true h _ _)) ?_
    refine .next _ ⟨m, b >>> 1, a, b &&& 1#32, t, ra, 6#32⟩ _ rfl ?_
    exact .one rfl
  · refine ⟨m + a, .next _ ⟨m, b, a, b &&& 1#32, t, ra, 3#32⟩ _ rfl ?_, odd_mul m a b h⟩
    refine .next _ ⟨m, b, a, b &&& 1#32, t, ra, 4#32⟩ _ (congrArg some (branch_false h _ _)) ?_
    refine .next _ ⟨m + a, b, a, b &&& 1#32, t, ra, 5#32⟩ _ rfl ?_
    refine .next _ ⟨m + a, b >>> 1, a, b &&& 1#32, t, ra, 6#32⟩ _ rfl ?_
    exact .one rfl

/-- the last turn -/
theorem mul_last (m b a c t ra : W) (hz : b >>> 1 = 0#32) : ∃ b' a' c', Steps mul ⟨m, b, a, c, t, ra, 2#32⟩ ⟨m + a * b, b', a', c', t, ra, ra⟩ := by
  obtain ⟨m', body, val⟩ := mul_body m b a c t ra
  refine ⟨b >>> 1, a <<< 1, b &&& 1#32, body.trans ?_⟩
  have e : m' = m + a * b := by rw [val, hz, BitVec.mul_zero, BitVec.add_zero]
  rw [← e]
  refine .next _ ⟨m', b >>> 1, a <<< 1, b &&& 1#32, t, ra, 8#32⟩ _ (congrArg some (branch_false (fun h => h hz) _ _)) ?_
  exact .one rfl

/-- the loop: what is in a0 at the end is a0 + a2 * a1 at the beginning -/
theorem mul_loop : ∀ (n : Nat) (m b a c t ra : W), b.toNat < 2 ^ n →
    ∃ b' a' c', Steps mul ⟨m, b, a, c, t, ra, 2#32⟩ ⟨m + a * b, b', a', c', t, ra, ra⟩ := by
  intro n
  induction n with
  | zero =>
    intro m b a c t ra hb
    refine mul_last m b a c t ra (BitVec.eq_of_toNat_eq ?_)
    rw [BitVec.toNat_ushiftRight, Nat.shiftRight_eq_div_pow, show (0#32).toNat = 0 from rfl]
    omega
  | succ n ih =>
    intro m b a c t ra hb
    by_cases hz : b >>> 1 = 0#32
    · exact mul_last m b a c t ra hz
    · obtain ⟨m', body, val⟩ := mul_body m b a c t ra
      have hlt : (b >>> 1).toNat < 2 ^ n := by
        rw [BitVec.toNat_ushiftRight, Nat.shiftRight_eq_div_pow]
        rw [Nat.pow_succ] at hb
        omega
      obtain ⟨b', a', c', st⟩ := ih m' (b >>> 1) (a <<< 1) (b &&& 1#32) t ra hlt
      rw [val]
      exact ⟨b', a', c', body.trans (.next _ ⟨m', b >>> 1, a <<< 1, b &&& 1#32, t, ra, 2#32⟩ _ (congrArg some (branch_true hz _ _)) st)⟩

/-- __mulsi3: the product, modulo 2^32 -/
theorem mul_right (x y : W) : Returns mul 0#32 x y (x * y) := by
  rintro ⟨a0, a1, a2, a3, t0, ra, pc⟩ rfl rfl rfl
  obtain ⟨b', a', c', st⟩ := mul_loop 32 0#32 a1 a0 a3 t0 ra a1.isLt
  refine ⟨⟨0#32 + a0 * a1, b', a', c', t0, ra, ra⟩, ?_, rfl, BitVec.zero_add _⟩
  refine .next _ ⟨a0, a1, a0, a3, t0, ra, 1#32⟩ _ rfl ?_
  exact .next _ ⟨0#32, a1, a0, a3, t0, ra, 2#32⟩ _ rfl st

/-! ### division -/

theorem toInt_le_zero (x : W) : x.toInt ≤ 0 ↔ x.toNat = 0 ∨ 2 ^ 31 ≤ x.toNat := by
  have := x.isLt
  rw [BitVec.toInt_eq_toNat_cond]
  by_cases h : 2 * x.toNat < 2 ^ 32
  · rw [if_pos h]; omega
  · rw [if_neg h]; omega

theorem or_pow (q c : W) (k : Nat) (hk : c.toNat = 2 ^ k) (hq : 2 ^ (k + 1) ∣ q.toNat) : (q ||| c).toNat = q.toNat + 2 ^ k := by
  obtain ⟨m, hm⟩ := hq
  rw [BitVec.toNat_or, hk, hm]
  exact (Nat.two_pow_add_eq_or_of_lt (Nat.pow_lt_pow_right (by decide) (Nat.lt_succ_self k)) m).symm

/-- the loop .L3: the remainder is brought under b, the quotient grows; a0 * b + a1 does not change -/
theorem sub_loop (b : Nat) : ∀ (k : Nat) (q r d c t ra : W), c.toNat = 2 ^ k → d.toNat = b * 2 ^ k → r.toNat < b * 2 ^ (k + 1) → 2 ^ (k + 1) ∣ q.toNat →
    q.toNat * b + r.toNat < 2 ^ 32 →
    ∃ q' r' d' c', Steps div ⟨q, r, d, c, t, ra, 13#32⟩ ⟨q', r', d', c', t, ra, ra⟩ ∧ q'.toNat * b + r'.toNat = q.toNat * b + r.toNat ∧ r'.toNat < b := by
  intro k
  induction k with
  | zero =>
    intro q r d c t ra hc hd hr hq hlt
    have hc1 : c >>> 1 = 0#32 := by
      apply BitVec.eq_of_toNat_eq; rw [BitVec.toNat_ushiftRight, hc]; rfl
    have tail : ∀ q r, Steps div ⟨q, r, d, c, t, ra, 16#32⟩ ⟨q, r, d >>> 1, c >>> 1, t, ra, ra⟩ := by
      intro q r
      refine .next _ ⟨q, r, d, c >>> 1, t, ra, 17#32⟩ _ rfl ?_
      refine .next _ ⟨q, r, d >>> 1, c >>> 1, t, ra, 18#32⟩ _ rfl ?_
      refine .next _ ⟨q, r, d >>> 1, c >>> 1, t, ra, 19#32⟩ _ (congrArg some (branch_false (fun h => h hc1) _ _)) ?_
      exact .one rfl
    rw [Nat.pow_zero, Nat.mul_one] at hd
    rw [Nat.zero_add, Nat.pow_one] at hr
    by_cases h : r.toNat < d.toNat
    · exact ⟨q, r, d >>> 1, c >>> 1, .next _ ⟨q, r, d, c, t, ra, 16#32⟩ _ (congrArg some (branch_true h _ _)) (tail q r), rfl, by omega⟩
    · have e1 : (r - d).toNat = r.toNat - d.toNat := BitVec.toNat_sub_of_le (BitVec.le_def.mpr (by omega))
      have e2 := or_pow q c 0 hc hq
      refine ⟨q ||| c, r - d, d >>> 1, c >>> 1, ?_, ?_, ?_⟩
      · refine .next _ ⟨q, r, d, c, t, ra, 14#32⟩ _ (congrArg some (branch_false h _ _)) ?_
        refine .next _ ⟨q, r - d, d, c, t, ra, 15#32⟩ _ rfl ?_
        exact .next _ ⟨q ||| c, r - d, d, c, t, ra, 16#32⟩ _ rfl (tail _ _)
      · rw [e1, e2, hd, Nat.pow_zero, Nat.add_mul, Nat.one_mul]; omega
      · rw [e1, hd]; omega
  | succ k ih =>
    intro q r d c t ra hc hd hr hq hlt
    have hc1 : (c >>> 1).toNat = 2 ^ k := by
      rw [BitVec.toNat_ushiftRight, hc, Nat.shiftRight_eq_div_pow, Nat.pow_succ]; omega
    have hd1 : (d >>> 1).toNat = b * 2 ^ k := by
      rw [BitVec.toNat_ushiftRight, hd, Nat.shiftRight_eq_div_pow, Nat.pow_succ, ← Nat.mul_assoc]; omega
    have hne : c >>> 1 ≠ 0#32 := by
      intro e
      rw [e] at hc1
      have := Nat.two_pow_pos k
      rw [show (0#32).toNat = 0 from rfl] at hc1
      omega
    have tail : ∀ q r, Steps div ⟨q, r, d, c, t, ra, 16#32⟩ ⟨q, r, d >>> 1, c >>> 1, t, ra, 13#32⟩ := by
      intro q r
      refine .next _ ⟨q, r, d, c >>> 1, t, ra, 17#32⟩ _ rfl ?_
      refine .next _ ⟨q, r, d >>> 1, c >>> 1, t, ra, 18#32⟩ _ rfl ?_
      exact .one (congrArg some (branch_true hne _ _))
    have hdk : 2 ^ (k + 1) ∣ 2 ^ (k + 1 + 1) := ⟨2, Nat.pow_succ 2 (k + 1)⟩
    by_cases h : r.toNat < d.toNat
    · obtain ⟨q', r', d', c', st, e1, e2⟩ := ih q r (d >>> 1) (c >>> 1) t ra hc1 hd1 (by rw [← hd]; exact h) (Nat.dvd_trans hdk hq) hlt
      exact ⟨q', r', d', c', .next _ ⟨q, r, d, c, t, ra, 16#32⟩ _ (congrArg some (branch_true h _ _)) ((tail q r).trans st), e1, e2⟩
    · have e1 : (r - d).toNat = r.toNat - d.toNat := BitVec.toNat_sub_of_le (BitVec.le_def.mpr (by omega))
      have e2 := or_pow q c (k + 1) hc hq
      have e3 : (q ||| c).toNat * b + (r - d).toNat = q.toNat * b + r.toNat := by
        rw [e1, e2, Nat.add_mul, Nat.mul_comm (2 ^ (k + 1)) b, ← hd]; omega
      have h3 : r.toNat - d.toNat < b * 2 ^ (k + 1) := by
        rw [Nat.pow_succ, ← Nat.mul_assoc, ← hd] at hr
        omega
      have h4 : 2 ^ (k + 1) ∣ (q ||| c).toNat := by
        rw [e2]; exact Nat.dvd_add (Nat.dvd_trans hdk hq) (Nat.dvd_refl _)
      obtain ⟨q', r', d', c', st, f1, f2⟩ := ih (q ||| c) (r - d) (d >>> 1) (c >>> 1) t ra hc1 hd1 (by rw [e1]; exact h3) h4 (by rw [e3]; exact hlt)
      refine ⟨q', r', d', c', ?_, f1.trans e3, f2⟩
      refine .next _ ⟨q, r, d, c, t, ra, 14#32⟩ _ (congrArg some (branch_false h _ _)) ?_
      refine .next _ ⟨q, r - d, d, c, t, ra, 15#32⟩ _ rfl ?_
      exact .next _ ⟨q ||| c, r - d, d, c, t, ra, 16#32⟩ _ rfl ((tail _ _).trans st)

/-- the loop .L1: the divisor is shifted until it is above the dividend, or its top bit is set -/
theorem shift_loop (b : Nat) (hb : 0 < b) : ∀ (n k : Nat) (q x d c t ra : W), n + k = 31 → c.toNat = 2 ^ k → d.toNat = b * 2 ^ k →
    ∃ k' d' c', Steps div ⟨q, x, d, c, t, ra, 8#32⟩ ⟨q, x, d', c', t, ra, 12#32⟩ ∧ c'.toNat = 2 ^ k' ∧ d'.toNat = b * 2 ^ k' ∧ x.toNat < b * 2 ^ (k' + 1) := by
  intro n
  induction n with
  | zero =>
    intro k q x d c t ra hk hc hd
    have hk : k = 31 := by omega
    have hx := x.isLt
    have h31 : 2 ^ 31 ≤ d.toNat := by rw [hd, hk]; omega
    refine ⟨k, d, c, .one (congrArg some (branch_true ((toInt_le_zero d).mpr (Or.inr h31)) _ _)), hc, hd, ?_⟩
    rw [Nat.pow_succ, ← Nat.mul_assoc, ← hd]; omega
  | succ n ih =>
    intro k q x d c t ra hk hc hd
    have hx := x.isLt
    by_cases h31 : 2 ^ 31 ≤ d.toNat
    · refine ⟨k, d, c, .one (congrArg some (branch_true ((toInt_le_zero d).mpr (Or.inr h31)) _ _)), hc, hd, ?_⟩
      rw [Nat.pow_succ, ← Nat.mul_assoc, ← hd]; omega
    · have hd0 : d.toNat ≠ 0 := by
        rw [hd]; exact Nat.ne_of_gt (Nat.mul_pos hb (Nat.two_pow_pos k))
      have hn : ¬ d.toInt ≤ 0 := fun h => by
        rcases (toInt_le_zero d).mp h with e | e
        · exact hd0 e
        · exact h31 e
      have hd1 : (d <<< 1).toNat = b * 2 ^ (k + 1) := by
        rw [BitVec.toNat_shiftLeft, Nat.shiftLeft_eq, Nat.pow_one, Nat.mod_eq_of_lt (by omega), hd, Nat.mul_assoc, ← Nat.pow_succ]
      have hc1 : (c <<< 1).toNat = 2 ^ (k + 1) := by
        have : 2 ^ (k + 1) < 2 ^ 32 := Nat.pow_lt_pow_right (by decide) (by omega)
        rw [BitVec.toNat_shiftLeft, Nat.shiftLeft_eq, Nat.pow_one, hc, ← Nat.pow_succ, Nat.mod_eq_of_lt this]
      have body : Steps div ⟨q, x, d, c, t, ra, 8#32⟩ ⟨q, x, d <<< 1, c <<< 1, t, ra, 11#32⟩ := by
        refine .next _ ⟨q, x, d, c, t, ra, 9#32⟩ _ (congrArg some (branch_false hn _ _)) ?_
        refine .next _ ⟨q, x, d <<< 1, c, t, ra, 10#32⟩ _ rfl ?_
        exact .one rfl
      by_cases hgt : (d <<< 1).toNat < x.toNat
      · obtain ⟨k', d', c', st, e1, e2, e3⟩ := ih (k + 1) q x (d <<< 1) (c <<< 1) t ra (by omega) hc1 hd1
        exact ⟨k', d', c', body.trans (.next _ ⟨q, x, d <<< 1, c <<< 1, t, ra, 8#32⟩ _ (congrArg some (branch_true hgt _ _)) st), e1, e2, e3⟩
      · refine ⟨k + 1, d <<< 1, c <<< 1, body.trans (.one (congrArg some (branch_false hgt _ _))), hc1, hd1, ?_⟩
        rw [Nat.pow_succ, ← Nat.mul_assoc, ← hd1]
        have : 0 < (d <<< 1).toNat := by rw [hd1]; exact Nat.mul_pos hb (Nat.two_pow_pos _)
        omega

/-- __udivsi3 from its entry: quotient in a0, remainder in a1, t0 and ra as they were -/
theorem udiv_run (x y a2 a3 t ra : W) (hy : y ≠ 0#32) :
    ∃ d c, Steps div ⟨x, y, a2, a3, t, ra, 2#32⟩ ⟨x / y, x % y, d, c, t, ra, ra⟩ := by
  have hb : 0 < y.toNat := by
    rcases Nat.eq_zero_or_pos y.toNat with e | e
    · exact absurd (BitVec.eq_of_toNat_eq e) hy
    · exact e
  have hx := x.isLt
  have pre : Steps div ⟨x, y, a2, a3, t, ra, 2#32⟩ ⟨0xffffffff#32, x, y, 1#32, t, ra, 7#32⟩ := by
    refine .next _ ⟨x, y, y, a3, t, ra, 3#32⟩ _ rfl ?_
    refine .next _ ⟨x, x, y, a3, t, ra, 4#32⟩ _ rfl ?_
    refine .next _ ⟨0xffffffff#32, x, y, a3, t, ra, 5#32⟩ _ rfl ?_
    refine .next _ ⟨0xffffffff#32, x, y, a3, t, ra, 6#32⟩ _ (congrArg some (branch_false hy _ _)) ?_
    exact .one rfl
  have mid : ∃ k d c, Steps div ⟨0xffffffff#32, x, y, 1#32, t, ra, 7#32⟩ ⟨0xffffffff#32, x, d, c, t, ra, 12#32⟩ ∧ c.toNat = 2 ^ k ∧ d.toNat = y.toNat * 2 ^ k ∧ x.toNat < y.toNat * 2 ^ (k + 1) := by
    by_cases hge : x.toNat ≤ y.toNat
    · refine ⟨0, y, 1#32, .one (congrArg some (branch_true hge _ _)), rfl, by rw [Nat.pow_zero, Nat.mul_one], ?_⟩
      rw [Nat.zero_add, Nat.pow_one]; omega
    · obtain ⟨k, d, c, st, e⟩ := shift_loop y.toNat hb 31 0 0xffffffff#32 x y 1#32 t ra rfl rfl (by rw [Nat.pow_zero, Nat.mul_one])
      exact ⟨k, d, c, .next _ ⟨0xffffffff#32, x, y, 1#32, t, ra, 8#32⟩ _ (congrArg some (branch_false hge _ _)) st, e⟩
  obtain ⟨k, d, c, st, hc, hd, hlt⟩ := mid
  obtain ⟨q', r', d', c', st2, e1, e2⟩ := sub_loop y.toNat k 0#32 x d c t ra hc hd hlt (Nat.dvd_zero _)
    (by rw [show (0#32).toNat = 0 from rfl, Nat.zero_mul, Nat.zero_add]; exact hx)
  rw [show (0#32).toNat = 0 from rfl, Nat.zero_mul, Nat.zero_add] at e1
  have hq : q' = x / y := by
    apply BitVec.eq_of_toNat_eq
    rw [BitVec.toNat_udiv, ← e1, Nat.mul_comm, Nat.mul_add_div hb, Nat.div_eq_of_lt e2, Nat.add_zero]
  have hr : r' = x % y := by
    apply BitVec.eq_of_toNat_eq
    rw [BitVec.toNat_umod, ← e1, Nat.mul_comm, Nat.mul_add_mod, Nat.mod_eq_of_lt e2]
  subst hq; subst hr
  exact ⟨d', c', pre.trans (st.trans (.next _ ⟨0#32, x, d, c, t, ra, 13#32⟩ _ rfl st2))⟩

/-- __udivsi3 by zero: all ones, the dividend stays in a1 -/
theorem udiv_zero (x a2 a3 t ra : W) : Steps div ⟨x, 0#32, a2, a3, t, ra, 2#32⟩ ⟨0xffffffff#32, x, 0#32, a3, t, ra, ra⟩ := by
  refine .next _ ⟨x, 0#32, 0#32, a3, t, ra, 3#32⟩ _ rfl ?_
  refine .next _ ⟨x, x, 0#32, a3, t, ra, 4#32⟩ _ rfl ?_
  refine .next _ ⟨0xffffffff#32, x, 0#32, a3, t, ra, 5#32⟩ _ rfl ?_
  refine .next _ ⟨0xffffffff#32, x, 0#32, a3, t, ra, 19#32⟩ _ rfl ?_
  exact .one rfl

/-- what the unsigned routine leaves, zero divisor included (as the division instructions of RISC-V) -/
def uq (x y : W) : W := if y = 0#32 then 0xffffffff#32 else x / y
def ur (x y : W) : W := if y = 0#32 then x else x % y

theorem udiv_any (x y a2 a3 t ra : W) : ∃ d c, Steps div ⟨x, y, a2, a3, t, ra, 2#32⟩ ⟨uq x y, ur x y, d, c, t, ra, ra⟩ := by
  unfold uq ur
  by_cases hy : y = 0#32
  · rw [if_pos hy, if_pos hy, hy]; exact ⟨_, _, udiv_zero x a2 a3 t ra⟩
  · rw [if_neg hy, if_neg hy]; exact udiv_run x y a2 a3 t ra hy

/-- __udivsi3 -/
theorem udiv_right (x y : W) : Returns div 2#32 x y (if y = 0#32 then 0xffffffff#32 else x / y) := by
  rintro ⟨a0, a1, a2, a3, t0, ra, pc⟩ rfl rfl rfl
  obtain ⟨d, c, st⟩ := udiv_any a0 a1 a2 a3 t0 ra
  exact ⟨_, st, rfl, rfl⟩

/-- __umodsi3 -/
theorem umod_right (x y : W) : Returns div 20#32 x y (if y = 0#32 then x else x % y) := by
  rintro ⟨a0, a1, a2, a3, t0, ra, pc⟩ rfl rfl rfl
  obtain ⟨d, c, st⟩ := udiv_any a0 a1 a2 a3 ra 22#32
  refine ⟨⟨ur a0 a1, ur a0 a1, d, c, ra, 22#32, ra⟩, ?_, rfl, rfl⟩
  refine .next _ ⟨a0, a1, a2, a3, ra, ra, 21#32⟩ _ rfl ?_
  refine .next _ ⟨a0, a1, a2, a3, ra, 22#32, 2#32⟩ _ rfl (st.trans ?_)
  refine .next _ ⟨ur a0 a1, ur a0 a1, d, c, ra, 22#32, 23#32⟩ _ rfl ?_
  exact .one rfl

/-! ### signed -/

theorem toInt_neg_iff (x : W) : x.toInt < 0 ↔ 2 ^ 31 ≤ x.toNat := by
  have := x.isLt
  rw [BitVec.toInt_eq_toNat_cond]
  by_cases h : 2 * x.toNat < 2 ^ 32
  · rw [if_pos h]; omega
  · rw [if_neg h]; omega

theorem toInt_nonneg (x : W) (h : ¬ x.toInt < 0) : x.toInt = x.toNat := by
  have := x.isLt
  rw [toInt_neg_iff] at h
  rw [BitVec.toInt_eq_toNat_cond, if_pos (by omega)]

theorem toInt_of_neg (x : W) (h : x.toInt < 0) : -x.toInt = ((0#32 - x).toNat : Int) := by
  have := x.isLt
  have h' := (toInt_neg_iff x).mp h
  rw [BitVec.toInt_eq_toNat_cond, if_neg (by omega), BitVec.toNat_sub, show (0#32).toNat = 0 from rfl]
  omega

theorem neg_ne_zero (y : W) (h : y ≠ 0#32) : 0#32 - y ≠ 0#32 := by
  intro e
  apply h
  have := congrArg BitVec.toNat e
  rw [BitVec.toNat_sub, show (0#32).toNat = 0 from rfl] at this
  apply BitVec.eq_of_toNat_eq
  have hy := y.isLt
  rw [show (0#32).toNat = 0 from rfl]
  omega

theorem ofInt_nat (n : Nat) (v : W) (h : v.toNat = n) : BitVec.ofInt 32 (n : Int) = v := by
  rw [BitVec.ofInt_natCast, ← h, BitVec.ofNat_toNat, BitVec.setWidth_eq]

theorem ofInt_negnat (n : Nat) (v : W) (h : v.toNat = n) : BitVec.ofInt 32 (-(n : Int)) = 0#32 - v := by
  rw [BitVec.ofInt_neg, ofInt_nat n v h, BitVec.zero_sub]

/-- the four quadrants of the truncated division -/
theorem tdiv_pp (x y : W) (hx : ¬ x.toInt < 0) (hy : ¬ y.toInt < 0) : BitVec.ofInt 32 (x.toInt.tdiv y.toInt) = x / y := by
  rw [toInt_nonneg x hx, toInt_nonneg y hy, ← Int.ofNat_tdiv]
  exact ofInt_nat _ _ (BitVec.toNat_udiv ..)

theorem tdiv_np (x y : W) (hx : x.toInt < 0) (hy : ¬ y.toInt < 0) : BitVec.ofInt 32 (x.toInt.tdiv y.toInt) = 0#32 - (0#32 - x) / y := by
  have e : x.toInt = -((0#32 - x).toNat : Int) := by rw [← toInt_of_neg x hx, Int.neg_neg]
  rw [e, toInt_nonneg y hy, Int.neg_tdiv, ← Int.ofNat_tdiv]
  exact ofInt_negnat _ _ (BitVec.toNat_udiv ..)

theorem tdiv_pn (x y : W) (hx : ¬ x.toInt < 0) (hy : y.toInt < 0) : BitVec.ofInt 32 (x.toInt.tdiv y.toInt) = 0#32 - x / (0#32 - y) := by
  have e : y.toInt = -((0#32 - y).toNat : Int) := by rw [← toInt_of_neg y hy, Int.neg_neg]
  rw [e, toInt_nonneg x hx, Int.tdiv_neg, ← Int.ofNat_tdiv]
  exact ofInt_negnat _ _ (BitVec.toNat_udiv ..)

theorem tdiv_nn (x y : W) (hx : x.toInt < 0) (hy : y.toInt < 0) : BitVec.ofInt 32 (x.toInt.tdiv y.toInt) = (0#32 - x) / (0#32 - y) := by
  have e1 : x.toInt = -((0#32 - x).toNat : Int) := by rw [← toInt_of_neg x hx, Int.neg_neg]
  have e2 : y.toInt = -((0#32 - y).toNat : Int) := by rw [← toInt_of_neg y hy, Int.neg_neg]
  rw [e1, e2, Int.neg_tdiv_neg, ← Int.ofNat_tdiv]
  exact ofInt_nat _ _ (BitVec.toNat_udiv ..)

theorem tmod_pp (x y : W) (hx : ¬ x.toInt < 0) (hy : ¬ y.toInt < 0) : BitVec.ofInt 32 (x.toInt.tmod y.toInt) = x % y := by
  rw [toInt_nonneg x hx, toInt_nonneg y hy, ← Int.ofNat_tmod]
  exact ofInt_nat _ _ (BitVec.toNat_umod ..)

theorem tmod_np (x y : W) (hx : x.toInt < 0) (hy : ¬ y.toInt < 0) : BitVec.ofInt 32 (x.toInt.tmod y.toInt) = 0#32 - (0#32 - x) % y := by
  have e : x.toInt = -((0#32 - x).toNat : Int) := by rw [← toInt_of_neg x hx, Int.neg_neg]
  rw [e, toInt_nonneg y hy, Int.neg_tmod, ← Int.ofNat_tmod]
  exact ofInt_negnat _ _ (BitVec.toNat_umod ..)

theorem tmod_pn (x y : W) (hx : ¬ x.toInt < 0) (hy : y.toInt < 0) : BitVec.ofInt 32 (x.toInt.tmod y.toInt) = x % (0#32 - y) := by
  have e : y.toInt = -((0#32 - y).toNat : Int) := by rw [← toInt_of_neg y hy, Int.neg_neg]
  rw [e, toInt_nonneg x hx, Int.tmod_neg, ← Int.ofNat_tmod]
  exact ofInt_nat _ _ (BitVec.toNat_umod ..)

theorem tmod_nn (x y : W) (hx : x.toInt < 0) (hy : y.toInt < 0) : BitVec.ofInt 32 (x.toInt.tmod y.toInt) = 0#32 - (0#32 - x) % (0#32 - y) := by
  have e1 : x.toInt = -((0#32 - x).toNat : Int) := by rw [← toInt_of_neg x hx, Int.neg_neg]
  have e2 : y.toInt = -((0#32 - y).toNat : Int) := by rw [← toInt_of_neg y hy, Int.neg_neg]
  rw [e1, e2, Int.tmod_neg, Int.neg_tmod, ← Int.ofNat_tmod]
  exact ofInt_negnat _ _ (BitVec.toNat_umod ..)

theorem uq_ne (x y : W) (h : y ≠ 0#32) : uq x y = x / y := if_neg h
theorem ur_ne (x y : W) (h : y ≠ 0#32) : ur x y = x % y := if_neg h

/-- __divsi3: the quotient rounded towards zero, modulo 2^32 (the least integer by -1 gives itself); by zero, -1 -/
theorem div_right (x y : W) : Returns div 0#32 x y (if y = 0#32 then 0xffffffff#32 else BitVec.ofInt 32 (x.toInt.tdiv y.toInt)) := by
  rintro ⟨a0, a1, a2, a3, t0, ra, pc⟩ rfl rfl rfl
  by_cases hx : a0.toInt < 0
  · by_cases hy : 0 < a1.toInt
    · have hy0 : a1 ≠ 0#32 := fun e => by rw [e] at hy; exact absurd hy (by decide)
      obtain ⟨d, c, st⟩ := udiv_any (0#32 - a0) a1 a2 a3 ra 31#32
      refine ⟨⟨0#32 - uq (0#32 - a0) a1, ur (0#32 - a0) a1, d, c, ra, 31#32, ra⟩, ?_, rfl, ?_⟩
      · refine .next _ ⟨a0, a1, a2, a3, t0, ra, 24#32⟩ _ (congrArg some (branch_true hx _ _)) ?_
        refine .next _ ⟨0#32 - a0, a1, a2, a3, t0, ra, 25#32⟩ _ rfl ?_
        refine .next _ ⟨0#32 - a0, a1, a2, a3, t0, ra, 29#32⟩ _ (congrArg some (branch_true hy _ _)) ?_
        refine .next _ ⟨0#32 - a0, a1, a2, a3, ra, ra, 30#32⟩ _ rfl ?_
        refine .next _ ⟨0#32 - a0, a1, a2, a3, ra, 31#32, 2#32⟩ _ rfl (st.trans ?_)
        refine .next _ ⟨0#32 - uq (0#32 - a0) a1, ur (0#32 - a0) a1, d, c, ra, 31#32, 32#32⟩ _ rfl ?_
        exact .one rfl
      · rw [if_neg hy0, tdiv_np a0 a1 hx (by omega), ← uq_ne _ _ hy0]
    · obtain ⟨d, c, st⟩ := udiv_any (0#32 - a0) (0#32 - a1) a2 a3 t0 ra
      refine ⟨⟨uq (0#32 - a0) (0#32 - a1), ur (0#32 - a0) (0#32 - a1), d, c, t0, ra, ra⟩, ?_, rfl, ?_⟩
      · refine .next _ ⟨a0, a1, a2, a3, t0, ra, 24#32⟩ _ (congrArg some (branch_true hx _ _)) ?_
        refine .next _ ⟨0#32 - a0, a1, a2, a3, t0, ra, 25#32⟩ _ rfl ?_
        refine .next _ ⟨0#32 - a0, a1, a2, a3, t0, ra, 26#32⟩ _ (congrArg some (branch_false hy _ _)) ?_
        refine .next _ ⟨0#32 - a0, 0#32 - a1, a2, a3, t0, ra, 27#32⟩ _ rfl ?_
        exact .next _ ⟨0#32 - a0, 0#32 - a1, a2, a3, t0, ra, 2#32⟩ _ rfl st
      · by_cases h0 : a1 = 0#32
        · rw [if_pos h0, h0]; rfl
        · have hneg : a1.toInt < 0 := by
            rcases (toInt_le_zero a1).mp (by omega) with e | e
            · exact absurd (BitVec.eq_of_toNat_eq e) h0
            · exact (toInt_neg_iff a1).mpr e
          rw [if_neg h0, tdiv_nn a0 a1 hx hneg, ← uq_ne _ _ (neg_ne_zero a1 h0)]
  · by_cases hy : a1.toInt < 0
    · have hy0 : a1 ≠ 0#32 := fun e => by rw [e] at hy; exact absurd hy (by decide)
      obtain ⟨d, c, st⟩ := udiv_any a0 (0#32 - a1) a2 a3 ra 31#32
      refine ⟨⟨0#32 - uq a0 (0#32 - a1), ur a0 (0#32 - a1), d, c, ra, 31#32, ra⟩, ?_, rfl, ?_⟩
      · refine .next _ ⟨a0, a1, a2, a3, t0, ra, 1#32⟩ _ (congrArg some (branch_false hx _ _)) ?_
        refine .next _ ⟨a0, a1, a2, a3, t0, ra, 28#32⟩ _ (congrArg some (branch_true hy _ _)) ?_
        refine .next _ ⟨a0, 0#32 - a1, a2, a3, t0, ra, 29#32⟩ _ rfl ?_
        refine .next _ ⟨a0, 0#32 - a1, a2, a3, ra, ra, 30#32⟩ _ rfl ?_
        refine .next _ ⟨a0, 0#32 - a1, a2, a3, ra, 31#32, 2#32⟩ _ rfl (st.trans ?_)
        refine .next _ ⟨0#32 - uq a0 (0#32 - a1), ur a0 (0#32 - a1), d, c, ra, 31#32, 32#32⟩ _ rfl ?_
        exact .one rfl
      · rw [if_neg hy0, tdiv_pn a0 a1 hx hy, ← uq_ne _ _ (neg_ne_zero a1 hy0)]
    · obtain ⟨d, c, st⟩ := udiv_any a0 a1 a2 a3 t0 ra
      refine ⟨⟨uq a0 a1, ur a0 a1, d, c, t0, ra, ra⟩, ?_, rfl, ?_⟩
      · refine .next _ ⟨a0, a1, a2, a3, t0, ra, 1#32⟩ _ (congrArg some (branch_false hx _ _)) ?_
        exact .next _ ⟨a0, a1, a2, a3, t0, ra, 2#32⟩ _ (congrArg some (branch_false hy _ _)) st
      · by_cases h0 : a1 = 0#32
        · rw [if_pos h0, h0]; rfl
        · rw [if_neg h0, tdiv_pp a0 a1 hx hy, ← uq_ne _ _ h0]

/-- the tail of __modsi3 for a dividend that is not negative (.L30) -/
theorem mod_pos (x y a2 a3 ra r : W) : ∃ d c, Steps div ⟨x, y, a2, a3, ra, r, 36#32⟩ ⟨ur x y, ur x y, d, c, ra, 37#32, ra⟩ := by
  obtain ⟨d, c, st⟩ := udiv_any x y a2 a3 ra 37#32
  refine ⟨d, c, .next _ ⟨x, y, a2, a3, ra, 37#32, 2#32⟩ _ rfl (st.trans ?_)⟩
  refine .next _ ⟨ur x y, ur x y, d, c, ra, 37#32, 38#32⟩ _ rfl ?_
  exact .one rfl

/-- the tail for a negative dividend (.L32) -/
theorem mod_neg (x y a2 a3 ra r : W) : ∃ d c, Steps div ⟨x, y, a2, a3, ra, r, 41#32⟩ ⟨0#32 - ur (0#32 - x) y, ur (0#32 - x) y, d, c, ra, 43#32, ra⟩ := by
  obtain ⟨d, c, st⟩ := udiv_any (0#32 - x) y a2 a3 ra 43#32
  refine ⟨d, c, .next _ ⟨0#32 - x, y, a2, a3, ra, r, 42#32⟩ _ rfl (.next _ ⟨0#32 - x, y, a2, a3, ra, 43#32, 2#32⟩ _ rfl (st.trans ?_))⟩
  refine .next _ ⟨0#32 - ur (0#32 - x) y, ur (0#32 - x) y, d, c, ra, 43#32, 44#32⟩ _ rfl ?_
  exact .one rfl

/-- __modsi3: the remainder, with the sign of the dividend; by zero, the dividend -/
theorem mod_right (x y : W) : Returns div 33#32 x y (if y = 0#32 then x else BitVec.ofInt 32 (x.toInt.tmod y.toInt)) := by
  rintro ⟨a0, a1, a2, a3, t0, ra, pc⟩ rfl rfl rfl
  by_cases hy : a1.toInt < 0
  · have hy0 : a1 ≠ 0#32 := fun e => by rw [e] at hy; exact absurd hy (by decide)
    have pre : Steps div ⟨a0, a1, a2, a3, t0, ra, 33#32⟩ ⟨a0, 0#32 - a1, a2, a3, ra, ra, 40#32⟩ := by
      refine .next _ ⟨a0, a1, a2, a3, ra, ra, 34#32⟩ _ rfl ?_
      refine .next _ ⟨a0, a1, a2, a3, ra, ra, 39#32⟩ _ (congrArg some (branch_true hy _ _)) ?_
      exact .one rfl
    by_cases hx : 0 ≤ a0.toInt
    · obtain ⟨d, c, st⟩ := mod_pos a0 (0#32 - a1) a2 a3 ra ra
      refine ⟨_, pre.trans (.next _ ⟨a0, 0#32 - a1, a2, a3, ra, ra, 36#32⟩ _ (congrArg some (branch_true hx _ _)) st), rfl, ?_⟩
      rw [if_neg hy0, tmod_pn a0 a1 (by omega) hy, ← ur_ne _ _ (neg_ne_zero a1 hy0)]
    · obtain ⟨d, c, st⟩ := mod_neg a0 (0#32 - a1) a2 a3 ra ra
      refine ⟨_, pre.trans (.next _ ⟨a0, 0#32 - a1, a2, a3, ra, ra, 41#32⟩ _ (congrArg some (branch_false hx _ _)) st), rfl, ?_⟩
      rw [if_neg hy0, tmod_nn a0 a1 (by omega) hy, ← ur_ne _ _ (neg_ne_zero a1 hy0)]
  · have pre : Steps div ⟨a0, a1, a2, a3, t0, ra, 33#32⟩ ⟨a0, a1, a2, a3, ra, ra, 35#32⟩ := by
      refine .next _ ⟨a0, a1, a2, a3, ra, ra, 34#32⟩ _ rfl ?_
      exact .one (congrArg some (branch_false hy _ _))
    by_cases hx : a0.toInt < 0
    · obtain ⟨d, c, st⟩ := mod_neg a0 a1 a2 a3 ra ra
      refine ⟨_, pre.trans (.next _ ⟨a0, a1, a2, a3, ra, ra, 41#32⟩ _ (congrArg some (branch_true hx _ _)) st), rfl, ?_⟩
      by_cases h0 : a1 = 0#32
      · rw [if_pos h0, h0]
        show 0#32 - (0#32 - a0) = a0
        rw [BitVec.zero_sub, BitVec.zero_sub, BitVec.neg_neg]
      · rw [if_neg h0, tmod_np a0 a1 hx hy, ← ur_ne _ _ h0]
    · obtain ⟨d, c, st⟩ := mod_pos a0 a1 a2 a3 ra ra
      refine ⟨_, pre.trans (.next _ ⟨a0, a1, a2, a3, ra, ra, 36#32⟩ _ (congrArg some (branch_false hx _ _)) st), rfl, ?_⟩
      by_cases h0 : a1 = 0#32
      · rw [if_pos h0, h0]; rfl
      · rw [if_neg h0, tmod_pp a0 a1 hx hy, ← ur_ne _ _ h0]

/-- what is returned is determined: the machine is deterministic and has no rule at the return address unless it lies in the routine -/
theorem returns_unique (code : List I) (entry x y v v' : W) (ra : W) (hra : code.length ≤ ra.toNat)
    (h : Returns code entry x y v) (h' : Returns code entry x y v') : v = v' := by
  obtain ⟨s1, st1, p1, r1⟩ := h ⟨x, y, 0#32, 0#32, 0#32, ra, entry⟩ rfl rfl rfl
  obtain ⟨s2, st2, p2, r2⟩ := h' ⟨x, y, 0#32, 0#32, 0#32, ra, entry⟩ rfl rfl rfl
  have stuck : ∀ s : St, s.pc = ra → step code s = none := by
    intro s e
    unfold step
    rw [e, List.getElem?_eq_none hra]; rfl
  have key : ∀ a b, Steps code a b → b.pc = ra → ∀ c, Steps code a c → c.pc = ra → b = c := by
    intro a b hab
    induction hab with
    | refl s =>
      intro hb c hc _
      cases hc with
      | refl _ => rfl
      | next _ _ _ e _ => rw [stuck s hb] at e; cases e
    | next s s1 s2 e _ ih =>
      intro hb c hc hc2
      cases hc with
      | refl _ => rw [stuck s hc2] at e; cases e
      | next _ s3 _ e3 st3 =>
        rw [e] at e3
        cases e3
        exact ih hb c st3 hc2
  have := key _ _ st1 p1 _ st2 p2
  rw [← r1, ← r2, this]

/-- for example: -7 / 2 is -3 with -1 left, and the most negative integer by -1 is itself -/
theorem sample : Returns div 0#32 0xfffffff9#32 2#32 0xfffffffd#32 ∧ Returns div 33#32 0xfffffff9#32 2#32 0xffffffff#32 ∧
    Returns div 0#32 0x80000000#32 0xffffffff#32 0x80000000#32 ∧ Returns mul 0#32 0x10001#32 0x10001#32 0x20001#32 :=
  ⟨div_right 0xfffffff9#32 2#32, mod_right 0xfffffff9#32 2#32, div_right 0x80000000#32 0xffffffff#32, mul_right 0x10001#32 0x10001#32⟩

end Pico.Soft
