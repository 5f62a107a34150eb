import Verif.Arch.Startup
/-
C98: one use of a macro.
-/
namespace Pico.Startup

theorem Steps.trans {o : Endian} {code : List I} {a b c : St} (h1 : Steps o code a b) (h2 : Steps o code b c) : Steps o code a c := by
  induction h1 with
  | refl _ => exact h2
  | next s s1 _ e _ ih => exact .next s s1 c e (ih h2)

theorem Steps.one {o : Endian} {code : List I} {a b : St} (h : step o code a = some b) : Steps o code a b := .next a b b h (.refl b)

theorem sel_true {c : Prop} [Decidable c] (h : c) (a b : St) : sel (decide c) a b = a := by unfold sel; rw [decide_eq_true h]; rfl
theorem sel_false {c : Prop} [Decidable c] (h : ¬ c) (a b : St) : sel (decide c) a b = b := by unfold sel; rw [decide_eq_false h]; rfl
theorem guard_true {c : Prop} [Decidable c] (h : c) (a : St) : guard' (decide c) a = some a := by unfold guard'; rw [decide_eq_true h]; rfl

/-! ### words and bytes -/

theorem off (x a : W) (k : Nat) (hk : k < 2 ^ 32) : (x - a).toNat = k ↔ x = a + BitVec.ofNat 32 k := by
  constructor
  · intro h
    have e : x - a = BitVec.ofNat 32 k := by
      apply BitVec.eq_of_toNat_eq; rw [h, BitVec.toNat_ofNat, Nat.mod_eq_of_lt hk]
    rw [← e]; bv_omega
  · intro h
    rw [h]
    have e : a + BitVec.ofNat 32 k - a = BitVec.ofNat 32 k := by bv_omega
    rw [e, BitVec.toNat_ofNat, Nat.mod_eq_of_lt hk]

theorem store_at (o : Endian) (m : Mem) (a v x : W) : store o m a v x = if Within a 4 x then byteOf o v (x - a).toNat else m x := by
  unfold store
  have h0 := off x a 0 (by decide)
  have h1 := off x a 1 (by decide)
  have h2 := off x a 2 (by decide)
  have h3 := off x a 3 (by decide)
  rw [show a + BitVec.ofNat 32 0 = a by bv_omega] at h0
  by_cases e0 : x = a
  · have z := h0.2 e0
    rw [if_pos e0, if_pos (show Within a 4 x by unfold Within; omega), z]
  rw [if_neg e0]
  by_cases e1 : x = a + 1#32
  · have z := h1.2 e1
    rw [if_pos e1, if_pos (show Within a 4 x by unfold Within; omega), z]
  rw [if_neg e1]
  by_cases e2 : x = a + 2#32
  · have z := h2.2 e2
    rw [if_pos e2, if_pos (show Within a 4 x by unfold Within; omega), z]
  rw [if_neg e2]
  by_cases e3 : x = a + 3#32
  · have z := h3.2 e3
    rw [if_pos e3, if_pos (show Within a 4 x by unfold Within; omega), z]
  rw [if_neg e3, if_neg]
  intro (hlt : (x - a).toNat < 4)
  rcases (by omega : (x - a).toNat = 0 ∨ (x - a).toNat = 1 ∨ (x - a).toNat = 2 ∨ (x - a).toNat = 3) with h | h | h | h
  · exact e0 (h0.1 h)
  · exact e1 (h1.1 h)
  · exact e2 (h2.1 h)
  · exact e3 (h3.1 h)

theorem app_bits (a b c d : B) (i : Nat) : (a ++ b ++ c ++ d : W).getLsbD i =
    if i < 8 then d.getLsbD i else if i - 8 < 8 then c.getLsbD (i - 8) else if i - 8 - 8 < 8 then b.getLsbD (i - 8 - 8) else a.getLsbD (i - 8 - 8 - 8) := by
  have h1 := @BitVec.getLsbD_append 24 8 i (a ++ b ++ c) d
  have h2 := @BitVec.getLsbD_append 16 8 (i - 8) (a ++ b) c
  have h3 := @BitVec.getLsbD_append 8 8 (i - 8 - 8) a b
  rw [h3] at h2
  exact h1.trans (by by_cases h : i < 8
                     · rw [if_pos h, if_pos h]
                     · rw [if_neg h, if_neg h]; exact h2)

theorem pick0 (a b c d : B) : ((a ++ b ++ c ++ d : W) >>> 0).setWidth 8 = d := by
  apply BitVec.eq_of_getLsbD_eq; intro i hi
  rw [BitVec.getLsbD_setWidth, decide_eq_true hi, Bool.true_and, BitVec.getLsbD_ushiftRight, app_bits]
  rw [if_pos (show 0 + i < 8 by omega), show 0 + i = i by omega]

theorem pick1 (a b c d : B) : ((a ++ b ++ c ++ d : W) >>> 8).setWidth 8 = c := by
  apply BitVec.eq_of_getLsbD_eq; intro i hi
  rw [BitVec.getLsbD_setWidth, decide_eq_true hi, Bool.true_and, BitVec.getLsbD_ushiftRight, app_bits]
  rw [if_neg (show ¬ (8 + i < 8) by omega), if_pos (show 8 + i - 8 < 8 by omega), show 8 + i - 8 = i by omega]

theorem pick2 (a b c d : B) : ((a ++ b ++ c ++ d : W) >>> 16).setWidth 8 = b := by
  apply BitVec.eq_of_getLsbD_eq; intro i hi
  rw [BitVec.getLsbD_setWidth, decide_eq_true hi, Bool.true_and, BitVec.getLsbD_ushiftRight, app_bits]
  rw [if_neg (show ¬ (16 + i < 8) by omega), if_neg (show ¬ (16 + i - 8 < 8) by omega), if_pos (show 16 + i - 8 - 8 < 8 by omega), show 16 + i - 8 - 8 = i by omega]

theorem pick3 (a b c d : B) : ((a ++ b ++ c ++ d : W) >>> 24).setWidth 8 = a := by
  apply BitVec.eq_of_getLsbD_eq; intro i hi
  rw [BitVec.getLsbD_setWidth, decide_eq_true hi, Bool.true_and, BitVec.getLsbD_ushiftRight, app_bits]
  rw [if_neg (show ¬ (24 + i < 8) by omega), if_neg (show ¬ (24 + i - 8 < 8) by omega), if_neg (show ¬ (24 + i - 8 - 8 < 8) by omega), show 24 + i - 8 - 8 - 8 = i by omega]

theorem byte_load (o : Endian) (m : Mem) (a : W) (j : Nat) (hj : j < 4) : byteOf o (load o m a) j = m (a + BitVec.ofNat 32 j) := by
  have e0 : a + BitVec.ofNat 32 0 = a := by bv_omega
  rcases (by omega : j = 0 ∨ j = 1 ∨ j = 2 ∨ j = 3) with rfl | rfl | rfl | rfl <;> cases o
  · rw [e0]; exact pick3 _ _ _ _
  · rw [e0]; exact pick0 _ _ _ _
  · exact pick2 _ _ _ _
  · exact pick1 _ _ _ _
  · exact pick1 _ _ _ _
  · exact pick2 _ _ _ _
  · exact pick0 _ _ _ _
  · exact pick3 _ _ _ _

/-- one word copied -/
theorem copy_word (o : Endian) (m : Mem) (s b : W) : store o m s (load o m b) = fun x => if Within s 4 x then m (b + (x - s)) else m x := by
  funext x
  rw [store_at]
  by_cases h : Within s 4 x
  · rw [if_pos h, if_pos h, byte_load o m b _ h, BitVec.ofNat_toNat, BitVec.setWidth_eq]
  · rw [if_neg h, if_neg h]

theorem zero_word (o : Endian) (m : Mem) (s : W) : store o m s 0#32 = fun x => if Within s 4 x then 0#8 else m x := by
  funext x
  rw [store_at]
  have e : ∀ j, byteOf o 0#32 j = 0#8 := by
    intro j; cases o <;> (unfold byteOf; apply BitVec.eq_of_getLsbD_eq; intro i hi; simp)
  rw [e]

/-! ### what the loops do -/

/-- the memory with `n` bytes copied -/
def copied (m : Mem) (base start : W) (n : Nat) : Mem := fun x => if Within start n x then m (base + (x - start)) else m x

def zeroed (m : Mem) (start : W) (n : Nat) : Mem := fun x => if Within start n x then 0#8 else m x

theorem within_step (start : W) (n : Nat) (x : W) (hn : n + 4 ≤ 2 ^ 32) :
    Within start (n + 4) x ↔ Within start n x ∨ Within (start + BitVec.ofNat 32 n) 4 x := by
  unfold Within
  have e : (x - (start + BitVec.ofNat 32 n)).toNat = (x - start - BitVec.ofNat 32 n).toNat := by congr 1; bv_omega
  rw [e]
  generalize x - start = y
  have := y.isLt
  rw [BitVec.toNat_sub, BitVec.toNat_ofNat]
  omega

theorem within_disj (start : W) (n : Nat) (x : W) (hn : n + 4 ≤ 2 ^ 32) (h : Within start n x) : ¬ Within (start + BitVec.ofNat 32 n) 4 x := by
  unfold Within at *
  have e : (x - (start + BitVec.ofNat 32 n)).toNat = (x - start - BitVec.ofNat 32 n).toNat := by congr 1; bv_omega
  rw [e]
  generalize x - start = y at *
  have := y.isLt
  rw [BitVec.toNat_sub, BitVec.toNat_ofNat]
  omega

theorem copied_step (o : Endian) (m : Mem) (base start : W) (n N : Nat) (hn : n + 4 ≤ N) (hN : N ≤ 2 ^ 32)
    (hd : Disjoint (Within start N) (Within base N)) :
    store o (copied m base start n) (start + BitVec.ofNat 32 n) (load o (copied m base start n) (base + BitVec.ofNat 32 n)) = copied m base start (n + 4) := by
  rw [copy_word]
  funext x
  have hs := within_step start n x (by omega)
  by_cases h : Within (start + BitVec.ofNat 32 n) 4 x
  · have e : base + BitVec.ofNat 32 n + (x - (start + BitVec.ofNat 32 n)) = base + (x - start) := by bv_omega
    simp only [if_pos h]
    rw [e]
    have hw := hs.2 (Or.inr h)
    unfold copied
    rw [if_pos hw, if_neg]
    intro hc
    refine hd (base + (x - start)) ?_ ?_
    · have : (base + (x - start) - start).toNat < n := hc
      show _ < N
      omega
    · have : (x - start).toNat < n + 4 := hw
      show (base + (x - start) - base).toNat < N
      rw [show base + (x - start) - base = x - start by bv_omega]
      omega
  · simp only [if_neg h]
    unfold copied
    by_cases hw : Within start n x
    · rw [if_pos hw, if_pos (hs.2 (Or.inl hw))]
    · rw [if_neg hw, if_neg (fun c => (hs.1 c).elim hw h)]

theorem zeroed_step (o : Endian) (m : Mem) (start : W) (n : Nat) (hN : n + 4 ≤ 2 ^ 32) :
    store o (zeroed m start n) (start + BitVec.ofNat 32 n) 0#32 = zeroed m start (n + 4) := by
  rw [zero_word]
  funext x
  have hs := within_step start n x (by omega)
  unfold zeroed
  by_cases h : Within (start + BitVec.ofNat 32 n) 4 x
  · rw [if_pos h, if_pos (hs.2 (Or.inr h))]
  · rw [if_neg h]
    by_cases hw : Within start n x
    · rw [if_pos hw, if_pos (hs.2 (Or.inl hw))]
    · rw [if_neg hw, if_neg (fun c => (hs.1 c).elim hw h)]

end Pico.Startup
