import Verif.Drivers.DmaSpec

/-
What the units of a transfer do to plain memory: a copy, or a fill.
-/
namespace Pico.Dma

theorem applyBeats_append (a b : List Beat) (m : Mem) : applyBeats (a ++ b) m = applyBeats b (applyBeats a m) := by
  simp [applyBeats, List.foldl_append]

theorem wanted_take (x : Xfer) (k : Nat) (h : k ≤ x.units) : x.wanted.take k = (List.range k).map x.unit := by
  rw [Xfer.wanted, ← List.map_take, List.take_range, Nat.min_eq_left h]

theorem wanted_length (x : Xfer) : x.wanted.length = x.units := by simp [Xfer.wanted]

theorem take_succ (x : Xfer) (k : Nat) (h : k < x.units) : x.wanted.take (k + 1) = x.wanted.take k ++ [x.unit k] := by
  rw [wanted_take x _ h, wanted_take x _ (by omega), List.range_succ, List.map_append]; rfl

/-- the address a is at offset d from the base b -/
theorem sub_off (a b : BitVec 32) (o : Nat) (ho : o < 2 ^ 32) :
    (a - (b + BitVec.ofNat 32 o)).toNat = if o ≤ (a - b).toNat then (a - b).toNat - o else 2 ^ 32 + (a - b).toNat - o := by
  have e : a - (b + BitVec.ofNat 32 o) = (a - b) - BitVec.ofNat 32 o := by
    rw [BitVec.sub_eq_add_neg, BitVec.neg_add, BitVec.sub_eq_add_neg, BitVec.sub_eq_add_neg, BitVec.sub_eq_add_neg, BitVec.add_assoc]
  rw [e, BitVec.toNat_sub, BitVec.toNat_ofNat]
  have := (a - b).isLt
  rw [Nat.mod_eq_of_lt ho]
  split <;> omega

theorem add_sub_off (a s b : BitVec 32) (o : Nat) : s + BitVec.ofNat 32 o + (a - (b + BitVec.ofNat 32 o)) = s + (a - b) := by
  grind

/-- the memory after n units of a transfer that steps on both sides, source and destination apart -/
theorem copy_prefix (x : Xfer) (m : Mem) (hr : x.incrRead ≠ 0) (hw : x.incrWrite ≠ 0) (n : Nat) (hn : n * x.size.toNat ≤ 2 ^ 32)
    (L : Nat) (hL : n * x.size.toNat ≤ L) (hd : ∀ i j, i < L → j < L → x.saddr + BitVec.ofNat 32 i ≠ x.daddr + BitVec.ofNat 32 j) (a : BitVec 32) :
    applyBeats ((List.range n).map x.unit) m a = if (a - x.daddr).toNat < n * x.size.toNat then m (x.saddr + (a - x.daddr)) else m a := by
  induction n generalizing a with
  | zero => simp [applyBeats]
  | succ n ih =>
    have hs : (n + 1) * x.size.toNat = n * x.size.toNat + x.size.toNat := by rw [Nat.add_mul, Nat.one_mul]
    rw [hs] at hn hL
    have ih := ih (by omega) (by omega)
    rw [List.range_succ, List.map_append, applyBeats_append, hs]
    show Beat.apply (x.unit n) _ a = _
    simp only [Beat.apply, Xfer.unit, hr, hw, if_false]
    by_cases hz : x.size.toNat = 0
    · rw [if_neg (by omega), ih]
      by_cases c : (a - x.daddr).toNat < n * x.size.toNat
      · rw [if_pos c, if_pos (by omega)]
      · rw [if_neg c, if_neg (by omega)]
    · have ho : n * x.size.toNat < 2 ^ 32 := by omega
      rw [sub_off _ _ _ ho, add_sub_off]
      have hlt := (a - x.daddr).isLt
      by_cases c : n * x.size.toNat ≤ (a - x.daddr).toNat
      · rw [if_pos c]
        by_cases c2 : (a - x.daddr).toNat - n * x.size.toNat < x.size.toNat
        · rw [if_pos c2, if_pos (by omega), ih, if_neg]
          intro h3
          refine hd (a - x.daddr).toNat (x.saddr + (a - x.daddr) - x.daddr).toNat (by omega) (by omega) ?_
          rw [BitVec.ofNat_toNat, BitVec.ofNat_toNat, BitVec.setWidth_eq, BitVec.setWidth_eq]
          grind
        · rw [if_neg c2, if_neg (by omega), ih, if_neg (by omega)]
      · rw [if_neg c, if_neg (by omega), if_pos (by omega), ih, if_pos (by omega)]

/-- **C91**: the units of a transfer that steps on both sides copy the source to the destination, when they do not overlap, and change nothing else -/
theorem wanted_copies (x : Xfer) (m : Mem) (hr : x.incrRead ≠ 0) (hw : x.incrWrite ≠ 0) (hm : x.size.toNat ∣ x.byteCount.toNat)
    (hd : ∀ i j, i < x.byteCount.toNat → j < x.byteCount.toNat → x.saddr + BitVec.ofNat 32 i ≠ x.daddr + BitVec.ofNat 32 j) :
    (∀ i < x.byteCount.toNat, applyBeats x.wanted m (x.daddr + BitVec.ofNat 32 i) = m (x.saddr + BitVec.ofNat 32 i)) ∧
    (∀ a, (∀ i < x.byteCount.toNat, a ≠ x.daddr + BitVec.ofNat 32 i) → applyBeats x.wanted m a = m a) := by
  have hu : x.units * x.size.toNat = x.byteCount.toNat := Nat.div_mul_cancel hm
  have hb := x.byteCount.isLt
  have key := copy_prefix x m hr hw x.units (by omega) x.byteCount.toNat (by omega) hd
  rw [hu] at key
  constructor
  · intro i hi
    rw [Xfer.wanted, key]
    have e : x.daddr + BitVec.ofNat 32 i - x.daddr = BitVec.ofNat 32 i := by grind
    rw [e, BitVec.toNat_ofNat, Nat.mod_eq_of_lt (by omega), if_pos hi]
  · intro a ha
    rw [Xfer.wanted, key, if_neg]
    intro h
    refine ha _ h ?_
    rw [BitVec.ofNat_toNat, BitVec.setWidth_eq]
    grind

/-- the memory after n units of a transfer that steps on the destination only -/
theorem fill_prefix (x : Xfer) (m : Mem) (hr : x.incrRead = 0) (hw : x.incrWrite ≠ 0) (n : Nat) (hn : n * x.size.toNat ≤ 2 ^ 32)
    (L : Nat) (hL : n * x.size.toNat ≤ L) (hd : ∀ i j, i < x.size.toNat → j < L → x.saddr + BitVec.ofNat 32 i ≠ x.daddr + BitVec.ofNat 32 j) (a : BitVec 32) :
    applyBeats ((List.range n).map x.unit) m a =
      if (a - x.daddr).toNat < n * x.size.toNat then m (x.saddr + BitVec.ofNat 32 ((a - x.daddr).toNat % x.size.toNat)) else m a := by
  induction n generalizing a with
  | zero => simp [applyBeats]
  | succ n ih =>
    have hs : (n + 1) * x.size.toNat = n * x.size.toNat + x.size.toNat := by rw [Nat.add_mul, Nat.one_mul]
    rw [hs] at hn hL
    have ih := ih (by omega) (by omega)
    rw [List.range_succ, List.map_append, applyBeats_append, hs]
    show Beat.apply (x.unit n) _ a = _
    simp only [Beat.apply, Xfer.unit, hr, hw, if_false, if_true, BitVec.add_zero]
    by_cases hz : x.size.toNat = 0
    · rw [if_neg (by omega), ih]
      by_cases c : (a - x.daddr).toNat < n * x.size.toNat
      · rw [if_pos c, if_pos (by omega)]
      · rw [if_neg c, if_neg (by omega)]
    · have ho : n * x.size.toNat < 2 ^ 32 := by omega
      have so := sub_off a x.daddr _ ho
      have hlt := (a - x.daddr).isLt
      by_cases c : n * x.size.toNat ≤ (a - x.daddr).toNat
      · rw [if_pos c] at so
        rw [so]
        by_cases c2 : (a - x.daddr).toNat - n * x.size.toNat < x.size.toNat
        · rw [if_pos c2, if_pos (by omega)]
          have e : a - (x.daddr + BitVec.ofNat 32 (n * x.size.toNat)) = BitVec.ofNat 32 ((a - x.daddr).toNat % x.size.toNat) := by
            apply BitVec.eq_of_toNat_eq
            rw [so, BitVec.toNat_ofNat]
            have : (a - x.daddr).toNat % x.size.toNat = (a - x.daddr).toNat - n * x.size.toNat := by
              generalize (a - x.daddr).toNat = d at *
              generalize x.size.toNat = s at *
              obtain ⟨r, rfl⟩ := Nat.exists_eq_add_of_le c
              rw [Nat.add_sub_cancel_left, Nat.mul_comm, Nat.mul_add_mod, Nat.mod_eq_of_lt (by omega)]
            rw [this, Nat.mod_eq_of_lt (by omega)]
          rw [e, ih, if_neg]
          intro h3
          refine hd ((a - x.daddr).toNat % x.size.toNat) (x.saddr + BitVec.ofNat 32 ((a - x.daddr).toNat % x.size.toNat) - x.daddr).toNat (Nat.mod_lt _ (by omega)) (by omega) ?_
          rw [BitVec.ofNat_toNat, BitVec.setWidth_eq]
          grind
        · rw [if_neg c2, if_neg (by omega), ih, if_neg (by omega)]
      · rw [if_neg c] at so
        rw [so, if_neg (by omega), if_pos (by omega), ih, if_pos (by omega)]

/-- **C91**: the units of a transfer that steps on the destination only fill it with the source unit -/
theorem wanted_fills (x : Xfer) (m : Mem) (hr : x.incrRead = 0) (hw : x.incrWrite ≠ 0) (hm : x.size.toNat ∣ x.byteCount.toNat)
    (hd : ∀ i j, i < x.size.toNat → j < x.byteCount.toNat → x.saddr + BitVec.ofNat 32 i ≠ x.daddr + BitVec.ofNat 32 j) :
    (∀ i < x.byteCount.toNat, applyBeats x.wanted m (x.daddr + BitVec.ofNat 32 i) = m (x.saddr + BitVec.ofNat 32 (i % x.size.toNat))) ∧
    (∀ a, (∀ i < x.byteCount.toNat, a ≠ x.daddr + BitVec.ofNat 32 i) → applyBeats x.wanted m a = m a) := by
  have hu : x.units * x.size.toNat = x.byteCount.toNat := Nat.div_mul_cancel hm
  have hb := x.byteCount.isLt
  have key := fill_prefix x m hr hw x.units (by omega) x.byteCount.toNat (by omega) hd
  rw [hu] at key
  constructor
  · intro i hi
    rw [Xfer.wanted, key]
    have e : x.daddr + BitVec.ofNat 32 i - x.daddr = BitVec.ofNat 32 i := by grind
    rw [e, BitVec.toNat_ofNat, Nat.mod_eq_of_lt (by omega), if_pos hi]
  · intro a ha
    rw [Xfer.wanted, key, if_neg]
    intro h
    refine ha _ h ?_
    rw [BitVec.ofNat_toNat, BitVec.setWidth_eq]
    grind

/-- a copy of 8 bytes in 2 words -/
def sample : Xfer := { saddr := 0x20000000#32, daddr := 0x20001000#32, incrRead := 1, incrWrite := 1, size := 4#32, byteCount := 8#32 }

example : sample.wanted = [⟨0x20000000#32, 0x20001000#32, 4⟩, ⟨0x20000004#32, 0x20001004#32, 4⟩] := by decide

/-- the hypotheses of `wanted_copies` are met by `sample` -/
theorem sample_copies (m : Mem) : (∀ i < 8, applyBeats sample.wanted m (0x20001000#32 + BitVec.ofNat 32 i) = m (0x20000000#32 + BitVec.ofNat 32 i)) := by
  refine (wanted_copies sample m (by decide) (by decide) (by decide) ?_).1
  intro i j hi hj h
  have hi : i < 8 := hi
  have hj : j < 8 := hj
  have h : (0x20000000#32 + BitVec.ofNat 32 i).toNat = (0x20001000#32 + BitVec.ofNat 32 j).toNat := congrArg BitVec.toNat h
  rw [BitVec.toNat_add, BitVec.toNat_add, BitVec.toNat_ofNat, BitVec.toNat_ofNat, BitVec.toNat_ofNat, BitVec.toNat_ofNat] at h
  omega

end Pico.Dma
