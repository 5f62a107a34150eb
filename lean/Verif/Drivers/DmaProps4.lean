import Verif.Drivers.DmaProps3

/-
C91-C93 for same5x.
-/
namespace Pico.Dma

open Field

/-! ### same5x -/

namespace Sa

/-- the channel runs transfer x, one unit per trigger, k units of which have been moved -/
structure Armed (x : Xfer) (l0 : List Beat) (k : Nat) (c : Sa) : Prop where
  en : c.enable = decide (k < x.units)
  act : c.trigact = 2
  tc : c.tcmpl = decide (x.units ≤ k)
  mv : Moving x l0 (min k x.units) c.seq

theorem Armed.trigger {x : Xfer} {l0 : List Beat} {k : Nat} {c : Sa} (h : Armed x l0 k c) : Armed x l0 (k + 1) c.trigger := by
  have hl := h.mv.left
  rw [Sa.trigger]
  by_cases ck : k < x.units
  · rw [Nat.min_eq_left (by omega)] at hl
    rw [if_pos ⟨by rw [h.en]; simp [ck], by omega⟩]
    have mv := h.mv.beat_min
    have hl' := mv.left
    rw [Nat.min_eq_left (by omega)] at hl'
    by_cases e : k + 1 = x.units
    · simp only [h.act, if_true, show c.seq.beat.left = 0 by omega]
      exact ⟨by simp; omega, rfl, by simp; omega, mv⟩
    · simp only [h.act, if_true, show ¬ c.seq.beat.left = 0 by omega, if_false]
      refine ⟨?_, rfl, ?_, mv⟩
      · rw [h.en]; simp only [ck, show k + 1 < x.units by omega]
      · rw [h.tc]; simp only [show ¬ x.units ≤ k by omega, show ¬ x.units ≤ k + 1 by omega]
  · rw [Nat.min_eq_right (by omega)] at hl
    rw [if_neg (fun q => q.2 (by omega))]
    refine ⟨?_, h.act, ?_, ?_⟩
    · rw [h.en]; simp only [ck, show ¬ k + 1 < x.units by omega]
    · rw [h.tc]; simp only [show x.units ≤ k by omega, show x.units ≤ k + 1 by omega]
    · have mv := h.mv
      rw [Nat.min_eq_right (by omega)] at mv ⊢
      exact mv

theorem Armed.cycles {x : Xfer} {l0 : List Beat} {k : Nat} {c : Sa} (h : Armed x l0 k c) (rs : List Bool) : Armed x l0 (k + rs.count true) (Sa.cycles rs c) := by
  induction rs generalizing k c with
  | nil => simpa [Sa.cycles] using h
  | cons r rs ih =>
    rw [Sa.cycles, ← count_step]
    apply ih
    by_cases g : r = true
    · rw [if_pos g, Sa.cycle, if_pos g]; exact h.trigger
    · rw [if_neg g, Sa.cycle, if_neg g]; exact h

/-- how the controller reads the descriptor dma_setup writes; p: 0, 1, 2 for units of 1, 2 and 4 bytes -/
theorem btctrlOf_decode : ∀ (p : Fin 3) (rd wr : Bool),
    let v := Sa.btctrlOf (BitVec.ofNat 32 (2 ^ p.val)) rd wr
    width (Field.get 2 8 v).toNat = some (2 ^ p.val) ∧ v.getLsbD 10 = rd ∧ v.getLsbD 11 = wr ∧ v.getLsbD 0 = true := by decide +kernel

theorem setup_eq (x : Xfer) (c : Sa) (hr : x.incrRead ≤ 2) (hw : x.incrWrite ≤ 2) (hs : x.size = 1#32 ∨ x.size = 2#32 ∨ x.size = 4#32) :
    Sa.setup x c = (0, { c with
      btctrl := Sa.btctrlOf x.size (decide (x.incrRead ≠ 0)) (decide (x.incrWrite ≠ 0))
      btcnt := (x.byteCount / x.size).setWidth 16
      srcaddr := if x.incrRead = 0 then x.saddr else x.saddr + x.byteCount
      dstaddr := if x.incrWrite = 0 then x.daddr else x.daddr + x.byteCount
      tcmpl := false
      enable := true
      seq := Sa.fetch { c with
        btctrl := Sa.btctrlOf x.size (decide (x.incrRead ≠ 0)) (decide (x.incrWrite ≠ 0))
        btcnt := (x.byteCount / x.size).setWidth 16
        srcaddr := if x.incrRead = 0 then x.saddr else x.saddr + x.byteCount
        dstaddr := if x.incrWrite = 0 then x.daddr else x.daddr + x.byteCount
        tcmpl := false } }) := by
  rw [Sa.setup, if_neg (by rcases hs with q | q | q <;> rw [q] <;> decide), if_neg (by rcases hs with q | q | q <;> rw [q] <;> decide), if_neg (by omega), if_neg (by omega)]

theorem setup_armed (x : Xfer) (c : Sa) (ha : c.trigact = 2) (hr : x.incrRead ≤ 2) (hw : x.incrWrite ≤ 2) (hs : x.size = 1#32 ∨ x.size = 2#32 ∨ x.size = 4#32)
    (hm : x.size.toNat ∣ x.byteCount.toNat) (h0 : 0 < x.units) (hn : x.units < 2 ^ 16) : (Sa.setup x c).1 = 0 ∧ Armed x c.seq.log 0 (Sa.setup x c).2 := by
  have hcnt : ((x.byteCount / x.size).setWidth 16).toNat = x.units := by
    rw [BitVec.toNat_setWidth, units_eq, Nat.mod_eq_of_lt hn]
  rw [setup_eq x c hr hw hs]
  refine ⟨rfl, ?_⟩
  obtain ⟨p, hp⟩ : ∃ p : Fin 3, x.size = BitVec.ofNat 32 (2 ^ p.val) := by
    rcases hs with q | q | q
    · exact ⟨0, q⟩
    · exact ⟨1, q⟩
    · exact ⟨2, q⟩
  have eu : 2 ^ p.val = x.size.toNat := by
    rw [hp]
    exact (show ∀ p : Fin 3, 2 ^ p.val = (BitVec.ofNat 32 (2 ^ p.val)).toNat by decide) p
  obtain ⟨d1, d2, d3, d4⟩ := btctrlOf_decode p (decide (x.incrRead ≠ 0)) (decide (x.incrWrite ≠ 0))
  rw [← hp] at d1 d2 d3 d4
  rw [eu] at d1
  have hlen : BitVec.ofNat 32 (((x.byteCount / x.size).setWidth 16).toNat * x.size.toNat) = x.byteCount := by
    rw [hcnt, Xfer.units, Nat.div_mul_cancel hm, BitVec.ofNat_toNat, BitVec.setWidth_eq]
  have cancel : ∀ a b : BitVec 32, a + b - b = a := by intro a b; grind
  refine ⟨by simp [h0], ha, by simp; omega, ?_⟩
  rw [Nat.zero_min]
  simp only [Sa.fetch, d1, d2, d3, d4, hlen, if_true]
  refine Moving.start ?_ ?_ ?_ ?_ rfl hcnt rfl
  · show (if decide (x.incrRead ≠ 0) = true then (if x.incrRead = 0 then x.saddr else x.saddr + x.byteCount) - x.byteCount else if x.incrRead = 0 then x.saddr else x.saddr + x.byteCount) = _
    by_cases q : x.incrRead = 0 <;> simp only [q, ne_eq, not_true_eq_false, not_false_eq_true, decide_true, decide_false, Bool.false_eq_true, if_true, if_false, cancel]
  · show (if decide (x.incrWrite ≠ 0) = true then (if x.incrWrite = 0 then x.daddr else x.daddr + x.byteCount) - x.byteCount else if x.incrWrite = 0 then x.daddr else x.daddr + x.byteCount) = _
    by_cases q : x.incrWrite = 0 <;> simp only [q, ne_eq, not_true_eq_false, not_false_eq_true, decide_true, decide_false, Bool.false_eq_true, if_true, if_false, cancel]
  · show (if decide (x.incrRead ≠ 0) = true then BitVec.ofNat 32 x.size.toNat else 0#32) = _
    rw [BitVec.ofNat_toNat, BitVec.setWidth_eq]; by_cases q : x.incrRead = 0 <;> simp [q]
  · show (if decide (x.incrWrite ≠ 0) = true then BitVec.ofNat 32 x.size.toNat else 0#32) = _
    rw [BitVec.ofNat_toNat, BitVec.setWidth_eq]; by_cases q : x.incrWrite = 0 <;> simp [q]

/-- **C91, C92, same5x**: dma_setup on a channel initialised, with units of 1, 2 or 4 bytes, 1 to 65535 of them, and no remainder: it returns 0 and from then on, for every schedule,
the units move in order, one per request, and nothing else does -/
theorem setup_moves (x : Xfer) (c : Sa) (sched : List Bool) (hr : x.incrRead ≤ 2) (hw : x.incrWrite ≤ 2) (hs : x.size = 1#32 ∨ x.size = 2#32 ∨ x.size = 4#32)
    (hm : x.size.toNat ∣ x.byteCount.toNat) (h0 : 0 < x.units) (hn : x.units < 2 ^ 16) :
    (Sa.setup x (Sa.init c)).1 = 0 ∧ (Sa.cycles sched (Sa.setup x (Sa.init c)).2).seq.log = c.seq.log ++ x.wanted.take (sched.count true) := by
  obtain ⟨e0, a⟩ := setup_armed x (Sa.init c) rfl hr hw hs hm h0 hn
  refine ⟨e0, ?_⟩
  have := (a.cycles sched).mv.log_take
  rwa [Nat.zero_add] at this

/-- **C93, same5x**: and dma_xfer_done returns 0 exactly when they have all been moved -/
theorem setup_done (x : Xfer) (c : Sa) (sched : List Bool) (hr : x.incrRead ≤ 2) (hw : x.incrWrite ≤ 2) (hs : x.size = 1#32 ∨ x.size = 2#32 ∨ x.size = 4#32)
    (hm : x.size.toNat ∣ x.byteCount.toNat) (h0 : 0 < x.units) (hn : x.units < 2 ^ 16) :
    Sa.done (Sa.cycles sched (Sa.setup x (Sa.init c)).2) = 0 ↔ (Sa.cycles sched (Sa.setup x (Sa.init c)).2).seq.log = c.seq.log ++ x.wanted := by
  have a := (setup_armed x (Sa.init c) rfl hr hw hs hm h0 hn).2.cycles sched
  rw [show c.seq.log = (Sa.init c).seq.log from rfl, ← a.mv.left_zero_iff, Sa.done, a.tc]
  have hl := a.mv.left
  rw [Nat.zero_add] at *
  by_cases q : x.units ≤ sched.count true
  · simp only [q, decide_true, if_true]
    rw [Nat.min_eq_right (by omega)] at hl
    exact ⟨fun _ => by omega, fun _ => trivial⟩
  · simp only [q, decide_false, Bool.false_eq_true, if_false]
    rw [Nat.min_eq_left (by omega)] at hl
    exact ⟨fun z => absurd z (by decide), fun z => absurd z (by omega)⟩

/-- **C92 refuted, same5x**: dma_xfer gives one software trigger to a channel that needs one per unit: one unit moves, the others never do without requests, and dma_xfer_done never returns 0 -/
theorem xfer_one_unit (x : Xfer) (c : Sa) (n : Nat) (hr : x.incrRead ≤ 2) (hw : x.incrWrite ≤ 2) (hs : x.size = 1#32 ∨ x.size = 2#32 ∨ x.size = 4#32)
    (hm : x.size.toNat ∣ x.byteCount.toNat) (h0 : 1 < x.units) (hn : x.units < 2 ^ 16) :
    (Sa.xfer x (Sa.init c)).1 = 0 ∧ (Sa.cycles (List.replicate n false) (Sa.xfer x (Sa.init c)).2).seq.log = c.seq.log ++ x.wanted.take 1 ∧
    Sa.done (Sa.cycles (List.replicate n false) (Sa.xfer x (Sa.init c)).2) ≠ 0 := by
  obtain ⟨e0, a⟩ := setup_armed x (Sa.init c) rfl hr hw hs hm (by omega) hn
  have e : Sa.xfer x (Sa.init c) = (0, (Sa.setup x (Sa.init c)).2.trigger) := by
    simp only [Sa.xfer, e0, show ¬ ((0 : Int) < 0) by decide, if_false]
  have hc : (List.replicate n false).count true = 0 := by simp [List.count_replicate]
  rw [e]
  have b := a.trigger.cycles (List.replicate n false)
  rw [hc] at b
  refine ⟨rfl, b.mv.log_take, ?_⟩
  rw [Sa.done, b.tc]
  simp only [show ¬ x.units ≤ 0 + 1 + 0 by omega, decide_false, Bool.false_eq_true, if_false]
  decide

/-- **C92, same5x**: a transfer of one unit is done by dma_xfer at once -/
theorem xfer_single (x : Xfer) (c : Sa) (hr : x.incrRead ≤ 2) (hw : x.incrWrite ≤ 2) (hs : x.size = 1#32 ∨ x.size = 2#32 ∨ x.size = 4#32)
    (hm : x.size.toNat ∣ x.byteCount.toNat) (h0 : x.units = 1) :
    (Sa.xfer x (Sa.init c)).1 = 0 ∧ (Sa.xfer x (Sa.init c)).2.seq.log = c.seq.log ++ x.wanted ∧ Sa.done (Sa.xfer x (Sa.init c)).2 = 0 := by
  obtain ⟨e0, a⟩ := setup_armed x (Sa.init c) rfl hr hw hs hm (by omega) (by omega)
  have e : Sa.xfer x (Sa.init c) = (0, (Sa.setup x (Sa.init c)).2.trigger) := by
    simp only [Sa.xfer, e0, show ¬ ((0 : Int) < 0) by decide, if_false]
  rw [e]
  have b := a.trigger
  refine ⟨rfl, ?_, ?_⟩
  · have := b.mv.log_take
    rw [List.take_of_length_le (by rw [wanted_length]; omega)] at this
    exact this
  · rw [Sa.done, b.tc]
    simp [h0]

/-- a channel just initialised -/
def reset : Sa := Sa.init ⟨0#16, 0#16, 0#32, 0#32, false, 0, false, ⟨0#32, 0#32, 0#32, 0#32, 1, 0, []⟩⟩

/-- an instance of `setup_moves` -/
theorem moves_sample :
    let x : Xfer := { saddr := 0x20000000#32, daddr := 0x40003028#32, incrRead := 1, incrWrite := 0, size := 2#32, byteCount := 4#32 }
    (Sa.cycles [true, false, true, true] (Sa.setup x reset).2).seq.log = [⟨0x20000000#32, 0x40003028#32, 2⟩, ⟨0x20000002#32, 0x40003028#32, 2⟩] := by decide +kernel

/-- **C91 refuted, same5x**: with a remainder, the addresses that step start too far by it: 5 bytes by 2 from 0x20000000 are read from 0x20000001.
The size 3 is not refused, and gives units of 2 bytes. -/
theorem remainder_shifts :
    (let x : Xfer := { saddr := 0x20000000#32, daddr := 0x40003028#32, incrRead := 1, incrWrite := 0, size := 2#32, byteCount := 5#32 }
     (Sa.setup x reset).1 = 0 ∧ (Sa.cycles [true, true] (Sa.setup x reset).2).seq.log = [⟨0x20000001#32, 0x40003028#32, 2⟩, ⟨0x20000003#32, 0x40003028#32, 2⟩]) ∧
    (let x : Xfer := { saddr := 0x20000000#32, daddr := 0x40003028#32, incrRead := 0, incrWrite := 0, size := 3#32, byteCount := 3#32 }
     (Sa.setup x reset).1 = 0 ∧ (Sa.cycles [true] (Sa.setup x reset).2).seq.log = [⟨0x20000000#32, 0x40003028#32, 2⟩]) := by decide +kernel

end Sa

end Pico.Dma
