import Verif.Drivers.DmaProps

/-
C91-C93 for gd32vf103, stm32h7xx, nxp_edma, same5x and ti_f28x.
-/
namespace Pico.Dma

open Field

theorem Moving.left_zero_iff {x : Xfer} {l0 : List Beat} {k : Nat} {s : Seq} (h : Moving x l0 k s) : s.left = 0 ↔ s.log = l0 ++ x.wanted := by
  have hl := h.left
  have hle := h.le
  constructor
  · intro h0
    rw [h.log, List.take_of_length_le (by rw [wanted_length]; omega)]
  · intro he
    rw [h.log] at he
    have hlen := congrArg List.length (List.append_cancel_left he)
    rw [List.length_take, wanted_length] at hlen
    omega

theorem size_cases (x : Xfer) (n : Nat) (h : x.size.toNat = n) : x.size = BitVec.ofNat 32 n := by
  rw [← h, BitVec.ofNat_toNat, BitVec.setWidth_eq]

/-! ### gd32vf103 -/

namespace Gd

/-- the channel runs transfer x, k units of which have been moved, one per request -/
structure Armed (x : Xfer) (l0 : List Beat) (k : Nat) (c : Gd) : Prop where
  en : c.ctl.getLsbD 0 = true
  m2m : c.ctl.getLsbD 14 = false
  cnt : c.cnt = BitVec.ofNat 16 c.seq.left
  mv : Moving x l0 (min k x.units) c.seq

theorem Armed.cycle {x : Xfer} {l0 : List Beat} {k : Nat} {c : Gd} (h : Armed x l0 k c) (r : Bool) : Armed x l0 (if r = true then k + 1 else k) (c.cycle r) := by
  by_cases g : r = true
  · rw [if_pos g, Gd.cycle, if_pos ⟨h.en, .inl g⟩]
    exact ⟨h.en, h.m2m, rfl, h.mv.beat_min⟩
  · rw [if_neg g, Gd.cycle, if_neg]
    · exact h
    · rw [h.m2m]
      rintro ⟨_, q | q⟩
      · exact g q
      · exact absurd q (by decide)

theorem Armed.cycles {x : Xfer} {l0 : List Beat} {k : Nat} {c : Gd} (h : Armed x l0 k c) (rs : List Bool) : Armed x l0 (k + rs.count true) (Gd.cycles rs c) := by
  induction rs generalizing k c with
  | nil => simpa [Gd.cycles] using h
  | cons r rs ih =>
    have h := ih (h.cycle r)
    rw [Gd.cycles]
    have e : (if r = true then k + 1 else k) + rs.count true = k + (r :: rs).count true := by
      cases r <;> simp <;> omega
    rwa [e] at h

/-- how the controller reads the register dma_prepare writes, for units of 1 and 2 bytes -/
theorem ctlOf_decode : ∀ (wide fp rd wr : Bool),
    let v := Gd.ctlOf (if wide then 1#32 else 0#32) fp rd wr
    width (Field.get 2 10 v).toNat = some (if wide then 2 else 1) ∧ Field.get 2 8 v = Field.get 2 10 v ∧ v.getLsbD 4 = (!fp) ∧
    v.getLsbD 6 = (if fp then rd else wr) ∧ v.getLsbD 7 = (if fp then wr else rd) ∧ v.getLsbD 14 = false := by decide +kernel

theorem setup_armed (x : Xfer) (c : Gd) (h : Gd.check x = 0) (hs : x.size = 1#32 ∨ x.size = 2#32) (hn : x.units < 2 ^ 16) :
    (Gd.setup x c).1 = 0 ∧ Armed x c.seq.log 0 (Gd.setup x c).2 := by
  have hcnt : (BitVec.ofNat 16 (x.byteCount / x.size).toNat).toNat = x.units := by
    rw [units_eq, BitVec.toNat_ofNat, Nat.mod_eq_of_lt hn]
  rw [Gd.setup, if_neg (by simpa using h)]
  refine ⟨rfl, ?_⟩
  obtain ⟨wide, hw⟩ : ∃ wide : Bool, x.size = if wide then 2#32 else 1#32 := by
    rcases hs with q | q
    · exact ⟨false, q⟩
    · exact ⟨true, q⟩
  have ew : x.size - 1#32 = if wide then 1#32 else 0#32 := by rw [hw]; cases wide <;> decide
  have eu : (if wide then 2 else 1) = x.size.toNat := by rw [hw]; cases wide <;> decide
  obtain ⟨d1, d2, d3, d4, d5, d6⟩ := ctlOf_decode wide (fromPeripheral x) (decide (x.incrRead ≠ 0)) (decide (x.incrWrite ≠ 0))
  rw [← ew] at d1 d2 d3 d4 d5 d6
  rw [eu] at d1
  have hz : (if decide (x.incrRead ≠ 0) = true then BitVec.ofNat 32 x.size.toNat else 0#32) = if x.incrRead = 0 then 0#32 else x.size := by
    rw [BitVec.ofNat_toNat, BitVec.setWidth_eq]; by_cases q : x.incrRead = 0 <;> simp [q]
  have hz' : (if decide (x.incrWrite ≠ 0) = true then BitVec.ofNat 32 x.size.toNat else 0#32) = if x.incrWrite = 0 then 0#32 else x.size := by
    rw [BitVec.ofNat_toNat, BitVec.setWidth_eq]; by_cases q : x.incrWrite = 0 <;> simp [q]
  have key : (Gd.prepare x c).latch.left = x.units ∧ Moving x c.seq.log 0 (Gd.prepare x c).latch := by
    simp only [Gd.latch, Gd.prepare, d1, d2, d3, d4, d5, ne_eq, not_true_eq_false, if_false]
    by_cases cp : fromPeripheral x = true
    · simp only [cp, Bool.not_true, Bool.false_eq_true, if_false, if_true]
      exact ⟨hcnt, Moving.start rfl rfl hz hz' rfl hcnt rfl⟩
    · simp only [cp, Bool.not_false, if_false, if_true]
      exact ⟨hcnt, Moving.start rfl rfl hz hz' rfl hcnt rfl⟩
  refine ⟨bset_same _ _ (by decide), ?_, ?_, ?_⟩
  · show (bset 0 (Gd.ctlOf _ _ _ _)).getLsbD 14 = false
    rw [bset_ne _ _ _ (by decide), d6]
  · show (BitVec.ofNat 16 (x.byteCount / x.size).toNat) = BitVec.ofNat 16 (Gd.prepare x c).latch.left
    rw [key.1, units_eq]
  · rw [Nat.zero_min]; exact key.2

/-- **C91, C92, gd32vf103**: dma_setup with units of 1 or 2 bytes and less than 65536 of them: it returns 0 and from then on, for every schedule, the units of the transfer move in
order, one per request of the peripheral, and nothing else does -/
theorem setup_moves (x : Xfer) (c : Gd) (sched : List Bool) (h : Gd.check x = 0) (hs : x.size = 1#32 ∨ x.size = 2#32) (hn : x.units < 2 ^ 16) :
    (Gd.setup x c).1 = 0 ∧ (Gd.cycles sched (Gd.setup x c).2).seq.log = c.seq.log ++ x.wanted.take (sched.count true) := by
  obtain ⟨h0, a⟩ := setup_armed x c h hs hn
  refine ⟨h0, ?_⟩
  have := (a.cycles sched).mv.log_take
  rwa [Nat.zero_add] at this

/-- **C93, gd32vf103**: and dma_xfer_done returns 0 exactly when they have all been moved -/
theorem setup_done (x : Xfer) (c : Gd) (sched : List Bool) (h : Gd.check x = 0) (hs : x.size = 1#32 ∨ x.size = 2#32) (hn : x.units < 2 ^ 16) :
    Gd.done (Gd.cycles sched (Gd.setup x c).2) = 0 ↔ (Gd.cycles sched (Gd.setup x c).2).seq.log = c.seq.log ++ x.wanted := by
  have a := (setup_armed x c h hs hn).2.cycles sched
  rw [← a.mv.left_zero_iff, Gd.done, a.cnt]
  have hl := a.mv.left
  constructor
  · intro q
    by_cases z : BitVec.ofNat 16 (Gd.cycles sched (Gd.setup x c).2).seq.left = 0#16
    · have := congrArg BitVec.toNat z
      rw [BitVec.toNat_ofNat, Nat.mod_eq_of_lt (by omega)] at this
      exact this
    · rw [if_pos z] at q; exact absurd q (by decide)
  · intro q; rw [q]; simp

/-- **C92 refuted, gd32vf103**: dma_xfer is dma_setup: without a request of the peripheral nothing is ever moved, and dma_xfer_done never returns 0 -/
theorem xfer_never_starts (x : Xfer) (c : Gd) (n : Nat) (h : Gd.check x = 0) (hs : x.size = 1#32 ∨ x.size = 2#32) (hn : x.units < 2 ^ 16) (h0 : 0 < x.units) :
    (Gd.xfer x c).1 = 0 ∧ (Gd.cycles (List.replicate n false) (Gd.xfer x c).2).seq.log = c.seq.log ∧
    Gd.done (Gd.cycles (List.replicate n false) (Gd.xfer x c).2) ≠ 0 := by
  have e : Gd.xfer x c = Gd.setup x c := rfl
  have hc : (List.replicate n false).count true = 0 := by simp [List.count_replicate]
  have m := setup_moves x c (List.replicate n false) h hs hn
  rw [hc, List.take_zero, List.append_nil] at m
  rw [e]
  refine ⟨m.1, m.2, ?_⟩
  rw [Ne, setup_done x c _ h hs hn, m.2]
  intro q
  have := congrArg List.length q
  rw [List.length_append, wanted_length] at this
  omega

/-- **C91 refuted, gd32vf103**: for units of 4 bytes the width code written is 3, which is reserved (the code of 4 bytes is 2); dma_setup returns 0 -/
theorem word_reserved (x : Xfer) (c : Gd) (h : Gd.check x = 0) (hs : x.size = 4#32) :
    (Gd.setup x c).1 = 0 ∧ (Field.get 2 10 (Gd.setup x c).2.ctl).toNat = 3 ∧ (Field.get 2 8 (Gd.setup x c).2.ctl).toNat = 3 := by
  rw [Gd.setup, if_neg (by simpa using h)]
  have d : ∀ fp rd wr : Bool, (Field.get 2 10 (bset 0 (Gd.ctlOf (4#32 - 1#32) fp rd wr))).toNat = 3 ∧ (Field.get 2 8 (bset 0 (Gd.ctlOf (4#32 - 1#32) fp rd wr))).toNat = 3 := by decide +kernel
  refine ⟨rfl, ?_⟩
  simp only [Gd.prepare, hs]
  exact d _ _ _

/-- **C91 refuted, gd32vf103**: the size 3 is not refused and gives units of 4 bytes; 65536 units or more, and the count is truncated: of 65537 bytes, one moves -/
theorem truncated :
    (let x : Xfer := { saddr := 0x20000000#32, daddr := 0x40003800#32, incrRead := 1, incrWrite := 0, size := 3#32, byteCount := 3#32 }
     let c : Gd := { ctl := 0#32, cnt := 0#16, paddr := 0#32, maddr := 0#32, seq := { src := 0#32, dst := 0#32, sstep := 0#32, dstep := 0#32, unit := 1, left := 0, log := [] } }
     (Gd.setup x c).1 = 0 ∧ (Gd.cycles [true] (Gd.setup x c).2).seq.log = [⟨0x20000000#32, 0x40003800#32, 4⟩]) ∧
    (let x : Xfer := { saddr := 0x20000000#32, daddr := 0x40003800#32, incrRead := 1, incrWrite := 0, size := 1#32, byteCount := 65537#32 }
     let c : Gd := { ctl := 0#32, cnt := 0#16, paddr := 0#32, maddr := 0#32, seq := { src := 0#32, dst := 0#32, sstep := 0#32, dstep := 0#32, unit := 1, left := 0, log := [] } }
     (Gd.setup x c).1 = 0 ∧ (Gd.cycles [true] (Gd.setup x c).2).seq.left = 0 ∧ Gd.done (Gd.cycles [true] (Gd.setup x c).2) = 0 ∧ x.units = 65537) := by decide +kernel

/-- **C91, gd32vf103**: the transfers that dma_setup and dma_xfer accept: units of 1 to 4 bytes, at least one byte, and steps that are booleans or INCR_AUTO; the others change nothing -/
theorem accepted_iff (x : Xfer) (c : Gd) :
    (Gd.check x = 0 ↔ 1 ≤ x.size.toNat ∧ x.size.toNat ≤ 4 ∧ 1 ≤ x.byteCount.toNat ∧ x.incrRead ≤ 2 ∧ x.incrWrite ≤ 2) ∧
    ((Gd.setup x c).1 = 0 ↔ Gd.check x = 0) ∧ ((Gd.xfer x c).1 = 0 ↔ Gd.check x = 0) ∧
    ((Gd.setup x c).1 ≠ 0 → (Gd.setup x c).2 = c) ∧ ((Gd.xfer x c).1 ≠ 0 → (Gd.xfer x c).2 = c) := by
  have z : ∀ w : BitVec 32, w = 0#32 ↔ w.toNat = 0 := fun w => ⟨fun h => by rw [h]; rfl, fun h => BitVec.eq_of_toNat_eq h⟩
  refine ⟨?_, ?_, ?_, ?_, ?_⟩
  · unfold Gd.check
    have e1 : eagain ≠ 0 := by decide
    have e2 : einval ≠ 0 := by decide
    split
    · rename_i h; rw [z] at h; exact ⟨fun q => absurd q e1, fun q => absurd q.1 (by omega)⟩
    rename_i h; rw [z] at h
    split
    · exact ⟨fun q => absurd q e1, fun q => absurd q.2.1 (by omega)⟩
    split
    · rename_i h3; rw [z] at h3; exact ⟨fun q => absurd q e1, fun q => absurd q.2.2.1 (by omega)⟩
    rename_i h3; rw [z] at h3
    split
    · exact ⟨fun q => absurd q e2, fun q => absurd q.2.2.2.1 (by omega)⟩
    split
    · exact ⟨fun q => absurd q e2, fun q => absurd q.2.2.2.2 (by omega)⟩
    · exact ⟨fun _ => by omega, fun _ => rfl⟩
  · unfold Gd.setup; split
    · exact Iff.rfl
    · rename_i h; exact ⟨fun _ => by simpa using h, fun _ => rfl⟩
  · unfold Gd.xfer; split
    · exact Iff.rfl
    · rename_i h; exact ⟨fun _ => by simpa using h, fun _ => rfl⟩
  · unfold Gd.setup; split
    · exact fun _ => rfl
    · exact fun q => absurd rfl q
  · unfold Gd.xfer; split
    · exact fun _ => rfl
    · exact fun q => absurd rfl q

/-- an instance of `setup_moves`: 4 bytes to SPI1 data, 2 by 2 -/
theorem moves_sample :
    let x : Xfer := { saddr := 0x20000000#32, daddr := 0x4001300c#32, incrRead := 1, incrWrite := 0, size := 2#32, byteCount := 4#32 }
    let c : Gd := { ctl := 0#32, cnt := 0#16, paddr := 0#32, maddr := 0#32, seq := { src := 0#32, dst := 0#32, sstep := 0#32, dstep := 0#32, unit := 1, left := 0, log := [] } }
    Gd.check x = 0 ∧ (Gd.cycles [true, false, true, true] (Gd.setup x c).2).seq.log = [⟨0x20000000#32, 0x4001300c#32, 2⟩, ⟨0x20000002#32, 0x4001300c#32, 2⟩] := by decide +kernel

end Gd
end Pico.Dma
