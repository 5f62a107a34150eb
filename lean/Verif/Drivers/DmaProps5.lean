import Verif.Drivers.DmaProps3

/-
C91-C93 for ti_f28x.
-/
namespace Pico.Dma

open Field

/-! ### ti_f28x -/

namespace Ti

/-- the channel runs transfer x, k words of which have been moved -/
structure Armed (x : Xfer) (l0 : List Beat) (k : Nat) (c : Ti) : Prop where
  run : c.run = decide (k < x.units)
  wide : c.wide = false
  busy : c.busy = decide (0 < k ∧ k < x.units)
  mv : Moving x l0 (min k x.units) c.seq

theorem Armed.cycle {x : Xfer} {l0 : List Beat} {k : Nat} {c : Ti} (h : Armed x l0 k c) (r : Bool) : Armed x l0 (if r = true then k + 1 else k) (c.cycle r) := by
  have hl := h.mv.left
  by_cases g : r = true
  · rw [if_pos g, Ti.cycle]
    by_cases ck : k < x.units
    · rw [Nat.min_eq_left (by omega)] at hl
      rw [if_pos ⟨by rw [h.run]; simp [ck], g, h.wide⟩]
      have mv := h.mv.beat_min
      have hl' := mv.left
      rw [Nat.min_eq_left (by omega)] at hl'
      by_cases e : k + 1 = x.units
      · simp only [show c.seq.beat.left = 0 by omega, if_true]
        exact ⟨by simp; omega, h.wide, by simp; omega, mv⟩
      · simp only [show ¬ c.seq.beat.left = 0 by omega, if_false]
        refine ⟨?_, h.wide, by simp; omega, mv⟩
        rw [h.run]; simp only [ck, show k + 1 < x.units by omega]
    · rw [if_neg]
      · refine ⟨?_, h.wide, ?_, ?_⟩
        · rw [h.run]; simp only [ck, show ¬ k + 1 < x.units by omega]
        · rw [h.busy]; simp only [ck, show ¬ k + 1 < x.units by omega, and_false]
        · have mv := h.mv
          rw [Nat.min_eq_right (by omega)] at mv ⊢
          exact mv
      · rw [h.run]; simp [ck]
  · rw [if_neg g, Ti.cycle, if_neg (fun q => g q.2.1)]
    exact h

theorem Armed.cycles {x : Xfer} {l0 : List Beat} {k : Nat} {c : Ti} (h : Armed x l0 k c) (rs : List Bool) : Armed x l0 (k + rs.count true) (Ti.cycles rs c) := by
  induction rs generalizing k c with
  | nil => simpa [Ti.cycles] using h
  | cons r rs ih =>
    rw [Ti.cycles, ← count_step]
    exact ih (h.cycle r)

theorem setup_armed (x : Xfer) (c : Ti) (hr : x.incrRead ≤ 2) (hw : x.incrWrite ≤ 2) (hs : x.size = 1#32) (h0 : 0 < x.units) (hn : x.units ≤ 2 ^ 16) :
    (Ti.setup x c).1 = 0 ∧ Armed x c.seq.log 0 (Ti.setup x c).2 := by
  have hs1 : x.size.toNat = 1 := by rw [hs]; rfl
  rw [Ti.setup, if_neg (by omega), if_neg (by omega), if_neg (by omega), if_neg (by omega)]
  refine ⟨rfl, ?_⟩
  have hcnt : (BitVec.ofNat 16 (x.byteCount / x.size).toNat - 1#16).toNat + 1 = x.units := by
    rw [units_eq, BitVec.toNat_sub, BitVec.toNat_ofNat, BitVec.toNat_ofNat]
    by_cases q : x.units = 2 ^ 16
    · rw [q]
    · rw [Nat.mod_eq_of_lt (show x.units < 2 ^ 16 by omega)]
      omega
  have ho : edOff x.size = x.size := by rw [hs]; decide
  refine ⟨by simp [h0], by rw [hs]; rfl, by simp, ?_⟩
  rw [Nat.zero_min]
  refine Moving.start rfl rfl ?_ ?_ hs1.symm hcnt rfl
  · show (if x.incrRead ≠ 0 then edOff x.size else 0#32) = _
    rw [ho]; by_cases q : x.incrRead = 0 <;> simp [q]
  · show (if x.incrWrite ≠ 0 then edOff x.size else 0#32) = _
    rw [ho]; by_cases q : x.incrWrite = 0 <;> simp [q]

/-- **C91, C92, ti_f28x**: dma_setup with units of one (16-bit) word, 1 to 65536 of them: it returns 0 and from then on, for every schedule, the units move in order, one per request,
and nothing else does. Units of two words are not modelled. -/
theorem setup_moves_partial (x : Xfer) (c : Ti) (sched : List Bool) (hr : x.incrRead ≤ 2) (hw : x.incrWrite ≤ 2) (hs : x.size = 1#32) (h0 : 0 < x.units) (hn : x.units ≤ 2 ^ 16) :
    (Ti.setup x c).1 = 0 ∧ (Ti.cycles sched (Ti.setup x c).2).seq.log = c.seq.log ++ x.wanted.take (sched.count true) := by
  obtain ⟨e0, a⟩ := setup_armed x c hr hw hs h0 hn
  refine ⟨e0, ?_⟩
  have := (a.cycles sched).mv.log_take
  rwa [Nat.zero_add] at this

/-- **C93 refuted, ti_f28x**: before the first request dma_xfer_done returns 0, and stops the channel: nothing is moved, then or later, whatever the requests -/
theorem done_kills (x : Xfer) (c : Ti) (sched : List Bool) (hr : x.incrRead ≤ 2) (hw : x.incrWrite ≤ 2) (hs : x.size = 1#32) (h0 : 0 < x.units) (hn : x.units ≤ 2 ^ 16) :
    (Ti.done (Ti.xfer x c).2).1 = 0 ∧ (Ti.cycles sched (Ti.done (Ti.xfer x c).2).2).seq.log = c.seq.log := by
  have a := (setup_armed x c hr hw hs h0 hn).2
  have e : Ti.done (Ti.xfer x c).2 = (0, { (Ti.setup x c).2 with run := false }) := by
    rw [Ti.xfer, Ti.done, if_neg (by rw [a.busy]; simp)]
  rw [e]
  refine ⟨rfl, ?_⟩
  have stay : ∀ d : Ti, d.run = false → Ti.cycles sched d = d := by
    intro d hd
    induction sched with
    | nil => rfl
    | cons r rs ih => rw [Ti.cycles, Ti.cycle, if_neg (by rw [hd]; exact fun q => absurd q.1 (by decide)), ih]
  rw [stay _ rfl]
  have := a.mv.log
  rw [Nat.zero_min, List.take_zero, List.append_nil] at this
  exact this

/-- **C93, ti_f28x**: once the first unit has been moved, dma_xfer_done returns 0 exactly when they have all been moved -/
theorem done_after_first (x : Xfer) (c : Ti) (sched : List Bool) (hr : x.incrRead ≤ 2) (hw : x.incrWrite ≤ 2) (hs : x.size = 1#32) (h0 : 0 < x.units) (hn : x.units ≤ 2 ^ 16)
    (hf : 0 < sched.count true) :
    (Ti.done (Ti.cycles sched (Ti.setup x c).2)).1 = 0 ↔ (Ti.cycles sched (Ti.setup x c).2).seq.log = c.seq.log ++ x.wanted := by
  have a := (setup_armed x c hr hw hs h0 hn).2.cycles sched
  rw [← a.mv.left_zero_iff]
  have hl := a.mv.left
  have hb := a.busy
  rw [Nat.zero_add] at *
  by_cases q : sched.count true < x.units
  · rw [Nat.min_eq_left (by omega)] at hl
    rw [Ti.done, if_pos (by rw [hb]; simp [q, hf])]
    exact ⟨fun z => absurd (show eagain = 0 from z) (by decide), fun z => absurd z (by omega)⟩
  · rw [Nat.min_eq_right (by omega)] at hl
    rw [Ti.done, if_neg (by rw [hb]; simp [q])]
    exact ⟨fun _ => by omega, fun _ => rfl⟩

/-- **C92 refuted, ti_f28x**: dma_xfer is dma_setup: without a request nothing is ever moved -/
theorem xfer_never_starts (x : Xfer) (c : Ti) (n : Nat) (hr : x.incrRead ≤ 2) (hw : x.incrWrite ≤ 2) (hs : x.size = 1#32) (h0 : 0 < x.units) (hn : x.units ≤ 2 ^ 16) :
    (Ti.xfer x c).1 = 0 ∧ (Ti.cycles (List.replicate n false) (Ti.xfer x c).2).seq.log = c.seq.log := by
  have hc : (List.replicate n false).count true = 0 := by simp [List.count_replicate]
  have m := setup_moves_partial x c (List.replicate n false) hr hw hs h0 hn
  rw [hc, List.take_zero, List.append_nil] at m
  exact m

/-- a channel just reset -/
def reset : Ti := { wide := false, tsize := 0#16, run := false, busy := false, seq := { src := 0#32, dst := 0#32, sstep := 0#32, dstep := 0#32, unit := 1, left := 0, log := [] } }

/-- an instance of `setup_moves_partial` -/
theorem moves_sample :
    let x : Xfer := { saddr := 0x8000#32, daddr := 0x6109#32, incrRead := 1, incrWrite := 0, size := 1#32, byteCount := 2#32 }
    (Ti.cycles [true, false, true, true] (Ti.setup x reset).2).seq.log = [⟨0x8000#32, 0x6109#32, 1⟩, ⟨0x8001#32, 0x6109#32, 1⟩] := by decide +kernel

/-- **C91 refuted, ti_f28x**: a transfer of nothing moves 65536 words -/
theorem empty_moves (x : Xfer) (c : Ti) (hr : x.incrRead ≤ 2) (hw : x.incrWrite ≤ 2) (hs : x.size = 1#32) (h0 : x.units = 0) :
    (Ti.setup x c).1 = 0 ∧ x.wanted = [] ∧ (Ti.setup x c).2.run = true ∧ (Ti.setup x c).2.seq.left = 65536 := by
  have hs1 : x.size.toNat = 1 := by rw [hs]; rfl
  rw [Ti.setup, if_neg (by omega), if_neg (by omega), if_neg (by omega), if_neg (by omega)]
  refine ⟨rfl, by simp [Xfer.wanted, h0], rfl, ?_⟩
  show (BitVec.ofNat 16 (x.byteCount / x.size).toNat - 1#16).toNat + 1 = _
  rw [units_eq, h0]
  decide

end Ti
end Pico.Dma
