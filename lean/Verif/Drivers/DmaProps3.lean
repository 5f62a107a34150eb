import Verif.Drivers.DmaProps2

/-
C91-C93 for stm32h7xx.
-/
namespace Pico.Dma

open Field

theorem count_step (r : Bool) (rs : List Bool) (k : Nat) : (if r = true then k + 1 else k) + rs.count true = k + (r :: rs).count true := by
  cases r <;> simp <;> omega

/-! ### stm32h7xx -/

namespace St

/-- the stream runs transfer x, not circular, k units of which have been moved -/
structure Armed (x : Xfer) (l0 : List Beat) (k : Nat) (c : St) : Prop where
  en : c.cr.getLsbD 0 = decide (k < x.units)
  circ : c.cr.getLsbD 8 = false
  mv : Moving x l0 (min k x.units) c.seq

theorem Armed.cycle {x : Xfer} {l0 : List Beat} {k : Nat} {c : St} (h : Armed x l0 k c) (r : Bool) : Armed x l0 (if r = true then k + 1 else k) (c.cycle r) := by
  have hl := h.mv.left
  by_cases g : r = true
  · rw [if_pos g, St.cycle]
    by_cases ck : k < x.units
    · rw [Nat.min_eq_left (by omega)] at hl
      rw [if_pos ⟨by rw [h.en]; simp [ck], g, by omega⟩]
      have mv := h.mv.beat_min
      have hl' := mv.left
      by_cases e : k + 1 = x.units
      · rw [Nat.min_eq_left (by omega)] at hl'
        simp only [show c.seq.beat.left = 0 by omega, if_true, h.circ, Bool.false_eq_true, if_false]
        refine ⟨?_, ?_, mv⟩
        · show (bclr 0 c.cr).getLsbD 0 = _
          rw [bclr_same]; simp; omega
        · show (bclr 0 c.cr).getLsbD 8 = _
          rw [bclr_ne _ _ _ (by decide), h.circ]
      · rw [Nat.min_eq_left (by omega)] at hl'
        simp only [show ¬ c.seq.beat.left = 0 by omega, if_false]
        refine ⟨?_, h.circ, mv⟩
        rw [h.en]; simp only [ck, show k + 1 < x.units by omega]
    · rw [Nat.min_eq_right (by omega)] at hl
      rw [if_neg (fun q => q.2.2 (by omega))]
      refine ⟨?_, h.circ, ?_⟩
      · rw [h.en]; simp only [ck, show ¬ k + 1 < x.units by omega]
      · have mv := h.mv
        rw [Nat.min_eq_right (by omega)] at mv ⊢
        exact mv
  · rw [if_neg g, St.cycle, if_neg (fun q => g q.2.1)]
    exact h

theorem Armed.cycles {x : Xfer} {l0 : List Beat} {k : Nat} {c : St} (h : Armed x l0 k c) (rs : List Bool) : Armed x l0 (k + rs.count true) (St.cycles rs c) := by
  induction rs generalizing k c with
  | nil => simpa [St.cycles] using h
  | cons r rs ih =>
    have h := ih (h.cycle r)
    rwa [count_step] at h

/-- how the controller reads the register dma_setup writes; p: 0, 1, 2 for units of 1, 2 and 4 bytes -/
theorem crOf_decode : ∀ (p : Fin 3) (fp rd wr : Bool),
    let v := St.crOf (BitVec.ofNat 32 (2 ^ p.val)) fp rd wr
    width (Field.get 2 13 v).toNat = some (2 ^ p.val) ∧ Field.get 2 11 v = Field.get 2 13 v ∧ Field.get 2 6 v = (if fp then 0#32 else 1#32) ∧
    v.getLsbD 9 = (if fp then rd else wr) ∧ v.getLsbD 10 = (if fp then wr else rd) ∧ v.getLsbD 15 = v.getLsbD 9 ∧ v.getLsbD 8 = false ∧ v.getLsbD 0 = true := by decide +kernel

/-- the sides of a transfer: the peripheral side steps -/
def periphSteps (x : Xfer) : Prop := if fromPeripheral x then x.incrRead ≠ 0 else x.incrWrite ≠ 0

theorem setup_armed (x : Xfer) (c : St) (hr : x.incrRead ≤ 2) (hw : x.incrWrite ≤ 2) (hs : x.size = 1#32 ∨ x.size = 2#32 ∨ x.size = 4#32) (hp : periphSteps x → x.size = 4#32)
    (h0 : 0 < x.units) (hn : x.units < 2 ^ 16) : (St.setup x c).1 = 0 ∧ Armed x c.seq.log 0 (St.setup x c).2 := by
  have hcnt : (BitVec.ofNat 16 (x.byteCount / x.size).toNat).toNat = x.units := by
    rw [units_eq, BitVec.toNat_ofNat, Nat.mod_eq_of_lt hn]
  rw [St.setup, if_neg (by omega), if_neg (by omega)]
  refine ⟨rfl, ?_⟩
  obtain ⟨p, hw⟩ : ∃ p : Fin 3, x.size = BitVec.ofNat 32 (2 ^ p.val) := by
    rcases hs with q | q | q
    · exact ⟨0, q⟩
    · exact ⟨1, q⟩
    · exact ⟨2, q⟩
  have eu : 2 ^ p.val = x.size.toNat := by
    rw [hw]
    exact (show ∀ p : Fin 3, 2 ^ p.val = (BitVec.ofNat 32 (2 ^ p.val)).toNat by decide) p
  obtain ⟨d1, d2, d3, d4, d5, d6, d7, d8⟩ := crOf_decode p (fromPeripheral x) (decide (x.incrRead ≠ 0)) (decide (x.incrWrite ≠ 0))
  rw [← hw] at d1 d2 d3 d4 d5 d6 d7 d8
  rw [eu] at d1
  have hz : (if decide (x.incrRead ≠ 0) = true then BitVec.ofNat 32 x.size.toNat else 0#32) = if x.incrRead = 0 then 0#32 else x.size := by
    rw [BitVec.ofNat_toNat, BitVec.setWidth_eq]; by_cases q : x.incrRead = 0 <;> simp [q]
  have hz' : (if decide (x.incrWrite ≠ 0) = true then BitVec.ofNat 32 x.size.toNat else 0#32) = if x.incrWrite = 0 then 0#32 else x.size := by
    rw [BitVec.ofNat_toNat, BitVec.setWidth_eq]; by_cases q : x.incrWrite = 0 <;> simp [q]
  refine ⟨?_, d7, ?_⟩
  · show (St.crOf _ _ _ _).getLsbD 0 = _
    rw [d8]; simp [h0]
  rw [Nat.zero_min]
  simp only [St.latch, d1, d2, d3, d4, d5, d6, ne_eq, not_true_eq_false, if_false]
  by_cases cp : fromPeripheral x = true
  · simp only [cp, if_true, show ¬ (0#32 = 1#32) by decide, if_false]
    refine Moving.start rfl rfl ?_ hz' rfl hcnt rfl
    show (if decide (x.incrRead ≠ 0) = true then if decide (x.incrRead ≠ 0) = true then 4#32 else BitVec.ofNat 32 x.size.toNat else 0#32) = _
    by_cases q : x.incrRead = 0
    · simp [q]
    · have : x.size = 4#32 := hp (by simpa [periphSteps, cp] using q)
      simp [q, this]
  · simp only [cp, if_true, Bool.false_eq_true, if_false]
    refine Moving.start rfl rfl hz ?_ rfl hcnt rfl
    show (if decide (x.incrWrite ≠ 0) = true then if decide (x.incrWrite ≠ 0) = true then 4#32 else BitVec.ofNat 32 x.size.toNat else 0#32) = _
    by_cases q : x.incrWrite = 0
    · simp [q]
    · have : x.size = 4#32 := hp (by simpa [periphSteps, cp] using q)
      simp [q, this]

/-- **C91, C92, stm32h7xx**: dma_setup with units of 1, 2 or 4 bytes, 1 to 65535 of them, and a peripheral side that does not step or steps by words: it returns 0 and from then on,
for every schedule, the units move in order, one per request of the peripheral, and nothing else does -/
theorem setup_moves (x : Xfer) (c : St) (sched : List Bool) (hr : x.incrRead ≤ 2) (hw : x.incrWrite ≤ 2) (hs : x.size = 1#32 ∨ x.size = 2#32 ∨ x.size = 4#32)
    (hp : periphSteps x → x.size = 4#32) (h0 : 0 < x.units) (hn : x.units < 2 ^ 16) :
    (St.setup x c).1 = 0 ∧ (St.cycles sched (St.setup x c).2).seq.log = c.seq.log ++ x.wanted.take (sched.count true) := by
  obtain ⟨e0, a⟩ := setup_armed x c hr hw hs hp h0 hn
  refine ⟨e0, ?_⟩
  have := (a.cycles sched).mv.log_take
  rwa [Nat.zero_add] at this

/-- **C93, stm32h7xx**: and dma_xfer_done returns 0 exactly when they have all been moved -/
theorem setup_done (x : Xfer) (c : St) (sched : List Bool) (hr : x.incrRead ≤ 2) (hw : x.incrWrite ≤ 2) (hs : x.size = 1#32 ∨ x.size = 2#32 ∨ x.size = 4#32)
    (hp : periphSteps x → x.size = 4#32) (h0 : 0 < x.units) (hn : x.units < 2 ^ 16) :
    St.done (St.cycles sched (St.setup x c).2) = 0 ↔ (St.cycles sched (St.setup x c).2).seq.log = c.seq.log ++ x.wanted := by
  have a := (setup_armed x c hr hw hs hp h0 hn).2.cycles sched
  rw [← a.mv.left_zero_iff, St.done, a.en]
  have hl := a.mv.left
  rw [Nat.zero_add] at *
  by_cases q : sched.count true < x.units
  · simp only [q, decide_true, if_true]
    rw [Nat.min_eq_left (by omega)] at hl
    exact ⟨fun z => absurd z (by decide), fun z => absurd z (by omega)⟩
  · simp only [q, decide_false, Bool.false_eq_true, if_false]
    rw [Nat.min_eq_right (by omega)] at hl
    exact ⟨fun _ => by omega, fun _ => trivial⟩

/-- **C92 refuted, stm32h7xx**: dma_xfer is dma_setup: without a request of the peripheral nothing is ever moved, and dma_xfer_done never returns 0 -/
theorem xfer_never_starts (x : Xfer) (c : St) (n : Nat) (hr : x.incrRead ≤ 2) (hw : x.incrWrite ≤ 2) (hs : x.size = 1#32 ∨ x.size = 2#32 ∨ x.size = 4#32)
    (hp : periphSteps x → x.size = 4#32) (h0 : 0 < x.units) (hn : x.units < 2 ^ 16) :
    (St.xfer x c).1 = 0 ∧ (St.cycles (List.replicate n false) (St.xfer x c).2).seq.log = c.seq.log ∧
    St.done (St.cycles (List.replicate n false) (St.xfer x c).2) ≠ 0 := by
  have e : St.xfer x c = St.setup x c := rfl
  have hc : (List.replicate n false).count true = 0 := by simp [List.count_replicate]
  have m := setup_moves x c (List.replicate n false) hr hw hs hp h0 hn
  rw [hc, List.take_zero, List.append_nil] at m
  rw [e]
  refine ⟨m.1, m.2, ?_⟩
  rw [Ne, setup_done x c _ hr hw hs hp h0 hn, m.2]
  intro q
  have := congrArg List.length q
  rw [List.length_append, wanted_length] at this
  omega

/-- a stream just reset -/
def reset : St := { cr := 0#32, ndtr := 0#16, par := 0#32, m0ar := 0#32, seq := { src := 0#32, dst := 0#32, sstep := 0#32, dstep := 0#32, unit := 1, left := 0, log := [] } }

/-- an instance of `setup_moves`: 4 bytes to SPI1 TXDR, 2 by 2 -/
theorem moves_sample :
    let x : Xfer := { saddr := 0x20000000#32, daddr := 0x40013020#32, incrRead := 1, incrWrite := 0, size := 2#32, byteCount := 4#32 }
    (St.cycles [true, false, true, true] (St.setup x reset).2).seq.log = [⟨0x20000000#32, 0x40013020#32, 2⟩, ⟨0x20000002#32, 0x40013020#32, 2⟩] := by decide +kernel

/-- **C91 refuted, stm32h7xx**: a peripheral side that steps steps by 4 whatever the size (PINCOS): 4 bytes read one by one from 0x40020000 are those at 0, 4, 8 and 12 -/
theorem periph_step_four :
    let x : Xfer := { saddr := 0x40020000#32, daddr := 0x20000000#32, incrRead := 1, incrWrite := 1, size := 1#32, byteCount := 4#32 }
    (St.setup x reset).1 = 0 ∧ (St.cycles [true, true, true, true] (St.setup x reset).2).seq.log =
      [⟨0x40020000#32, 0x20000000#32, 1⟩, ⟨0x40020004#32, 0x20000001#32, 1⟩, ⟨0x40020008#32, 0x20000002#32, 1⟩, ⟨0x4002000c#32, 0x20000003#32, 1⟩] ∧
    x.wanted ≠ [⟨0x40020000#32, 0x20000000#32, 1⟩, ⟨0x40020004#32, 0x20000001#32, 1⟩, ⟨0x40020008#32, 0x20000002#32, 1⟩, ⟨0x4002000c#32, 0x20000003#32, 1⟩] := by decide +kernel

/-- **C91 refuted, stm32h7xx**: the sizes 3 and 8 are not refused: units of 2 and of 1 bytes move -/
theorem sizes_not_refused :
    (let x : Xfer := { saddr := 0x20000000#32, daddr := 0x40013020#32, incrRead := 1, incrWrite := 0, size := 3#32, byteCount := 3#32 }
     (St.setup x reset).1 = 0 ∧ (St.cycles [true] (St.setup x reset).2).seq.log = [⟨0x20000000#32, 0x40013020#32, 2⟩]) ∧
    (let x : Xfer := { saddr := 0x20000000#32, daddr := 0x40013020#32, incrRead := 1, incrWrite := 0, size := 8#32, byteCount := 8#32 }
     (St.setup x reset).1 = 0 ∧ (St.cycles [true] (St.setup x reset).2).seq.log = [⟨0x20000000#32, 0x40013020#32, 1⟩] ∧ St.done (St.cycles [true] (St.setup x reset).2) = 0) := by decide +kernel

/-- **C93 refuted, stm32h7xx**: with less bytes than a unit, dma_setup returns 0 and dma_xfer_done never does -/
theorem empty_never_done (x : Xfer) (c : St) (sched : List Bool) (hr : x.incrRead ≤ 2) (hw : x.incrWrite ≤ 2) (h0 : x.units = 0) :
    (St.setup x c).1 = 0 ∧ St.done (St.cycles sched (St.setup x c).2) ≠ 0 := by
  rw [St.setup, if_neg (by omega), if_neg (by omega)]
  refine ⟨rfl, ?_⟩
  have hb : ∀ size fp rd wr, (St.crOf size fp rd wr).getLsbD 0 = true := by
    intro size fp rd wr
    have b : ∀ v : BitVec 32, ((1#32 ||| (v &&& 3#32) <<< 13) ||| (v &&& 3#32) <<< 11).getLsbD 0 = true := by
      intro v
      simp only [BitVec.getLsbD_or, show (1#32).getLsbD 0 = true by decide, Bool.true_or]
    simp only [St.crOf]
    cases fp <;> cases rd <;> cases wr <;>
      simp (disch := decide) only [if_true, if_false, Bool.false_eq_true, bset_ne, BitVec.getLsbD_or, show (1#32).getLsbD 0 = true by decide, Bool.true_or]
  have hz : BitVec.ofNat 16 (x.byteCount / x.size).toNat = 0#16 := by rw [units_eq, h0]
  have hl : ∀ c : St, c.ndtr = 0#16 → c.latch.left = 0 := by
    intro c hc
    rw [St.latch]
    split
    · rfl
    · split
      · rfl
      · simp only [hc]
        split
        · rfl
        · split <;> rfl
  have stay : ∀ (c : St), c.seq.left = 0 → St.cycles sched c = c := by
    intro c hc
    induction sched with
    | nil => rfl
    | cons r rs ih => rw [St.cycles, St.cycle, if_neg (fun q => q.2.2 hc), ih]
  rw [stay _ (hl _ hz), St.done]
  show (if (St.crOf _ _ _ _).getLsbD 0 = true then eagain else 0) ≠ 0
  rw [hb]
  decide

/-- **C92 refuted, stm32h7xx**: the circular mode asked for with dma_stm32h7xx_setup is lost by dma_setup: the transfer stops at its end -/
theorem circ_lost (x : Xfer) (c : St) (sched : List Bool) (hr : x.incrRead ≤ 2) (hw : x.incrWrite ≤ 2) (hs : x.size = 1#32 ∨ x.size = 2#32 ∨ x.size = 4#32)
    (hp : periphSteps x → x.size = 4#32) (h0 : 0 < x.units) (hn : x.units < 2 ^ 16) :
    St.setup x (St.settings true c) = St.setup x c ∧ ((St.cycles sched (St.setup x (St.settings true c)).2).seq.log).length ≤ c.seq.log.length + x.units := by
  have e : St.setup x (St.settings true c) = St.setup x c := by
    have h1 : ¬ 2 < x.incrRead := by omega
    have h2 : ¬ 2 < x.incrWrite := by omega
    simp only [St.setup, if_neg h1, if_neg h2]
    rfl
  refine ⟨e, ?_⟩
  rw [e, (setup_moves x c sched hr hw hs hp h0 hn).2, List.length_append, List.length_take, wanted_length]
  omega

end St

end Pico.Dma
