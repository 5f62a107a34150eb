import Verif.Drivers.Dma
import Verif.Drivers.DmaMem

/-
C91: what the DMA channels move, for every schedule. C92: what starts them. C93: dma_xfer_done.
-/
namespace Pico.Dma

open Field

/-- k units of x have been moved, after those of l0 -/
structure Moving (x : Xfer) (l0 : List Beat) (k : Nat) (s : Seq) : Prop where
  le : k ≤ x.units
  src : s.src = (x.unit k).src
  dst : s.dst = (x.unit k).dst
  sstep : s.sstep = if x.incrRead = 0 then 0#32 else x.size
  dstep : s.dstep = if x.incrWrite = 0 then 0#32 else x.size
  unit : s.unit = x.size.toNat
  left : s.left = x.units - k
  log : s.log = l0 ++ x.wanted.take k

theorem ofNat_step (x : Xfer) (k : Nat) : BitVec.ofNat 32 (k * x.size.toNat) + x.size = BitVec.ofNat 32 ((k + 1) * x.size.toNat) := by
  rw [Nat.add_mul, Nat.one_mul, BitVec.ofNat_add]
  congr 1
  rw [BitVec.ofNat_toNat, BitVec.setWidth_eq]

theorem unit_step_src (x : Xfer) (k : Nat) : (x.unit k).src + (if x.incrRead = 0 then 0#32 else x.size) = (x.unit (k + 1)).src := by
  simp only [Xfer.unit]
  by_cases c : x.incrRead = 0
  · simp only [if_pos c, BitVec.add_zero]
  · simp only [if_neg c, ← ofNat_step, BitVec.add_assoc]

theorem unit_step_dst (x : Xfer) (k : Nat) : (x.unit k).dst + (if x.incrWrite = 0 then 0#32 else x.size) = (x.unit (k + 1)).dst := by
  simp only [Xfer.unit]
  by_cases c : x.incrWrite = 0
  · simp only [if_pos c, BitVec.add_zero]
  · simp only [if_neg c, ← ofNat_step, BitVec.add_assoc]

theorem Moving.beat {x : Xfer} {l0 : List Beat} {k : Nat} {s : Seq} (h : Moving x l0 k s) (hk : k < x.units) : Moving x l0 (k + 1) s.beat := by
  obtain ⟨le, src, dst, ss, ds, un, left, log⟩ := h
  obtain ⟨n, hn⟩ : ∃ n, s.left = n + 1 := ⟨x.units - k - 1, by omega⟩
  have e : s.beat = { s with src := s.src + s.sstep, dst := s.dst + s.dstep, left := n, log := s.log ++ [⟨s.src, s.dst, s.unit⟩] } := by
    simp only [Seq.beat, hn]
  rw [e]
  refine ⟨hk, ?_, ?_, ss, ds, un, ?_, ?_⟩
  · show s.src + s.sstep = _
    rw [src, ss, unit_step_src]
  · show s.dst + s.dstep = _
    rw [dst, ds, unit_step_dst]
  · show n = _
    omega
  · show s.log ++ [(⟨s.src, s.dst, s.unit⟩ : Beat)] = _
    rw [take_succ x k hk, log, src, dst, un, List.append_assoc]
    rfl

theorem Moving.beat_end {x : Xfer} {l0 : List Beat} {s : Seq} (h : Moving x l0 x.units s) : s.beat = s := by
  have : s.left = 0 := by have := h.left; omega
  simp only [Seq.beat, this]

/-- the beat of a transfer, finished or not -/
theorem Moving.beat_min {x : Xfer} {l0 : List Beat} {k : Nat} {s : Seq} (h : Moving x l0 (min k x.units) s) : Moving x l0 (min (k + 1) x.units) s.beat := by
  by_cases c : k < x.units
  · rw [Nat.min_eq_left (by omega)] at h
    rw [Nat.min_eq_left (by omega)]
    exact h.beat c
  · rw [Nat.min_eq_right (by omega)] at h
    rw [Nat.min_eq_right (by omega), h.beat_end]
    exact h

theorem Moving.start {x : Xfer} {l0 : List Beat} {s : Seq} (src : s.src = x.saddr) (dst : s.dst = x.daddr) (ss : s.sstep = if x.incrRead = 0 then 0#32 else x.size)
    (ds : s.dstep = if x.incrWrite = 0 then 0#32 else x.size) (un : s.unit = x.size.toNat) (left : s.left = x.units) (log : s.log = l0) : Moving x l0 0 s := by
  refine ⟨Nat.zero_le _, ?_, ?_, ss, ds, un, left, by simp [log]⟩
  · simp [Xfer.unit, src]
  · simp [Xfer.unit, dst]

theorem Moving.log_take {x : Xfer} {l0 : List Beat} {k : Nat} {s : Seq} (h : Moving x l0 (min k x.units) s) : s.log = l0 ++ x.wanted.take k := by
  rw [h.log]
  congr 1
  by_cases c : k ≤ x.units
  · rw [Nat.min_eq_left c]
  · rw [Nat.min_eq_right (by omega), List.take_of_length_le (by rw [wanted_length]; omega), List.take_of_length_le (by rw [wanted_length]; omega)]

theorem units_eq (x : Xfer) : (x.byteCount / x.size).toNat = x.units := by rw [BitVec.toNat_udiv, Xfer.units]

/-! ### rp2040 -/

namespace Rp

/-- the channel is disabled and not busy -/
def Idle (c : Rp) : Prop := c.ctrl.getLsbD 0 = false ∧ c.seq.left = 0

/-- units of the schedule that the channel takes -/
def granted (perm : Bool) (sched : List Bool) : Nat := if perm then sched.length else sched.count true

theorem idle_cycles (rs : List Bool) (c : Rp) (h : Idle c) : Rp.cycles rs c = c := by
  induction rs with
  | nil => rfl
  | cons r rs ih =>
    have : c.cycle r = c := by
      rw [Rp.cycle, if_neg]
      rw [h.1]
      exact fun q => absurd q.1 (by decide)
    rw [Rp.cycles, this, ih]

theorem run_idle (o : Rp → Rp) (os : List (Rp → Rp)) (gs : List (List Bool)) (c : Rp) (h : Idle c) : Rp.run (o :: os) gs c = Rp.run os gs.tail (o c) := by
  rw [Rp.run, idle_cycles _ _ h]

theorem ctrlOp_idle (f : BitVec 32 → BitVec 32) (c : Rp) (h : Idle c) (hf : (f c.ctrl).getLsbD 0 = false) : Idle (Rp.ctrlOp f c) := by
  refine ⟨hf, ?_⟩
  simp only [Rp.ctrlOp, Rp.writeCtrl, hf]
  simp [h.2]

/-- the state of a channel that runs transfer x, k units of which have been moved -/
structure Armed (x : Xfer) (treq : BitVec 32) (l0 : List Beat) (k : Nat) (c : Rp) : Prop where
  en : c.ctrl.getLsbD 0 = true
  treq : Field.get 6 15 c.ctrl = treq
  reload : c.reload.toNat = x.units
  code : (width (Field.get 2 2 c.ctrl).toNat).getD 0 = x.size.toNat
  rd : c.ctrl.getLsbD 4 = decide (x.incrRead ≠ 0)
  wr : c.ctrl.getLsbD 5 = decide (x.incrWrite ≠ 0)
  mv : Moving x l0 (min k x.units) c.seq

theorem Armed.cycle {x : Xfer} {t : BitVec 32} {l0 : List Beat} {k : Nat} {c : Rp} (h : Armed x t l0 k c) (r : Bool) :
    Armed x t l0 (if r = true ∨ t = 0x3f#32 then k + 1 else k) (c.cycle r) := by
  by_cases g : r = true ∨ t = 0x3f#32
  · rw [if_pos g, Rp.cycle, if_pos ⟨h.en, by rw [h.treq]; exact g⟩]
    exact ⟨h.en, h.treq, h.reload, h.code, h.rd, h.wr, h.mv.beat_min⟩
  · rw [if_neg g, Rp.cycle, if_neg (by rw [h.treq]; exact fun q => g q.2)]
    exact h

theorem Armed.cycles {x : Xfer} {t : BitVec 32} {l0 : List Beat} {k : Nat} {c : Rp} (h : Armed x t l0 k c) (rs : List Bool) :
    Armed x t l0 (k + granted (decide (t = 0x3f#32)) rs) (Rp.cycles rs c) := by
  induction rs generalizing k c with
  | nil => unfold granted; simpa [Rp.cycles] using h
  | cons r rs ih =>
    have h := ih (h.cycle r)
    rw [Rp.cycles]
    have e : (if r = true ∨ t = 0x3f#32 then k + 1 else k) + granted (decide (t = 0x3f#32)) rs = k + granted (decide (t = 0x3f#32)) (r :: rs) := by
      unfold granted
      by_cases ct : t = 0x3f#32
      · simp [ct]; omega
      · cases r <;> simp [ct] <;> omega
    rw [e] at h
    exact h

theorem width_code (x : Xfer) (h : accepts x = true) : x.size = 1#32 ∨ x.size = 2#32 ∨ x.size = 4#32 := by
  simp only [accepts, Bool.and_eq_true, bne_iff_ne, decide_eq_true_eq] at h
  obtain ⟨⟨⟨⟨h0, h3⟩, h5⟩, _⟩, _⟩ := h
  have q : ∀ n, x.size.toNat = n → x.size = BitVec.ofNat 32 n := by
    intro n hn; rw [← hn, BitVec.ofNat_toNat, BitVec.setWidth_eq]
  have : x.size.toNat = 0 ∨ x.size.toNat = 1 ∨ x.size.toNat = 2 ∨ x.size.toNat = 3 ∨ x.size.toNat = 4 := by omega
  rcases this with c | c | c | c | c
  · exact absurd (q 0 c) h0
  · exact .inl (q 1 c)
  · exact .inr (.inl (q 2 c))
  · exact absurd (q 3 c) h3
  · exact .inr (.inr (q 4 c))

/-- accesses that leave an idle channel idle -/
def Keeps (o : Rp → Rp) : Prop := ∀ c, Idle c → Idle (o c)

theorem run_keeps (os : List (Rp → Rp)) (last : Rp → Rp) (gs : List (List Bool)) (c : Rp) (hi : Idle c) (hk : ∀ o ∈ os, Keeps o) :
    Rp.run (os ++ [last]) gs c = last (os.foldl (fun c o => o c) c) := by
  induction os generalizing gs c with
  | nil => exact run_idle last [] gs c hi
  | cons o os ih =>
    rw [List.cons_append, run_idle _ _ _ _ hi, ih _ _ (hk o (by simp) c hi) (fun o ho => hk o (by simp [ho]))]
    rfl

theorem keeps_ctrl (f : BitVec 32 → BitVec 32) (hf : ∀ v, v.getLsbD 0 = false → (f v).getLsbD 0 = false) : Keeps (Rp.ctrlOp f) :=
  fun c h => ctrlOp_idle f c h (hf _ h.1)

theorem orIn_bit0 (w t : Nat) (v r : BitVec 32) (ht : 0 < t) : (Field.orIn w t v r).getLsbD 0 = r.getLsbD 0 := by
  rw [Field.orIn_bit _ _ _ _ _ (by decide), show decide (t ≤ 0) = false by simp; omega, Bool.false_and, Bool.false_and, Bool.or_false]

theorem clear_bit0 (w t : Nat) (r : BitVec 32) (ht : 0 < t) : (Field.clear w t r).getLsbD 0 = r.getLsbD 0 := by
  rw [Field.clear_bit, show decide (t ≤ 0) = false by simp; omega, Bool.false_and, Bool.not_false, Bool.and_true]

theorem setupOps_keep (x : Xfer) (a : List (Rp → Rp)) (h : Rp.setupOps x = a ++ [Rp.ctrlOp (bset 0)]) : ∀ o ∈ a, Keeps o := by
  have e : a = [ (fun c => { c with seq := { c.seq with src := x.saddr } } : Rp → Rp),
    fun c => { c with seq := { c.seq with dst := x.daddr } },
    fun c => { c with reload := x.byteCount / x.size },
    Rp.ctrlOp (if x.incrRead ≠ 0 then bset 4 else bclr 4),
    Rp.ctrlOp (if x.incrWrite ≠ 0 then bset 5 else bclr 5),
    Rp.ctrlOp (Field.clear 2 2) ] ++
  (if x.size = 2#32 then [Rp.ctrlOp (Field.orIn 2 2 1#32)] else []) ++
  (if x.size = 4#32 then [Rp.ctrlOp (Field.orIn 2 2 2#32)] else []) := by
    rw [Rp.setupOps] at h
    exact ((List.append_inj' h rfl).1).symm
  rw [e]
  intro o ho
  simp only [List.mem_append, List.mem_cons, List.not_mem_nil, or_false] at ho
  rcases ho with ((rfl | rfl | rfl | rfl | rfl | rfl) | ho) | ho
  · exact fun c h => h
  · exact fun c h => h
  · exact fun c h => h
  · apply keeps_ctrl; intro v hv
    by_cases c : x.incrRead ≠ 0
    · rw [if_pos c, bset_ne _ _ _ (by decide), hv]
    · rw [if_neg c, bclr_ne _ _ _ (by decide), hv]
  · apply keeps_ctrl; intro v hv
    by_cases c : x.incrWrite ≠ 0
    · rw [if_pos c, bset_ne _ _ _ (by decide), hv]
    · rw [if_neg c, bclr_ne _ _ _ (by decide), hv]
  · apply keeps_ctrl; intro v hv
    rw [clear_bit0 _ _ _ (by decide), hv]
  · by_cases c : x.size = 2#32
    · rw [if_pos c, List.mem_singleton] at ho
      subst ho
      apply keeps_ctrl; intro v hv
      rw [orIn_bit0 _ _ _ _ (by decide), hv]
    · rw [if_neg c] at ho; simp at ho
  · by_cases c : x.size = 4#32
    · rw [if_pos c, List.mem_singleton] at ho
      subst ho
      apply keeps_ctrl; intro v hv
      rw [orIn_bit0 _ _ _ _ (by decide), hv]
    · rw [if_neg c] at ho; simp at ho

/-- the value of CTRL_TRIG before the last write of dma_setup -/
def ctrlOf (x : Xfer) (v : BitVec 32) : BitVec 32 :=
  let v := if x.incrRead ≠ 0 then bset 4 v else bclr 4 v
  let v := if x.incrWrite ≠ 0 then bset 5 v else bclr 5 v
  Field.put 2 2 (if x.size = 2#32 then 1#32 else if x.size = 4#32 then 2#32 else 0#32) v

theorem orIn_zero (w t : Nat) (v : BitVec 32) : Field.orIn w t 0#32 v = v := by simp [Field.orIn]

/-- the accesses of dma_setup but the last one, on an idle channel -/
theorem setup_before (x : Xfer) (c : Rp) (a : List (Rp → Rp)) (h : Rp.setupOps x = a ++ [Rp.ctrlOp (bset 0)]) (hx : accepts x = true) :
    (a.foldl (fun c o => o c) c).ctrl = ctrlOf x c.ctrl ∧ (a.foldl (fun c o => o c) c).seq.src = x.saddr ∧ (a.foldl (fun c o => o c) c).seq.dst = x.daddr ∧
    (a.foldl (fun c o => o c) c).reload = x.byteCount / x.size ∧ (a.foldl (fun c o => o c) c).seq.log = c.seq.log := by
  rcases width_code x hx with hs | hs | hs
  · have e : a = [ (fun c => { c with seq := { c.seq with src := x.saddr } } : Rp → Rp),
      fun c => { c with seq := { c.seq with dst := x.daddr } },
      fun c => { c with reload := x.byteCount / x.size },
      Rp.ctrlOp (if x.incrRead ≠ 0 then bset 4 else bclr 4),
      Rp.ctrlOp (if x.incrWrite ≠ 0 then bset 5 else bclr 5),
      Rp.ctrlOp (Field.clear 2 2) ] := by
      rw [Rp.setupOps, if_neg (c := x.size = 2#32) (by rw [hs]; decide), if_neg (c := x.size = 4#32) (by rw [hs]; decide)] at h
      exact ((List.append_inj' h rfl).1).symm
    subst e
    refine ⟨?_, rfl, rfl, rfl, rfl⟩
    simp only [List.foldl, Rp.ctrlOp, Rp.writeCtrl, ctrlOf, Field.put, hs, show ¬ (1#32 = 2#32) by decide, show ¬ (1#32 = 4#32) by decide, if_false, orIn_zero]
    by_cases c1 : x.incrRead ≠ 0 <;> by_cases c2 : x.incrWrite ≠ 0 <;> simp only [c1, c2, if_true, if_false, ne_eq, not_false_eq_true, not_true_eq_false]
  · have e : a = [ (fun c => { c with seq := { c.seq with src := x.saddr } } : Rp → Rp),
      fun c => { c with seq := { c.seq with dst := x.daddr } },
      fun c => { c with reload := x.byteCount / x.size },
      Rp.ctrlOp (if x.incrRead ≠ 0 then bset 4 else bclr 4),
      Rp.ctrlOp (if x.incrWrite ≠ 0 then bset 5 else bclr 5),
      Rp.ctrlOp (Field.clear 2 2), Rp.ctrlOp (Field.orIn 2 2 1#32) ] := by
      rw [Rp.setupOps, if_pos hs, if_neg (c := x.size = 4#32) (by rw [hs]; decide)] at h
      exact ((List.append_inj' h rfl).1).symm
    subst e
    refine ⟨?_, rfl, rfl, rfl, rfl⟩
    simp only [List.foldl, Rp.ctrlOp, Rp.writeCtrl, ctrlOf, Field.put, hs, if_true]
    by_cases c1 : x.incrRead ≠ 0 <;> by_cases c2 : x.incrWrite ≠ 0 <;> simp only [c1, c2, if_true, if_false, ne_eq, not_false_eq_true, not_true_eq_false]
  · have e : a = [ (fun c => { c with seq := { c.seq with src := x.saddr } } : Rp → Rp),
      fun c => { c with seq := { c.seq with dst := x.daddr } },
      fun c => { c with reload := x.byteCount / x.size },
      Rp.ctrlOp (if x.incrRead ≠ 0 then bset 4 else bclr 4),
      Rp.ctrlOp (if x.incrWrite ≠ 0 then bset 5 else bclr 5),
      Rp.ctrlOp (Field.clear 2 2), Rp.ctrlOp (Field.orIn 2 2 2#32) ] := by
      rw [Rp.setupOps, if_neg (c := x.size = 2#32) (by rw [hs]; decide), if_pos hs] at h
      exact ((List.append_inj' h rfl).1).symm
    subst e
    refine ⟨?_, rfl, rfl, rfl, rfl⟩
    simp only [List.foldl, Rp.ctrlOp, Rp.writeCtrl, ctrlOf, Field.put, hs, show ¬ (4#32 = 2#32) by decide, if_true, if_false]
    by_cases c1 : x.incrRead ≠ 0 <;> by_cases c2 : x.incrWrite ≠ 0 <;> simp only [c1, c2, if_true, if_false, ne_eq, not_false_eq_true, not_true_eq_false]

theorem ofNat_size {x : Xfer} {n : Nat} (h : n = x.size.toNat) : BitVec.ofNat 32 n = x.size := by
  rw [h, BitVec.ofNat_toNat, BitVec.setWidth_eq]

/-- a write of CTRL_TRIG with EN set, on a channel that is not busy -/
theorem write_armed (x : Xfer) (v : BitVec 32) (d : Rp) (l0 : List Beat) (h0 : v.getLsbD 0 = true) (h4 : v.getLsbD 4 = decide (x.incrRead ≠ 0)) (h5 : v.getLsbD 5 = decide (x.incrWrite ≠ 0))
    (hc : (width (Field.get 2 2 v).toNat).getD 0 = x.size.toNat) (hl : d.seq.left = 0) (hs : d.seq.src = x.saddr) (hd : d.seq.dst = x.daddr)
    (hr : d.reload.toNat = x.units) (hlog : d.seq.log = l0) : Armed x (Field.get 6 15 v) l0 0 (d.writeCtrl v) := by
  refine ⟨h0, rfl, hr, hc, h4, h5, ?_⟩
  rw [Nat.zero_min]
  refine Moving.start hs hd ?_ ?_ hc ?_ hlog
  · show (if v.getLsbD 4 then BitVec.ofNat 32 _ else 0#32) = _
    rw [ofNat_size hc, h4]
    by_cases c : x.incrRead = 0 <;> simp [c]
  · show (if v.getLsbD 5 then BitVec.ofNat 32 _ else 0#32) = _
    rw [ofNat_size hc, h5]
    by_cases c : x.incrWrite = 0 <;> simp [c]
  · show (if v.getLsbD 0 ∧ d.seq.left = 0 then d.reload.toNat else d.seq.left) = _
    rw [if_pos ⟨h0, hl⟩, hr]

theorem fold_idle (a : List (Rp → Rp)) (c : Rp) (hi : Idle c) (hk : ∀ o ∈ a, Keeps o) : Idle (a.foldl (fun c o => o c) c) := by
  induction a generalizing c with
  | nil => exact hi
  | cons o os ih => exact ih _ (hk o (by simp) c hi) (fun o ho => hk o (by simp [ho]))

theorem ctrlOf_4 (x : Xfer) (v : BitVec 32) : (ctrlOf x v).getLsbD 4 = decide (x.incrRead ≠ 0) := by
  simp only [ctrlOf]
  rw [put_bit _ _ _ _ _ (by decide)]
  by_cases c2 : x.incrWrite ≠ 0
  · rw [if_pos c2, bset_ne _ _ _ (by decide)]
    by_cases c1 : x.incrRead ≠ 0
    · rw [if_pos c1, bset_same _ _ (by decide)]; simp [c1]
    · rw [if_neg c1, bclr_same]; simp [c1]
  · rw [if_neg c2, bclr_ne _ _ _ (by decide)]
    by_cases c1 : x.incrRead ≠ 0
    · rw [if_pos c1, bset_same _ _ (by decide)]; simp [c1]
    · rw [if_neg c1, bclr_same]; simp [c1]

theorem ctrlOf_5 (x : Xfer) (v : BitVec 32) : (ctrlOf x v).getLsbD 5 = decide (x.incrWrite ≠ 0) := by
  simp only [ctrlOf]
  rw [put_bit _ _ _ _ _ (by decide)]
  by_cases c2 : x.incrWrite ≠ 0
  · rw [if_pos c2, bset_same _ _ (by decide)]; simp [c2]
  · rw [if_neg c2, bclr_same]; simp [c2]

theorem ctrlOf_treq (x : Xfer) (v : BitVec 32) : Field.get 6 15 (ctrlOf x v) = Field.get 6 15 v := by
  simp only [ctrlOf]
  rw [get_put_other _ _ _ _ _ _ (by decide)]
  by_cases c2 : x.incrWrite ≠ 0 <;> by_cases c1 : x.incrRead ≠ 0 <;>
    simp (disch := decide) only [c1, c2, if_true, if_false, ne_eq, not_false_eq_true, not_true_eq_false, get_bset_other, get_bclr_other]

theorem ctrlOf_code (x : Xfer) (v : BitVec 32) (hx : accepts x = true) : (width (Field.get 2 2 (ctrlOf x v)).toNat).getD 0 = x.size.toNat := by
  simp only [ctrlOf]
  rw [get_put_same _ _ _ _ (by decide)]
  rcases width_code x hx with hs | hs | hs <;> rw [hs] <;> decide

theorem setup_armed (x : Xfer) (gs : List (List Bool)) (c : Rp) (hi : Idle c) (h : accepts x = true) :
    Armed x (Field.get 6 15 c.ctrl) c.seq.log 0 (Rp.run (Rp.setupOps x) gs c) := by
  obtain ⟨a, ha⟩ : ∃ a, Rp.setupOps x = a ++ [Rp.ctrlOp (bset 0)] := ⟨_, rfl⟩
  have hk := setupOps_keep x a ha
  obtain ⟨e1, e2, e3, e4, e5⟩ := setup_before x c a ha h
  rw [ha, run_keeps a _ gs c hi hk]
  have hd := fold_idle a c hi hk
  generalize a.foldl (fun c o => o c) c = d at *
  have := write_armed x (bset 0 d.ctrl) d c.seq.log (bset_same _ _ (by decide)) (by rw [bset_ne _ _ _ (by decide), e1, ctrlOf_4])
    (by rw [bset_ne _ _ _ (by decide), e1, ctrlOf_5]) (by rw [get_bset_other _ _ _ _ (by decide), e1, ctrlOf_code x _ h]) hd.2 e2 e3 (by rw [e4, units_eq]) e5
  rw [get_bset_other _ _ _ _ (by decide), e1, ctrlOf_treq] at this
  show Armed _ _ _ _ (d.writeCtrl (bset 0 d.ctrl))
  rw [e1]
  exact this

/-- **C91, rp2040**: the transfers that dma_setup accepts: units of 1, 2 or 4 bytes, and steps that are booleans or INCR_AUTO; the others change nothing -/
theorem accepted_iff (x : Xfer) (gs : List (List Bool)) (c : Rp) :
    ((Rp.setup x gs c).1 = 0 ↔ accepts x = true) ∧ ((Rp.setup x gs c).1 ≠ 0 → (Rp.setup x gs c).2 = c) ∧
    (accepts x = true ↔ (x.size = 1#32 ∨ x.size = 2#32 ∨ x.size = 4#32) ∧ x.incrRead ≤ 2 ∧ x.incrWrite ≤ 2) := by
  have e2 : einval ≠ 0 := by decide
  refine ⟨?_, ?_, ?_⟩
  · unfold Rp.setup; split
    · rename_i h; exact ⟨fun _ => h, fun _ => rfl⟩
    · rename_i h; exact ⟨fun q => absurd q e2, fun q => absurd q h⟩
  · unfold Rp.setup; split
    · exact fun q => absurd rfl q
    · exact fun _ => rfl
  · constructor
    · intro h
      refine ⟨width_code x h, ?_⟩
      simp [accepts] at h
      omega
    · rintro ⟨h | h | h, h1, h2⟩ <;> simp [accepts, h, h1, h2]

/-- **C91, C92, rp2040**: on a channel that is disabled and not busy, dma_setup returns 0 and from then on, for every schedule, the units of the transfer move in order,
one per request (one per cycle if the channel was given the permanent request), and nothing else does. -/
theorem setup_moves (x : Xfer) (gs : List (List Bool)) (c : Rp) (sched : List Bool) (hi : Idle c) (h : accepts x = true) :
    (Rp.setup x gs c).1 = 0 ∧
    (Rp.cycles sched (Rp.setup x gs c).2).seq.log = c.seq.log ++ x.wanted.take (granted (decide (Field.get 6 15 c.ctrl = 0x3f#32)) sched) := by
  rw [Rp.setup, if_pos h]
  refine ⟨rfl, ?_⟩
  have := ((setup_armed x gs c hi h).cycles sched).mv.log_take
  rwa [Nat.zero_add] at this

/-- writing the permanent request into a channel that runs a transfer not finished -/
theorem perm_armed (x : Xfer) (t : BitVec 32) (l0 : List Beat) (k : Nat) (c : Rp) (h : Armed x t l0 k c) (hk : k < x.units) :
    Armed x 0x3f#32 l0 k (Rp.ctrlOp (Field.orIn 6 15 0x3f#32) c) := by
  have b : ∀ i, i < 15 → (Field.orIn 6 15 0x3f#32 c.ctrl).getLsbD i = c.ctrl.getLsbD i := by
    intro i hi
    rw [Field.orIn_bit _ _ _ _ _ (by omega)]
    have : decide (15 ≤ i) = false := by simp; omega
    simp [this]
  have hc : Field.get 2 2 (Field.orIn 6 15 0x3f#32 c.ctrl) = Field.get 2 2 c.ctrl := get_orIn_other _ _ _ _ _ _ (by decide)
  have ht : Field.get 6 15 (Field.orIn 6 15 0x3f#32 c.ctrl) = 0x3f#32 := by
    apply BitVec.eq_of_getLsbD_eq
    intro i hi
    rw [get_bit]
    by_cases c6 : i < 6
    · rw [Field.orIn_bit _ _ _ _ _ (by omega)]
      have : (0x3f#32).getLsbD i = true := by
        have : i = 0 ∨ i = 1 ∨ i = 2 ∨ i = 3 ∨ i = 4 ∨ i = 5 := by omega
        rcases this with rfl | rfl | rfl | rfl | rfl | rfl <;> decide
      have e1 : decide (15 ≤ 15 + i) = true := by simp
      have e2 : decide (15 + i < 15 + 6) = true := by simp; omega
      rw [Nat.add_sub_cancel_left, this, e1, e2]
      simp [c6]
    · have : (0x3f#32).getLsbD i = false := by
        rw [show (0x3f#32) = mask 32 6 by decide, mask_bit]
        simp [c6]
      simp [c6, this]
  have hl : c.seq.left ≠ 0 := by
    have := h.mv.left
    rw [Nat.min_eq_left (by omega)] at this
    omega
  refine ⟨?_, ht, h.reload, ?_, ?_, ?_, ?_⟩
  · show (Field.orIn 6 15 0x3f#32 c.ctrl).getLsbD 0 = true
    rw [b 0 (by decide), h.en]
  · show (width (Field.get 2 2 (Field.orIn 6 15 0x3f#32 c.ctrl)).toNat).getD 0 = _
    rw [hc, h.code]
  · show (Field.orIn 6 15 0x3f#32 c.ctrl).getLsbD 4 = _
    rw [b 4 (by decide), h.rd]
  · show (Field.orIn 6 15 0x3f#32 c.ctrl).getLsbD 5 = _
    rw [b 5 (by decide), h.wr]
  · have e : (Rp.ctrlOp (Field.orIn 6 15 0x3f#32) c).seq = c.seq := by
      simp only [Rp.ctrlOp, Rp.writeCtrl, hc, h.code, b 4 (by decide), b 5 (by decide), h.rd, h.wr, hl, and_false, if_false]
      have ms := h.mv.sstep
      have md := h.mv.dstep
      have mu := h.mv.unit
      rw [ofNat_size rfl, ← mu]
      have e1 : (if decide (x.incrRead ≠ 0) = true then x.size else 0#32) = c.seq.sstep := by
        rw [ms]; by_cases q : x.incrRead = 0 <;> simp [q]
      have e2 : (if decide (x.incrWrite ≠ 0) = true then x.size else 0#32) = c.seq.dstep := by
        rw [md]; by_cases q : x.incrWrite = 0 <;> simp [q]
      rw [e1, e2]
    rw [e]
    exact h.mv

/-- **C91, C92, rp2040**: dma_xfer on an idle channel: if the transfer is not finished when the last register is written, the units move one per cycle from then on, without requests -/
theorem xfer_moves (x : Xfer) (gs : List (List Bool)) (g : List Bool) (c : Rp) (sched : List Bool) (hi : Idle c) (h : accepts x = true)
    (hg : granted (decide (Field.get 6 15 c.ctrl = 0x3f#32)) g < x.units) :
    (Rp.xfer x gs g c).1 = 0 ∧
    (Rp.cycles sched (Rp.xfer x gs g c).2).seq.log =
      c.seq.log ++ x.wanted.take (granted (decide (Field.get 6 15 c.ctrl = 0x3f#32)) g + sched.length) := by
  have e : Rp.xfer x gs g c = (0, Rp.ctrlOp (Field.orIn 6 15 0x3f#32) (Rp.cycles g (Rp.run (Rp.setupOps x) gs c))) := by
    simp only [Rp.xfer, Rp.setup, h, if_true]
  rw [e]
  refine ⟨rfl, ?_⟩
  have a1 := (setup_armed x gs c hi h).cycles g
  rw [Nat.zero_add] at a1
  have a2 := (perm_armed x _ _ _ _ a1 hg).cycles sched
  rw [show granted (decide ((0x3f#32) = 0x3f#32)) sched = sched.length by simp [granted]] at a2
  exact a2.mv.log_take

/-- a channel in the middle of a transfer or after it: dma_xfer_done returns 0 exactly when all the units have been moved -/
theorem Armed.done_iff {x : Xfer} {t : BitVec 32} {l0 : List Beat} {k : Nat} {c : Rp} (h : Armed x t l0 k c) : (Rp.done c).1 = 0 ↔ c.seq.log = l0 ++ x.wanted := by
  have hl := h.mv.left
  have hlog := h.mv.log
  constructor
  · intro hd
    have : c.seq.left = 0 := by
      by_cases q : c.seq.left = 0
      · exact q
      · exact absurd hd (by simp only [Rp.done, ne_eq, q, not_false_eq_true, if_true]; decide)
    rw [hlog, List.take_of_length_le]
    rw [wanted_length]
    have := h.mv.le
    omega
  · intro he
    rw [he] at hlog
    have hlen := congrArg List.length (List.append_cancel_left hlog)
    rw [List.length_take, wanted_length] at hlen
    have : c.seq.left = 0 := by omega
    simp only [Rp.done, this, ne_eq, not_true_eq_false, if_false]

/-- **C93, rp2040**: after dma_setup on an idle channel, dma_xfer_done returns 0 exactly when all the units have been moved -/
theorem setup_done (x : Xfer) (gs : List (List Bool)) (c : Rp) (sched : List Bool) (hi : Idle c) (h : accepts x = true) :
    (Rp.done (Rp.cycles sched (Rp.setup x gs c).2)).1 = 0 ↔ (Rp.cycles sched (Rp.setup x gs c).2).seq.log = c.seq.log ++ x.wanted := by
  rw [Rp.setup, if_pos h]
  exact ((setup_armed x gs c hi h).cycles sched).done_iff

/-- **C93, rp2040**: the same after dma_xfer, when the transfer was not finished at its last register write -/
theorem xfer_done (x : Xfer) (gs : List (List Bool)) (g : List Bool) (c : Rp) (sched : List Bool) (hi : Idle c) (h : accepts x = true)
    (hg : granted (decide (Field.get 6 15 c.ctrl = 0x3f#32)) g < x.units) :
    (Rp.done (Rp.cycles sched (Rp.xfer x gs g c).2)).1 = 0 ↔ (Rp.cycles sched (Rp.xfer x gs g c).2).seq.log = c.seq.log ++ x.wanted := by
  have e : Rp.xfer x gs g c = (0, Rp.ctrlOp (Field.orIn 6 15 0x3f#32) (Rp.cycles g (Rp.run (Rp.setupOps x) gs c))) := by
    simp only [Rp.xfer, Rp.setup, h, if_true]
  rw [e]
  have a1 := (setup_armed x gs c hi h).cycles g
  rw [Nat.zero_add] at a1
  exact ((perm_armed x _ _ _ _ a1 hg).cycles sched).done_iff

/-- **C93, rp2040**: when dma_xfer_done returns 0 the channel is idle again, with the same trigger -/
theorem done_idle (c : Rp) (h : (Rp.done c).1 = 0) : Idle (Rp.done c).2 ∧ Field.get 6 15 (Rp.done c).2.ctrl = Field.get 6 15 c.ctrl ∧ (Rp.done c).2.seq.log = c.seq.log := by
  by_cases q : c.seq.left = 0
  · have e : Rp.done c = (0, Rp.ctrlOp (bclr 0) c) := by simp only [Rp.done, q, ne_eq, not_true_eq_false, if_false]
    rw [e]
    have b : (bclr 0 c.ctrl).getLsbD 0 = false := bclr_same _ _
    refine ⟨⟨b, ?_⟩, get_bclr_other _ _ _ _ (by decide), rfl⟩
    show (if (bclr 0 c.ctrl).getLsbD 0 ∧ c.seq.left = 0 then c.reload.toNat else c.seq.left) = 0
    rw [if_neg (by rw [b]; exact fun h => absurd h.1 (by decide)), q]
  · exact absurd h (by simp only [Rp.done, ne_eq, q, not_false_eq_true, if_true]; decide)

/-- **C92, rp2040**: dma_r2040_init on a channel just reset leaves it idle, with the trigger asked for -/
theorem init_idle (channel treq : Nat) (gs : List (List Bool)) (c : Rp) (hi : Idle c) (hc : channel < 12) (ht : treq < 0x40) :
    (Rp.init channel treq gs c).1 = 0 ∧ Idle (Rp.init channel treq gs c).2 ∧ (Field.get 6 15 (Rp.init channel treq gs c).2.ctrl).toNat = treq ∧
    (Rp.init channel treq gs c).2.seq.log = c.seq.log := by
  have k1 : Keeps (Rp.ctrlOp (bclr 0)) := keeps_ctrl _ (fun v _ => bclr_same _ _)
  have k2 : Keeps (Rp.ctrlOp (Field.clear 6 15)) := keeps_ctrl _ (fun v hv => by rw [clear_bit0 _ _ _ (by decide), hv])
  have k3 : Keeps (Rp.ctrlOp (Field.orIn 6 15 (BitVec.ofNat 32 treq))) := keeps_ctrl _ (fun v hv => by rw [orIn_bit0 _ _ _ _ (by decide), hv])
  have k4 : Keeps (Rp.ctrlOp (Field.clear 4 11)) := keeps_ctrl _ (fun v hv => by rw [clear_bit0 _ _ _ (by decide), hv])
  have k5 : Keeps (Rp.ctrlOp (Field.orIn 4 11 (BitVec.ofNat 32 channel))) := keeps_ctrl _ (fun v hv => by rw [orIn_bit0 _ _ _ _ (by decide), hv])
  have hr := run_keeps [Rp.ctrlOp (bclr 0), Rp.ctrlOp (Field.clear 6 15), Rp.ctrlOp (Field.orIn 6 15 (BitVec.ofNat 32 treq)), Rp.ctrlOp (Field.clear 4 11)]
    (Rp.ctrlOp (Field.orIn 4 11 (BitVec.ofNat 32 channel))) gs c hi (by
      intro o ho
      simp only [List.mem_cons, List.not_mem_nil, or_false] at ho
      rcases ho with rfl | rfl | rfl | rfl <;> assumption)
  have e : Rp.init channel treq gs c = (0, Rp.run ([Rp.ctrlOp (bclr 0), Rp.ctrlOp (Field.clear 6 15), Rp.ctrlOp (Field.orIn 6 15 (BitVec.ofNat 32 treq)), Rp.ctrlOp (Field.clear 4 11)] ++
    [Rp.ctrlOp (Field.orIn 4 11 (BitVec.ofNat 32 channel))]) gs c) := by
    rw [Rp.init, if_neg (by omega), if_neg (by omega)]; rfl
  rw [e]
  show _ ∧ Idle (Rp.run _ gs c) ∧ _ ∧ _
  rw [hr]
  refine ⟨rfl, k5 _ (k4 _ (k3 _ (k2 _ (k1 _ hi)))), ?_, rfl⟩
  show (Field.get 6 15 (Field.orIn 4 11 (BitVec.ofNat 32 channel) (Field.clear 4 11 (Field.put 6 15 (BitVec.ofNat 32 treq) (bclr 0 c.ctrl))))).toNat = treq
  rw [get_orIn_other _ _ _ _ _ _ (by decide), get_clear_other _ _ _ _ _ (by decide)]
  exact get_put_nat _ _ _ _ (by decide) ht

/-- **C91 refuted, rp2040 dma_xfer**: if the transfer is finished when the last register is written (a short one, and a request that is there), that write starts it
again where it stopped: as many units move again, past the end of the buffers. -/
theorem xfer_restarts (x : Xfer) (gs : List (List Bool)) (g : List Bool) (c : Rp) (hi : Idle c) (h : accepts x = true) (h0 : 0 < x.units)
    (hg : x.units ≤ granted (decide (Field.get 6 15 c.ctrl = 0x3f#32)) g) :
    (Rp.xfer x gs g c).1 = 0 ∧
    (Rp.cycles [false] (Rp.xfer x gs g c).2).seq.log = c.seq.log ++ x.wanted ++ [x.unit x.units] ∧
    (Rp.xfer x gs g c).2.seq.left = x.units := by
  have e : Rp.xfer x gs g c = (0, Rp.ctrlOp (Field.orIn 6 15 0x3f#32) (Rp.cycles g (Rp.run (Rp.setupOps x) gs c))) := by
    simp only [Rp.xfer, Rp.setup, h, if_true]
  have a1 := (setup_armed x gs c hi h).cycles g
  rw [Nat.zero_add] at a1
  rw [e]
  generalize Rp.cycles g (Rp.run (Rp.setupOps x) gs c) = d at *
  have mv := a1.mv
  rw [Nat.min_eq_right hg] at mv
  have b : ∀ i, i < 15 → (Field.orIn 6 15 0x3f#32 d.ctrl).getLsbD i = d.ctrl.getLsbD i := by
    intro i hi
    rw [Field.orIn_bit _ _ _ _ _ (by omega), show decide (15 ≤ i) = false by simp; omega, Bool.false_and, Bool.false_and, Bool.or_false]
  have hc : Field.get 2 2 (Field.orIn 6 15 0x3f#32 d.ctrl) = Field.get 2 2 d.ctrl := get_orIn_other _ _ _ _ _ _ (by decide)
  have ht : Field.get 6 15 (Field.orIn 6 15 0x3f#32 d.ctrl) = 0x3f#32 := by
    apply BitVec.eq_of_getLsbD_eq
    intro i hi
    rw [get_bit]
    by_cases c6 : i < 6
    · rw [Field.orIn_bit _ _ _ _ _ (by omega)]
      have : (0x3f#32).getLsbD i = true := by
        have : i = 0 ∨ i = 1 ∨ i = 2 ∨ i = 3 ∨ i = 4 ∨ i = 5 := by omega
        rcases this with rfl | rfl | rfl | rfl | rfl | rfl <;> decide
      rw [Nat.add_sub_cancel_left, this, show decide (15 ≤ 15 + i) = true by simp, show decide (15 + i < 15 + 6) = true by simp; omega]
      simp [c6]
    · rw [show (0x3f#32) = mask 32 6 by decide, mask_bit]
      simp [c6]
  have hl : d.seq.left = 0 := by have := mv.left; omega
  have left : (Rp.ctrlOp (Field.orIn 6 15 0x3f#32) d).seq.left = x.units := by
    show (if (Field.orIn 6 15 0x3f#32 d.ctrl).getLsbD 0 ∧ d.seq.left = 0 then d.reload.toNat else d.seq.left) = _
    rw [if_pos ⟨by rw [b 0 (by decide), a1.en], hl⟩, a1.reload]
  refine ⟨rfl, ?_, left⟩
  have hu : (Rp.ctrlOp (Field.orIn 6 15 0x3f#32) d).seq.unit = x.size.toNat := by
    show (width (Field.get 2 2 (Field.orIn 6 15 0x3f#32 d.ctrl)).toNat).getD 0 = _
    rw [hc, a1.code]
  have hs : (Rp.ctrlOp (Field.orIn 6 15 0x3f#32) d).seq.src = d.seq.src := rfl
  have hd : (Rp.ctrlOp (Field.orIn 6 15 0x3f#32) d).seq.dst = d.seq.dst := rfl
  have hlog : (Rp.ctrlOp (Field.orIn 6 15 0x3f#32) d).seq.log = d.seq.log := rfl
  have hctrl : (Rp.ctrlOp (Field.orIn 6 15 0x3f#32) d).ctrl = Field.orIn 6 15 0x3f#32 d.ctrl := rfl
  simp only []
  generalize Rp.ctrlOp (Field.orIn 6 15 0x3f#32) d = d2 at *
  show (Rp.cycle false d2).seq.log = _
  rw [Rp.cycle, if_pos ⟨by rw [hctrl, b 0 (by decide), a1.en], .inr (by rw [hctrl, ht])⟩]
  obtain ⟨n, hn⟩ : ∃ n, d2.seq.left = n + 1 := ⟨x.units - 1, by omega⟩
  show d2.seq.beat.log = _
  simp only [Seq.beat, hn]
  rw [hlog, hs, hd, hu, mv.log, mv.src, mv.dst, List.take_of_length_le (by rw [wanted_length]; omega)]
  rfl

/-- a channel just reset -/
def reset : Rp := { ctrl := 0#32, reload := 0#32, seq := { src := 0#32, dst := 0#32, sstep := 0#32, dstep := 0#32, unit := 1, left := 0, log := [] } }

/-- a copy of one byte -/
def one : Xfer := { saddr := 0x20000000#32, daddr := 0x20001000#32, incrRead := 1, incrWrite := 1, size := 1#32, byteCount := 1#32 }

/-- an instance of `xfer_restarts`: with the permanent request asked for at init, dma_xfer of one byte, one cycle before the last write: a second byte is written after the buffer -/
theorem restart_sample :
    (Rp.cycles [false, false] (Rp.xfer one [] [false] (Rp.init 3 0x3f [] reset).2).2).seq.log =
      [⟨0x20000000#32, 0x20001000#32, 1⟩, ⟨0x20000001#32, 0x20001001#32, 1⟩] := by decide +kernel

/-- instances of `setup_moves` and `xfer_moves`: 2 words paced by UART0 TX, then by nothing -/
theorem moves_sample :
    (Rp.cycles [false, true, false] (Rp.setup sample [] (Rp.init 3 20 [] reset).2).2).seq.log = [⟨0x20000000#32, 0x20001000#32, 4⟩] ∧
    (Rp.cycles [false, false, false] (Rp.xfer sample [] [] (Rp.init 3 20 [] reset).2).2).seq.log =
      [⟨0x20000000#32, 0x20001000#32, 4⟩, ⟨0x20000004#32, 0x20001004#32, 4⟩] := by decide +kernel

/-- **C92 refuted, rp2040**: dma_xfer sets the permanent request in the channel and nothing takes it back: the next dma_setup, meant to follow the requests of the peripheral
asked for at init, does not wait for them. -/
theorem setup_after_xfer_unpaced (x y : Xfer) (gs gs' : List (List Bool)) (c : Rp) (sched sched' : List Bool) (hi : Idle c) (h : accepts x = true) (h' : accepts y = true)
    (h0 : 0 < x.units) (ht : Field.get 6 15 c.ctrl ≠ 0x3f#32) (hd : x.units ≤ sched.length) :
    let c1 := Rp.done (Rp.cycles sched (Rp.xfer x gs [] c).2)
    c1.1 = 0 ∧ (Rp.cycles sched' (Rp.setup y gs' c1.2).2).seq.log = c.seq.log ++ x.wanted ++ y.wanted.take sched'.length := by
  have hg : granted (decide (Field.get 6 15 c.ctrl = 0x3f#32)) [] = 0 := by simp [granted]
  have m := xfer_moves x gs [] c sched hi h (by omega)
  have e : Rp.xfer x gs [] c = (0, Rp.ctrlOp (Field.orIn 6 15 0x3f#32) (Rp.cycles [] (Rp.run (Rp.setupOps x) gs c))) := by
    simp only [Rp.xfer, Rp.setup, h, if_true]
  have a1 := (setup_armed x gs c hi h).cycles []
  rw [Nat.zero_add] at a1
  have a2 := (perm_armed x _ _ _ _ a1 (by omega)).cycles sched
  have e2 : (Rp.xfer x gs [] c).2 = Rp.ctrlOp (Field.orIn 6 15 0x3f#32) (Rp.cycles [] (Rp.run (Rp.setupOps x) gs c)) := by rw [e]
  rw [← e2] at a2
  have log := m.2
  rw [hg, Nat.zero_add, List.take_of_length_le (by rw [wanted_length]; omega)] at log
  have d0 := (xfer_done x gs [] c sched hi h (by omega)).2 log
  have di := done_idle _ d0
  simp only []
  refine ⟨d0, ?_⟩
  have s := (setup_moves y gs' _ sched' di.1 h').2
  rw [s, di.2.1, di.2.2, log, a2.treq]
  simp [granted]

end Rp
end Pico.Dma
