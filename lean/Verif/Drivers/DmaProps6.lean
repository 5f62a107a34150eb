import Verif.Drivers.DmaProps2

/-
C91-C93 for nxp_edma.
-/
namespace Pico.Dma

open Field

namespace Ed

/-- the transfers for which the registers are right: units of 1, 2, 4 or 8 bytes, no remainder, at least one unit and less than 2^30 bytes -/
structure Fits (x : Xfer) : Prop where
  size : x.size = 1#32 ∨ x.size = 2#32 ∨ x.size = 4#32 ∨ x.size = 8#32
  div : x.size.toNat ∣ x.byteCount.toNat
  pos : 0 < x.units
  lt : x.byteCount.toNat < 2 ^ 30

/-- the TCD holds transfer x -/
structure Tcd (x : Xfer) (c : Ed) : Prop where
  code : edWidth (Field.get 3 8 c.attr).toNat = some x.size.toNat
  same : Field.get 3 0 c.attr = Field.get 3 8 c.attr
  nbytes : c.nbytes = x.byteCount
  slast : c.slast = if x.incrRead = 0 then 0#32 else - x.byteCount
  dlast : c.dlast = if x.incrWrite = 0 then 0#32 else - x.byteCount

/-- the channel waits, at the start of the transfer -/
structure Ready (x : Xfer) (l0 : List Beat) (c : Ed) : Prop where
  tcd : Tcd x c
  src : c.seq.src = x.saddr
  dst : c.seq.dst = x.daddr
  sstep : c.seq.sstep = if x.incrRead = 0 then 0#32 else x.size
  dstep : c.seq.dstep = if x.incrWrite = 0 then 0#32 else x.size
  left : c.seq.left = 0
  log : c.seq.log = l0

/-- the channel is active, k units have been moved -/
structure Running (x : Xfer) (l0 : List Beat) (k : Nat) (c : Ed) : Prop where
  tcd : Tcd x c
  start : c.start = false
  lt : k < x.units
  mv : Moving x l0 k c.seq

theorem bit_false (v : BitVec 32) (i : Nat) (h : v.toNat < 2 ^ 30) (hi : 30 ≤ i) : v.getLsbD i = false := by
  rw [BitVec.getLsbD]
  exact Nat.testBit_lt_two_pow (Nat.lt_of_lt_of_le h (Nat.pow_le_pow_right (by omega) hi))

theorem Ready.activate {x : Xfer} {l0 : List Beat} {c : Ed} (hf : Fits x) (h : Ready x l0 c) : Running x l0 0 c.activate ∧ c.activate.erq = c.erq := by
  have e : c.activate = { c with start := false, seq := { c.seq with unit := x.size.toNat, left := c.nbytes.toNat / x.size.toNat } } := by
    simp only [Ed.activate, h.tcd.code]
    rw [if_neg, if_neg]
    · rw [h.tcd.nbytes]
      have := Nat.mod_eq_zero_of_dvd hf.div
      omega
    · rw [h.tcd.same, h.tcd.nbytes, bit_false _ _ hf.lt (by omega), bit_false _ _ hf.lt (by omega)]
      simp
  rw [e]
  refine ⟨⟨⟨h.tcd.code, h.tcd.same, h.tcd.nbytes, h.tcd.slast, h.tcd.dlast⟩, rfl, hf.pos, ?_⟩, rfl⟩
  refine Moving.start h.src h.dst h.sstep h.dstep rfl ?_ h.log
  show c.nbytes.toNat / x.size.toNat = _
  rw [h.tcd.nbytes]
  rfl

theorem back (x : Xfer) (hf : Fits x) (a : BitVec 32) : a + BitVec.ofNat 32 (x.units * x.size.toNat) + - x.byteCount = a := by
  rw [Xfer.units, Nat.div_mul_cancel hf.div, BitVec.ofNat_toNat, BitVec.setWidth_eq]
  grind

theorem Running.cycle {x : Xfer} {l0 : List Beat} {k : Nat} {c : Ed} (hf : Fits x) (h : Running x l0 k c) (r : Bool) :
    (if k + 1 < x.units then Running x l0 (k + 1) (c.cycle r) else Ready x (l0 ++ x.wanted) (c.cycle r) ∧ (c.cycle r).start = false) ∧ (c.cycle r).erq = c.erq := by
  have hl := h.mv.left
  have hk := h.lt
  have mv := h.mv.beat hk
  have hl' := mv.left
  have hne : c.seq.left ≠ 0 := by omega
  simp only [Ed.cycle, if_pos hne]
  by_cases q : k + 1 < x.units
  · rw [if_pos q]
    simp only [show ¬ c.seq.beat.left = 0 by omega, if_false]
    exact ⟨⟨⟨h.tcd.code, h.tcd.same, h.tcd.nbytes, h.tcd.slast, h.tcd.dlast⟩, h.start, q, mv⟩, trivial⟩
  · rw [if_neg q]
    have ek : k + 1 = x.units := by omega
    rw [ek] at mv hl'
    simp only [show c.seq.beat.left = 0 by omega, if_true]
    refine ⟨⟨⟨⟨h.tcd.code, h.tcd.same, h.tcd.nbytes, h.tcd.slast, h.tcd.dlast⟩, ?_, ?_, mv.sstep, mv.dstep, rfl, ?_⟩, h.start⟩, trivial⟩
    · show c.seq.beat.src + c.slast = _
      rw [mv.src, h.tcd.slast]
      simp only [Xfer.unit]
      by_cases z : x.incrRead = 0
      · simp only [if_pos z, BitVec.add_zero]
      · simp only [if_neg z, back x hf]
    · show c.seq.beat.dst + c.dlast = _
      rw [mv.dst, h.tcd.dlast]
      simp only [Xfer.unit]
      by_cases z : x.incrWrite = 0
      · simp only [if_pos z, BitVec.add_zero]
      · simp only [if_neg z, back x hf]
    · show c.seq.beat.log = _
      rw [mv.log, List.take_of_length_le (by rw [wanted_length]; omega)]

theorem Ready.idle {x : Xfer} {l0 : List Beat} {c : Ed} (h : Ready x l0 c) (r : Bool) (hs : c.start = false) (hr : ¬ (c.erq = true ∧ r = true)) : c.cycle r = c := by
  rw [Ed.cycle, if_neg (by rw [h.left]; simp), if_neg]
  rintro (q | q)
  · rw [hs] at q; exact absurd q (by decide)
  · exact hr q

theorem Ready.go {x : Xfer} {l0 : List Beat} {c : Ed} (hf : Fits x) (h : Ready x l0 c) (r : Bool) (hs : c.start = true ∨ (c.erq = true ∧ r = true)) :
    Running x l0 0 (c.cycle r) ∧ (c.cycle r).erq = c.erq := by
  rw [Ed.cycle, if_neg (by rw [h.left]; simp), if_pos hs]
  exact h.activate hf

/-- an active channel that gets no new request -/
theorem Running.cycles {x : Xfer} {l0 : List Beat} {k : Nat} {c : Ed} (hf : Fits x) (h : Running x l0 k c) (rs : List Bool) (hr : ∀ r ∈ rs, ¬ (c.erq = true ∧ r = true)) :
    if k + rs.length < x.units then Running x l0 (k + rs.length) (Ed.cycles rs c) else Ready x (l0 ++ x.wanted) (Ed.cycles rs c) ∧ (Ed.cycles rs c).start = false := by
  induction rs generalizing k c with
  | nil =>
    have := h.lt
    rw [if_pos (by simpa using this)]
    exact h
  | cons r rs ih =>
    obtain ⟨h1, he⟩ := h.cycle hf r
    rw [Ed.cycles, List.length_cons]
    by_cases q : k + 1 < x.units
    · rw [if_pos q] at h1
      have := ih h1 (fun r hr' => by rw [he]; exact hr r (by simp [hr']))
      rwa [show k + 1 + rs.length = k + (rs.length + 1) by omega] at this
    · rw [if_neg q] at h1
      rw [if_neg (by omega)]
      have stay : ∀ (rs : List Bool) (d : Ed), Ready x (l0 ++ x.wanted) d → d.start = false → (∀ r ∈ rs, ¬ (d.erq = true ∧ r = true)) → Ed.cycles rs d = d := by
        intro rs
        induction rs with
        | nil => intro d _ _ _; rfl
        | cons r rs ih => intro d hd hs hr; rw [Ed.cycles, hd.idle r hs (hr r (by simp)), ih d hd hs (fun r hr' => hr r (by simp [hr']))]
      rw [stay rs _ h1.1 h1.2 (fun r hr' => by rw [he]; exact hr r (by simp [hr']))]
      exact h1

theorem Running.log_cycles {x : Xfer} {l0 : List Beat} {k : Nat} {c : Ed} (hf : Fits x) (h : Running x l0 k c) (rs : List Bool) (hr : ∀ r ∈ rs, ¬ (c.erq = true ∧ r = true)) :
    (Ed.cycles rs c).seq.log = l0 ++ x.wanted.take (k + rs.length) ∧ (Ed.done (Ed.cycles rs c) = 0 ↔ (Ed.cycles rs c).seq.log = l0 ++ x.wanted) := by
  have := h.cycles hf rs hr
  by_cases q : k + rs.length < x.units
  · rw [if_pos q] at this
    refine ⟨this.mv.log, ?_⟩
    rw [← this.mv.left_zero_iff]
    have := this.mv.left
    constructor
    · intro z; rw [Ed.done, if_pos (by omega)] at z; exact absurd z (by decide)
    · intro z; omega
  · rw [if_neg q] at this
    refine ⟨by rw [this.1.log, List.take_of_length_le (by rw [wanted_length]; omega)], fun _ => this.1.log, fun _ => ?_⟩
    rw [Ed.done, if_neg (by rw [this.1.left]; simp)]

theorem tcd_ready (x : Xfer) (c : Ed) (hl : c.seq.left = 0) (hf : Fits x) :
    (Ed.tcd x c).1 = 0 ∧ Ready x c.seq.log (Ed.tcd x c).2 ∧ (Ed.tcd x c).2.start = c.start ∧ (Ed.tcd x c).2.erq = c.erq := by
  have h8 : ¬ 8 < x.size.toNat := by rcases hf.size with q | q | q | q <;> rw [q] <;> decide
  simp only [Ed.tcd, if_neg h8]
  have hc : edWidth (Field.get 3 8 ((((edSize x.size &&& 7#32) <<< 8) ||| (edSize x.size &&& 7#32)).setWidth 16 : BitVec 16)).toNat = some x.size.toNat := by
    rcases hf.size with q | q | q | q <;> rw [q] <;> decide
  have hc2 : Field.get 3 0 ((((edSize x.size &&& 7#32) <<< 8) ||| (edSize x.size &&& 7#32)).setWidth 16 : BitVec 16) =
      Field.get 3 8 ((((edSize x.size &&& 7#32) <<< 8) ||| (edSize x.size &&& 7#32)).setWidth 16 : BitVec 16) := by
    rcases hf.size with q | q | q | q <;> rw [q] <;> decide
  refine ⟨trivial, ⟨⟨hc, hc2, rfl, ?_, ?_⟩, rfl, rfl, ?_, ?_, hl, rfl⟩, trivial, trivial⟩
  · show (if x.incrRead ≠ 0 then - x.byteCount else 0#32) = _
    by_cases z : x.incrRead = 0 <;> simp [z]
  · show (if x.incrWrite ≠ 0 then - x.byteCount else 0#32) = _
    by_cases z : x.incrWrite = 0 <;> simp [z]
  · have ho : edOff x.size = x.size := by rcases hf.size with q | q | q | q <;> rw [q] <;> decide
    show (if x.incrRead ≠ 0 then edOff x.size else 0#32) = _
    rw [ho]; by_cases z : x.incrRead = 0 <;> simp [z]
  · have ho : edOff x.size = x.size := by rcases hf.size with q | q | q | q <;> rw [q] <;> decide
    show (if x.incrWrite ≠ 0 then edOff x.size else 0#32) = _
    rw [ho]; by_cases z : x.incrWrite = 0 <;> simp [z]

theorem xfer_ready (x : Xfer) (c : Ed) (hl : c.seq.left = 0) (hf : Fits x) :
    (Ed.xfer x c).1 = 0 ∧ Ready x c.seq.log (Ed.xfer x c).2 ∧ (Ed.xfer x c).2.start = true ∧ (Ed.xfer x c).2.erq = c.erq := by
  obtain ⟨t1, t2, t3, t4⟩ := tcd_ready x c hl hf
  have e : Ed.xfer x c = (0, { (Ed.tcd x c).2 with start := true }) := by
    simp only [Ed.xfer, hl, ne_eq, not_true_eq_false, if_false, t1, show ¬ ((0 : Int) < 0) by decide]
  rw [e]
  exact ⟨rfl, ⟨⟨t2.tcd.code, t2.tcd.same, t2.tcd.nbytes, t2.tcd.slast, t2.tcd.dlast⟩, t2.src, t2.dst, t2.sstep, t2.dstep, t2.left, t2.log⟩, rfl, t4⟩

/-- **C91, C92, nxp_edma**: dma_xfer on a channel that is not active and was never given to a peripheral: it returns 0 and, for every schedule, from the second cycle on the units move in
order, one per cycle, without requests, once; and nothing else does. From that second cycle on, dma_xfer_done returns 0 exactly when they have all been moved (C93). -/
theorem xfer_moves (x : Xfer) (c : Ed) (r : Bool) (sched : List Bool) (hl : c.seq.left = 0) (he : c.erq = false) (hf : Fits x) :
    (Ed.xfer x c).1 = 0 ∧ (Ed.cycles (r :: sched) (Ed.xfer x c).2).seq.log = c.seq.log ++ x.wanted.take sched.length ∧
    (Ed.done (Ed.cycles (r :: sched) (Ed.xfer x c).2) = 0 ↔ (Ed.cycles (r :: sched) (Ed.xfer x c).2).seq.log = c.seq.log ++ x.wanted) := by
  obtain ⟨t1, t2, t3, t4⟩ := xfer_ready x c hl hf
  obtain ⟨g, ge⟩ := t2.go hf r (.inl t3)
  have := g.log_cycles hf sched (fun r _ q => by rw [ge, t4, he] at q; exact absurd q.1 (by decide))
  rw [Nat.zero_add] at this
  exact ⟨t1, this⟩

/-- **C91, nxp_edma**: a transfer that was accepted and is active is not disturbed: dma_xfer returns -EAGAIN and changes nothing -/
theorem xfer_busy (x : Xfer) (c : Ed) (h : c.seq.left ≠ 0) : Ed.xfer x c = (eagain, c) := by
  rw [Ed.xfer, if_pos h]

/-- **C93 refuted, nxp_edma**: between dma_xfer and the first cycle of the controller, dma_xfer_done returns 0 though nothing has been moved (it looks at ACTIVE, not at DONE) -/
theorem done_too_early (x : Xfer) (c : Ed) (hl : c.seq.left = 0) (hf : Fits x) :
    (Ed.xfer x c).1 = 0 ∧ Ed.done (Ed.xfer x c).2 = 0 ∧ (Ed.xfer x c).2.seq.log = c.seq.log ∧ x.wanted ≠ [] := by
  obtain ⟨t1, t2, t3, t4⟩ := xfer_ready x c hl hf
  refine ⟨t1, ?_, t2.log, ?_⟩
  · rw [Ed.done, if_neg (by rw [t2.left]; simp)]
  · intro q
    have := congrArg List.length q
    rw [wanted_length] at this
    have := hf.pos
    simp at *
    omega

theorem setup_ready (x : Xfer) (c : Ed) (hl : c.seq.left = 0) (hf : Fits x) :
    (Ed.setup x c).1 = 0 ∧ Ready x c.seq.log (Ed.setup x c).2 ∧ (Ed.setup x c).2.start = c.start ∧ (Ed.setup x c).2.erq = true := by
  obtain ⟨t1, t2, t3, t4⟩ := tcd_ready x c hl hf
  have e : Ed.setup x c = (0, { (Ed.tcd x c).2 with erq := true }) := by
    simp only [Ed.setup, t1, show ¬ ((0 : Int) < 0) by decide, if_false]
  rw [e]
  exact ⟨rfl, ⟨⟨t2.tcd.code, t2.tcd.same, t2.tcd.nbytes, t2.tcd.slast, t2.tcd.dlast⟩, t2.src, t2.dst, t2.sstep, t2.dstep, t2.left, t2.log⟩, t3, rfl⟩

/-- r transfers -/
def rounds (x : Xfer) (r : Nat) : List Beat := (List.replicate r x.wanted).flatten

theorem rounds_succ (x : Xfer) (r : Nat) : rounds x r ++ x.wanted = rounds x (r + 1) := by
  rw [rounds, rounds, List.replicate_succ', List.flatten_append]
  simp

/-- whatever the requests, the channel moves the transfer, again and again -/
theorem rounds_cycles (x : Xfer) (l0 : List Beat) (hf : Fits x) (rs : List Bool) (c : Ed) (r0 : Nat)
    (h : (Ready x (l0 ++ rounds x r0) c ∧ c.start = false) ∨ ∃ k, Running x (l0 ++ rounds x r0) k c) :
    ∃ r k, (Ed.cycles rs c).seq.log = l0 ++ rounds x r ++ x.wanted.take k := by
  induction rs generalizing c r0 with
  | nil =>
    rcases h with h | ⟨k, h⟩
    · exact ⟨r0, 0, by rw [List.take_zero, List.append_nil]; exact h.1.log⟩
    · exact ⟨r0, k, h.mv.log⟩
  | cons b rs ih =>
    rw [Ed.cycles]
    rcases h with ⟨h, hs⟩ | ⟨k, h⟩
    · by_cases q : c.erq = true ∧ b = true
      · exact ih _ r0 (.inr ⟨0, (h.go hf b (.inr q)).1⟩)
      · rw [h.idle b hs q]
        exact ih _ r0 (.inl ⟨h, hs⟩)
    · have := (h.cycle hf b).1
      by_cases q : k + 1 < x.units
      · rw [if_pos q] at this
        exact ih _ r0 (.inr ⟨_, this⟩)
      · rw [if_neg q, List.append_assoc, rounds_succ] at this
        exact ih _ (r0 + 1) (.inl this)

/-- **C91, nxp_edma**: dma_setup on a channel that is not active: it returns 0 and, for every schedule, what has been moved is the transfer a number of times, and a beginning of it -/
theorem setup_moves (x : Xfer) (c : Ed) (sched : List Bool) (hl : c.seq.left = 0) (hs : c.start = false) (hf : Fits x) :
    (Ed.setup x c).1 = 0 ∧ ∃ r k, (Ed.cycles sched (Ed.setup x c).2).seq.log = c.seq.log ++ rounds x r ++ x.wanted.take k := by
  obtain ⟨t1, t2, t3, t4⟩ := setup_ready x c hl hf
  refine ⟨t1, ?_⟩
  refine rounds_cycles x c.seq.log hf sched _ 0 (.inl ⟨?_, by rw [t3, hs]⟩)
  rw [show rounds x 0 = [] from rfl, List.append_nil]
  exact t2

/-- **C92 refuted, nxp_edma**: one request of the peripheral moves the whole transfer, not one unit (the transfer is one minor loop) -/
theorem request_moves_all (x : Xfer) (c : Ed) (n : Nat) (hl : c.seq.left = 0) (hf : Fits x) :
    (Ed.cycles (true :: List.replicate n false) (Ed.setup x c).2).seq.log = c.seq.log ++ x.wanted.take n := by
  obtain ⟨t1, t2, t3, t4⟩ := setup_ready x c hl hf
  obtain ⟨g, ge⟩ := t2.go hf true (.inr ⟨t4, rfl⟩)
  have := g.log_cycles hf (List.replicate n false) (fun r hr q => by rw [List.eq_of_mem_replicate hr] at q; exact absurd q.2 (by decide))
  rw [Nat.zero_add, List.length_replicate] at this
  exact this.1

/-- **C92 refuted, nxp_edma**: and a request after the end moves it again: the channel stays given to the peripheral -/
theorem request_again (x : Xfer) (c : Ed) (hl : c.seq.left = 0) (hf : Fits x) :
    (Ed.cycles ((true :: List.replicate x.units false) ++ (true :: List.replicate x.units false)) (Ed.setup x c).2).seq.log = c.seq.log ++ x.wanted ++ x.wanted := by
  have app : ∀ (a b : List Bool) (d : Ed), Ed.cycles (a ++ b) d = Ed.cycles b (Ed.cycles a d) := by
    intro a
    induction a with
    | nil => intro b d; rfl
    | cons r a ih => intro b d; exact ih b _
  obtain ⟨t1, t2, t3, t4⟩ := setup_ready x c hl hf
  obtain ⟨g, ge⟩ := t2.go hf true (.inr ⟨t4, rfl⟩)
  have nf : ∀ d : Ed, ∀ r ∈ List.replicate x.units false, ¬ (d.erq = true ∧ r = true) := by
    intro d r hr q; rw [List.eq_of_mem_replicate hr] at q; exact absurd q.2 (by decide)
  have g2 := g.cycles hf (List.replicate x.units false) (nf _)
  rw [Nat.zero_add, List.length_replicate, if_neg (by omega)] at g2
  have keep : ∀ (rs : List Bool) (d : Ed), (Ed.cycles rs d).erq = d.erq := by
    intro rs
    induction rs with
    | nil => intro d; rfl
    | cons r rs ih =>
      intro d
      rw [Ed.cycles, ih]
      simp only [Ed.cycle, Ed.activate]
      repeat' split
      all_goals rfl
  rw [app]
  show (Ed.cycles (true :: List.replicate x.units false) (Ed.cycles (List.replicate x.units false) (Ed.cycle true (Ed.setup x c).2))).seq.log = _
  have ke : (Ed.cycles (List.replicate x.units false) (Ed.cycle true (Ed.setup x c).2)).erq = true := by rw [keep, ge, t4]
  obtain ⟨g3, _⟩ := g2.1.go hf true (.inr ⟨ke, rfl⟩)
  have := (g3.log_cycles hf (List.replicate x.units false) (nf _)).1
  rw [Nat.zero_add, List.length_replicate, List.take_of_length_le (by rw [wanted_length]; omega)] at this
  exact this

/-- a channel just initialised -/
def reset : Ed := ⟨0#16, 0#32, 0#32, 0#32, false, false, ⟨0#32, 0#32, 0#32, 0#32, 1, 0, []⟩⟩

/-- `sample` meets the hypotheses -/
theorem sample_fits : Fits sample := ⟨by decide, by decide, by decide, by decide⟩

/-- an instance of `xfer_moves` -/
theorem moves_sample :
    (Ed.cycles [false, false, false, false] (Ed.xfer sample reset).2).seq.log = [⟨0x20000000#32, 0x20001000#32, 4⟩, ⟨0x20000004#32, 0x20001004#32, 4⟩] := by decide +kernel

/-- **C91 refuted, nxp_edma**: a transfer with a remainder is accepted and nothing of it is moved, and dma_xfer_done returns 0; the size 3 is not refused, and gives 3 units of 1 byte, 3 bytes apart -/
theorem remainder_nothing :
    (let x : Xfer := { saddr := 0x20000000#32, daddr := 0x20001000#32, incrRead := 1, incrWrite := 1, size := 2#32, byteCount := 5#32 }
     (Ed.xfer x reset).1 = 0 ∧ (Ed.cycles [false, false, false, false] (Ed.xfer x reset).2).seq.log = [] ∧ Ed.done (Ed.cycles [false, false, false, false] (Ed.xfer x reset).2) = 0) ∧
    (let x : Xfer := { saddr := 0x20000000#32, daddr := 0x20001000#32, incrRead := 1, incrWrite := 1, size := 3#32, byteCount := 3#32 }
     (Ed.xfer x reset).1 = 0 ∧ (Ed.cycles [false, false, false, false] (Ed.xfer x reset).2).seq.log =
       [⟨0x20000000#32, 0x20001000#32, 1⟩, ⟨0x20000003#32, 0x20001003#32, 1⟩, ⟨0x20000006#32, 0x20001006#32, 1⟩]) := by decide +kernel

end Ed
end Pico.Dma
