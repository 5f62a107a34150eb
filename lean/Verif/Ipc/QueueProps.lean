import Verif.Ipc.QueueModel

/-!
# The queue used by one task at a time is a bounded FIFO (C44)
-/

namespace Pico.Queue

variable {sw : Nat} {V : Type}

/-- The queue holds `l`, after `P` reads (ghost). -/
structure Rep (q : Q sw V) (k P : Nat) (l : List V) : Prop where
  free : q.lock = false
  cnt : q.cnt = 2 ^ k
  mask : q.mask = BitVec.ofNat sw (2 ^ k - 1)
  r : q.r = Ring.ix sw (2 ^ k) (P + 2 ^ k - 1)
  w : q.w = Ring.ix sw (2 ^ k) (P + l.length)
  cap : l.length ≤ 2 ^ k - 2
  buf : ∀ j, (h : j < l.length) → q.buf ((P + j) % 2 ^ k) = l[j]

theorem cap_lt (k : Nat) : 2 ^ k - 2 < 2 ^ k := by have := Nat.two_pow_pos k; omega

theorem rep_init {k : Nat} (hk : k ≤ sw) (hlt : 2 ^ k < 2 ^ sw) (zero : V) (old : Nat → V) :
    ∃ q, init sw (2 ^ k) zero old = .ok q ∧ Rep q k 0 [] := by
  have hpos := Nat.two_pow_pos k
  have h := (Ring.pow2_iff hlt).2 (Or.inr ⟨k, rfl⟩)
  have hm : BitVec.ofNat sw (2 ^ k) - 1 = BitVec.ofNat sw (2 ^ k - 1) := by
    have := Ring.ix_next hk (2 ^ k - 1)
    apply BitVec.eq_of_toNat_eq
    rw [BitVec.toNat_sub, show (1 : BitVec sw) = BitVec.ofNat sw 1 from rfl, BitVec.toNat_ofNat, BitVec.toNat_ofNat, BitVec.toNat_ofNat,
      Nat.mod_eq_of_lt hlt, Nat.mod_eq_of_lt (by omega : 1 < 2 ^ sw), Nat.mod_eq_of_lt (by omega : 2 ^ k - 1 < 2 ^ sw)]
    rw [show 2 ^ sw - 1 + 2 ^ k = 2 ^ sw + (2 ^ k - 1) by omega, Nat.add_mod_left, Nat.mod_eq_of_lt (by omega)]
  refine ⟨_, by unfold init; rw [if_pos h, if_pos hpos], ⟨rfl, rfl, hm, ?_, ?_, by simp, by simp⟩⟩
  · simp only [hm, Ring.ix]
    rw [Nat.mod_eq_of_lt (by omega)]; congr 1; omega
  · simp [Ring.ix]

theorem rep_read {q : Q sw V} {k P : Nat} {l : List V} (hk : k ≤ sw) (h : Rep q k P l) :
    (l = [] ∧ ∃ q', read q = .ok (q', none) ∧ Rep q' k P []) ∨
    (∃ v vs, l = v :: vs ∧ ∃ q', read q = .ok (q', some v) ∧ Rep q' k (P + 1) vs) := by
  have hpos := Nat.two_pow_pos k
  obtain ⟨h1, h2, h3, h4, h5, h6, h7⟩ := h
  have hcap := cap_lt k
  have hnext : (q.r + 1) &&& q.mask = Ring.ix sw (2 ^ k) (P + 2 ^ k) := by
    rw [h3, h4, Ring.ix_next hk]; congr 1; omega
  have hem : Ring.ix sw (2 ^ k) (P + 2 ^ k) = q.w ↔ l.length = 0 := by
    rw [h5, Ring.ix_inj hk, Ring.empty_iff (by omega) (by omega)]; omega
  cases l with
  | nil =>
    refine Or.inl ⟨rfl, q, ?_, ⟨h1, h2, h3, h4, h5, h6, h7⟩⟩
    simp only [read, pop, lock, unlock, h1, Bool.false_eq_true, if_false, Res.ok_bind, hnext, hem.2 rfl, if_true, Res.pure_eq]
    cases q; simp_all
  | cons v vs =>
    have hne : ¬ (Ring.ix sw (2 ^ k) (P + 2 ^ k) = q.w) := fun h => by have := hem.1 h; simp at this
    have hix : Ring.ix sw (2 ^ k) (P + 2 ^ k) = Ring.ix sw (2 ^ k) P := (Ring.ix_inj hk).2 (by simp)
    have hlt : (Ring.ix sw (2 ^ k) P).toNat < q.cnt := by rw [Ring.ix_toNat hk, h2]; exact Nat.mod_lt _ hpos
    refine Or.inr ⟨v, vs, rfl, { q with r := Ring.ix sw (2 ^ k) P, i := Ring.ix sw (2 ^ k) P }, ?_, ?_⟩
    · have h0 := h7 0 (by simp)
      simp only [Nat.add_zero, List.getElem_cons_zero] at h0
      simp only [read, pop, lock, unlock, h1, Bool.false_eq_true, if_false, Res.ok_bind, hnext, if_neg hne, if_true, Res.pure_eq]
      simp only [hix, if_pos hlt]
      rw [Ring.ix_toNat hk, h0]
    · refine ⟨h1, h2, h3, ?_, ?_, ?_, ?_⟩
      · show Ring.ix sw (2 ^ k) P = Ring.ix sw (2 ^ k) (P + 1 + 2 ^ k - 1)
        rw [Ring.ix_inj hk, show P + 1 + 2 ^ k - 1 = P + 2 ^ k by omega, Nat.add_mod_right]
      · show q.w = _
        rw [h5]; congr 1; simp; omega
      · simp at h6; omega
      · intro j hj
        have := h7 (j + 1) (by simp; omega)
        simp only [List.getElem_cons_succ] at this
        rw [← this, show P + 1 + j = P + (j + 1) by omega]

theorem rep_write {q : Q sw V} {k P : Nat} {l : List V} (hk : k ≤ sw) (h : Rep q k P l) (v : V) :
    (¬ l.length < 2 ^ k - 2 ∧ ∃ q', write q v = .ok (q', false) ∧ Rep q' k P l) ∨
    (l.length < 2 ^ k - 2 ∧ ∃ q', write q v = .ok (q', true) ∧ Rep q' k P (l ++ [v])) := by
  have hpos := Nat.two_pow_pos k
  obtain ⟨h1, h2, h3, h4, h5, h6, h7⟩ := h
  have hcap := cap_lt k
  have hnext : (q.w + 1) &&& q.mask = Ring.ix sw (2 ^ k) (P + l.length + 1) := by rw [h3, h5, Ring.ix_next hk]
  have hfull : Ring.ix sw (2 ^ k) (P + l.length + 1) = q.r ↔ ¬ l.length < 2 ^ k - 2 := by
    rw [h4, Ring.ix_inj hk, Ring.full_iff hpos (by omega) (by omega)]
    rw [show P + l.length - P = l.length by omega]
  by_cases hf : l.length < 2 ^ k - 2
  · have hne : ¬ (Ring.ix sw (2 ^ k) (P + l.length + 1) = q.r) := fun h => hfull.1 h hf
    have hlt : (Ring.ix sw (2 ^ k) (P + l.length)).toNat < q.cnt := by rw [Ring.ix_toNat hk, h2]; exact Nat.mod_lt _ hpos
    refine Or.inr ⟨hf, { q with i := Ring.ix sw (2 ^ k) (P + l.length), w := Ring.ix sw (2 ^ k) (P + l.length + 1),
                                buf := upd q.buf ((P + l.length) % 2 ^ k) v }, ?_, ?_⟩
    · simp only [write, push, lock, unlock, h1, Bool.false_eq_true, if_false, Res.ok_bind, hnext, if_neg hne, if_true, Res.pure_eq]
      rw [Ring.ix_toNat hk] at hlt
      simp only [h5, Ring.ix_toNat hk, if_pos hlt]
    · refine ⟨h1, h2, h3, h4, ?_, ?_, ?_⟩
      · show Ring.ix _ _ _ = _; congr 1; simp; omega
      · simp; omega
      · intro j hj
        simp at hj
        rcases Nat.lt_or_ge j l.length with hj1 | hj1
        · rw [List.getElem_append_left hj1]
          show upd _ _ _ _ = _
          rw [upd_ne _ _ (fun he => by have := Ring.eq_of_mod_eq (n := 2 ^ k) (A := P + j) (B := P + l.length) (by omega) (by omega) he; omega)]
          exact h7 j hj1
        · have : j = l.length := by omega
          subst this
          show upd _ _ _ _ = _
          rw [upd_same]; simp
  · refine Or.inl ⟨hf, q, ?_, ⟨h1, h2, h3, h4, h5, h6, h7⟩⟩
    simp only [write, push, lock, unlock, h1, Bool.false_eq_true, if_false, Res.ok_bind, hnext, hfull.2 hf, if_true, Res.pure_eq]
    cases q; simp_all

theorem rep_run {k : Nat} (hk : k ≤ sw) (ops : List (Op V)) {q : Q sw V} {P : Nat} {l : List V} (h : Rep q k P l) :
    run q ops = .ok (specRun (2 ^ k - 2) l ops) := by
  induction ops generalizing q P l with
  | nil => rfl
  | cons o ops ih =>
    cases o with
    | read =>
      rcases rep_read hk h with ⟨rfl, q', h1, h2⟩ | ⟨v, vs, rfl, q', h1, h2⟩
      · simp only [run, h1, Res.ok_bind, ih h2, specRun, Res.pure_eq]
      · simp only [run, h1, Res.ok_bind, ih h2, specRun, Res.pure_eq]
    | write v =>
      rcases rep_write hk h v with ⟨hf, q', h1, h2⟩ | ⟨hf, q', h1, h2⟩
      · simp only [run, h1, Res.ok_bind, ih h2, specRun, Res.pure_eq, if_neg hf]
      · simp only [run, h1, Res.ok_bind, ih h2, specRun, Res.pure_eq, if_pos hf]

/-- C44: used by one task at a time, a queue declared with a power of two `count` that fits `size_t` is, for every sequence of calls, a first-in
first-out list of at most `count - 2` values: every written value is read exactly once and in order, writes are refused iff `count - 2` values are
stored, reads iff none is; no call stalls or leaves the array. -/
theorem queue_is_fifo (sw : Nat) {count : Nat} (hc : ∃ k, count = 2 ^ k) (hsw : count < 2 ^ sw) (zero : V) (old : Nat → V) (ops : List (Op V)) :
    (init sw count zero old >>= fun q => run q ops) = .ok (specRun (count - 2) [] ops) := by
  obtain ⟨k, rfl⟩ := hc
  have hk : k ≤ sw := Nat.le_of_lt ((Nat.pow_lt_pow_iff_right (by omega)).1 hsw)
  obtain ⟨q, h1, h2⟩ := rep_init hk hsw zero old
  rw [h1, Res.ok_bind]
  exact rep_run hk ops h2

/-- C44: the initialisation stalls exactly for the sizes that are not a power of two; the size 0 is not caught, and
the initialisation then writes outside the array. -/
theorem queue_init_iff (sw : Nat) {count : Nat} (hsw : count < 2 ^ sw) (zero : V) (old : Nat → V) :
    ((init sw count zero old : Res (Q sw V)) = .fatal ↔ ¬ (count = 0 ∨ ∃ k, count = 2 ^ k)) ∧
    ((init sw count zero old : Res (Q sw V)) = .ub ↔ count = 0) := by
  unfold init
  have := Ring.pow2_iff hsw
  by_cases h : BitVec.ofNat sw count &&& (BitVec.ofNat sw count - 1) = 0
  · rw [if_pos h]
    have h2 := this.1 h
    by_cases h0 : 0 < count
    · rw [if_pos h0]
      constructor
      · simp only [reduceCtorEq, false_iff]; exact fun h3 => h3 h2
      · simp only [reduceCtorEq, false_iff]; omega
    · rw [if_neg h0]
      constructor
      · simp only [reduceCtorEq, false_iff]; exact fun h3 => h3 h2
      · simp only [true_iff]; omega
  · rw [if_neg h]
    have h2 := fun h3 => h (this.2 h3)
    constructor
    · simp only [true_iff]; exact h2
    · simp only [reduceCtorEq, false_iff]; exact fun h3 => h2 (Or.inl h3)

-- a queue declared with 4 elements holds two
example : (init 16 4 0 (fun _ => 7) >>= fun q : Q 16 Nat => run q [.read, .write 1, .write 2, .write 3, .read, .write 4, .read, .read, .read]) =
    .ok [.read none, .write true, .write true, .write false, .read (some 1), .write true, .read (some 2), .read (some 4), .read none] := by
  rw [queue_is_fifo 16 ⟨2, rfl⟩ (by decide)]; rfl

/-- C44: a queue declared with two elements (the smallest meaningful power of two) never accepts anything. -/
theorem queue_of_two_useless (sw : Nat) (hsw : 2 < 2 ^ sw) (zero : V) (old : Nat → V) (v : V) :
    (init sw 2 zero old >>= fun q => run q [.write v]) = .ok [.write false] := by
  rw [queue_is_fifo sw ⟨1, rfl⟩ hsw]; rfl

end Pico.Queue
