import Verif.Drivers.Fifo

/-!
# The driver fifo is a correct single-producer single-consumer queue (C46)
-/

namespace Pico.Fifo

variable {V : Type}

theorem runs_induction {c : Cfg} {old : Nat → V} {P : List (Ev V) → State c V → Prop}
    (h0 : P [] (init c old))
    (hs : ∀ tr s a s' evs, P tr s → step c s a = some (s', evs) → P (tr ++ evs) s')
    {tr : List (Ev V)} {s : State c V} (h : Runs c old tr s) : P tr s := by
  obtain ⟨l, h⟩ := h
  suffices H : ∀ (l : List (Cmd V)) tr0 s0 tr s, P tr0 s0 → exec c s0 l = some (s, tr) → P (tr0 ++ tr) s from by
    simpa using H l [] _ tr s h0 h
  intro l
  induction l with
  | nil => intro tr0 s0 tr s hp h; cases h; simpa using hp
  | cons a l ih =>
    intro tr0 s0 tr s hp h
    simp only [exec] at h
    cases hst : step c s0 a with
    | none => simp [hst] at h
    | some r =>
      obtain ⟨s', evs⟩ := r
      simp only [hst] at h
      cases he : exec c s' l with
      | none => simp [he] at h
      | some r2 =>
        obtain ⟨s2, evs2⟩ := r2
        simp only [he] at h
        cases h
        rw [← List.append_assoc]
        exact ih _ _ _ _ (hs _ _ _ _ _ hp hst) he

theorem size_pow {c : Cfg} (h : c.ok) : ∃ k, k ≤ c.sw ∧ c.size = 2 ^ k ∧ c.m = BitVec.ofNat c.sw (2 ^ k - 1) := by
  unfold Cfg.ok at h
  have hlt := c.m.isLt
  rcases Nat.lt_or_ge (c.m.toNat + 1) (2 ^ c.sw) with h1 | h1
  · have h2 := Ring.pow2_iff h1
    have h3 : BitVec.ofNat c.sw (c.m.toNat + 1) = c.m + 1 := by
      apply BitVec.eq_of_toNat_eq
      rw [BitVec.toNat_ofNat, BitVec.toNat_add, show (1 : BitVec c.sw) = BitVec.ofNat c.sw 1 from rfl, BitVec.toNat_ofNat, Nat.add_mod_mod]
    rw [h3, show c.m + 1 - 1 = c.m by grind, BitVec.and_comm] at h2
    rcases h2.1 h with h4 | ⟨k, hk⟩
    · omega
    · refine ⟨k, ?_, hk, ?_⟩
      · exact Nat.le_of_lt ((Nat.pow_lt_pow_iff_right (by omega)).1 (hk ▸ h1))
      · rw [← hk]; simp
  · refine ⟨c.sw, Nat.le_refl _, by unfold Cfg.size; omega, ?_⟩
    rw [show 2 ^ c.sw - 1 = c.m.toNat by omega]; simp

/-- C46: the assertion of the initialisation accepts exactly the masks of the power-of-two sizes. -/
theorem fifo_init_iff (c : Cfg) : c.ok ↔ ∃ k, c.size = 2 ^ k := by
  constructor
  · intro h; obtain ⟨k, _, h, _⟩ := size_pow h; exact ⟨k, h⟩
  · rintro ⟨k, hk⟩
    unfold Cfg.size at hk
    have hlt := c.m.isLt
    unfold Cfg.ok
    rcases Nat.lt_or_ge (c.m.toNat + 1) (2 ^ c.sw) with h1 | h1
    · have h2 := (Ring.pow2_iff h1).2 (Or.inr ⟨k, hk⟩)
      have h3 : BitVec.ofNat c.sw (c.m.toNat + 1) = c.m + 1 := by
        apply BitVec.eq_of_toNat_eq
        rw [BitVec.toNat_ofNat, BitVec.toNat_add, show (1 : BitVec c.sw) = BitVec.ofNat c.sw 1 from rfl, BitVec.toNat_ofNat, Nat.add_mod_mod]
      rw [h3, show c.m + 1 - 1 = c.m by grind, BitVec.and_comm] at h2
      exact h2
    · have : c.m + 1 = 0 := by
        apply BitVec.eq_of_toNat_eq
        rw [BitVec.toNat_add, show (1 : BitVec c.sw) = BitVec.ofNat c.sw 1 from rfl, BitVec.toNat_ofNat, Nat.add_mod_mod,
          show c.m.toNat + 1 = 2 ^ c.sw by omega]
        simp
      rw [this]; simp

abbrev ix (c : Cfg) (A : Nat) : BitVec c.sw := Ring.ix c.sw c.size A

theorem ix_next {c : Cfg} (h : c.ok) (A : Nat) : (ix c A + 1) &&& c.m = ix c (A + 1) := by
  obtain ⟨k, hk, hs, hm⟩ := size_pow h
  unfold ix; rw [hs, hm]; exact Ring.ix_next hk A

theorem ix_inj {c : Cfg} (h : c.ok) {A B : Nat} : ix c A = ix c B ↔ A % c.size = B % c.size := by
  obtain ⟨k, hk, hs, hm⟩ := size_pow h
  unfold ix; rw [hs]; exact Ring.ix_inj hk

theorem ix_toNat {c : Cfg} (h : c.ok) (A : Nat) : (ix c A).toNat = A % c.size := by
  obtain ⟨k, hk, hs, hm⟩ := size_pow h
  unfold ix; rw [hs]; exact Ring.ix_toNat hk A

theorem size_pos (c : Cfg) : 0 < c.size := by unfold Cfg.size; omega

/-! ## Invariant -/

/-- The consumer has advanced the read index and not loaded the element yet. -/
def late {sw : Nat} : PC sw → Nat
  | .ix | .ld _ => 1
  | _ => 0

/-- Local variables of the producer, after `P` pops and `W` pushes. -/
def ProdOk (c : Cfg) (P W : Nat) (buf : Nat → V) : PP c.sw V → Prop
  | .rdR _ nx => nx = ix c (W + 1)
  | .ix _ => W + 1 ≤ P + (c.size - 2)
  | .st _ j => W + 1 ≤ P + (c.size - 2) ∧ j = ix c W
  | .pu v => W + 1 ≤ P + (c.size - 2) ∧ buf (W % c.size) = v
  | .wr v nx => W + 1 ≤ P + (c.size - 2) ∧ buf (W % c.size) = v ∧ nx = ix c (W + 1)
  | _ => True

/-- Local variables of the consumer. -/
def ConsOk (c : Cfg) (P W : Nat) : PC c.sw → Prop
  | .rdW nx => nx = ix c (P + c.size)
  | .po => P < W
  | .wr nx => P < W ∧ nx = ix c (P + c.size)
  | .ld j => j = ix c (P + c.size - 1)
  | _ => True

structure Inv (c : Cfg) (s : State c V) (tr : List (Ev V)) (P W : Nat) : Prop where
  hW : W = (stored tr).length
  hP : P = (got tr).length + late s.q
  r : s.r = ix c (P + c.size - 1)
  w : s.w = ix c W
  le : P ≤ W
  cap : W ≤ P + (c.size - 2)
  pre : (stored tr).take (got tr).length = got tr
  buf : ∀ k, (got tr).length ≤ k → k < W → (stored tr)[k]? = some (s.buf (k % c.size))
  prod : ProdOk c P W s.buf s.p
  cons : ConsOk c P W s.q

theorem stored_append (a b : List (Ev V)) : stored (a ++ b) = stored a ++ stored b := by simp [stored]
theorem got_append (a b : List (Ev V)) : got (a ++ b) = got a ++ got b := by simp [got]

theorem inv_init {c : Cfg} (old : Nat → V) : Inv c (init c old) [] 0 0 := by
  refine ⟨rfl, rfl, ?_, by simp [init, Ring.ix], Nat.le_refl _, by omega, rfl, by intro k _ h; omega, trivial, trivial⟩
  simp only [init, ix, Ring.ix]
  rw [Nat.mod_eq_of_lt (by have := size_pos c; omega)]
  simp [Cfg.size]

theorem mod_ne {n A B : Nat} (h1 : A < B) (h2 : B < A + n) : A % n ≠ B % n := fun h => by
  have := Ring.eq_of_mod_eq (Nat.le_of_lt h1) h2 h; omega

theorem inv_prod {c : Cfg} (hc : c.ok) {s : State c V} {tr : List (Ev V)} {P W : Nat} (hi : Inv c s tr P W) :
    Ev.oob ∉ (prod c s).2 ∧ (∀ v, Ev.refused v ∈ (prod c s).2 → W = P + (c.size - 2)) ∧
    ∃ W', Inv c (prod c s).1 (tr ++ (prod c s).2) P W' := by
  have hpos := size_pos c
  have hle := hi.le
  have hcap := hi.cap
  have hp := hi.prod
  have hP := hi.hP
  have hW := hi.hW
  have hlate : late s.q ≤ 1 := by cases s.q <;> simp [late]
  unfold prod
  -- steps that only move the program counter
  have quiet : ∀ (p : PP c.sw V) (evs : List (Ev V)), stored evs = [] → got evs = [] → ProdOk c P W s.buf p → Inv c { s with p := p } (tr ++ evs) P W := by
    intro p evs h1 h2 h3
    have e1 : stored (tr ++ evs) = stored tr := by rw [stored_append, h1, List.append_nil]
    have e2 : got (tr ++ evs) = got tr := by rw [got_append, h2, List.append_nil]
    exact ⟨by rw [e1]; exact hi.hW, by rw [e2]; exact hi.hP, hi.r, hi.w, hi.le, hi.cap, by rw [e1, e2]; exact hi.pre,
      by rw [e1, e2]; exact hi.buf, h3, hi.cons⟩
  cases hpc : s.p with
  | idle => exact ⟨by simp, by simp, W, by simpa using hi⟩
  | rdW v =>
    refine ⟨by simp, by simp, W, quiet _ [] rfl rfl ?_⟩
    simp only [ProdOk]; rw [hi.w, ix_next hc]
  | rdR v nx =>
    rw [hpc] at hp
    simp only [ProdOk] at hp
    have hfull : nx = s.r ↔ ¬ W - P < c.size - 2 := by rw [hp, hi.r, ix_inj hc, Ring.full_iff hpos hle hcap]
    dsimp only
    split
    · rename_i hne
      refine ⟨by simp, by simp, W, quiet _ [] rfl rfl ?_⟩
      rw [ne_eq, hfull] at hne
      simp only [ProdOk]; omega
    · rename_i heq
      rw [ne_eq, Classical.not_not, hfull] at heq
      exact ⟨by simp, by intro _ _; omega, W, quiet _ [_] rfl rfl trivial⟩
  | ix v =>
    rw [hpc] at hp
    exact ⟨by simp, by simp, W, quiet _ [] rfl rfl ⟨hp, hi.w⟩⟩
  | st v j =>
    rw [hpc] at hp
    obtain ⟨h1, h2⟩ := hp
    have hj : j.toNat = W % c.size := by rw [h2, ix_toNat hc]
    have hlt : j.toNat < c.size := by rw [hj]; exact Nat.mod_lt _ hpos
    simp only [if_pos hlt, List.append_nil]
    refine ⟨by simp, by simp, W, ⟨hi.hW, hi.hP, hi.r, hi.w, hi.le, hi.cap, hi.pre, ?_, ?_, hi.cons⟩⟩
    · intro k hk1 hk2
      rw [hi.buf k hk1 hk2]
      show _ = some (upd s.buf j.toNat v (k % c.size))
      rw [upd_ne]
      rw [hj]
      exact mod_ne hk2 (by omega)
    · simp only [ProdOk]
      rw [hj, upd_same]
      exact ⟨h1, rfl⟩
  | pu v =>
    rw [hpc] at hp
    obtain ⟨h1, h2⟩ := hp
    refine ⟨by simp, by simp, W, quiet _ [] rfl rfl ⟨h1, h2, ?_⟩⟩
    rw [hi.w, ix_next hc]
  | wr v nx =>
    rw [hpc] at hp
    obtain ⟨h1, h2, h3⟩ := hp
    dsimp only
    have e1 : stored (tr ++ [.stored v]) = stored tr ++ [v] := by rw [stored_append]; rfl
    have e2 : got (tr ++ [.stored v]) = got tr := by rw [got_append]; simp [got]
    have hgl : (got tr).length ≤ (stored tr).length := by omega
    refine ⟨by simp, by simp, W + 1, ⟨by rw [e1, List.length_append, hi.hW]; rfl, by rw [e2]; exact hi.hP, hi.r, h3, by omega, by omega, ?_, ?_, trivial, ?_⟩⟩
    · rw [e1, e2, List.take_append_of_le_length hgl]; exact hi.pre
    · rw [e1, e2]
      intro k hk1 hk2
      rcases Nat.lt_or_ge k W with h4 | h4
      · rw [List.getElem?_append_left (by omega)]; exact hi.buf k hk1 h4
      · have : k = W := by omega
        subst this
        rw [List.getElem?_append_right (by omega), hi.hW]
        simp only [Nat.sub_self, List.getElem?_cons_zero]
        rw [← hi.hW, h2]
    · have := hi.cons
      revert this
      cases s.q <;> simp only [ConsOk] <;> first | exact id | omega | exact fun h => ⟨by omega, h.2⟩

theorem inv_cons {c : Cfg} (hc : c.ok) {s : State c V} {tr : List (Ev V)} {P W : Nat} (hi : Inv c s tr P W) :
    Ev.oob ∉ (cons c s).2 ∧ (Ev.empty ∈ (cons c s).2 → got tr = stored tr) ∧
    ∃ P', Inv c (cons c s).1 (tr ++ (cons c s).2) P' W := by
  have hpos := size_pos c
  have hle := hi.le
  have hcap := hi.cap
  have hp := hi.cons
  have hP := hi.hP
  have hW := hi.hW
  unfold cons
  have quiet : ∀ (q : PC c.sw) (evs : List (Ev V)), late q = late s.q → stored evs = [] → got evs = [] → ConsOk c P W q → Inv c { s with q := q } (tr ++ evs) P W := by
    intro q evs h0 h1 h2 h3
    have e1 : stored (tr ++ evs) = stored tr := by rw [stored_append, h1, List.append_nil]
    have e2 : got (tr ++ evs) = got tr := by rw [got_append, h2, List.append_nil]
    exact ⟨by rw [e1]; exact hi.hW, by rw [e2, h0]; exact hi.hP, hi.r, hi.w, hi.le, hi.cap, by rw [e1, e2]; exact hi.pre,
      by rw [e1, e2]; exact hi.buf, hi.prod, h3⟩
  cases hpc : s.q with
  | idle => exact ⟨by simp, by simp, P, by simpa using hi⟩
  | rdR =>
    refine ⟨by simp, by simp, P, quiet _ [] (by rw [hpc]; rfl) rfl rfl ?_⟩
    simp only [ConsOk]; rw [hi.r, ix_next hc, show P + c.size - 1 + 1 = P + c.size by omega]
  | rdW nx =>
    rw [hpc] at hp hP
    simp only [ConsOk] at hp
    have hem : nx = s.w ↔ W = P := by rw [hp, hi.w, ix_inj hc, Ring.empty_iff hle (by omega)]
    dsimp only
    split
    · rename_i hne
      rw [ne_eq, hem] at hne
      refine ⟨by simp, by simp, P, quiet _ [] (by rw [hpc]; rfl) rfl rfl ?_⟩
      simp only [ConsOk]; omega
    · rename_i heq
      rw [ne_eq, Classical.not_not, hem] at heq
      refine ⟨by simp, ?_, P, quiet _ [_] (by rw [hpc]; rfl) rfl rfl trivial⟩
      intro _
      have := hi.pre
      rw [← this]
      apply List.take_of_length_le
      simp only [late] at hP; omega
  | po =>
    rw [hpc] at hp
    simp only [ConsOk] at hp
    refine ⟨by simp, by simp, P, quiet _ [] (by rw [hpc]; rfl) rfl rfl ⟨hp, ?_⟩⟩
    rw [hi.r, ix_next hc, show P + c.size - 1 + 1 = P + c.size by omega]
  | wr nx =>
    rw [hpc] at hp hP
    simp only [ConsOk] at hp
    simp only [late] at hP
    dsimp only
    rw [List.append_nil]
    refine ⟨by simp, by simp, P + 1, ⟨hi.hW, by simp only [late]; omega, ?_, hi.w, hp.1, by omega, hi.pre, hi.buf, ?_, trivial⟩⟩
    · show nx = _
      rw [hp.2]; congr 1; omega
    · have := hi.prod
      revert this
      cases s.p <;> simp only [ProdOk] <;> (try exact id)
      · omega
      · exact fun h => ⟨by omega, h.2⟩
      · exact fun h => ⟨by omega, h.2⟩
      · exact fun h => ⟨by omega, h.2⟩
  | ix =>
    exact ⟨by simp, by simp, P, quiet _ [] (by rw [hpc]; rfl) rfl rfl hi.r⟩
  | ld j =>
    rw [hpc] at hp hP
    simp only [ConsOk] at hp
    simp only [late] at hP
    have hj : j.toNat = (P - 1) % c.size := by
      rw [hp, ix_toNat hc, show P + c.size - 1 = P - 1 + c.size by omega, Nat.add_mod_right]
    have hlt : j.toNat < c.size := by rw [hj]; exact Nat.mod_lt _ hpos
    simp only [if_pos hlt]
    have hb := hi.buf (P - 1) (by omega) (by omega)
    have e1 : stored (tr ++ [.got (s.buf j.toNat)]) = stored tr := by rw [stored_append]; simp [stored]
    have e2 : got (tr ++ [.got (s.buf j.toNat)]) = got tr ++ [s.buf j.toNat] := by rw [got_append]; rfl
    refine ⟨by simp, by simp, P, ⟨by rw [e1]; exact hi.hW, by rw [e2]; simp [late]; exact hP, hi.r, hi.w, hle, hcap, ?_, ?_, hi.prod, trivial⟩⟩
    · rw [e1, e2, List.length_append, List.length_singleton, List.take_add_one, hi.pre]
      congr 1
      rw [show (got tr).length = P - 1 by omega, hb, hj]; rfl
    · rw [e1, e2]
      intro k hk1 hk2
      rw [List.length_append] at hk1
      exact hi.buf k (by omega) hk2

theorem step_prod {c : Cfg} {s s' : State c V} {evs : List (Ev V)} (h : step c s .prod = some (s', evs)) : prod c s = (s', evs) := by
  simp only [step] at h
  split at h
  · cases h
  · exact Option.some.inj h

theorem step_cons {c : Cfg} {s s' : State c V} {evs : List (Ev V)} (h : step c s .cons = some (s', evs)) : cons c s = (s', evs) := by
  simp only [step] at h
  split at h
  · cases h
  · exact Option.some.inj h

theorem step_push {c : Cfg} {s s' : State c V} {evs : List (Ev V)} {v : V} (h : step c s (.push v) = some (s', evs)) :
    s.p = .idle ∧ s' = { s with p := .rdW v } ∧ evs = [.offer v] := by
  simp only [step] at h
  split at h
  · rename_i hp; cases h; exact ⟨hp, rfl, rfl⟩
  · cases h

theorem step_pop {c : Cfg} {s s' : State c V} {evs : List (Ev V)} (h : step c s .pop = some (s', evs)) :
    s.q = .idle ∧ s' = { s with q := .rdR } ∧ evs = [.ask] := by
  simp only [step] at h
  split at h
  · rename_i hp; cases h; exact ⟨hp, rfl, rfl⟩
  · cases h

theorem prod_cases {c : Cfg} (s : State c V) : Ev.empty ∉ (prod c s).2 := by
  unfold prod
  cases s.p <;> dsimp only <;> (repeat' split) <;> simp

theorem cons_cases {c : Cfg} (s : State c V) (v : V) : Ev.refused v ∉ (cons c s).2 := by
  unfold cons
  cases s.q <;> dsimp only <;> (repeat' split) <;> simp

theorem inv_step {c : Cfg} (hc : c.ok) {s s' : State c V} {tr evs : List (Ev V)} {a : Cmd V} {P W : Nat} (hi : Inv c s tr P W)
    (hs : step c s a = some (s', evs)) : ∃ P' W', (P' = P ∨ W' = W) ∧ Inv c s' (tr ++ evs) P' W' := by
  cases a with
  | push v =>
    obtain ⟨_, rfl, rfl⟩ := step_push hs
    refine ⟨P, W, Or.inl rfl, ⟨?_, ?_, hi.r, hi.w, hi.le, hi.cap, ?_, ?_, trivial, hi.cons⟩⟩ <;> simp only [stored_append, got_append] <;> simp only [stored, got, List.filterMap_cons, List.filterMap_nil, List.append_nil]
    · exact hi.hW
    · exact hi.hP
    · exact hi.pre
    · exact hi.buf
  | pop =>
    obtain ⟨hq, rfl, rfl⟩ := step_pop hs
    have hP := hi.hP
    rw [hq] at hP
    refine ⟨P, W, Or.inl rfl, ⟨?_, ?_, hi.r, hi.w, hi.le, hi.cap, ?_, ?_, hi.prod, trivial⟩⟩ <;> simp only [stored_append, got_append] <;> simp only [stored, got, List.filterMap_cons, List.filterMap_nil, List.append_nil]
    · exact hi.hW
    · exact hP
    · exact hi.pre
    · exact hi.buf
  | prod =>
    have hs := step_prod hs
    obtain ⟨_, _, W', h⟩ := inv_prod hc hi
    rw [hs] at h
    exact ⟨P, W', Or.inl rfl, h⟩
  | cons =>
    have hs := step_cons hs
    obtain ⟨_, _, P', h⟩ := inv_cons hc hi
    rw [hs] at h
    exact ⟨P', W, Or.inr rfl, h⟩

theorem inv_runs {c : Cfg} (hc : c.ok) {old : Nat → V} {s : State c V} {tr : List (Ev V)} (h : Runs c old tr s) :
    ∃ P W, Inv c s tr P W := by
  refine runs_induction (P := fun tr s => ∃ P W, Inv c s tr P W) ⟨0, 0, inv_init old⟩ ?_ h
  rintro tr s a s' evs ⟨P, W, hi⟩ hs
  obtain ⟨P', W', _, h⟩ := inv_step hc hi hs
  exact ⟨P', W', h⟩

/-! ## C46 -/

/-- C46a: whatever the interleaving, the values delivered are the first values stored, each once and in order. -/
theorem fifo_in_order {c : Cfg} (hc : c.ok) {old : Nat → V} {s : State c V} {tr : List (Ev V)} (h : Runs c old tr s) :
    got tr <+: stored tr := by
  obtain ⟨P, W, hi⟩ := inv_runs hc h
  rw [← hi.pre]
  exact List.take_prefix _ _

/-- C46b: the consumer is told that the fifo is empty only when it received everything that was stored. -/
theorem fifo_empty_only_if {c : Cfg} (hc : c.ok) {old : Nat → V} {s s' : State c V} {tr evs : List (Ev V)} {a : Cmd V} (h : Runs c old tr s)
    (hs : step c s a = some (s', evs)) (he : Ev.empty ∈ evs) : got tr = stored tr := by
  obtain ⟨P, W, hi⟩ := inv_runs hc h
  cases a with
  | push w => obtain ⟨_, rfl, rfl⟩ := step_push hs; simpa using he
  | pop => obtain ⟨_, rfl, rfl⟩ := step_pop hs; simpa using he
  | prod => have hs := step_prod hs; have := prod_cases s; rw [hs] at this; exact absurd he this
  | cons => have hs := step_cons hs; have := (inv_cons hc hi).2.1; rw [hs] at this; exact this he

/-- C46c: a value is refused only when `size - 2` values are stored and not delivered (or one more, whose delivery is under way). -/
theorem fifo_refused_only_if {c : Cfg} (hc : c.ok) {old : Nat → V} {s s' : State c V} {tr evs : List (Ev V)} {a : Cmd V} {v : V} (h : Runs c old tr s)
    (hs : step c s a = some (s', evs)) (he : Ev.refused v ∈ evs) :
    (got tr).length + (c.size - 2) ≤ (stored tr).length ∧ (stored tr).length ≤ (got tr).length + (c.size - 2) + 1 := by
  obtain ⟨P, W, hi⟩ := inv_runs hc h
  have h1 := hi.hP
  have h2 := hi.hW
  have hlate : late s.q ≤ 1 := by cases s.q <;> simp [late]
  cases a with
  | push w => obtain ⟨_, rfl, rfl⟩ := step_push hs; simpa using he
  | pop => obtain ⟨_, rfl, rfl⟩ := step_pop hs; simpa using he
  | prod => have hs := step_prod hs; have := (inv_prod hc hi).2.1 v; rw [hs] at this; have := this he; omega
  | cons => have hs := step_cons hs; have := cons_cases s v; rw [hs] at this; exact absurd he this

/-- C46d: a fifo never holds more than `size - 2` values (one more while the consumer is taking one). -/
theorem fifo_capacity {c : Cfg} (hc : c.ok) {old : Nat → V} {s : State c V} {tr : List (Ev V)} (h : Runs c old tr s) :
    (stored tr).length ≤ (got tr).length + (c.size - 2) + 1 ∧ (s.q = .idle → (stored tr).length ≤ (got tr).length + (c.size - 2)) := by
  obtain ⟨P, W, hi⟩ := inv_runs hc h
  have h1 := hi.hP
  have h2 := hi.hW
  have h3 := hi.cap
  have hlate : late s.q ≤ 1 := by cases s.q <;> simp [late]
  refine ⟨by omega, fun hq => ?_⟩
  rw [hq] at h1
  simp only [late] at h1
  omega

/-- C46e: no access leaves the array. -/
theorem fifo_in_bounds {c : Cfg} (hc : c.ok) {old : Nat → V} {s s' : State c V} {tr evs : List (Ev V)} {a : Cmd V} (h : Runs c old tr s)
    (hs : step c s a = some (s', evs)) : Ev.oob ∉ evs := by
  obtain ⟨P, W, hi⟩ := inv_runs hc h
  cases a with
  | push w => obtain ⟨_, rfl, rfl⟩ := step_push hs; simp
  | pop => obtain ⟨_, rfl, rfl⟩ := step_pop hs; simp
  | prod => have hs := step_prod hs; have := (inv_prod hc hi).1; rw [hs] at this; exact this
  | cons => have hs := step_cons hs; have := (inv_cons hc hi).1; rw [hs] at this; exact this

/-- A fifo of four elements. -/
def ex4 : Cfg := ⟨8, 3⟩

/-- The hypotheses are met: the producer stores two values, a third is refused while the consumer takes the first. -/
example : ex4.ok ∧ ∃ s tr, Runs ex4 (fun _ => 0) tr s ∧ stored tr = [1, 2] ∧ got tr = [1] :=
  ⟨by unfold Cfg.ok; decide, _, _, ⟨[.push 1, .prod, .prod, .prod, .pop, .prod, .cons, .prod, .prod, .push 2, .prod, .prod, .prod, .prod, .prod, .prod, .cons, .push 3,
    .prod, .prod, .cons, .cons, .cons, .cons], rfl⟩, rfl, rfl⟩

/-- C46f: with a size of one or two elements, nothing can ever be stored. -/
theorem fifo_of_two_useless {c : Cfg} (hc : c.ok) (h2 : c.size ≤ 2) {old : Nat → V} {s : State c V} {tr : List (Ev V)} (h : Runs c old tr s) :
    stored tr = [] := by
  suffices H : Inv c s tr 0 0 from List.eq_nil_of_length_eq_zero H.hW.symm
  refine runs_induction (P := fun tr s => Inv c s tr 0 0) (inv_init old) ?_ h
  intro tr s a s' evs hi hs
  obtain ⟨P', W', h1, hi'⟩ := inv_step hc hi hs
  have h3 := hi'.cap
  have h4 := hi'.le
  have : P' = 0 ∧ W' = 0 := by omega
  rw [this.1, this.2] at hi'
  exact hi'

end Pico.Fifo
