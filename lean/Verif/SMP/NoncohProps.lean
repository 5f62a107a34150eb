import Verif.SMP.Noncoh
/-! C107: non-coherent caches under the SMP scheduler.  The invariant of the write-through caches. -/
namespace Pico.Noncoh
open Pico.Cache
variable {y : Lay}

theorem put_same {K : Nat} (m : Mach K) (c : Fin K) (s : Cache.St) : (m.put c s).line c = s.line := if_pos rfl
theorem put_other {K : Nat} (m : Mach K) (c c' : Fin K) (s : Cache.St) (h : c' ≠ c) : (m.put c s).line c' = m.line c' := if_neg h
theorem put_mem {K : Nat} (m : Mach K) (c : Fin K) (s : Cache.St) : (m.put c s).mem = s.mem := rfl
theorem updB_same (f : Nat → Byte) (a : Nat) (v : Byte) : updB f a v a = v := if_pos rfl
theorem updB_other (f : Nat → Byte) (a b : Nat) (v : Byte) (h : b ≠ a) : updB f a v b = f b := if_neg h

/-- what is in a cache line after any of the steps is what was there, or (one byte) the byte stored, or memory -/
structure Inv (y : Lay) (s : Sys y) : Prop where
  clean : ∀ c l d, s.m.line c l ≠ some (true, d)
  mem : s.m.mem = s.ideal
  cur : ∀ c c', c ≠ c' → s.cur c ≠ s.cur c'
  sp : ∀ t, y.stack t (s.sp t)
  own : ∀ c a, s.live c a → y.stack (s.cur c) a
  live : ∀ c a b d, s.live c a → s.m.line c (num y.k a) = some (b, d) → d a = s.ideal a
  sched : ∀ c a b d, s.lock = some c → y.sched a → s.m.line c (num y.k a) = some (b, d) → d a = s.ideal a
  now : ∀ c, s.since c s.ideal
  snap : ∀ c l b d, y.pl ≤ l → l < y.ph → s.m.line c l = some (b, d) → ∃ g, s.since c g ∧ ∀ a, num y.k a = l → d a = g a

theorem live_stack {t : Fin y.T} {sp a : Nat} (h : y.stack t sp) (h1 : sp ≤ a) (h2 : a < y.hi t * 2 ^ y.k) : y.stack t a :=
  ⟨Nat.le_trans h.1 (Nat.div_le_div_right h1), (Nat.div_lt_iff_lt_mul (Nat.two_pow_pos _)).2 h2⟩

theorem inv_init {s : Sys y} (h : Init y s) : Inv y s where
  clean := fun c l d e => by rw [h.empty] at e; cases e
  mem := h.mem
  cur := h.cur
  sp := h.sp
  own := fun c a hl => live_stack (h.sp _) ((h.live c a).1 hl).1 ((h.live c a).1 hl).2
  live := fun c a b d _ e => by rw [h.empty] at e; cases e
  sched := fun c a b d hl _ _ => by rw [h.lock] at hl; cases hl
  now := fun c => (h.since c _).2 rfl
  snap := fun c l b d _ _ e => by rw [h.empty] at e; cases e

/-- a machine whose memory is the same and whose lines are the same, gone or filled from memory -/
theorem inv_mach {s : Sys y} (h : Inv y s) (m : Mach y.K) (hm : m.mem = s.m.mem)
    (hl : ∀ c l, m.line c l = s.m.line c l ∨ m.line c l = none ∨ m.line c l = some (false, s.m.mem)) :
    Inv y { s with m := m } where
  clean := fun c l d e => by
    change m.line c l = _ at e
    rcases hl c l with x | x | x
    · rw [x] at e; exact h.clean c l d e
    · rw [x] at e; cases e
    · rw [x] at e; cases e
  mem := hm.trans h.mem
  cur := h.cur
  sp := h.sp
  own := h.own
  live := fun c a b d ha e => by
    change m.line c (num y.k a) = _ at e
    rcases hl c (num y.k a) with x | x | x
    · rw [x] at e; exact h.live c a b d ha e
    · rw [x] at e; cases e
    · rw [x] at e; cases e; exact congrFun h.mem a
  sched := fun c a b d hk ha e => by
    change m.line c (num y.k a) = _ at e
    rcases hl c (num y.k a) with x | x | x
    · rw [x] at e; exact h.sched c a b d hk ha e
    · rw [x] at e; cases e
    · rw [x] at e; cases e; exact congrFun h.mem a
  now := h.now
  snap := fun c l b d h1 h2 e => by
    change m.line c l = _ at e
    rcases hl c l with x | x | x
    · rw [x] at e; exact h.snap c l b d h1 h2 e
    · rw [x] at e; cases e
    · rw [x] at e; cases e; exact ⟨s.ideal, h.now c, fun a _ => congrFun h.mem a⟩

/-- an operation on a clean line does not change memory and drops the line -/
theorem opMem_clean (op : CacheOp) (v : Option (Bool × (Nat → Byte))) (h : ∀ d, v ≠ some (true, d)) (a : Nat) (x : Byte) :
    opMem op v a x = x := by
  cases op <;> rcases v with _ | ⟨_ | _, d⟩ <;> first | rfl | exact absurd rfl (h d)

theorem opLine_drop (op : CacheOp) (hop : op ≠ .clean) (v : Option (Bool × (Nat → Byte))) : opLine op v = none := by
  cases op <;> first | rfl | exact absurd rfl hop

theorem inv_stored (hw : y.WF) {s : Sys y} (h : Inv y s) (c : Fin y.K) (a : Nat) (v : Byte)
    (hc : y.stack (s.cur c) a ∨ (s.lock = some c ∧ y.sched a)) : Inv y (s.stored false y c a v) := by
  have hline : ∀ c' l b d, (s.stored false y c a v).m.line c' l = some (b, d) →
      (c' = c ∧ l = num y.k a ∧ ∃ e, s.m.line c l = some (b, e) ∧ d = updB e a v) ∨
      ((c' ≠ c ∨ l ≠ num y.k a) ∧ s.m.line c' l = some (b, d)) := by
    intro c' l b d e
    change (s.m.store false y.k c a v).line c' l = _ at e
    unfold Mach.store at e
    rw [if_neg (fun h => Bool.noConfusion h)] at e
    by_cases hcc : c' = c
    · subst hcc
      rw [put_same] at e
      by_cases hl : l = num y.k a
      · simp only [if_pos hl] at e
        rcases hx : s.m.line c' l with _ | ⟨b', e'⟩
        · rw [hx] at e; cases e
        · rw [hx] at e; cases e; exact .inl ⟨rfl, hl, e', rfl, rfl⟩
      · simp only [if_neg hl] at e; exact .inr ⟨.inr hl, e⟩
    · rw [put_other _ _ _ _ hcc] at e; exact .inr ⟨.inl hcc, e⟩
  have hmem : (s.stored false y c a v).m.mem = updB s.ideal a v := by
    show (s.m.store false y.k c a v).mem = _
    unfold Mach.store
    rw [if_neg (fun h => Bool.noConfusion h), put_mem, h.mem]
  -- byte `a` is neither live nor, if it is in the structure, looked at on another core
  have hother : ∀ c' b, c' ≠ c → s.live c' b → b ≠ a := by
    intro c' b hcc hl hba
    subst hba
    have h1 := h.own c' b hl
    rcases hc with h2 | ⟨_, h2⟩
    · exact hw.stacks _ _ _ (h.cur c' c hcc) h1 h2
    · exact hw.apart _ _ h1 h2
  refine ⟨fun c' l d e => ?_, hmem, h.cur, h.sp, fun c' b hl => ?_, fun c' x b d hl e => ?_,
    fun c' x b d hk hx e => ?_, fun c' => .inr rfl, fun c' l b d h1 h2 e => ?_⟩
  · rcases hline _ _ _ _ e with ⟨rfl, rfl, e', h1, _⟩ | ⟨_, h1⟩
    · exact h.clean _ _ _ h1
    · exact h.clean _ _ _ h1
  · rcases hl with hl | ⟨rfl, rfl, hl⟩
    · exact h.own c' b hl
    · exact hl
  · show d x = updB s.ideal a v x
    by_cases hxa : x = a
    · subst hxa
      rw [updB_same]
      rcases hline _ _ _ _ e with ⟨_, _, e', _, h2⟩ | ⟨h1, _⟩
      · rw [h2, updB_same]
      · rcases h1 with h1 | h1
        · rcases hl with hl | ⟨hl, _⟩
          · exact absurd rfl (hother c' x h1 hl)
          · exact absurd hl h1
        · exact absurd rfl h1
    · rw [updB_other _ _ _ _ hxa]
      have hl' : s.live c' x := by
        rcases hl with hl | ⟨_, hl, _⟩
        · exact hl
        · exact absurd hl hxa
      rcases hline _ _ _ _ e with ⟨rfl, _, e', h1, h2⟩ | ⟨_, h1⟩
      · rw [h2, updB_other _ _ _ _ hxa]; exact h.live _ _ _ _ hl' h1
      · exact h.live _ _ _ _ hl' h1
  · show d x = updB s.ideal a v x
    change s.lock = some c' at hk
    by_cases hxa : x = a
    · subst hxa
      rw [updB_same]
      rcases hline _ _ _ _ e with ⟨_, _, e', _, h2⟩ | ⟨h1, _⟩
      · rw [h2, updB_same]
      · rcases h1 with h1 | h1
        · rcases hc with h2 | ⟨h2, _⟩
          · exact absurd hx (hw.apart _ _ h2)
          · rw [h2] at hk; exact absurd (Option.some.inj hk).symm h1
        · exact absurd rfl h1
    · rw [updB_other _ _ _ _ hxa]
      rcases hline _ _ _ _ e with ⟨rfl, _, e', h1, h2⟩ | ⟨_, h1⟩
      · rw [h2, updB_other _ _ _ _ hxa]; exact h.sched _ _ _ _ hk hx h1
      · exact h.sched _ _ _ _ hk hx h1
  · rcases hline _ _ _ _ e with ⟨rfl, hl, e', h3, h4⟩ | ⟨_, h3⟩
    · rcases hc with h5 | ⟨h5, _⟩
      · exact absurd (show y.sched a from ⟨hl ▸ h1, hl ▸ h2⟩) (hw.apart _ _ h5)
      · refine ⟨updB s.ideal a v, .inr rfl, fun x hx => ?_⟩
        rw [h4]
        by_cases hxa : x = a
        · rw [hxa, updB_same, updB_same]
        · rw [updB_other _ _ _ _ hxa, updB_other _ _ _ _ hxa]
          exact h.sched c' x b e' h5 ⟨hx ▸ h1, hx ▸ h2⟩ (hx ▸ h3)
    · obtain ⟨g, hg, hga⟩ := h.snap c' l b d h1 h2 h3
      exact ⟨g, .inl hg, hga⟩

theorem inv_step (hw : y.WF) {s s' : Sys y} (h : Inv y s) (hs : Step false y s s') : Inv y s' := by
  have hc := h.clean
  cases hs with
  | fill c l =>
    refine inv_mach h _ rfl (fun c' i => ?_)
    by_cases hcc : c' = c
    · subst hcc
      rw [Mach.fill, put_same]
      by_cases hi : i = l ∧ s.m.line c' i = none
      · exact .inr (.inr (if_pos hi))
      · exact .inl (if_neg hi)
    · exact .inl (congrFun (put_other _ _ _ _ hcc) i)
  | evict c l =>
    refine inv_mach h _ ?_ (fun c' i => ?_)
    · show wbMem y.k l (s.m.on c) = _
      unfold wbMem
      rcases hx : (s.m.on c).line l with _ | ⟨_ | _, d⟩
      · rfl
      · rfl
      · exact absurd hx (hc c l d)
    · by_cases hcc : c' = c
      · subst hcc
        rw [Mach.evict, put_same]
        by_cases hi : i = l
        · exact .inr (.inl (if_pos hi))
        · exact .inl (if_neg hi)
      · exact .inl (congrFun (put_other _ _ _ _ hcc) i)
  | store c a v _ ha => exact inv_stored hw h c a v (.inl ha)
  | kstore c a v hl ha => exact inv_stored hw h c a v (.inr ⟨hl, ha⟩)
  | late c a v _ ha => exact inv_stored hw h c a v (.inl ha)
  | enter c hl =>
    obtain ⟨el, em⟩ := sched_upto hw .inval (s.m.on c)
    have h1 : Inv y { s with m := invSched y c s.m } := by
      refine inv_mach h _ (funext fun b => ?_) (fun c' i => ?_)
      · rw [invSched, put_mem, em, opMem_clean _ ((s.m.on c).line _) (hc c _), ite_self]; rfl
      · by_cases hcc : c' = c
        · subst hcc
          rw [invSched, put_same, el]
          by_cases hi : y.pl ≤ i ∧ i < y.ph
          · rw [if_pos hi]; exact .inr (.inl rfl)
          · rw [if_neg hi]; exact .inl rfl
        · exact .inl (congrFun (put_other _ _ _ _ hcc) i)
    refine ⟨h1.clean, h1.mem, h1.cur, h1.sp, h1.own, h1.live, fun c' a b d hk ha e => ?_, h1.now, h1.snap⟩
    cases (Option.some.inj hk : c = c')
    change (invSched y c s.m).line c (num y.k a) = _ at e
    rw [invSched, put_same, el, if_pos (show y.pl ≤ num y.k a ∧ num y.k a < y.ph from ha)] at e
    cases e
  | save c sp hl hsp =>
    obtain ⟨el, em⟩ := stack_upto hw .writebackInv (s.cur c) sp hsp (s.m.on c)
    have h1 : Inv y { s with m := flushStack y (s.cur c) sp c s.m } := by
      refine inv_mach h _ (funext fun b => ?_) (fun c' i => ?_)
      · rw [flushStack, put_mem, em, opMem_clean _ ((s.m.on c).line _) (hc c _), ite_self]; rfl
      · by_cases hcc : c' = c
        · subst hcc
          rw [flushStack, put_same, el]
          by_cases hi : num y.k sp ≤ i ∧ i < y.hi (s.cur c')
          · rw [if_pos hi]; exact .inr (.inl rfl)
          · rw [if_neg hi]; exact .inl rfl
        · exact .inl (congrFun (put_other _ _ _ _ hcc) i)
    refine ⟨h1.clean, h1.mem, h1.cur, fun t => ?_, h1.own, h1.live, h1.sched, h1.now, h1.snap⟩
    show y.stack t (if t = s.cur c then sp else s.sp t)
    by_cases ht : t = s.cur c
    · rw [if_pos ht, ht]; exact hsp
    · rw [if_neg ht]; exact h.sp t
  | leave c t hl ht =>
    obtain ⟨el, em⟩ := sched_upto hw .writebackInv (s.m.on c)
    have h1 : Inv y { s with m := flushSched y c s.m } := by
      refine inv_mach h _ (funext fun b => ?_) (fun c' i => ?_)
      · rw [flushSched, put_mem, em, opMem_clean _ ((s.m.on c).line _) (hc c _), ite_self]; rfl
      · by_cases hcc : c' = c
        · subst hcc
          rw [flushSched, put_same, el]
          by_cases hi : y.pl ≤ i ∧ i < y.ph
          · rw [if_pos hi]; exact .inr (.inl rfl)
          · rw [if_neg hi]; exact .inl rfl
        · exact .inl (congrFun (put_other _ _ _ _ hcc) i)
    have hgone : ∀ i, y.pl ≤ i → i < y.ph → (flushSched y c s.m).line c i = none := by
      intro i h2 h3
      rw [flushSched, put_same, el, if_pos ⟨h2, h3⟩]; rfl
    obtain ⟨fl, fm⟩ := stack_upto hw .inval t (s.sp t) (h.sp t) ((flushSched y c s.m).on c)
    have h2 : Inv y { s with m := invStack y t (s.sp t) c (flushSched y c s.m) } := by
      refine inv_mach h1 _ (funext fun b => ?_) (fun c' i => ?_)
      · rw [invStack, put_mem, fm, opMem_clean _ (((flushSched y c s.m).on c).line _) (h1.clean c _), ite_self]; rfl
      · by_cases hcc : c' = c
        · subst hcc
          rw [invStack, put_same, fl]
          by_cases hi : num y.k (s.sp t) ≤ i ∧ i < y.hi t
          · rw [if_pos hi]; exact .inr (.inl rfl)
          · rw [if_neg hi]; exact .inl rfl
        · exact .inl (congrFun (put_other _ _ _ _ hcc) i)
    refine ⟨h2.clean, h2.mem, fun c1 c2 hcc => ?_, h2.sp, fun c' a hv => ?_, fun c' a b d hv e => ?_,
      (fun c' a b d hk _ _ => nomatch hk), fun c' => ?_, fun c' l b d h3 h4 e => ?_⟩
    · show (if c1 = c then t else s.cur c1) ≠ (if c2 = c then t else s.cur c2)
      by_cases h3 : c1 = c
      · rw [if_pos h3, if_neg (fun x => hcc (h3.trans x.symm))]
        exact (ht c2 (fun x => hcc (h3.trans x.symm))).symm
      · rw [if_neg h3]
        by_cases h4 : c2 = c
        · rw [if_pos h4]; exact ht c1 h3
        · rw [if_neg h4]; exact h.cur c1 c2 hcc
    · change y.stack (if c' = c then t else s.cur c') a
      change (if c' = c then s.sp t ≤ a ∧ a < y.hi t * 2 ^ y.k else s.live c' a) at hv
      by_cases h3 : c' = c
      · rw [if_pos h3] at hv ⊢; exact live_stack (h.sp t) hv.1 hv.2
      · rw [if_neg h3] at hv ⊢; exact h.own c' a hv
    · change (if c' = c then s.sp t ≤ a ∧ a < y.hi t * 2 ^ y.k else s.live c' a) at hv
      by_cases h3 : c' = c
      · rw [if_pos h3] at hv
        subst h3
        have h4 := live_stack (h.sp t) hv.1 hv.2
        change (invStack y t (s.sp t) c' (flushSched y c' s.m)).line c' (num y.k a) = _ at e
        rw [invStack, put_same, fl, if_pos ⟨Nat.div_le_div_right hv.1, h4.2⟩] at e
        cases e
      · rw [if_neg h3] at hv; exact h2.live c' a b d hv e
    · show (if c' = c then s.ideal = s.ideal else s.since c' s.ideal)
      by_cases h3 : c' = c
      · rw [if_pos h3]
      · rw [if_neg h3]; exact h.now c'
    · by_cases h5 : c' = c
      · subst h5
        change (invStack y t (s.sp t) c' (flushSched y c' s.m)).line c' l = _ at e
        rw [invStack, put_same, fl] at e
        by_cases hi : num y.k (s.sp t) ≤ l ∧ l < y.hi t
        · rw [if_pos hi] at e; cases e
        · rw [if_neg hi] at e
          change (flushSched y c' s.m).line c' l = _ at e
          rw [hgone l h3 h4] at e; cases e
      · obtain ⟨g, hg, hga⟩ := h2.snap c' l b d h3 h4 e
        exact ⟨g, by show (if c' = c then g = s.ideal else s.since c' g); rw [if_neg h5]; exact hg, hga⟩

theorem reach_inv (hw : y.WF) {s : Sys y} (h : Reach false y s) : Inv y s := by
  induction h with
  | init s h => exact inv_init h
  | step s s' _ hs ih => exact inv_step hw ih hs

theorem load_line {K : Nat} (m : Mach K) (k : Nat) (c : Fin K) (a : Nat) :
    m.load k c a = match m.line c (num k a) with | some (_, d) => d a | none => m.mem a := rfl

/-- C107. Write-through caches, not coherent: whatever cores a task was moved to, whatever lines came into and
left the caches, and whatever the others did meanwhile, a byte of its stack at or above its stack
pointer when it was resumed, or written since, reads as last written - by the task on any core, or by
the scheduler on its behalf. -/
theorem stack_current (hw : y.WF) {s : Sys y} (h : Reach false y s) (c : Fin y.K) (a : Nat) (ha : s.live c a) :
    s.m.load y.k c a = s.ideal a := by
  have i := reach_inv hw h
  rw [load_line]
  rcases hx : s.m.line c (num y.k a) with _ | ⟨b, d⟩
  · exact congrFun i.mem a
  · exact i.live c a b d ha hx

/-- ... and what the scheduler reads of its own structure during a pass is current. -/
theorem sched_current (hw : y.WF) {s : Sys y} (h : Reach false y s) (c : Fin y.K) (a : Nat) (hl : s.lock = some c) (ha : y.sched a) :
    s.m.load y.k c a = s.ideal a := by
  have i := reach_inv hw h
  rw [load_line]
  rcases hx : s.m.line c (num y.k a) with _ | ⟨b, d⟩
  · exact congrFun i.mem a
  · exact i.sched c a b d hl ha hx

/-- Outside of a pass (picoRTOS_get_tick 470-476, picoRTOS_self 462-468, the checks of picoRTOS_sleep ... 433-460
read the structure without invalidating it) a core reads a line of the structure as it was at one moment since
its own last pass ... -/
theorem outside_lags (hw : y.WF) {s : Sys y} (h : Reach false y s) (c : Fin y.K) (l : Nat) (h1 : y.pl ≤ l) (h2 : l < y.ph) :
    ∃ g, s.since c g ∧ ∀ a, num y.k a = l → s.m.load y.k c a = g a := by
  have i := reach_inv hw h
  rcases hx : s.m.line c l with _ | ⟨b, d⟩
  · refine ⟨s.ideal, i.now c, fun a ha => ?_⟩
    rw [load_line, ha, hx]; exact congrFun i.mem a
  · obtain ⟨g, hg, hga⟩ := i.snap c l b d h1 h2 hx
    refine ⟨g, hg, fun a ha => ?_⟩
    rw [load_line, ha, hx]; exact hga a ha

/-- ... so a byte that did not change since (the core's own `index`, the state of its running task) is
current. -/
theorem outside_current (hw : y.WF) {s : Sys y} (h : Reach false y s) (c : Fin y.K) (a : Nat) (ha : y.sched a)
    (hsame : ∀ g, s.since c g → g a = s.ideal a) : s.m.load y.k c a = s.ideal a := by
  obtain ⟨g, hg, hga⟩ := outside_lags hw h c (num y.k a) ha.1 ha.2
  rw [hga a rfl]; exact hsame g hg

end Pico.Noncoh
