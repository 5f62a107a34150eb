import Verif.SMP.NoncohProps
/-! C107, continued: the scheduler structure is current during a pass whatever the write policy of the caches. -/
namespace Pico.Noncoh
open Pico.Cache
variable {y : Lay}

/-- byte `a` is where core `c` finds it, and if its line is not dirty, in memory -/
def Good (y : Lay) (m : Mach y.K) (ideal : Nat → Byte) (c : Fin y.K) (a : Nat) : Prop :=
  (∀ b d, m.line c (num y.k a) = some (b, d) → d a = ideal a) ∧
  ((∀ d, m.line c (num y.k a) ≠ some (true, d)) → m.mem a = ideal a)

structure InvP (y : Lay) (lock : Option (Fin y.K)) (m : Mach y.K) (ideal : Nat → Byte) : Prop where
  clean : ∀ c, lock ≠ some c → ∀ l d, y.pl ≤ l → l < y.ph → m.line c l ≠ some (true, d)
  good : ∀ c, lock = some c → ∀ a, y.sched a → Good y m ideal c a
  mem : lock = none → ∀ a, y.sched a → m.mem a = ideal a

theorem mul_sched {l : Nat} : y.sched (l * 2 ^ y.k) ↔ y.pl ≤ l ∧ l < y.ph := by
  unfold Lay.sched; rw [num_mul]

/-- a step that leaves the lines of the structure and its bytes in memory alone -/
theorem invP_same {lock : Option (Fin y.K)} {m m' : Mach y.K} {ideal ideal' : Nat → Byte} (h : InvP y lock m ideal)
    (hl : ∀ c l, y.pl ≤ l → l < y.ph → m'.line c l = m.line c l) (hm : ∀ a, y.sched a → m'.mem a = m.mem a)
    (hi : ∀ a, y.sched a → ideal' a = ideal a) : InvP y lock m' ideal' where
  clean := fun c hc l d h1 h2 e => h.clean c hc l d h1 h2 ((hl c l h1 h2) ▸ e)
  good := fun c hc a ha => by
    obtain ⟨g1, g2⟩ := h.good c hc a ha
    refine ⟨fun b d e => ?_, fun hd => ?_⟩
    · rw [hi a ha]; rw [hl c _ ha.1 ha.2] at e; exact g1 b d e
    · rw [hi a ha, hm a ha]; exact g2 (fun d e => hd d (by rw [hl c _ ha.1 ha.2]; exact e))
  mem := fun hc a ha => by rw [hi a ha, hm a ha]; exact h.mem hc a ha

theorem stack_not_sched (hw : y.WF) (t : Fin y.T) (i : Nat) (h1 : y.lo t ≤ i) (h2 : i < y.hi t) : ¬ (y.pl ≤ i ∧ i < y.ph) :=
  fun h => hw.apart t (i * 2 ^ y.k) (by unfold Lay.stack; rw [num_mul]; exact ⟨h1, h2⟩) (mul_sched.2 h)

/-- a cache operation on a stack -/
theorem invP_stack (hw : y.WF) {lock : Option (Fin y.K)} {m : Mach y.K} {ideal : Nat → Byte} (h : InvP y lock m ideal)
    (op : CacheOp) (t : Fin y.T) (sp : Nat) (hs : y.stack t sp) (c : Fin y.K) :
    InvP y lock (m.put c (range y.k op (BitVec.ofNat 32 sp) (BitVec.ofNat 32 (y.hi t * 2 ^ y.k - sp)) (m.on c))) ideal := by
  obtain ⟨el, em⟩ := stack_upto hw op t sp hs (m.on c)
  refine invP_same h (fun c' l h1 h2 => ?_) (fun a ha => ?_) (fun _ _ => rfl)
  · by_cases hcc : c' = c
    · subst hcc
      rw [put_same, el, if_neg]
      · rfl
      · exact fun x => stack_not_sched hw t l (Nat.le_trans hs.1 x.1) x.2 ⟨h1, h2⟩
    · exact congrFun (put_other _ _ _ _ hcc) l
  · rw [put_mem, em, if_neg]
    · rfl
    · exact fun x => stack_not_sched hw t _ (Nat.le_trans hs.1 x.1) x.2 ha

theorem invP_stored (hw : y.WF) (wb : Bool) {lock : Option (Fin y.K)} {m : Mach y.K} {ideal : Nat → Byte}
    (h : InvP y lock m ideal) (c : Fin y.K) (a : Nat) (v : Byte) (hc : ¬ y.sched a ∨ lock = some c) :
    InvP y lock (m.store wb y.k c a v) (updB ideal a v) := by
  rcases hc with hc | hc
  · have hne : ∀ l, y.pl ≤ l → l < y.ph → l ≠ num y.k a := fun l h1 h2 e => hc ⟨e ▸ h1, e ▸ h2⟩
    refine invP_same h (fun c' l h1 h2 => ?_) (fun x hx => ?_) (fun x hx => ?_)
    · by_cases hcc : c' = c
      · subst hcc
        unfold Mach.store
        cases wb
        · rw [if_neg (fun h => Bool.noConfusion h), put_same]; exact if_neg (hne l h1 h2)
        · rw [if_pos rfl, put_same]; exact if_neg (hne l h1 h2)
      · unfold Mach.store
        cases wb
        · rw [if_neg (fun h => Bool.noConfusion h), put_other _ _ _ _ hcc]
        · rw [if_pos rfl, put_other _ _ _ _ hcc]
    · unfold Mach.store
      cases wb
      · rw [if_neg (fun h => Bool.noConfusion h), put_mem]
        exact updB_other _ _ _ _ (fun e => hc (e ▸ hx))
      · rw [if_pos rfl, put_mem]
    · exact updB_other _ _ _ _ (fun e => hc (e ▸ hx))
  · refine ⟨fun c' hc' l d h1 h2 e => ?_, fun c' hc' x hx => ?_, fun hn => by rw [hc] at hn; cases hn⟩
    · have hcc : c' ≠ c := fun e' => hc' (by rw [hc, e'])
      refine h.clean c' hc' l d h1 h2 ?_
      unfold Mach.store at e
      cases wb
      · rw [if_neg (fun h => Bool.noConfusion h), put_other _ _ _ _ hcc] at e; exact e
      · rw [if_pos rfl, put_other _ _ _ _ hcc] at e; exact e
    · rw [hc] at hc'
      cases (Option.some.inj hc' : c = c')
      obtain ⟨g1, g2⟩ := h.good c hc x hx
      unfold Good Mach.store
      cases wb
      · rw [if_neg (fun h => Bool.noConfusion h), put_same, put_mem]
        refine ⟨fun b d e => ?_, fun hd => ?_⟩
        · by_cases hxa : x = a
          · subst hxa
            simp only [if_pos] at e
            rcases hx' : m.line c (num y.k x) with _ | ⟨b', d'⟩
            · rw [hx'] at e; cases e
            · rw [hx'] at e; cases e; rw [updB_same, updB_same]
          · rw [updB_other _ _ _ _ hxa]
            by_cases hl : num y.k x = num y.k a
            · simp only [if_pos hl] at e
              rcases hx' : m.line c (num y.k x) with _ | ⟨b', d'⟩
              · rw [hx'] at e; cases e
              · rw [hx'] at e; cases e; rw [updB_other _ _ _ _ hxa]; exact g1 _ _ hx'
            · simp only [if_neg hl] at e; exact g1 _ _ e
        · show updB m.mem a v x = updB ideal a v x
          by_cases hxa : x = a
          · subst hxa; rw [updB_same, updB_same]
          · rw [updB_other _ _ _ _ hxa, updB_other _ _ _ _ hxa]
            refine g2 (fun d e => ?_)
            by_cases hl : num y.k x = num y.k a
            · exact hd (updB d a v) (by simp only [if_pos hl]; rw [e]; rfl)
            · exact hd d (by simp only [if_neg hl]; exact e)
      · rw [if_pos rfl, put_same, put_mem]
        refine ⟨fun b d e => ?_, fun hd => ?_⟩
        · by_cases hl : num y.k x = num y.k a
          · simp only [if_pos hl] at e
            by_cases hxa : x = a
            · subst hxa; cases e; rw [updB_same, updB_same]
            · rw [updB_other _ _ _ _ hxa]
              rcases hx' : m.line c (num y.k x) with _ | ⟨b', d'⟩
              · rw [hx'] at e; cases e; rw [updB_other _ _ _ _ hxa]
                exact g2 (fun d e => by rw [hx'] at e; cases e)
              · rw [hx'] at e; cases e; rw [updB_other _ _ _ _ hxa]; exact g1 _ _ hx'
          · simp only [if_neg hl] at e
            rw [updB_other _ _ _ _ (fun e' => hl (by rw [e']))]; exact g1 _ _ e
        · by_cases hl : num y.k x = num y.k a
          · exact absurd rfl (hd _ ∘ fun e => by simp only [if_pos hl]; exact e)
          · rw [updB_other _ _ _ _ (fun e' => hl (by rw [e']))]
            exact g2 (fun d e => hd d (by simp only [if_neg hl]; exact e))

theorem invP_step (hw : y.WF) (wb : Bool) {s s' : Sys y} (hsp : ∀ t, y.stack t (s.sp t))
    (h : InvP y s.lock s.m s.ideal) (hs : Step wb y s s') :
    (∀ t, y.stack t (s'.sp t)) ∧ InvP y s'.lock s'.m s'.ideal := by
  cases hs with
  | fill c l =>
    refine ⟨hsp, ⟨fun c' hc i d h1 h2 e => ?_, fun c' hc a ha => ?_, h.mem⟩⟩
    · refine h.clean c' hc i d h1 h2 ?_
      change (s.m.fill c l).line c' i = _ at e
      by_cases hcc : c' = c
      · subst hcc
        rw [Mach.fill, put_same] at e
        by_cases hi : i = l ∧ s.m.line c' i = none
        · simp only [if_pos hi] at e; cases e
        · simp only [if_neg hi] at e; exact e
      · rw [Mach.fill, put_other _ _ _ _ hcc] at e; exact e
    · obtain ⟨g1, g2⟩ := h.good c' hc a ha
      show Good y (s.m.fill c l) s.ideal c' a
      by_cases hcc : c' = c
      · subst hcc
        unfold Good
        rw [Mach.fill, put_same, put_mem]
        by_cases hi : num y.k a = l ∧ s.m.line c' (num y.k a) = none
        · have hm : s.m.mem a = s.ideal a := g2 (fun d e => by rw [hi.2] at e; cases e)
          refine ⟨fun b d e => ?_, fun _ => hm⟩
          simp only [if_pos hi] at e; cases e; exact hm
        · refine ⟨fun b d e => ?_, fun hd => g2 (fun d e => hd d (by simp only [if_neg hi]; exact e))⟩
          simp only [if_neg hi] at e; exact g1 b d e
      · unfold Good
        rw [Mach.fill, put_other _ _ _ _ hcc, put_mem]; exact ⟨g1, g2⟩
  | evict c l =>
    have hm : ∀ a, (wbMem y.k l (s.m.on c)) a = s.m.mem a ∨
        (num y.k a = l ∧ ∃ d, s.m.line c l = some (true, d) ∧ (wbMem y.k l (s.m.on c)) a = d a) := by
      intro a
      unfold wbMem
      rcases hx : (s.m.on c).line l with _ | ⟨_ | _, d⟩
      · exact .inl rfl
      · exact .inl rfl
      · by_cases ha : num y.k a = l
        · exact .inr ⟨ha, d, hx, if_pos ha⟩
        · exact .inl (if_neg ha)
    refine ⟨hsp, ⟨fun c' hc i d h1 h2 e => ?_, fun c' hc a ha => ?_, fun hn a ha => ?_⟩⟩
    · refine h.clean c' hc i d h1 h2 ?_
      change (s.m.evict y.k c l).line c' i = _ at e
      by_cases hcc : c' = c
      · subst hcc
        rw [Mach.evict, put_same] at e
        by_cases hi : i = l
        · simp only [if_pos hi] at e; cases e
        · simp only [if_neg hi] at e; exact e
      · rw [Mach.evict, put_other _ _ _ _ hcc] at e; exact e
    · obtain ⟨g1, g2⟩ := h.good c' hc a ha
      show Good y (s.m.evict y.k c l) s.ideal c' a
      by_cases hcc : c' = c
      · subst hcc
        unfold Good
        rw [Mach.evict, put_same, put_mem]
        by_cases hi : num y.k a = l
        · refine ⟨fun b d e => (by simp only [if_pos hi] at e; cases e), fun _ => ?_⟩
          show wbMem y.k l (s.m.on c') a = _
          rcases hm a with e | ⟨_, d, e1, e2⟩
          · by_cases hd : ∃ d, s.m.line c' l = some (true, d)
            · obtain ⟨d, hd⟩ := hd
              have : wbMem y.k l (s.m.on c') a = d a := by
                unfold wbMem
                rw [show (s.m.on c').line l = some (true, d) from hd]
                exact if_pos hi
              rw [this]; exact g1 _ _ (hi ▸ hd)
            · rw [e]; exact g2 (fun d e' => hd ⟨d, hi ▸ e'⟩)
          · rw [e2]; exact g1 _ _ (hi ▸ e1)
        · refine ⟨fun b d e => ?_, fun hd => ?_⟩
          · simp only [if_neg hi] at e; exact g1 b d e
          · rcases hm a with e | ⟨e, _⟩
            · exact e.trans (g2 (fun d e' => hd d (by simp only [if_neg hi]; exact e')))
            · exact absurd e hi
      · unfold Good
        rw [Mach.evict, put_other _ _ _ _ hcc, put_mem]
        refine ⟨g1, fun hd => ?_⟩
        rcases hm a with e | ⟨e0, d, e1, _⟩
        · exact e.trans (g2 hd)
        · refine absurd e1 (h.clean c (fun e' => hcc ?_) l d (e0 ▸ ha.1) (e0 ▸ ha.2))
          rw [hc] at e'; exact Option.some.inj e'
    · change wbMem y.k l (s.m.on c) a = _
      rcases hm a with e | ⟨e0, d, e1, _⟩
      · exact e.trans (h.mem hn a ha)
      · exact absurd e1 (h.clean c (fun e' => by rw [show s.lock = none from hn] at e'; cases e') l d (e0 ▸ ha.1) (e0 ▸ ha.2))
  | store c a v _ ha => exact ⟨hsp, invP_stored hw wb h c a v (.inl (hw.apart _ _ ha))⟩
  | kstore c a v hl ha => exact ⟨hsp, invP_stored hw wb h c a v (.inr hl)⟩
  | late c a v _ ha => exact ⟨hsp, invP_stored hw wb h c a v (.inl (hw.apart _ _ ha))⟩
  | enter c hl =>
    obtain ⟨el, em⟩ := sched_upto hw .inval (s.m.on c)
    have hmem : ∀ a, y.sched a → (invSched y c s.m).mem a = s.ideal a := by
      intro a ha
      rw [invSched, put_mem, em]
      refine Eq.trans ?_ (h.mem hl a ha)
      by_cases hi : y.pl ≤ num y.k a ∧ num y.k a < y.ph
      · rw [if_pos hi]; rfl
      · rw [if_neg hi]; rfl
    refine ⟨hsp, ⟨fun c' hc i d h1 h2 e => ?_, fun c' hc a ha => ?_, fun hn => nomatch hn⟩⟩
    · have hcc : c' ≠ c := fun e' => hc (by rw [e']; rfl)
      change (invSched y c s.m).line c' i = _ at e
      rw [invSched, put_other _ _ _ _ hcc] at e
      exact h.clean c' (fun e' => by rw [hl] at e'; cases e') i d h1 h2 e
    · cases (Option.some.inj hc : c = c')
      refine ⟨fun b d e => ?_, fun _ => hmem a ha⟩
      change (invSched y c s.m).line c (num y.k a) = _ at e
      rw [invSched, put_same, el, if_pos (show y.pl ≤ num y.k a ∧ num y.k a < y.ph from ha)] at e
      cases e
  | save c sp hl hs =>
    refine ⟨fun t => ?_, invP_stack hw h .writebackInv (s.cur c) sp hs c⟩
    show y.stack t (if t = s.cur c then sp else s.sp t)
    by_cases ht : t = s.cur c
    · rw [if_pos ht, ht]; exact hs
    · rw [if_neg ht]; exact hsp t
  | leave c t hl ht =>
    obtain ⟨el, em⟩ := sched_upto hw .writebackInv (s.m.on c)
    refine ⟨hsp, invP_stack (m := flushSched y c s.m) hw ?_ .inval t (s.sp t) (hsp t) c⟩
    refine ⟨fun c' _ i d h1 h2 e => ?_, (fun c' hc => nomatch hc), fun _ a ha => ?_⟩
    · by_cases hcc : c' = c
      · subst hcc
        rw [flushSched, put_same, el, if_pos ⟨h1, h2⟩] at e
        cases e
      · rw [flushSched, put_other _ _ _ _ hcc] at e
        exact h.clean c' (fun e' => hcc (by rw [hl] at e'; exact (Option.some.inj e').symm)) i d h1 h2 e
    · show (flushSched y c s.m).mem a = s.ideal a
      obtain ⟨g1, g2⟩ := h.good c hl a ha
      rw [flushSched, put_mem, em, if_pos (show y.pl ≤ num y.k a ∧ num y.k a < y.ph from ha)]
      rcases hx : s.m.line c (num y.k a) with _ | ⟨_ | _, d⟩
      · rw [show (s.m.on c).line (num y.k a) = none from hx]
        exact g2 (fun d e => by rw [hx] at e; cases e)
      · rw [show (s.m.on c).line (num y.k a) = some (false, d) from hx]
        exact g2 (fun d e => by rw [hx] at e; cases e)
      · rw [show (s.m.on c).line (num y.k a) = some (true, d) from hx]
        exact g1 _ _ hx

/-- C107. Whatever the write policy, what a pass reads of the scheduler structure is what the passes before it, on
any core, and itself have written last. -/
theorem sched_current_any (hw : y.WF) (wb : Bool) {s : Sys y} (h : Reach wb y s) (c : Fin y.K) (a : Nat)
    (hl : s.lock = some c) (ha : y.sched a) : s.m.load y.k c a = s.ideal a := by
  have hi : (∀ t, y.stack t (s.sp t)) ∧ InvP y s.lock s.m s.ideal := by
    clear hl ha
    induction h with
    | init s h =>
      refine ⟨h.sp, ⟨fun c _ l d _ _ e => (by rw [h.empty] at e; cases e), fun c hc => ?_, fun _ a _ => (by rw [h.mem])⟩⟩
      rw [h.lock] at hc; cases hc
    | step s s' _ hs ih => exact invP_step hw wb ih.1 ih.2 hs
  obtain ⟨g1, g2⟩ := hi.2.good c hl a ha
  rw [load_line]
  rcases hx : s.m.line c (num y.k a) with _ | ⟨b, d⟩
  · exact g2 (fun d e => by rw [hx] at e; cases e)
  · exact g1 b d hx

end Pico.Noncoh
