import Mathlib.Logic.Basic
import Verif.Ipc.FutexModel

/-!
# Properties of the futex (C37, C38)
-/

namespace Pico.Ftx

/-! ## Traces and schedules -/

theorem exec_append {c : Cfg} {s s1 : State c} {l1 l2 : List (Nat × Cmd)} {tr1 : List Ev}
    (h : exec c s l1 = some (s1, tr1)) :
    exec c s (l1 ++ l2) = (exec c s1 l2).map (fun r => (r.1, tr1 ++ r.2)) := by
  induction l1 generalizing s tr1 with
  | nil => cases h; cases he : exec c s1 l2 <;> simp [he]
  | cons x l ih =>
    obtain ⟨t, a⟩ := x
    simp only [exec, List.cons_append] at h ⊢
    cases hs : step c s t a with
    | none => simp [hs] at h
    | some r =>
      obtain ⟨s', evs⟩ := r
      simp only [hs] at h ⊢
      cases he : exec c s' l with
      | none => simp [he] at h
      | some r2 =>
        obtain ⟨s2, evs2⟩ := r2
        simp only [he] at h
        cases h
        rw [ih he]
        cases exec c s1 l2 <;> simp

theorem runs_induction {c : Cfg} {P : List Ev → State c → Prop}
    (h0 : P [] (init c))
    (hs : ∀ tr s t a s' evs, P tr s → step c s t a = some (s', evs) → P (tr ++ evs) s')
    {tr : List Ev} {s : State c} (h : Runs c tr s) : P tr s := by
  obtain ⟨l, h⟩ := h
  suffices H : ∀ (l : List (Nat × Cmd)) tr0 s0 tr s, P tr0 s0 → exec c s0 l = some (s, tr) → P (tr0 ++ tr) s from by
    simpa using H l [] _ tr s h0 h
  intro l
  induction l with
  | nil => intro tr0 s0 tr s hp h; cases h; simpa using hp
  | cons x l ih =>
    intro tr0 s0 tr s hp h
    obtain ⟨t, a⟩ := x
    simp only [exec] at h
    cases hst : step c s0 t a with
    | none => simp [hst] at h
    | some r =>
      obtain ⟨s', evs⟩ := r
      simp only [hst] at h
      cases he : exec c s' l with
      | none => simp [he] at h
      | some r2 =>
        obtain ⟨s2, evs2⟩ := r2
        simp only [he] at h
        cases h
        rw [← List.append_assoc]
        exact ih _ _ _ _ (hs _ _ _ _ _ _ hp hst) he

theorem runs_step {c : Cfg} {s s' : State c} {tr evs : List Ev} {t : Nat} {a : Cmd}
    (h : Runs c tr s) (hs : step c s t a = some (s', evs)) : Runs c (tr ++ evs) s' := by
  obtain ⟨l, hl⟩ := h
  exact ⟨l ++ [(t, a)], by rw [exec_append hl]; simp [exec, hs]⟩

theorem step_cases {c : Cfg} {s s' : State c} {t : Nat} {a : Cmd} {evs : List Ev}
    (h : step c s t a = some (s', evs)) : t < c.N ∧ s.dead t = false ∧
    ((∃ o, a = .call o ∧ s.pc t = .idle ∧ s' = s.at t (entry c o) ∧ evs = [.call t o]) ∨
     (∃ spur, a = .go spur ∧ s.pc t ≠ .idle ∧ access c s t spur = (s', evs))) := by
  unfold step at h
  split at h
  · rename_i h1
    refine ⟨h1.1, h1.2, ?_⟩
    split at h
    · rename_i o
      split at h
      · rename_i h2
        cases h
        exact Or.inl ⟨o, rfl, h2, rfl, rfl⟩
      · cases h
    · rename_i spur
      split at h
      · cases h
      · rename_i h2
        simp only [Option.some.injEq] at h
        exact Or.inr ⟨spur, rfl, h2, h⟩
  · cases h

@[simp] theorem at_pc {c : Cfg} (s : State c) (t : Nat) (p : PC) : (s.at t p).pc = upd s.pc t p := rfl
@[simp] theorem at_word {c : Cfg} (s : State c) (t : Nat) (p : PC) : (s.at t p).word = s.word := rfl
@[simp] theorem at_dead {c : Cfg} (s : State c) (t : Nat) (p : PC) : (s.at t p).dead = s.dead := rfl
@[simp] theorem die_pc {c : Cfg} (s : State c) (t : Nat) : (s.die t).pc = s.pc := rfl
@[simp] theorem die_word {c : Cfg} (s : State c) (t : Nat) : (s.die t).word = s.word := rfl

theorem step_task {c : Cfg} {s s' : State c} {t : Nat} {a : Cmd} {evs : List Ev}
    (h : step c s t a = some (s', evs)) : ∀ e ∈ evs, e.task = t := by
  obtain ⟨_, _, ⟨o, rfl, _, rfl, rfl⟩ | ⟨spur, rfl, _, h⟩⟩ := step_cases h
  · simp [Ev.task]
  · unfold access at h
    split at h <;> (repeat' split at h) <;> cases h <;> simp [Ev.task]

theorem step_pc {c : Cfg} {s s' : State c} {t : Nat} {a : Cmd} {evs : List Ev}
    (h : step c s t a = some (s', evs)) (u : Nat) (hu : u ≠ t) : s'.pc u = s.pc u ∧ s'.dead u = s.dead u := by
  obtain ⟨_, _, ⟨o, rfl, _, rfl, rfl⟩ | ⟨spur, rfl, _, h⟩⟩ := step_cases h
  · simp [upd_ne _ _ hu]
  · unfold access at h
    split at h <;> (repeat' split at h) <;> cases h <;> simp [State.at, State.die, upd_ne _ _ hu]

theorem locks_append (tr evs : List Ev) (t : Nat) : locks (tr ++ evs) t = locks tr t + locks evs t := by
  simp [locks, List.count_append]; omega

theorem unlocks_append (tr evs : List Ev) (t : Nat) : unlocks (tr ++ evs) t = unlocks tr t + unlocks evs t := by
  simp [unlocks, List.count_append]

theorem counts_other {evs : List Ev} {t u : Nat} (h : ∀ e ∈ evs, e.task = t) (hu : u ≠ t) : locks evs u = 0 ∧ unlocks evs u = 0 := by
  unfold locks unlocks
  rw [List.count_eq_zero_of_not_mem, List.count_eq_zero_of_not_mem, List.count_eq_zero_of_not_mem]
  · exact ⟨rfl, rfl⟩
  · intro hm; exact hu (h _ hm)
  · intro hm; exact hu (h _ hm)
  · intro hm; exact hu (h _ hm)

theorem pending_append (tr evs : List Ev) (t : Nat) :
    pending (tr ++ evs) t = evs.foldl (pendStep t) (pending tr t) := by
  simp [pending, List.foldl_append]

theorem pendStep_other {e : Ev} {t u : Nat} (h : e.task = t) (hu : u ≠ t) (p : Option Op) : pendStep u p e = p := by
  subst h
  cases e <;> simp [pendStep, Ev.task] at hu ⊢ <;> intro h1 <;> exact absurd h1.symm hu

theorem pending_other {evs : List Ev} {t u : Nat} (tr : List Ev) (h : ∀ e ∈ evs, e.task = t) (hu : u ≠ t) :
    pending (tr ++ evs) u = pending tr u := by
  rw [pending_append]
  generalize pending tr u = p
  induction evs generalizing p with
  | nil => rfl
  | cons e es ih =>
    rw [List.foldl_cons, ih (fun e' h' => h e' (by simp [h'])), pendStep_other (h e (by simp)) hu]

theorem since_append (tr evs : List Ev) (t : Nat) :
    since (tr ++ evs) t = evs.foldl (sinceStep t) (since tr t) := by
  simp [since, List.foldl_append]

theorem sinceStep_other {e : Ev} {t u : Nat} (h : e.task = t) (hu : u ≠ t) (p : List Ev) : sinceStep u p e = p := by
  subst h
  cases e <;> simp only [sinceStep, Ev.task] at hu ⊢ <;> exact if_neg (fun h1 => hu h1.symm)

theorem since_other {evs : List Ev} {t u : Nat} (tr : List Ev) (h : ∀ e ∈ evs, e.task = t) (hu : u ≠ t) :
    since (tr ++ evs) u = since tr u := by
  rw [since_append]
  generalize since tr u = p
  induction evs generalizing p with
  | nil => rfl
  | cons e es ih =>
    rw [List.foldl_cons, ih (fun e' h' => h e' (by simp [h'])), sinceStep_other (h e (by simp)) hu]

/-! ## Invariants -/

/-- The API call a program counter belongs to. -/
def opOf : PC → Option Op
  | .idle => none
  | .tas => some .trylock
  | .tasL _ | .zz _ => some .lock
  | .uRd | .uWr => some .unlock

theorem pend_runs {c : Cfg} {s : State c} {tr : List Ev} (h : Runs c tr s) : ∀ t, pending tr t = opOf (s.pc t) := by
  refine runs_induction (P := fun tr s => ∀ t, pending tr t = opOf (s.pc t)) (fun _ => rfl) ?_ h
  intro tr s t a s' evs hp hs u
  by_cases hu : u = t
  · subst hu
    rw [pending_append, hp u]
    obtain ⟨_, _, ⟨o, _, _, rfl, rfl⟩ | ⟨spur, _, _, h⟩⟩ := step_cases hs
    · cases o <;> simp [pendStep, entry, opOf]
    · unfold access at h
      split at h <;> (repeat' split at h) <;> cases h <;> simp_all [pendStep, opOf]
  · rw [pending_other tr (step_task hs) hu, (step_pc hs u hu).1]; exact hp u

theorem dead_iff_stall {c : Cfg} {s : State c} {tr : List Ev} (h : Runs c tr s) (t : Nat) :
    s.dead t = true ↔ Ev.stall t ∈ tr := by
  revert t
  refine runs_induction (P := fun tr s => ∀ t, s.dead t = true ↔ Ev.stall t ∈ tr) (by simp [init]) ?_ h
  intro tr s t a s' evs hp hs u
  rw [List.mem_append, ← hp u]
  obtain ⟨ht, hd, ⟨o, rfl, _, rfl, rfl⟩ | ⟨spur, rfl, _, h⟩⟩ := step_cases hs
  · simp
  · unfold access at h
    split at h <;> (repeat' split at h) <;> cases h <;> simp [State.at, State.die, upd_apply] <;> by_cases hu : u = t <;> simp [hu]

/-- Progress of `picoRTOS_futex_lock`. -/
def Script (c : Cfg) (tr : List Ev) (t : Nat) : PC → Prop
  | .tas => since tr t = [.call t .trylock]
  | .tasL l => ∃ k : Nat, (k : Int) + l = c.D ∧ 0 ≤ l ∧ since tr t = .call t .lock :: fails t k
  | .zz l => ∃ k : Nat, (k : Int) + 1 + l = c.D ∧ 0 ≤ l ∧ since tr t = .call t .lock :: (fails t k ++ [.attempt t false])
  | _ => True

theorem script_runs {c : Cfg} {s : State c} {tr : List Ev} (h : Runs c tr s) :
    ∀ t, s.dead t = false → Script c tr t (s.pc t) := by
  refine runs_induction (P := fun tr s => ∀ t, s.dead t = false → Script c tr t (s.pc t)) (fun t _ => by simp [init, Script]) ?_ h
  intro tr s t a s' evs hp hs u hdu
  by_cases hu : u = t
  · subst hu
    obtain ⟨_, hd, ⟨o, _, _, rfl, rfl⟩ | ⟨spur, _, hne, h⟩⟩ := step_cases hs
    · cases o <;> simp [entry, Script, since_append, sinceStep]
      exact ⟨0, by omega, by simp [fails]⟩
    · have hp := hp u hd
      unfold access at h
      cases hpc : s.pc u with
      | idle => exact absurd hpc hne
      | tasL l =>
        rw [hpc] at hp
        obtain ⟨k, h1, h2, h3⟩ := hp
        simp only [hpc] at h
        (repeat' split at h) <;> cases h
        · simp [Script]
        · simp [State.die] at hdu
        · simp only [at_pc, upd_same, Script]
          exact ⟨k, by omega, by omega, by simp [since_append, sinceStep, Ev.task, h3]⟩
        · simp [State.die] at hdu
      | zz l =>
        rw [hpc] at hp
        obtain ⟨k, h1, h2, h3⟩ := hp
        simp only [hpc] at h
        cases h
        simp only [at_pc, upd_same, Script]
        exact ⟨k + 1, by omega, by omega, by simp [since_append, sinceStep, Ev.task, h3, fails]⟩
      | _ =>
        simp only [hpc] at h
        (repeat' split at h) <;> cases h <;> simp_all [Script]
  · obtain ⟨h1, h2⟩ := step_pc hs u hu
    rw [h1]
    have h0 := hp u (by rw [← h2]; exact hdu)
    have h1 := since_other tr (step_task hs) hu
    unfold Script at h0 ⊢
    simpa only [h1] using h0

/-- Who holds the futex. -/
structure Inv (c : Cfg) (s : State c) (tr : List Ev) : Prop where
  le : ∀ t, unlocks tr t ≤ locks tr t ∧ locks tr t ≤ unlocks tr t + 1
  one : ∀ t u, Holds tr t → Holds tr u → t = u
  free : s.word = 0 → ∀ t, ¬ Holds tr t
  taken : s.word ≠ 0 → ∃ t, t < c.N ∧ Holds tr t
  mine : ∀ t, opOf (s.pc t) = some .unlock → Holds tr t

/-- What a step does to the counts. -/
theorem step_effect {c : Cfg} {s s' : State c} {tr evs : List Ev} {t : Nat} {a : Cmd} (hr : Runs c tr s)
    (hs : step c s t a = some (s', evs)) :
    (s'.word = s.word ∧ locks evs t = 0 ∧ unlocks evs t = 0 ∧
      (opOf (s'.pc t) = some .unlock → opOf (s.pc t) = some .unlock ∨ evs = [.call t .unlock])) ∨
    (s.word = 0 ∧ s'.word = 1 ∧ locks evs t = 1 ∧ unlocks evs t = 0 ∧ opOf (s'.pc t) = none) ∨
    (opOf (s.pc t) = some .unlock ∧ s'.word = 0 ∧ locks evs t = 0 ∧ unlocks evs t = 1 ∧ opOf (s'.pc t) = none) := by
  obtain ⟨ht, hd, ⟨o, _, _, rfl, rfl⟩ | ⟨spur, _, hne, h⟩⟩ := step_cases hs
  · left; cases o <;> simp [entry, opOf, locks, unlocks]
  · have hscr := script_runs hr t hd
    unfold access at h
    cases hpc : s.pc t with
    | idle => exact absurd hpc hne
    | tasL l =>
      rw [hpc] at hscr
      obtain ⟨k, h1, h2, h3⟩ := hscr
      simp only [hpc] at h
      (repeat' split at h) <;> cases h
      · rename_i h4 _
        right; left; simp [h4.1, opOf, locks, unlocks, List.count_cons]
      · omega
      · left; simp [opOf, locks, unlocks]
      · left; simp [opOf, locks, unlocks, hpc]
    | tas =>
      simp only [hpc] at h
      (repeat' split at h) <;> cases h
      · rename_i h4
        right; left; simp [h4.1, opOf, locks, unlocks, List.count_cons]
      · left; simp [opOf, locks, unlocks, List.count_cons]
    | zz l => simp only [hpc] at h; cases h; left; simp [opOf, locks, unlocks]
    | uRd =>
      simp only [hpc] at h
      (repeat' split at h) <;> cases h
      · left; simp [opOf, locks, unlocks]
      · left; simp [opOf, locks, unlocks, hpc]
    | uWr =>
      simp only [hpc] at h
      cases h
      right; right; simp [opOf, locks, unlocks, List.count_cons]

theorem Disciplined.left {tr evs : List Ev} (h : Disciplined (tr ++ evs)) : Disciplined tr :=
  fun pre t hp => h pre t (hp.trans (List.prefix_append _ _))

theorem inv_runs {c : Cfg} (hw : c.WF) {s : State c} {tr : List Ev} (h : Runs c tr s) (hdis : Disciplined tr) : Inv c s tr := by
  have H : Runs c tr s ∧ (Disciplined tr → Inv c s tr) := by
    refine runs_induction (P := fun tr s => Runs c tr s ∧ (Disciplined tr → Inv c s tr)) ?_ ?_ h
    · refine ⟨⟨[], rfl⟩, fun _ => ⟨?_, ?_, ?_, ?_, ?_⟩⟩ <;> simp [locks, unlocks, Holds, init, opOf]
    · intro tr s t a s' evs ⟨hr, hi⟩ hs
      refine ⟨runs_step hr hs, fun hdis => ?_⟩
      have hi := hi hdis.left
      have ht := (step_cases hs).1
      have hoth : ∀ u, u ≠ t → locks (tr ++ evs) u = locks tr u ∧ unlocks (tr ++ evs) u = unlocks tr u := by
        intro u hu
        have := counts_other (step_task hs) hu
        rw [locks_append, unlocks_append]; omega
      have hone : (1 : BitVec c.aw) ≠ 0 := by
        have h0 : 0 < c.aw := hw
        intro h
        have := congrArg BitVec.toNat h
        simp at this
        omega
      have hl := locks_append tr evs t
      have hu := unlocks_append tr evs t
      have htt := hi.le t
      rcases step_effect hr hs with ⟨h1, h2, h3, h4⟩ | ⟨h0, h1, h2, h3, h4⟩ | ⟨h0, h1, h2, h3, h4⟩
      · have heq : ∀ u, locks (tr ++ evs) u = locks tr u ∧ unlocks (tr ++ evs) u = unlocks tr u := by
          intro u
          by_cases hut : u = t
          · subst hut; omega
          · exact hoth u hut
        have hh : ∀ u, Holds (tr ++ evs) u ↔ Holds tr u := by
          intro u; unfold Holds; rw [(heq u).1, (heq u).2]
        refine ⟨fun u => by rw [(heq u).1, (heq u).2]; exact hi.le u, fun u v => by rw [hh, hh]; exact hi.one u v, ?_, ?_, ?_⟩
        · rw [h1]; intro hz u; rw [hh]; exact hi.free hz u
        · rw [h1]; intro hz; obtain ⟨u, h5, h6⟩ := hi.taken hz; exact ⟨u, h5, (hh u).2 h6⟩
        · intro u hpu
          rw [hh]
          by_cases hut : u = t
          · subst hut
            rcases h4 hpu with h5 | h5
            · exact hi.mine u h5
            · subst h5
              exact hdis tr u (List.prefix_refl _)
          · rw [(step_pc hs u hut).1] at hpu; exact hi.mine u hpu
      · have hno := hi.free h0
        have hnt := hno t
        unfold Holds at hnt
        have hht : Holds (tr ++ evs) t := by unfold Holds; omega
        have hho : ∀ u, u ≠ t → ¬ Holds (tr ++ evs) u := by
          intro u hut
          have h5 := hno u
          have h6 := hoth u hut
          unfold Holds at h5 ⊢; omega
        refine ⟨fun u => ?_, fun u v hu hv => ?_, fun h => absurd (h1.symm.trans h) hone, fun _ => ⟨t, ht, hht⟩, fun u hpu => ?_⟩
        · by_cases hut : u = t
          · subst hut; omega
          · have h5 := hoth u hut
            have h6 := hi.le u
            omega
        · have hu' : u = t := by
            by_cases hut : u = t
            · exact hut
            · exact absurd hu (hho u hut)
          have hv' : v = t := by
            by_cases hvt : v = t
            · exact hvt
            · exact absurd hv (hho v hvt)
          rw [hu', hv']
        · by_cases hut : u = t
          · subst hut; rw [h4] at hpu; cases hpu
          · rw [(step_pc hs u hut).1] at hpu
            exact absurd (hi.mine u hpu) (hno u)
      · have hmine := hi.mine t h0
        have hm := hmine
        unfold Holds at hm
        have hho : ∀ u, ¬ Holds (tr ++ evs) u := by
          intro u
          by_cases hut : u = t
          · subst hut; unfold Holds; omega
          · have h5 : ¬ Holds tr u := fun h => hut (hi.one u t h hmine)
            have h6 := hoth u hut
            unfold Holds at h5 ⊢; omega
        refine ⟨fun u => ?_, fun u v hu _ => absurd hu (hho u), fun _ => hho, fun h => absurd h1 h, fun u hpu => ?_⟩
        · by_cases hut : u = t
          · subst hut; omega
          · have h5 := hoth u hut
            have h6 := hi.le u
            omega
        · by_cases hut : u = t
          · subst hut; rw [h4] at hpu; cases hpu
          · rw [(step_pc hs u hut).1] at hpu
            exact absurd (hi.one u t (hi.mine u hpu) hmine) hut
  exact H.2 hdis

/-! ## C37 -/

/-- C37a: if tasks only release a futex they hold, at most one task holds it, in every interleaving of any number of tasks. -/
theorem futex_exclusive {c : Cfg} (hw : c.WF) {s : State c} {tr : List Ev} (hr : Runs c tr s) (hd : Disciplined tr) {t u : Nat}
    (ht : Holds tr t) (hu : Holds tr u) : t = u := (inv_runs hw hr hd).one t u ht hu

/-- C37b: the futex is not re-entrant: a task acquires it at most once before releasing it. -/
theorem futex_not_reentrant {c : Cfg} (hw : c.WF) {s : State c} {tr : List Ev} (hr : Runs c tr s) (hd : Disciplined tr) (t : Nat) :
    locks tr t ≤ unlocks tr t + 1 := ((inv_runs hw hr hd).le t).2

/-- C37c: an attempt made while some task holds the futex fails; an attempt made while nobody holds it succeeds unless
`arch_test_and_set` fails spuriously. -/
theorem futex_attempt_iff {c : Cfg} (hw : c.WF) {s s' : State c} {tr evs : List Ev} {t : Nat} {spur ok : Bool}
    (hr : Runs c tr s) (hd : Disciplined tr) (hs : step c s t (.go spur) = some (s', evs)) (ha : Ev.attempt t ok ∈ evs) :
    ok = true ↔ (spur = false ∧ ∀ u, ¬ Holds tr u) := by
  have hi := inv_runs hw hr hd
  have hfree : s.word = 0 ↔ ∀ u, ¬ Holds tr u := by
    constructor
    · exact hi.free
    · intro h
      by_cases hz : s.word = 0
      · exact hz
      · obtain ⟨u, _, hu⟩ := hi.taken hz; exact absurd hu (h u)
  obtain ⟨ht, hdd, ⟨o, ho, _⟩ | ⟨spur', hsp, hne, h⟩⟩ := step_cases hs
  · cases ho
  · cases hsp
    rw [← hfree, and_comm]
    unfold access at h
    split at h <;> (repeat' split at h) <;> cases h <;> simp at ha <;> subst ha
    all_goals first
      | exact iff_of_true rfl (by assumption)
      | exact iff_of_false (by simp) (by assumption)

/-- C37d: under the discipline `picoRTOS_futex_unlock` never stalls, and it takes two accesses. -/
theorem futex_unlock_no_stall {c : Cfg} (hw : c.WF) {s s' : State c} {tr evs : List Ev} {t : Nat} {a : Cmd}
    (hr : Runs c tr s) (hd : Disciplined tr) (hp : pending tr t = some .unlock) (hs : step c s t a = some (s', evs)) :
    Ev.stall t ∉ evs := by
  have hi := inv_runs hw hr hd
  have hpd := pend_runs hr t
  rw [hpd] at hp
  have hm := hi.mine t hp
  obtain ⟨ht, hdd, ⟨o, rfl, hidle, _⟩ | ⟨spur', rfl, hne, h⟩⟩ := step_cases hs
  · rw [hidle] at hp; cases hp
  · unfold access at h
    split at h <;> (repeat' split at h) <;> cases h <;> simp_all [opOf]
    exact absurd hm (hi.free (by assumption) t)

/-! ## C38 -/

/-- C38: `picoRTOS_futex_lock` makes attempts separated by one sleep each.  It returns right after a successful attempt, preceded by at
most CONFIG_DEADLOCK_COUNT failed ones; it declares a deadlock right after its (CONFIG_DEADLOCK_COUNT + 1)-th failed attempt; after
fewer failed attempts it goes on. -/
theorem futex_lock_attempts {c : Cfg} {s s' : State c} {tr evs : List Ev} {t : Nat} {a : Cmd}
    (hr : Runs c tr s) (hs : step c s t a = some (s', evs)) (hp : pending tr t = some .lock) :
    (∀ o ok, Ev.ret t o ok ∈ evs → o = .lock ∧ ok = true ∧
      ∃ k, k ≤ c.D ∧ since (tr ++ evs) t = .call t .lock :: (fails t k ++ [.attempt t true, .ret t .lock true])) ∧
    (Ev.stall t ∈ evs → since (tr ++ evs) t = .call t .lock :: (fails t c.D ++ [.attempt t false, .stall t])) ∧
    (Ev.attempt t false ∈ evs → Ev.stall t ∉ evs →
      ∃ k, k < c.D ∧ since (tr ++ evs) t = .call t .lock :: (fails t k ++ [.attempt t false])) := by
  have hpd := pend_runs hr t
  rw [hpd] at hp
  obtain ⟨ht, hd, ⟨o, rfl, hidle, rfl, rfl⟩ | ⟨spur, rfl, _, h⟩⟩ := step_cases hs
  · simp
  · have hscr := script_runs hr t hd
    unfold access at h
    cases hpc : s.pc t with
    | zz l => simp only [hpc] at h; cases h; simp
    | tasL l =>
      rw [hpc] at hscr
      obtain ⟨k, h1, h2, h3⟩ := hscr
      simp only [hpc] at h
      (repeat' split at h) <;> cases h
      · simp [since_append, sinceStep, Ev.task, h3]
        exact ⟨k, by omega, rfl⟩
      · omega
      · simp [since_append, sinceStep, Ev.task, h3]
        exact ⟨k, by omega, rfl⟩
      · have : k = c.D := by omega
        subst this
        simp [since_append, sinceStep, Ev.task, h3]
    | _ => rw [hpc] at hp; simp [opOf] at hp

/-- C38: `picoRTOS_futex_lock` never returns without the futex. -/
theorem futex_lock_holds {c : Cfg} (hw : c.WF) {s s' : State c} {tr evs : List Ev} {t : Nat} {a : Cmd}
    (hr : Runs c tr s) (hdis : Disciplined (tr ++ evs)) (hs : step c s t a = some (s', evs)) {ok : Bool}
    (h : Ev.ret t .lock ok ∈ evs) : Holds (tr ++ evs) t ∧ s'.word ≠ 0 := by
  have hi := inv_runs hw hr hdis.left
  have hi' := inv_runs hw (runs_step hr hs) hdis
  have hle := hi.le t
  have hh : Holds (tr ++ evs) t := by
    rcases step_effect hr hs with ⟨h1, h2, h3, h4⟩ | ⟨h0, h1, h2, h3, h4⟩ | ⟨h0, h1, h2, h3, h4⟩
    · exfalso
      obtain ⟨ht, hd, ⟨o, rfl, hidle, rfl, rfl⟩ | ⟨spur, rfl, _, h'⟩⟩ := step_cases hs
      · simp at h
      · unfold access at h'
        split at h' <;> (repeat' split at h') <;> cases h' <;> simp at h
        simp [locks, List.count_cons] at h2
    · have := hi.free h0 t
      unfold Holds at this ⊢
      rw [locks_append, unlocks_append]; omega
    · exfalso
      obtain ⟨ht, hd, ⟨o, rfl, hidle, rfl, rfl⟩ | ⟨spur, rfl, _, h'⟩⟩ := step_cases hs
      · simp at h
      · unfold access at h'
        split at h' <;> (repeat' split at h') <;> cases h' <;> simp at h
        simp [locks, List.count_cons] at h2
  exact ⟨hh, fun hz => hi'.free hz t hh⟩

/-! ## Examples and counter-examples -/

namespace Demo

def cfg : Cfg := { N := 3, D := 2, aw := 8 }

theorem wf : cfg.WF := by unfold Cfg.WF; decide

/-- Task `t` makes `n` accesses. -/
def gos (t n : Nat) : List (Nat × Cmd) := List.replicate n (t, .go false)

/-- Task 0 acquires the futex, task 1 fails once, task 0 releases it, task 1 acquires it and calls unlock. -/
def sched : List (Nat × Cmd) := (0, .call .lock) :: gos 0 1 ++ (1, .call .lock) :: gos 1 1 ++ (0, .call .unlock) :: gos 0 2 ++ gos 1 2 ++
  [(1, .call .unlock)]

def tr : List Ev := [.call 0 .lock, .attempt 0 true, .ret 0 .lock true, .call 1 .lock, .attempt 1 false, .call 0 .unlock, .ret 0 .unlock true,
  .sleep 1, .attempt 1 true, .ret 1 .lock true, .call 1 .unlock]

def trace (c : Cfg) (l : List (Nat × Cmd)) : Option (List Ev) := (exec c (init c) l).map (·.2)

theorem runs_of_trace {c : Cfg} {l : List (Nat × Cmd)} {tr : List Ev} (h : trace c l = some tr) : ∃ s, Runs c tr s := by
  unfold trace at h
  cases he : exec c (init c) l with
  | none => simp [he] at h
  | some r => simp [he] at h; exact ⟨r.1, l, by rw [he, ← h]⟩

theorem disciplined_of {tr : List Ev} (h : ∀ n, n < tr.length → ∀ t, t < 3 → tr[n]? = some (.call t .unlock) → unlocks (tr.take n) t < locks (tr.take n) t)
    (h3 : ∀ e ∈ tr, e.task < 3) : Disciplined tr := by
  intro pre t hp
  have h1 := hp.length_le
  simp at h1
  have h2 : tr[pre.length]? = some (.call t .unlock) := by
    obtain ⟨q, rfl⟩ := hp
    simp
  have h4 : tr.take pre.length = pre := by
    obtain ⟨q, rfl⟩ := hp
    simp
  have := h pre.length (by omega) t (h3 _ (List.mem_of_getElem? h2)) h2
  rw [h4] at this
  exact this

end Demo

example : (∃ s, Runs Demo.cfg Demo.tr s) ∧ Disciplined Demo.tr ∧ Holds Demo.tr 1 ∧ ¬ Holds Demo.tr 0 ∧ pending Demo.tr 1 = some .unlock :=
  ⟨Demo.runs_of_trace (l := Demo.sched) (by decide), Demo.disciplined_of (by decide) (by decide), by unfold Holds; decide,
    by unfold Holds; decide, by decide⟩

-- a task whose attempts all fail stalls after three of them (CONFIG_DEADLOCK_COUNT = 2)
example : Demo.trace Demo.cfg ((0, .call .lock) :: Demo.gos 0 1 ++ (1, .call .lock) :: Demo.gos 1 5) =
    some ([.call 0 .lock, .attempt 0 true, .ret 0 .lock true, .call 1 .lock] ++ fails 1 2 ++ [.attempt 1 false, .stall 1]) := by decide

/-- C37, without the discipline: `picoRTOS_futex_unlock` does not check who releases: task 1 releases the futex of task 0, task 2 acquires
it, and two tasks hold it. -/
theorem futex_undisciplined : ∃ s tr, Runs Demo.cfg tr s ∧ (∀ t, Ev.stall t ∉ tr) ∧ Holds tr 0 ∧ Holds tr 2 := by
  obtain ⟨s, h⟩ := Demo.runs_of_trace (c := Demo.cfg)
    (l := (0, .call .lock) :: Demo.gos 0 1 ++ (1, .call .unlock) :: Demo.gos 1 2 ++ (2, .call .lock) :: Demo.gos 2 1)
    (tr := [.call 0 .lock, .attempt 0 true, .ret 0 .lock true, .call 1 .unlock, .ret 1 .unlock true, .call 2 .lock, .attempt 2 true, .ret 2 .lock true])
    (by decide)
  exact ⟨s, _, h, by simp, by unfold Holds; decide, by unfold Holds; decide⟩

end Pico.Ftx
