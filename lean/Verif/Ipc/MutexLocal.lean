import Verif.Ipc.MutexStep

/-!
# What a task is doing, read off the trace
-/

namespace Pico.Mtx

/-- The API call a program counter belongs to. -/
def lkOp : Lk → Op
  | .tryTop => .trylock
  | .lockTop _ => .lock
  | .lockWait _ => .wait

/-- The API call a program counter belongs to. -/
def opOf {sw : Nat} : PC sw → Option Op
  | .idle => none
  | .cas k | .chk k | .rd k | .wr k _ | .zz k => some (lkOp k)
  | .uOwner w | .uCount w | .uRd w | .uWr w _ | .uRel w => some (if w then .wait else .unlock)
  | .cAssert | .cIncRd | .cIncWr _ | .cAct | .cZz | .cDecRd | .cDecWr _ | .cAct2 | .cReset => some .wait
  | .sWr => some .signal
  | .bWr => some .broadcast

theorem pend_step {c : Cfg} {s s' : State c} {tr evs : List Ev} {t : Nat} {a : Cmd}
    (hp : ∀ u, pending tr u = opOf (s.pc u)) (hs : step c s t a = some (s', evs)) :
    ∀ u, pending (tr ++ evs) u = opOf (s'.pc u) := by
  intro u
  by_cases hu : u = t
  · subst hu
    rw [pending_append, hp u]
    obtain ⟨_, _, ⟨o, _, _, rfl, rfl⟩ | ⟨spur, _, _, h⟩⟩ := step_cases hs
    · cases o <;> simp [pendStep, entry, opOf, lkOp]
    · unfold access at h
      split at h <;> (try unfold failed at h) <;> (try unfold succeeded at h) <;> (try unfold unlocked at h) <;>
        (repeat' split at h) <;> cases h <;> simp_all [pendStep, opOf, lkOp]
  · rw [pending_other tr (step_task hs) hu, step_pc hs u hu]; exact hp u

/-- `pending` tells in which API call a task is. -/
theorem pend_goes {c : Cfg} {s : State c} {tr : List Ev} (h : Runs c tr s) : ∀ t, pending tr t = opOf (s.pc t) :=
  goes_induction (P := fun tr s => ∀ t, pending tr t = opOf (s.pc t)) (fun _ => rfl)
    (fun _ _ _ _ _ _ hp hs => pend_step hp hs) h

/-- Progress of `picoRTOS_mutex_lock`. -/
def LkScript (D : Nat) (tr : List Ev) (t : Nat) (extra : Nat) (last : List Ev) : Lk → Prop
  | .lockTop l => ∃ k : Nat, (k : Int) + extra + l = D ∧ 0 ≤ l ∧ since tr t = .call t .lock :: (fails t k ++ last)
  | .lockWait l => ∃ (k : Nat) (pre : List Ev), (k : Int) + extra + l = D ∧ 0 ≤ l ∧ since tr t = pre ++ .sleep t :: (fails t k ++ last)
  | .tryTop => extra = 0 ∧ since tr t = [.call t .trylock]

/-- Progress of `picoRTOS_mutex_lock`. -/
def Script (c : Cfg) (tr : List Ev) (t : Nat) : PC c.sw → Prop
  | .cas k | .chk k | .rd k | .wr k _ => LkScript c.D tr t 0 [] k
  | .zz k => LkScript c.D tr t 1 [.attempt t false] k
  | _ => True

theorem script_step {c : Cfg} {s s' : State c} {tr evs : List Ev} {t : Nat} {a : Cmd}
    (hp : ∀ u, s.dead u = false → Script c tr u (s.pc u)) (hs : step c s t a = some (s', evs)) :
    ∀ u, s'.dead u = false → Script c (tr ++ evs) u (s'.pc u) := by
  intro u hdu
  by_cases hu : u = t
  · subst hu
    obtain ⟨_, hd, ⟨o, _, _, rfl, rfl⟩ | ⟨spur, _, _, h⟩⟩ := step_cases hs
    · cases o <;> simp [entry, Script, LkScript, since_append, sinceStep]
      exact ⟨0, by omega, by simp [fails]⟩
    · have hp := hp u hd
      unfold access at h
      cases hpc : s.pc u with
      | idle => simp_all
      | cas k =>
        rw [hpc] at hp
        simp only [hpc] at h
        split at h <;> cases h <;> simpa [Script] using hp
      | chk k =>
        rw [hpc] at hp
        simp only [hpc] at h
        split at h
        · cases k with
          | tryTop => cases h; simp [Script]
          | lockTop l =>
            simp only [failed] at h
            split at h
            · cases h
              obtain ⟨k, h1, h2, h3⟩ := hp
              simp only [at_pc, upd_same, Script, LkScript]
              refine ⟨k, by omega, by omega, ?_⟩
              simp [since_append, sinceStep, Ev.task, h3]
            · cases h; simp [State.die] at hdu
          | lockWait l =>
            simp only [failed] at h
            split at h
            · cases h
              obtain ⟨k, pre, h1, h2, h3⟩ := hp
              simp only [at_pc, upd_same, Script, LkScript]
              refine ⟨k, pre, by omega, by omega, ?_⟩
              simp [since_append, sinceStep, Ev.task, h3]
            · cases h; simp [State.die] at hdu
        · cases h; simpa [Script] using hp
      | rd k =>
        rw [hpc] at hp
        simp only [hpc] at h
        cases h; simpa [Script] using hp
      | wr k v =>
        simp only [hpc] at h
        unfold succeeded at h
        repeat' split at h
        all_goals cases h
        all_goals simp_all [Script, State.die]
      | zz k =>
        rw [hpc] at hp
        simp only [hpc] at h
        cases h
        cases k with
        | tryTop =>
          simp [Script, LkScript] at hp
        | lockTop l =>
          obtain ⟨k, h1, h2, h3⟩ := hp
          simp only [at_pc, upd_same, Script, LkScript]
          refine ⟨k + 1, by omega, h2, ?_⟩
          simp [since_append, sinceStep, Ev.task, h3, fails]
        | lockWait l =>
          obtain ⟨k, pre, h1, h2, h3⟩ := hp
          simp only [at_pc, upd_same, Script, LkScript]
          refine ⟨k + 1, pre, by omega, h2, ?_⟩
          simp [since_append, sinceStep, Ev.task, h3, fails]
      | cZz =>
        simp only [hpc] at h
        cases h
        simp only [at_pc, upd_same, Script, LkScript]
        refine ⟨0, since tr u, by omega, by omega, ?_⟩
        simp [since_append, sinceStep, Ev.task, fails]
      | _ =>
        simp only [hpc] at h
        (try unfold unlocked at h)
        (repeat' split at h) <;> cases h <;> simp_all [Script]
  · have hd : s'.dead u = s.dead u := by
      obtain ⟨_, _, ⟨o, _, _, rfl, rfl⟩ | ⟨spur, _, _, h⟩⟩ := step_cases hs
      · rfl
      · unfold access at h
        split at h <;> (try unfold failed at h) <;> (try unfold succeeded at h) <;> (try unfold unlocked at h) <;>
          (repeat' split at h) <;> cases h <;> simp [State.at, State.die, upd_ne _ _ hu]
    rw [step_pc hs u hu]
    have h0 := hp u (by rw [← hd]; exact hdu)
    have h1 := since_other tr (step_task hs) hu
    unfold Script LkScript at h0 ⊢
    simpa only [h1] using h0

theorem script_goes {c : Cfg} {s : State c} {tr : List Ev} (h : Runs c tr s) :
    ∀ t, s.dead t = false → Script c tr t (s.pc t) :=
  goes_induction (s0 := init c) (P := fun tr s => ∀ t, s.dead t = false → Script c tr t (s.pc t)) (fun t _ => by simp [init, Script])
    (fun _ _ _ _ _ _ hp hs => script_step hp hs) h

end Pico.Mtx
