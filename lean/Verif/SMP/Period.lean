import Verif.SMP.Turns
/-
C109 on SMP: a core does not leave a task waiting since its last tick for a less urgent one.
-/
namespace Pico.SMP
open Pico.Sched (Goes Out)

theorem served_aux {c : Cfg} (hc : c.WF) (k q : Nat) : ∀ (evs : List (Ev c.tw)) (s s2 : Core c.tw), Inv c s → OnCores c evs → s.index k < q →
    (∀ e ∈ evs, e.core = k → e.call ≠ .tick) → run c s evs = .ok s2 →
    (∀ pre post sm, evs = pre ++ post → run c s pre = .ok sm → Waiting c sm k q) → s2.index k < q := by
  intro evs
  induction evs with
  | nil => intro s s2 _ _ hlt _ h _; simp [run] at h; subst h; exact hlt
  | cons e es ih =>
    intro s s2 hi ho hlt ht h hw
    obtain ⟨s1, o, h1, h2⟩ := run_cons h
    have hk : e.core < c.K := ho e (by simp)
    obtain ⟨_, hi1, _, hcase⟩ := step_cases hc hi hk h1
    have hw1 : Waiting c s1 k q := hw [e] es s1 rfl (by simp [run, h1])
    have hlt1 : s1.index k < q := by
      by_cases hke : k = e.core
      · subst hke
        rcases hcase with ⟨h3, _⟩ | ⟨_, hu, hb, r, _⟩
        · exact absurd h3 (ht e (by simp) rfl)
        obtain ⟨hwm, hne⟩ := r.picked.waiting hw1
        have hav := (r.mid.toStatic.avail_iff hwm.1).2 hwm
        have hgo := r.goes
        generalize s1.index e.core = j at hgo hne ⊢
        generalize s1.postponed = fl at hgo
        cases hgo with
        | next g1 g2 g3 g4 g5 =>
          rcases Nat.lt_trichotomy q j with h4 | h4 | h4
          · exact absurd hav (g4 q hlt h4)
          · exact absurd h4 hne
          · exact h4
        | wrap g1 g2 g3 g4 g5 => exact absurd hav (g2 q hlt (by have := hwm.1; omega))
      · rcases hcase with ⟨_, r⟩ | ⟨_, _, _, r, _⟩
        · rw [r.picked.indexO k hke]; exact hlt
        · rw [r.picked.indexO k hke]; exact hlt
    refine ih s1 s2 hi1 (fun x hx => ho x (by simp [hx])) hlt1 (fun x hx => ht x (by simp [hx])) h2 ?_
    intro pre post sm g1 g2
    exact hw (e :: pre) post sm (by rw [g1]; rfl) (by simp [run, h1, g2])

/-- **C109 on SMP.** Whatever happens on the cores after a tick of core `k` and before its next one, a task that waits all along, and could be given core `k`,
is passed over by core `k` for no less urgent task: the one core `k` runs comes before it in the order of the tasks, and is not idle. -/
theorem smp_waiting_not_passed_over {c : Cfg} (hc : c.WF) {s s0 s2 : Core c.tw} {e : Ev c.tw} {o : Out c.tw} {evs : List (Ev c.tw)} (hr : Reach c s)
    (hk : e.core < c.K) (ht : e.call = .tick) (hs : step c s e = .ok (s0, o)) (ho : OnCores c evs) (hno : ∀ x ∈ evs, x.core = e.core → x.call ≠ .tick)
    (hrun : run c s0 evs = .ok s2) (q : Nat) (hw : ∀ pre post sm, evs = pre ++ post → run c s0 pre = .ok sm → Waiting c sm e.core q) :
    s2.index e.core < q ∧ s2.index e.core < c.N ∧ (s2.task (s2.index e.core)).prio ≤ (s2.task q).prio := by
  have hi := reach_inv hc hr
  obtain ⟨_, hi0, _, hcase⟩ := step_cases hc hi hk hs
  rcases hcase with ⟨_, r⟩ | ⟨h, _⟩
  rotate_left
  · exact absurd ht h
  have hw0 := hw [] evs s0 rfl rfl
  obtain ⟨hwm, hne⟩ := r.picked.waiting hw0
  have hav := (r.mid.toStatic.avail_iff hwm.1).2 hwm
  have hlt : s0.index e.core < q := by
    rcases Nat.lt_trichotomy q (s0.index e.core) with h1 | h1 | h1
    · exact absurd hav (r.least q h1)
    · exact absurd h1 hne
    · exact h1
  have h2 := served_aux hc e.core q evs s0 s2 hi0 ho hlt hno hrun hw
  have hi2 := inv_run hc evs s0 s2 hi0 ho hrun
  exact ⟨h2, by have := hwm.1; omega, hi2.sorted _ _ (by omega) hwm.1⟩

/-- the hypotheses are met: core 0 ticks and is given pid 0; pid 1, that may only run on core 0, waits while core 1 ticks and its task (pid 2) sleeps -/
example : Reach Demo.cfg Demo.started ∧ ∃ r, step Demo.cfg Demo.started (Demo.ev 0 .tick 1005) = .ok r ∧ r.1.index 0 = 0 ∧ Waiting Demo.cfg r.1 0 1 ∧
    ∃ s1, run Demo.cfg r.1 [Demo.ev 1 .tick 1105] = .ok s1 ∧ Waiting Demo.cfg s1 0 1 ∧
    ∃ s2, run Demo.cfg r.1 [Demo.ev 1 .tick 1105, Demo.ev 1 (.sleep 3) 305] = .ok s2 ∧ Waiting Demo.cfg s2 0 1 ∧ s2.index 0 = 0 := by
  refine ⟨⟨true, Demo.adds, [], _, rfl, fun _ h => (by cases h), rfl⟩, _, rfl, by decide, ?_, _, rfl, ?_, _, rfl, ?_, by decide⟩ <;>
    (unfold Waiting Allowed HasTurn; decide)

end Pico.SMP
