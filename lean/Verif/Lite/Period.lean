import Verif.Lite.Props
import Verif.Sched.Spec
/-
C109 for the lite scheduler: what the tasks get between two ticks.  A task's slot is its priority.
-/
namespace Pico.Lite
open Pico.Sched (Cfg Desc Ev Out Call Goes ticks)

/-- the task of priority `p` had the processor at some moment of the history -/
def Ran (c : Cfg) (s : Core c.tw) (evs : List (Ev c.tw)) (p : Nat) : Prop :=
  ∃ pre post sm, evs = pre ++ post ∧ run c s pre = .ok sm ∧ sm.index = p

theorem quiet_run {c : Cfg} (hc : c.WF) : ∀ (evs : List (Ev c.tw)) (s s' : Core c.tw), Inv c s → s.postponed = false →
    (∀ e ∈ evs, e.call ≠ .tick ∧ e.call ≠ .postpone) → run c s evs = .ok s' →
    s.index + evs.length ≤ s'.index ∧ s'.index ≤ c.N ∧ s'.postponed = false := by
  intro evs
  induction evs with
  | nil => intro s s' hi hp _ h; simp [run] at h; subst h; exact ⟨by simp, hi.idx, hp⟩
  | cons e es ih =>
    intro s s' hi hp hq h
    obtain ⟨s1, o, h1, h2⟩ := run_cons h
    obtain ⟨_, hi1, _, hcase⟩ := step_cases hc hi h1
    have he := hq e (by simp)
    rcases hcase with ⟨h3, _⟩ | ⟨_, hu, r, _⟩
    · exact absurd h3 he.1
    have hgo := r.goes
    have hcp : callerPost s e.call = false := by
      unfold callerPost; split
      · rename_i h; exact absurd h he.2
      · exact hp
    rw [hcp] at hgo
    have key : s.index < s1.index ∧ s1.postponed = false := by
      generalize s1.index = j at hgo ⊢
      generalize s1.postponed = fl at hgo ⊢
      cases hgo with
      | next g1 g2 g3 g4 g5 => exact ⟨g1, rfl⟩
      | wrap g1 g2 g3 g4 g5 => cases g1
    obtain ⟨k1, k2, k3⟩ := ih s1 s' hi1 key.2 (fun x hx => hq x (by simp [hx])) h2
    exact ⟨by simp only [List.length_cons]; omega, k2, k3⟩

/-- **C109**, lite: between two ticks, as long as nobody postpones, the processor goes from each task to a less urgent one. -/
theorem lite_tick_period_descends {c : Cfg} (hc : c.WF) {s s0 sa sb : Core c.tw} {e : Ev c.tw} {o : Out c.tw} {pre evs : List (Ev c.tw)} (hr : Reach c s)
    (ht : e.call = .tick) (hs : step c s e = .ok (s0, o)) (hq1 : ∀ e ∈ pre, e.call ≠ .tick ∧ e.call ≠ .postpone)
    (hq2 : ∀ e ∈ evs, e.call ≠ .tick ∧ e.call ≠ .postpone) (h1 : run c s0 pre = .ok sa) (h2 : run c sa evs = .ok sb) (hne : evs ≠ []) :
    sa.index < sb.index ∧ sb.index ≤ c.N ∧ pre.length + evs.length ≤ c.N := by
  have hi := reach_inv hc hr
  obtain ⟨_, hi0, _, hcase⟩ := step_cases hc hi hs
  rcases hcase with ⟨_, r, _⟩ | ⟨h, _⟩
  · obtain ⟨a1, a2, a3⟩ := quiet_run hc pre s0 sa hi0 r.postponed hq1 h1
    obtain ⟨b1, b2, _⟩ := quiet_run hc evs sa sb (inv_run hc pre s0 sa hi0 h1) a3 hq2 h2
    have hl : 0 < evs.length := List.length_pos_iff.2 hne
    exact ⟨by omega, b2, by omega⟩
  · exact absurd ht h

/-- **C109**, lite: a task that is ready at a tick has the processor before the next tick, unless a more urgent task has it at the end, and then it is still
ready; so idle runs only once every task that was ready at the tick has had the processor. -/
theorem lite_ready_is_served {c : Cfg} (hc : c.WF) {s s0 s2 : Core c.tw} {e : Ev c.tw} {o : Out c.tw} {evs : List (Ev c.tw)} (hr : Reach c s)
    (ht : e.call = .tick) (hs : step c s e = .ok (s0, o)) (hrun : run c s0 evs = .ok s2) (hno : ticks evs = 0) (p : Nat) (hpN : p < c.N)
    (hp : (s0.task p).state = .ready) : Ran c s0 evs p ∨ (s2.index < p ∧ (s2.task p).state = .ready) := by
  have aux : ∀ (evs : List (Ev c.tw)) (s s2 : Core c.tw), Inv c s → Ready s p → s.index < p →
      ticks evs = 0 → run c s evs = .ok s2 → Ran c s evs p ∨ (s2.index < p ∧ Ready s2 p) := by
    intro evs
    induction evs with
    | nil => intro s s2 hi hav hlt _ h; simp [run] at h; subst h; exact .inr ⟨hlt, hav⟩
    | cons e es ih =>
      intro s s2 hi hav hlt ht h
      obtain ⟨s1, o, h1, h2⟩ := run_cons h
      obtain ⟨_, hi1, _, hcase⟩ := step_cases hc hi h1
      have htc : e.call ≠ .tick ∧ ticks es = 0 := by
        unfold ticks at ht ⊢
        rw [List.countP_eq_zero] at ht ⊢
        exact ⟨by simpa using ht e (by simp), fun a ha => ht a (by simp [ha])⟩
      rcases hcase with ⟨h3, _⟩ | ⟨_, hu, r, _⟩
      · exact absurd h3 htc.1
      have hav1 : Ready s1 p := by
        unfold Ready at hav ⊢
        rw [r.other p (by omega)]; exact hav
      have hgo := r.goes
      have hle : s1.index ≤ p := by
        generalize s1.index = j at hgo ⊢
        generalize s1.postponed = fl at hgo ⊢
        cases hgo with
        | next g1 g2 g3 g4 g5 =>
          rcases Nat.lt_or_ge p j with h4 | h4
          · exact absurd hav1 (g4 p hlt h4)
          · exact h4
        | wrap g1 g2 g3 g4 g5 => exact absurd hav1 (g2 p hlt hpN)
      rcases Nat.lt_or_eq_of_le hle with h4 | h4
      · rcases ih s1 s2 hi1 hav1 h4 htc.2 h2 with ⟨pre, post, sm, g1, g2, g3⟩ | g
        · left
          exact ⟨e :: pre, post, sm, by rw [g1]; rfl, by simp [run, h1, g2], g3⟩
        · exact .inr g
      · left; exact ⟨[e], es, s1, rfl, by simp [run, h1], h4⟩
  have hi := reach_inv hc hr
  obtain ⟨_, hi0, _, hcase⟩ := step_cases hc hi hs
  rcases hcase with ⟨_, r, _⟩ | ⟨h, _⟩
  · have hle : s0.index ≤ p := by
      rcases Nat.lt_or_ge p s0.index with h | h
      · exact absurd hp (r.least p h)
      · exact h
    rcases Nat.lt_or_eq_of_le hle with hlt | heq
    · exact aux evs s0 s2 hi0 hp hlt hno hrun
    · exact .inl ⟨[], evs, s0, rfl, rfl, heq⟩
  · exact absurd ht h

-- priority 2 is ready while priority 0 runs; it runs when priority 0 sleeps, then idle does
example : (Demo.s1.task 2).state = .ready ∧ Demo.s1.index = 0 ∧
    ∃ s2, run Sched.Demo.cfg Demo.s1 [Sched.Demo.ev (.sleep 2) 205, Sched.Demo.ev (.sleep 3) 105] = .ok s2 ∧ s2.index = Sched.Demo.cfg.N :=
  ⟨by decide, by decide, _, rfl, by decide⟩

end Pico.Lite
