import Verif.Sched.Props4
/-
C109: what the tasks get between two ticks, whatever they do.
-/
namespace Pico.Sched

/-- task `p` had the processor at some moment of the history -/
def Ran (c : Cfg) (s : Core c.tw) (evs : List (Ev c.tw)) (p : Nat) : Prop :=
  ∃ pre post sm, evs = pre ++ post ∧ run c s pre = .ok sm ∧ sm.index = p

/-- no tick, nobody postpones -/
def Quiet {tw : Nat} (evs : List (Ev tw)) : Prop := ∀ e ∈ evs, e.call ≠ .tick ∧ e.call ≠ .postpone

theorem quiet_run {c : Cfg} (hc : c.WF) : ∀ (evs : List (Ev c.tw)) (s s' : Core c.tw), Inv c s → s.postponed = false → Quiet evs → run c s evs = .ok s' →
    s.index + evs.length ≤ s'.index ∧ s'.index ≤ c.N ∧ s'.postponed = false ∧ s'.tick = s.tick ∧ s'.sub = s.sub ∧ ∀ q, SameStatic (s.task q) (s'.task q) := by
  intro evs
  induction evs with
  | nil => intro s s' hi hp _ h; simp [run] at h; subst h; exact ⟨by simp, hi.idx, hp, rfl, rfl, fun q => (SameTask.refl _).toSameStatic⟩
  | cons e es ih =>
    intro s s' hi hp hq h
    obtain ⟨s1, o, h1, h2⟩ := run_cons h
    obtain ⟨_, hi1, _, hcase⟩ := step_cases hc hi h1
    have he := hq e (by simp)
    rcases hcase with ⟨h3, _⟩ | ⟨_, hu, r, _⟩
    · exact absurd h3 he.1
    have hgo := r.goes
    have hcp : callerPost s e.call = false := by
      unfold callerPost; split
      · rename_i h; exact absurd h he.2
      · exact hp
    rw [hcp] at hgo
    have key : s.index < s1.index ∧ s1.postponed = false := by
      generalize s1.index = j at hgo ⊢
      generalize s1.postponed = fl at hgo ⊢
      cases hgo with
      | next g1 g2 g3 g4 g5 => exact ⟨g1, rfl⟩
      | wrap g1 g2 g3 g4 g5 => cases g1
    obtain ⟨k1, k2, k3, k4, k5, k6⟩ := ih s1 s' hi1 key.2 (fun x hx => hq x (by simp [hx])) h2
    refine ⟨by simp only [List.length_cons]; omega, k2, k3, k4.trans r.tick, k5.trans r.sub, fun q => ?_⟩
    have a := k6 q
    have b := r.static q
    exact ⟨a.prio.trans b.prio, a.subPrio.trans b.subPrio, a.bottom.trans b.bottom, a.top.trans b.top, a.count.trans b.count⟩

/-- **C109.** Between two ticks, as long as nobody postpones, the processor goes from each task to a strictly less urgent one: no task has it twice, and there are
at most CONFIG_TASK_COUNT changes, the last one possibly to idle. -/
theorem tick_period_descends {c : Cfg} (hc : c.WF) {s s0 sa sb : Core c.tw} {e : Ev c.tw} {o : Out c.tw} {pre evs : List (Ev c.tw)} (hr : Reach c s)
    (ht : e.call = .tick) (hs : step c s e = .ok (s0, o)) (hq1 : Quiet pre) (hq2 : Quiet evs) (h1 : run c s0 pre = .ok sa) (h2 : run c sa evs = .ok sb)
    (hne : evs ≠ []) :
    sa.index ≠ sb.index ∧ sa.index < c.N ∧ (sb.index < c.N → (sa.task sa.index).prio < (sb.task sb.index).prio) ∧ pre.length + evs.length ≤ c.N := by
  have hi := reach_inv hc hr
  obtain ⟨_, hi0, _, hcase⟩ := step_cases hc hi hs
  rcases hcase with ⟨_, r⟩ | ⟨h, _⟩
  · obtain ⟨a1, a2, a3, a4, a5, a6⟩ := quiet_run hc pre s0 sa hi0 r.postponed hq1 h1
    have hia := inv_run hc pre s0 sa hi0 h1
    have hib := inv_run hc evs sa sb hia h2
    obtain ⟨b1, b2, b3, b4, b5, b6⟩ := quiet_run hc evs sa sb hia a3 hq2 h2
    have hl : 0 < evs.length := List.length_pos_iff.2 hne
    refine ⟨by omega, by omega, fun hb => ?_, by omega⟩
    have hle := hib.sorted sa.index sb.index (by omega) hb
    rw [← (b6 sa.index).prio]
    rcases Nat.lt_or_ge (sb.task sa.index).prio (sb.task sb.index).prio with h | h
    · exact h
    · exfalso
      have hpe : (sb.task sa.index).prio = (sb.task sb.index).prio := by omega
      have va := hia.av.2
      have vb := hib.av.2
      rw [← b4, ← b5, ← (b6 sa.index).prio, ← (b6 sa.index).subPrio] at va
      rw [← hpe] at vb
      have hsub : (sb.task sa.index).subPrio = (sb.task sb.index).subPrio := va.symm.trans vb
      have hp : (sb.task sb.index).prio < c.N := hib.userPrio _ hb (by rw [hib.av.1]; simp)
      have ea := (hib.subEq sa.index (by omega) (by omega)).2
      have eb := (hib.subEq sb.index hb hp).2
      have := turn_inj (c := c) (s := sb) hpe (ea.symm.trans (hsub.trans eb))
      omega
  · exact absurd ht h

theorem served_aux {c : Cfg} (hc : c.WF) (p : Nat) (hp : p < c.N) : ∀ (evs : List (Ev c.tw)) (s s2 : Core c.tw), Inv c s → Avail c s p → s.index < p →
    ticks evs = 0 → run c s evs = .ok s2 → Ran c s evs p ∨ (s2.index < p ∧ Avail c s2 p) := by
  intro evs
  induction evs with
  | nil => intro s s2 hi hav hlt _ h; simp [run] at h; subst h; exact .inr ⟨hlt, hav⟩
  | cons e es ih =>
    intro s s2 hi hav hlt ht h
    obtain ⟨s1, o, h1, h2⟩ := run_cons h
    obtain ⟨_, hi1, _, hcase⟩ := step_cases hc hi h1
    have htc : e.call ≠ .tick ∧ ticks es = 0 := by
      unfold ticks at ht ⊢
      rw [List.countP_eq_zero] at ht ⊢
      exact ⟨by simpa using ht e (by simp), fun a ha => ht a (by simp [ha])⟩
    rcases hcase with ⟨h3, _⟩ | ⟨_, hu, r, _⟩
    · exact absurd h3 htc.1
    have hav1 : Avail c s1 p := by
      unfold Avail AvailT at hav ⊢
      rw [r.sub, r.tick, (r.other p (by omega)).2, (r.static p).prio, (r.static p).subPrio]; exact hav
    have hgo := r.goes
    have hle : s1.index ≤ p := by
      generalize s1.index = j at hgo ⊢
      generalize s1.postponed = fl at hgo ⊢
      cases hgo with
      | next g1 g2 g3 g4 g5 =>
        rcases Nat.lt_or_ge p j with h4 | h4
        · exact absurd hav1 (g4 p hlt h4)
        · exact h4
      | wrap g1 g2 g3 g4 g5 => exact absurd hav1 (g2 p hlt hp)
    rcases Nat.lt_or_eq_of_le hle with h4 | h4
    · rcases ih s1 s2 hi1 hav1 h4 htc.2 h2 with ⟨pre, post, sm, g1, g2, g3⟩ | g
      · left
        exact ⟨e :: pre, post, sm, by rw [g1]; rfl, by simp [run, h1, g2], g3⟩
      · exact .inr g
    · left; exact ⟨[e], es, s1, rfl, by simp [run, h1], h4⟩

/-- **C109.** A task that is eligible at a tick has the processor before the next tick, unless a more urgent task has it at the end; in that case it is still
ready. Whatever the calls of the tasks, picoRTOS_postpone included. -/
theorem eligible_is_served {c : Cfg} (hc : c.WF) {s s0 s2 : Core c.tw} {e : Ev c.tw} {o : Out c.tw} {evs : List (Ev c.tw)} (hr : Reach c s)
    (ht : e.call = .tick) (hs : step c s e = .ok (s0, o)) (hrun : run c s0 evs = .ok s2) (hno : ticks evs = 0) (p : Nat) (hp : Eligible c s0 p) :
    Ran c s0 evs p ∨ ((s2.task s2.index).prio < (s2.task p).prio ∧ Eligible c s2 p) := by
  have hi := reach_inv hc hr
  obtain ⟨_, hi0, _, hcase⟩ := step_cases hc hi hs
  rcases hcase with ⟨_, r⟩ | ⟨h, _⟩
  · obtain ⟨hpN, hav⟩ := (hi0.eligible_iff p).1 hp
    have hle : s0.index ≤ p := by
      rcases Nat.lt_or_ge p s0.index with h | h
      · exact absurd hav (r.least p h)
      · exact h
    rcases Nat.lt_or_eq_of_le hle with hlt | heq
    · rcases served_aux hc p hpN evs s0 s2 hi0 hav hlt hno hrun with h | ⟨h1, h2⟩
      · exact .inl h
      · right
        have hi2 := inv_run hc evs s0 s2 hi0 hrun
        have hel := (hi2.eligible_iff p).2 ⟨hpN, h2⟩
        refine ⟨?_, hel⟩
        have hle2 := hi2.sorted s2.index p (by omega) hpN
        rcases Nat.lt_or_eq_of_le hle2 with h3 | h3
        · exact h3
        · exfalso
          have va := hi2.av.2
          have vb := h2.2
          rw [← h3] at vb
          have hsub : (s2.task s2.index).subPrio = (s2.task p).subPrio := va.symm.trans vb
          have hpr : (s2.task p).prio < c.N := hi2.userPrio p hpN (by rw [h2.1]; simp)
          have ea := (hi2.subEq s2.index (by omega) (by omega)).2
          have eb := (hi2.subEq p hpN hpr).2
          have := turn_inj (c := c) (s := s2) h3 (ea.symm.trans (hsub.trans eb))
          omega
    · exact .inl ⟨[], evs, s0, rfl, rfl, heq⟩
  · exact absurd ht h

/-- **C109.** Idle, or a less urgent task, has the processor only once every task that was eligible at the last tick and is more urgent has had it since. -/
theorem idle_means_served {c : Cfg} (hc : c.WF) {s s0 s2 : Core c.tw} {e : Ev c.tw} {o : Out c.tw} {evs : List (Ev c.tw)} (hr : Reach c s)
    (ht : e.call = .tick) (hs : step c s e = .ok (s0, o)) (hrun : run c s0 evs = .ok s2) (hno : ticks evs = 0) (p : Nat) (hp : Eligible c s0 p)
    (hidle : s2.index = c.N ∨ (s2.task p).prio ≤ (s2.task s2.index).prio) : Ran c s0 evs p := by
  rcases eligible_is_served hc hr ht hs hrun hno p hp with h | ⟨h1, h2⟩
  · exact h
  · exfalso
    rcases hidle with h | h
    · have hi := reach_inv hc hr
      obtain ⟨_, hi0, _, _⟩ := step_cases hc hi hs
      have hi2 := inv_run hc evs s0 s2 hi0 hrun
      rw [h, hi2.idlePrio] at h1
      have := hi2.userPrio p h2.1 (by rw [h2.2.1]; simp)
      omega
    · omega

-- pid 0, then 1, then idle: both eligible tasks had the processor
example : ∃ s2, Eligible Demo.cfg (Demo.after Demo.h1) 1 ∧
    run Demo.cfg (Demo.after Demo.h1) [Demo.ev (.sleep 2) 205, Demo.ev (.sleep 3) 105] = .ok s2 ∧ s2.index = Demo.cfg.N ∧
    Quiet [Demo.ev (.sleep 2) 205, Demo.ev (.sleep 3) 105] :=
  ⟨_, by unfold Eligible; decide, rfl, by decide, by unfold Quiet; decide⟩
-- pid 0 keeps the processor: pid 1 waits
example : ¬ Ran Demo.cfg (Demo.after Demo.h1) [] 1 := by
  rintro ⟨pre, post, sm, h1, h2, h3⟩
  have : pre = [] := by cases pre <;> simp_all
  subst this
  simp [run] at h2
  subst h2
  revert h3; decide

end Pico.Sched
