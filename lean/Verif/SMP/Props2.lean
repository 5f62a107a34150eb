import Verif.SMP.Props1

/-! # Properties of the SMP scheduler, part 2: selection, progress, postponing -/

namespace Pico.SMP

open Pico.Sched (Desc Call Out Goes range_split)

/-- two tasks of the same priority have different turns -/
theorem turn_inj {c : Cfg} {s : Core c.tw} {p q : Nat}
    (hpr : (s.task p).prio = (s.task q).prio) (ht : turn c s p = turn c s q) : p = q := by
  have aux : ∀ a b, a < b → (s.task a).prio = (s.task b).prio → turn c s a < turn c s b := by
    intro a b hab hp
    unfold turn
    have h1 := range_split (Nat.le_of_lt hab)
    rw [h1, List.filter_append, List.length_append, hp]
    have h2 : 0 < ((List.range' a (b - a)).filter (fun q => decide ((s.task q).prio = (s.task b).prio))).length := by
      apply List.length_pos_of_mem (a := a)
      simp [hp]; omega
    omega
  rcases Nat.lt_trichotomy p q with h | h | h
  · have := aux p q h hpr; omega
  · exact h
  · have := aux q p h hpr.symm; omega

theorem HasTurn.inj {c : Cfg} {s : Core c.tw} {p q : Nat} (hp : HasTurn c s p) (hq : HasTurn c s q)
    (h : (s.task p).prio = (s.task q).prio) : p = q := by
  have hsh : sharers c s p = sharers c s q := by unfold sharers; rw [h]
  apply turn_inj h
  have hp' : _ = turn c s p := hp
  have hq' : _ = turn c s q := hq
  rw [← hp', ← hq', hsh]

/-- availability in terms of the specification -/
theorem Static.avail_iff {c : Cfg} {s : Core c.tw} (h : Static c s) {k p : Nat} (hp : p < c.N) :
    Avail c s k p ↔ Waiting c s k p := by
  unfold Avail AvailT Waiting HasTurn Allowed
  constructor
  · rintro ⟨h1, h2, h3⟩
    have := h.subEq p hp (h.userPrio p hp (by rw [h2]; simp))
    rw [this.1, this.2] at h3
    exact ⟨hp, h1, h2, h3⟩
  · rintro ⟨_, h1, h2, h3⟩
    have := h.subEq p hp (h.userPrio p hp (by rw [h2]; simp))
    rw [← this.1, ← this.2] at h3
    exact ⟨h1, h2, h3⟩

/-- a waiting task was waiting before the choice -/
theorem Picked.waiting {c : Cfg} {k : Nat} {s s' : Core c.tw} (h : Picked c k s s') {q : Nat} (hw : Waiting c s' k q) :
    Waiting c s k q ∧ q ≠ s'.index k := by
  have hp : ∀ q, (s'.task q).prio = (s.task q).prio := fun q => (h.same q).prio
  obtain ⟨h1, h2, h3, h4⟩ := hw
  have hne : q ≠ s'.index k := by
    intro he; have := h.busy; rw [← he, h3] at this; cases this
  refine ⟨⟨h1, ?_, ?_, ?_⟩, hne⟩
  · unfold Allowed at h2 ⊢; rw [(h.same q).mask] at h2; exact h2
  · rw [← h.stateO q hne]; exact h3
  · unfold HasTurn at h4 ⊢; rw [h.tick, sharers_congr hp, turn_congr hp] at h4; exact h4

theorem Picked.turn {c : Cfg} {k : Nat} {s s' : Core c.tw} (h : Picked c k s s') {q : Nat} : HasTurn c s' q ↔ HasTurn c s q := by
  have hp : ∀ q, (s'.task q).prio = (s.task q).prio := fun q => (h.same q).prio
  unfold HasTurn; rw [h.tick, sharers_congr hp, turn_congr hp]

/-- C29. After a tick of core `k` the task it runs is, among all tasks that wait for a core and could be given core `k`
(allowed, ready, its turn), the most urgent: every task still waiting for core `k` has a larger priority number. The core
runs its idle task only if none is waiting. A user task it runs is allowed there, has its turn, and was free: ready, or
done with the previous tick, or just woken up, or the task the core was running. -/
theorem smp_tick_runs_most_urgent {c : Cfg} (hc : c.WF) {s s' : Core c.tw} {e : Ev c.tw} {o : Out c.tw}
    (hr : Reach c s) (hk : e.core < c.K) (ht : e.call = .tick) (hs : step c s e = .ok (s', o)) :
    (∀ q, Waiting c s' e.core q → (s'.task (s'.index e.core)).prio < (s'.task q).prio ∧ s'.index e.core < c.N) ∧
    (s'.index e.core < c.N ∨ s'.index e.core = c.N + e.core) ∧
    (s'.index e.core < c.N → Allowed s' (s'.index e.core) e.core ∧ HasTurn c s' (s'.index e.core) ∧
      ((s.task (s'.index e.core)).state = .ready ∨ (s.task (s'.index e.core)).state = .done ∨
       s'.index e.core = s.index e.core ∨
       ((s.task (s'.index e.core)).state = .sleep ∧ (s.task (s'.index e.core)).tick = s'.tick))) := by
  have hi := reach_inv hc hr
  obtain ⟨_, hi', _, hcase⟩ := step_cases hc hi hk hs
  rcases hcase with ⟨_, r⟩ | ⟨h, _⟩
  rotate_left
  · exact absurd ht h
  have hjlt : s'.index e.core < c.taskCount := hi'.idx _ hk trivial
  have hprio : ∀ q, (s'.task q).prio = ((tickMid c s e).task q).prio := fun q => (r.picked.same q).prio
  refine ⟨?_, ?_, ?_⟩
  · intro q hq
    obtain ⟨hw, hne⟩ := r.picked.waiting hq
    have hav := (r.mid.toStatic.avail_iff hw.1).2 hw
    have hlt : s'.index e.core < q := by
      rcases Nat.lt_trichotomy q (s'.index e.core) with h1 | h1 | h1
      · exact absurd hav (r.least q h1)
      · exact absurd h1 hne
      · exact h1
    have hjN : s'.index e.core < c.N := by have := hw.1; omega
    refine ⟨?_, hjN⟩
    have hle := hi'.sorted (s'.index e.core) q (by omega) hq.1
    rcases Nat.lt_or_ge (s'.task (s'.index e.core)).prio (s'.task q).prio with h1 | h1
    · exact h1
    · exfalso
      have hwj := (r.mid.toStatic.avail_iff hjN).1 r.picked.av
      exact hne (HasTurn.inj ((r.picked.turn).2 hwj.2.2.2) hq.2.2.2 (by omega)).symm
  · rcases Nat.lt_or_ge (s'.index e.core) c.N with h1 | h1
    · exact .inl h1
    · exact .inr (hi'.toStatic.avail_idle_only hk hjlt h1 (hi'.allowed _ hk trivial))
  · intro hjN
    have hwj := (r.mid.toStatic.avail_iff hjN).1 r.picked.av
    refine ⟨hi'.allowed _ hk trivial, (r.picked.turn).2 hwj.2.2.2, ?_⟩
    by_cases hcur : s'.index e.core = s.index e.core
    · exact .inr (.inr (.inl hcur))
    · have hm := (tickMid_other (e := e) hjlt hcur).2
      have hrdy := r.picked.av.2.1
      rw [hrdy] at hm
      have htk : s'.tick = nextTick s := r.picked.tick
      rw [htk]
      split at hm
      · rename_i h
        rcases h with h | h
        · exact .inr (.inr (.inr h))
        · exact .inr (.inl h)
      · exact .inl hm.symm

-- the tick of core 0 skips pid 0 (running on core 1) and takes pid 1; pids 2 (whose turn it is) still waits
example : Reach Demo.cfg (Demo.after [Demo.ev 1 .tick 1105]) ∧
    ∃ r, step Demo.cfg (Demo.after [Demo.ev 1 .tick 1105]) (Demo.ev 0 .tick 1005) = .ok r ∧ r.1.index 0 = 1 ∧
      Waiting Demo.cfg r.1 0 2 := by
  refine ⟨Demo.reach_after (by decide) (by intro e he; simp at he; subst he; decide), _, rfl, by decide, ?_⟩
  unfold Waiting Allowed HasTurn; decide

/-- C29. When a task gives up core `k` by itself (sleep, sleep_until, kill) while no postponed task is pending, the core goes on
with the waiting task of smallest pid above the caller's, or idles if there is none. -/
theorem smp_voluntary_switch {c : Cfg} (hc : c.WF) {s s' : Core c.tw} {e : Ev c.tw} {o : Out c.tw}
    (hr : Reach c s) (hk : e.core < c.K) (hcall : e.call ≠ .tick ∧ e.call ≠ .postpone) (hpost : s.postponed = false)
    (hs : step c s e = .ok (s', o)) :
    s.index e.core < s'.index e.core ∧
    (s'.index e.core < c.N ∨ s'.index e.core = c.N + e.core) ∧
    (s'.index e.core < c.N → Waiting c s e.core (s'.index e.core)) ∧
    (∀ q, s.index e.core < q → q < s'.index e.core → ¬ Waiting c s' e.core q) := by
  have hi := reach_inv hc hr
  obtain ⟨_, hi', _, hcase⟩ := step_cases hc hi hk hs
  rcases hcase with ⟨h, _⟩ | ⟨hnt, hu, hb, r, _⟩
  · exact absurd h hcall.1
  have hp : callerPost s e.call = false := by
    cases h : e.call with
    | postpone => exact absurd h hcall.2
    | _ => exact hpost
  have hjlt : s'.index e.core < c.taskCount := hi'.idx _ hk trivial
  have hgo := r.goes
  rw [hp] at hgo
  have hsp : ∀ q, ((sysMid c s e).task q).prio = (s.task q).prio := fun q => (sysMid_static hb hnt q).prio
  have hmain : s.index e.core < s'.index e.core ∧
      ∀ q, s.index e.core < q → q < s'.index e.core → ¬ Avail c (sysMid c s e) e.core q := by
    generalize hj : s'.index e.core = j at hgo ⊢
    generalize s'.postponed = b at hgo
    cases hgo with
    | next h1 h2 h3 h4 h5 => exact ⟨h1, h4⟩
    | wrap h1 => cases h1
  refine ⟨hmain.1, ?_, ?_, ?_⟩
  · rcases Nat.lt_or_ge (s'.index e.core) c.N with h1 | h1
    · exact .inl h1
    · exact .inr (hi'.toStatic.avail_idle_only hk hjlt h1 (hi'.allowed _ hk trivial))
  · intro hjN
    have hwj := (r.mid.toStatic.avail_iff hjN).1 r.picked.av
    have hne : s'.index e.core ≠ s.index e.core := by omega
    obtain ⟨h1, h2, h3, h4⟩ := hwj
    unfold Allowed at h2
    rw [sysMid_other hne] at h2 h3
    refine ⟨h1, h2, h3, ?_⟩
    unfold HasTurn at h4 ⊢
    rw [sharers_congr hsp, turn_congr hsp] at h4; exact h4
  · intro q q1 q2 hq
    obtain ⟨hw, hne⟩ := r.picked.waiting hq
    exact hmain.2 q q1 q2 ((r.mid.toStatic.avail_iff hw.1).2 hw)

example : (Demo.after Demo.h1).postponed = false ∧
    ∃ r, step Demo.cfg (Demo.after Demo.h1) (Demo.ev 1 (.sleep 3) 105) = .ok r ∧ r.1.index 1 = 2 :=
  ⟨by decide, _, rfl, by decide⟩

/-! ### progress -/

/-- C30. A tick with a valid stack pointer always completes, on any core. -/
theorem smp_tick_never_stalls {c : Cfg} (hc : c.WF) {s : Core c.tw} {e : Ev c.tw} (hr : Reach c s) (hk : e.core < c.K)
    (ht : e.call = .tick) (hsp : SpOk s e.core e.sp) : ∃ r, step c s e = .ok r := by
  obtain ⟨s', h1, _⟩ := tickFn_spec hc s e (reach_inv hc hr) hk hsp
  have hst : step c s e = tickFn c s e := by unfold step; rw [ht]
  exact ⟨_, hst.trans h1⟩

theorem Inv.user_busy {c : Cfg} {s : Core c.tw} (h : Inv c s) {k : Nat} (hk : k < c.K) (hu : s.index k < c.N) :
    (s.task (s.index k)).state = .busy := by
  rcases h.run k hk trivial with h3 | ⟨h3, _⟩
  · exact h3
  · omega

/-- C30. A syscall made by a user task on any core, with a valid stack pointer (and a positive period for
`picoRTOS_sleep_until`), always completes. -/
theorem smp_syscall_never_stalls {c : Cfg} (hc : c.WF) {s : Core c.tw} {e : Ev c.tw} (hr : Reach c s) (hk : e.core < c.K)
    (hu : s.index e.core < c.N) (ht : e.call ≠ .tick) (hsp : SpOk s e.core e.sp)
    (hper : ∀ ref period, e.call = .sleepUntil ref period → 0 < period.toNat) : ∃ r, step c s e = .ok r := by
  have hi := reach_inv hc hr
  have hb := hi.user_busy hk hu
  obtain ⟨s', h1, _⟩ := syscall_spec hc s e hi hk hsp hu hb ht
  exact ⟨_, (step_syscall e ht hb hper).trans h1⟩

/-- C30. No event on a core is undefined behaviour; after a successful one the core runs a task that is marked busy, is
allowed on that core and whose stack pointer is below the top of its stack. -/
theorem smp_step_never_undefined {c : Cfg} (hc : c.WF) {s : Core c.tw} (e : Ev c.tw) (hr : Reach c s) (hk : e.core < c.K) :
    step c s e ≠ .ub ∧
    ∀ s' o, step c s e = .ok (s', o) → s'.index e.core < c.taskCount ∧ (s'.task (s'.index e.core)).state = .busy ∧
      Allowed s' (s'.index e.core) e.core ∧ o.sp = (s'.task (s'.index e.core)).sp ∧
      o.sp ≠ (s'.task (s'.index e.core)).top := by
  have hi := reach_inv hc hr
  refine ⟨?_, ?_⟩
  · by_cases ht : e.call = .tick
    · have hst : step c s e = tickFn c s e := by unfold step; rw [ht]
      rw [hst]
      by_cases hsp : SpOk s e.core e.sp
      · obtain ⟨s', h1, _⟩ := tickFn_spec hc s e hi hk hsp
        rw [h1]; simp
      · rw [tickFn_badSp s e hsp]; simp
    · have hsys : (s.task (s.index e.core)).state = .busy → syscall c s e ≠ .ub := by
        intro hb
        by_cases hsp : SpOk s e.core e.sp
        · rcases Nat.lt_or_ge (s.index e.core) c.N with hu | hu
          · obtain ⟨s', h1, _⟩ := syscall_spec hc s e hi hk hsp hu hb ht
            rw [h1]; simp
          · rw [syscall_idle hc hi hk hu hb ht]; simp
        · rw [syscall_badSp s e hsp]; simp
      unfold step
      by_cases hb : (s.task (s.index e.core)).state = .busy
      · have h1 := hsys hb
        cases hcall : e.call with
        | tick => exact absurd hcall ht
        | sleepUntil r p =>
          simp only [hb, decide_true, assertFatal_true, Res.ok_bind]
          cases decide (p.toNat > 0)
          · simp
          · simpa using h1
        | sleep _ => simpa [hb] using h1
        | kill => simpa [hb] using h1
        | postpone => simpa [hb] using h1
      · cases hcall : e.call with
        | tick => exact absurd hcall ht
        | sleepUntil r p =>
          simp only [hb, decide_false, assertFatal_false, Res.fatal_bind]
          cases decide (p.toNat > 0) <;> simp
        | sleep _ => simp [hb]
        | kill => simp [hb]
        | postpone => simp [hb]
  · intro s' o h
    obtain ⟨_, hi', ho, hcase⟩ := step_cases hc hi hk h
    have hbusy : (s'.task (s'.index e.core)).state = .busy := by
      rcases hcase with ⟨_, r⟩ | ⟨_, _, _, r, _⟩
      · exact r.picked.busy
      · exact r.picked.busy
    exact ⟨hi'.idx _ hk trivial, hbusy, hi'.allowed _ hk trivial, ho, by rw [ho]; exact hi'.curSp hk⟩

/-- C30. A syscall made by an idle task stalls the system. -/
theorem smp_idle_syscall_stalls {c : Cfg} (hc : c.WF) {s : Core c.tw} {e : Ev c.tw} (hr : Reach c s) (hk : e.core < c.K)
    (hN : c.N ≤ s.index e.core) (ht : e.call ≠ .tick) : step c s e = .fatal := by
  have hi := reach_inv hc hr
  unfold step
  by_cases hb : (s.task (s.index e.core)).state = .busy
  · have h1 := syscall_idle hc hi hk hN hb ht
    cases hcall : e.call with
    | tick => exact absurd hcall ht
    | sleepUntil r p =>
      simp only [hb, decide_true, assertFatal_true, Res.ok_bind, h1]
      cases decide (p.toNat > 0) <;> rfl
    | sleep _ => simp [hb, h1]
    | kill => simp [hb, h1]
    | postpone => simp [hb, h1]
  · cases hcall : e.call with
    | tick => exact absurd hcall ht
    | sleepUntil r p =>
      simp only [hb, decide_false, assertFatal_false, Res.fatal_bind]
      cases decide (p.toNat > 0) <;> rfl
    | sleep _ => simp [hb]
    | kill => simp [hb]
    | postpone => simp [hb]

example : Reach Demo.cfg (Demo.after Demo.h1) ∧ SpOk (Demo.after Demo.h1) 0 205 ∧ SpOk (Demo.after Demo.h1) 1 105 ∧
    (Demo.after Demo.h1).index 0 < Demo.cfg.N :=
  ⟨Demo.reach_h1, by unfold SpOk; decide, by unfold SpOk; decide, by decide⟩

/-! ### C31: postponing -/

theorem mem_run_append {c : Cfg} {e : Ev c.tw} {es : List (Ev c.tw)} {s s1 : Core c.tw} {o : Out c.tw} {k p : Nat}
    (h1 : step c s e = .ok (s1, o))
    (h : ∃ pre post sm, es = pre ++ post ∧ run c s1 pre = .ok sm ∧ sm.index k = p) :
    ∃ pre post sm, e :: es = pre ++ post ∧ run c s pre = .ok sm ∧ sm.index k = p := by
  obtain ⟨pre, post, sm, g1, g2, g3⟩ := h
  exact ⟨e :: pre, post, sm, by rw [g1]; rfl, by simp [run, h1, g2], g3⟩

/-- the postponed task `p` is ahead -/
theorem postponed_ahead {c : Cfg} (hc : c.WF) {k : Nat} (hk : k < c.K) (p : Nat) (hp : p < c.N) :
    ∀ (evs : List (Ev c.tw)) (s s2 : Core c.tw), Inv c s → Avail c s k p →
    (s.index k < p ∨ s.postponed = true ∧ p < s.index k ∧ s.index k < c.N) →
    (∀ e ∈ evs, e.core = k ∧ e.call ≠ .tick) → run c s evs = .ok s2 →
    (∃ pre post sm, evs = pre ++ post ∧ run c s pre = .ok sm ∧ sm.index k = p) ∨ s2.index k < c.N := by
  intro evs
  induction evs with
  | nil =>
    intro s s2 hi hav hJ _ h
    simp [run] at h; subst h
    right; rcases hJ with a | ⟨_, a, b⟩ <;> omega
  | cons e es ih =>
    intro s s2 hi hav hJ ht h
    obtain ⟨s1, o, h1, h2⟩ := run_cons h
    obtain ⟨hcore, htc⟩ := ht e (by simp)
    have hk' : e.core < c.K := by rw [hcore]; exact hk
    obtain ⟨_, hi1, _, hcase⟩ := step_cases hc hi hk' h1
    rcases hcase with ⟨h3, _⟩ | ⟨_, hu, hb, r, _⟩
    · exact absurd h3 htc
    have hgo := r.goes
    have hpk := r.picked
    rw [hcore] at hgo hpk hu
    have hne : p ≠ s.index k := by rcases hJ with a | ⟨_, a, _⟩ <;> omega
    have havM : Avail c (sysMid c s e) k p := by
      unfold Avail at hav ⊢
      rw [sysMid_other (by rw [hcore]; exact hne)]; exact hav
    have hfin : s1.index k = p ∨ (s1.index k < p ∨ s1.postponed = true ∧ p < s1.index k ∧ s1.index k < c.N) := by
      rcases hJ with a | ⟨a, b, d⟩
      · generalize s1.index k = j at hgo ⊢
        generalize s1.postponed = fl at hgo ⊢
        cases hgo with
        | next g1 g2 g3 g4 g5 =>
          rcases Nat.lt_trichotomy j p with h4 | h4 | h4
          · exact .inr (.inl h4)
          · exact .inl h4
          · exact absurd havM (g4 p a h4)
        | wrap g1 g2 g3 g4 g5 => exact absurd havM (g2 p a (by omega))
      · have hcp : callerPost s e.call = true := by
          unfold callerPost; split <;> first | rfl | exact a
        rw [hcp] at hgo
        have hidle := fun j h1 h2 h3 => r.mid.toStatic.avail_idle_only (j := j) hk h1 h2 h3
        generalize s1.index k = j at hgo ⊢
        generalize s1.postponed = fl at hgo ⊢
        cases hgo with
        | next g1 g2 g3 g4 g5 =>
          have hjN : j < c.N := by
            rcases Nat.lt_or_ge j c.N with h4 | h4
            · exact h4
            · have := hidle j (by unfold Cfg.taskCount; omega) h4 g3.1
              have := g5 this; cases this
          exact .inr (.inr ⟨rfl, by omega, hjN⟩)
        | wrap g1 g2 g3 g4 g5 =>
          rcases Nat.lt_trichotomy j p with h4 | h4 | h4
          · exact .inr (.inl h4)
          · exact .inl h4
          · exact absurd havM (g5 p h4)
    rcases hfin with h4 | h4
    · exact .inl ⟨[e], es, s1, rfl, by simp [run, h1], h4⟩
    · have hne1 : p ≠ s1.index k := by rcases h4 with a | ⟨_, a, _⟩ <;> omega
      have hav1 : Avail c s1 k p := by
        unfold Avail AvailT at havM ⊢
        rw [hpk.sub, hpk.tick, hpk.stateO p hne1, (hpk.same p).prio, (hpk.same p).subPrio, (hpk.same p).mask]; exact havM
      rcases ih s1 s2 hi1 hav1 h4 (fun x hx => ht x (by simp [hx])) h2 with g | g
      · exact .inl (mem_run_append h1 g)
      · exact .inr g

/-- C31, partial: if the caller of `picoRTOS_postpone` still has its turn, then as long as there is no tick and no other
core makes a syscall, its core does not idle before the caller has run again. Missing: other cores making syscalls; the
statement is then false, see `smp_postpone_lost`. -/
theorem smp_postponed_runs_again_partial {c : Cfg} (hc : c.WF) {s s1 s2 : Core c.tw} {e : Ev c.tw} {o : Out c.tw}
    {evs : List (Ev c.tw)} (hr : Reach c s) (hk : e.core < c.K) (hcall : e.call = .postpone)
    (hturn : HasTurn c s (s.index e.core)) (hs : step c s e = .ok (s1, o))
    (hrun : run c s1 evs = .ok s2) (hev : ∀ x ∈ evs, x.core = e.core ∧ x.call ≠ .tick) (hend : c.N ≤ s2.index e.core) :
    ∃ pre post sm, evs = pre ++ post ∧ run c s1 pre = .ok sm ∧ RunsOn sm (s.index e.core) e.core := by
  have hi := reach_inv hc hr
  obtain ⟨_, hi1, _, hcase⟩ := step_cases hc hi hk hs
  have hnt : e.call ≠ .tick := by rw [hcall]; simp
  rcases hcase with ⟨ht, _⟩ | ⟨_, hu, hb, r, _⟩
  · exact absurd ht hnt
  have hsp : ∀ q, ((sysMid c s e).task q).prio = (s.task q).prio := fun q => (sysMid_static hb hnt q).prio
  have hcur := sysMid_cur hb hnt
  have havM : Avail c (sysMid c s e) e.core (s.index e.core) := by
    rw [r.mid.toStatic.avail_iff hu]
    refine ⟨hu, ?_, ?_, ?_⟩
    · unfold Allowed; rw [hcur.1.mask]; exact hi.allowed _ hk trivial
    · rw [hcur.2.2.2, hcall]; rfl
    · unfold HasTurn; rw [sharers_congr hsp, turn_congr hsp]; exact hturn
  have hgo := r.goes
  have hcp : callerPost s e.call = true := by rw [hcall]; rfl
  rw [hcp] at hgo
  have hidle := fun j h1 h2 h3 => r.mid.toStatic.avail_idle_only (j := j) hk h1 h2 h3
  have hfin : s1.index e.core = s.index e.core ∨ (s1.index e.core < s.index e.core ∨
      s1.postponed = true ∧ s.index e.core < s1.index e.core ∧ s1.index e.core < c.N) := by
    generalize s1.index e.core = j at hgo ⊢
    generalize s1.postponed = fl at hgo ⊢
    cases hgo with
    | next g1 g2 g3 g4 g5 =>
      have hjN : j < c.N := by
        rcases Nat.lt_or_ge j c.N with h4 | h4
        · exact h4
        · have := hidle j (by unfold Cfg.taskCount; omega) h4 g3.1
          have := g5 this; cases this
      exact .inr (.inr ⟨rfl, g1, hjN⟩)
    | wrap g1 g2 g3 g4 g5 =>
      rcases Nat.lt_trichotomy j (s.index e.core) with h4 | h4 | h4
      · exact .inr (.inl h4)
      · exact .inl h4
      · exact absurd havM (g5 _ h4)
  rcases hfin with h4 | h4
  · exact ⟨[], evs, s1, rfl, rfl, h4⟩
  · have hne1 : s.index e.core ≠ s1.index e.core := by rcases h4 with a | ⟨_, a, _⟩ <;> omega
    have hpk := r.picked
    have hav1 : Avail c s1 e.core (s.index e.core) := by
      unfold Avail AvailT at havM ⊢
      rw [hpk.sub, hpk.tick, hpk.stateO _ hne1, (hpk.same _).prio, (hpk.same _).subPrio, (hpk.same _).mask]; exact havM
    rcases postponed_ahead hc hk (s.index e.core) hu evs s1 s2 hi1 hav1 h4 hev hrun with g | g
    · exact g
    · omega

-- pid 1 postpones on core 0, pid 2 runs there and sleeps, pid 1 runs again
example : ∃ r, step Demo.cfg (Demo.after Demo.h1) (Demo.ev 0 .postpone 205) = .ok r ∧ r.1.index 0 = 2 ∧
    HasTurn Demo.cfg (Demo.after Demo.h1) 1 ∧
    ∃ s2, run Demo.cfg r.1 [Demo.ev 0 (.sleep 3) 305] = .ok s2 ∧ s2.index 0 = 1 ∧
    ∃ s3, run Demo.cfg r.1 [Demo.ev 0 (.sleep 3) 305, Demo.ev 0 (.sleep 3) 205] = .ok s3 ∧ s3.index 0 = 4 :=
  ⟨_, rfl, by decide, by unfold HasTurn; decide, _, rfl, by decide, _, rfl, by decide⟩

/-- C31 is false: pid 1 postpones on core 0, which goes on with pid 2; the task of core 1 sleeps, core 1 finds nothing to
run and consumes the postponed flag; when pid 2 sleeps, core 0 idles although pid 1 is ready, may run on core 0,
has its turn, did not run again and there was no tick. -/
theorem smp_postpone_lost : ∃ r s2, step Demo.cfg (Demo.after Demo.h1) (Demo.ev 0 .postpone 205) = .ok r ∧
    (Demo.after Demo.h1).index 0 = 1 ∧ r.1.index 0 = 2 ∧
    run Demo.cfg r.1 [Demo.ev 1 (.sleep 3) 105, Demo.ev 0 (.sleep 3) 305] = .ok s2 ∧
    s2.index 0 = Demo.cfg.N ∧ Waiting Demo.cfg s2 0 1 := by
  refine ⟨_, _, rfl, by decide, by decide, rfl, by decide, ?_⟩
  unfold Waiting Allowed HasTurn; decide

end Pico.SMP
