import Verif.Lite.Lemmas
import Verif.Sched.Props1

/-! # Properties of the lite scheduler (scheduler/picoRTOS-lite.c) -/

namespace Pico.Lite

open Pico.Sched (Cfg Desc TState Call Ev Out Goes ticks)

/-- A concrete lite system: three slots, 4-bit tick, tasks of priorities 2 and 0. -/
def Demo.adds : List (Desc × Nat) := [(Sched.Demo.desc 1, 2), (Sched.Demo.desc 2, 0)]

/-- The demo system after the start (or `init` if it failed). -/
def Demo.started : Core Sched.Demo.cfg.tw :=
  match boot Sched.Demo.cfg Demo.adds with
  | .ok s => s
  | _ => init Sched.Demo.cfg

theorem Demo.reach : Reach Sched.Demo.cfg Demo.started := ⟨Demo.adds, [], _, rfl, rfl⟩

/-- The demo system after the first tick: the task of priority 0 runs. -/
def Demo.s1 : Core Sched.Demo.cfg.tw :=
  match step Sched.Demo.cfg Demo.started (Sched.Demo.ev .tick 5) with
  | .ok r => r.1
  | _ => Demo.started

theorem Demo.reach1 : Reach Sched.Demo.cfg Demo.s1 :=
  ⟨Demo.adds, [Sched.Demo.ev .tick 5], _, rfl, rfl⟩

/-- C33. After every tick the running task is ready and every task of smaller priority number is not; idle (slot `N`)
runs exactly when no task is ready. -/
theorem lite_tick_runs_most_urgent {c : Cfg} (hc : c.WF) {s s' : Core c.tw} {e : Ev c.tw} {o : Out c.tw}
    (hr : Reach c s) (ht : e.call = .tick) (hs : step c s e = .ok (s', o)) :
    s'.index ≤ c.N ∧ (s'.task s'.index).state = .ready ∧
    (∀ q, q < s'.index → (s'.task q).state ≠ .ready) ∧
    (s'.index = c.N ↔ ∀ q, q < c.N → (s'.task q).state ≠ .ready) ∧ o.sp = (s'.task s'.index).sp := by
  obtain ⟨_, hi', ho, hcase⟩ := step_cases hc (reach_inv hc hr) hs
  rcases hcase with ⟨_, r, _⟩ | ⟨h, _⟩
  rotate_left
  · exact absurd ht h
  refine ⟨r.idx, r.av, r.least, ⟨fun h q hq => r.least q (by omega), fun h => ?_⟩, ho⟩
  rcases Nat.lt_or_ge s'.index c.N with h1 | h1
  · exact absurd r.av (h _ h1)
  · have := r.idx; omega

/-- C33. A tick with the stack pointer in bounds never stalls, nor does a legal syscall of a user task; the
only other outcome of an event is the deliberate stall. -/
theorem lite_never_stalls {c : Cfg} (hc : c.WF) {s : Core c.tw} (e : Ev c.tw) (hr : Reach c s) :
    ((∃ r, step c s e = .ok r) ↔
      SpOk s e.sp ∧ (e.call = .tick ∨ (s.index < c.N ∧ ∀ ref p, e.call = .sleepUntil ref p → 0 < p.toNat))) ∧
    step c s e ≠ .ub := by
  rcases step_total hc (reach_inv hc hr) e with ⟨h1, h2, s', o, h3, _⟩ | ⟨h1, h2⟩
  · refine ⟨⟨fun _ => ⟨h1, h2⟩, fun _ => ⟨_, h3⟩⟩, by rw [h3]; simp⟩
  · refine ⟨⟨?_, fun h => absurd h h1⟩, by rw [h2]; simp⟩
    rintro ⟨r, h⟩; rw [h2] at h; cases h

/-- C33. A voluntary switch (sleep, kill, postpone) selects the next ready task of larger priority number; only if that
is idle and someone postponed since the last tick does it start over from the most urgent one. -/
theorem lite_voluntary_switch {c : Cfg} (hc : c.WF) {s s' : Core c.tw} {e : Ev c.tw} {o : Out c.tw}
    (hr : Reach c s) (hnt : e.call ≠ .tick) (hs : step c s e = .ok (s', o)) :
    (s'.task s'.index).state = .ready ∧
    ((s.index < s'.index ∧ ∀ q, s.index < q → q < s'.index → (s'.task q).state ≠ .ready) ∨
     ((s.postponed = true ∨ e.call = .postpone) ∧ s'.postponed = false ∧
      (∀ q, s.index < q → q < c.N → (s'.task q).state ≠ .ready) ∧ ∀ q, q < s'.index → (s'.task q).state ≠ .ready)) := by
  obtain ⟨_, hi', ho, hcase⟩ := step_cases hc (reach_inv hc hr) hs
  rcases hcase with ⟨h, _⟩ | ⟨_, hu, r, _⟩
  · exact absurd h hnt
  have hgo := r.goes
  refine ⟨hi'.av, ?_⟩
  generalize s'.index = j at hgo ⊢
  generalize s'.postponed = b at hgo ⊢
  generalize hb : callerPost s e.call = post at hgo
  cases hgo with
  | next h1 h2 h3 h4 h5 => exact .inl ⟨h1, h4⟩
  | wrap h1 h2 h3 h4 h5 =>
    refine .inr ⟨?_, rfl, h2, h5⟩
    subst h1
    unfold callerPost at hb
    split at hb
    · right; assumption
    · exact .inl hb

-- the demo: the first tick runs priority 0
example : Demo.s1.index = 0 := by decide

theorem lite_sleeping_run {c : Cfg} (hc : c.WF) {p : Nat} (hp : p ≤ c.N) : ∀ (evs : List (Ev c.tw)) (s s' : Core c.tw) (k : Nat),
    Inv c s → (s.task p).state = .sleep → ((s.task p).tick - s.tick).toNat = k → 0 < k →
    run c s evs = .ok s' → ticks evs < k →
    (s'.task p).state = .sleep ∧ ((s'.task p).tick - s'.tick).toNat = k - ticks evs := by
  intro evs
  induction evs with
  | nil =>
    intro s s' k hi hst hk hpos hr _
    simp [run] at hr; subst hr
    exact ⟨hst, by simpa [ticks] using hk⟩
  | cons e es ih =>
    intro s s' k hi hst hk hpos hr ht
    obtain ⟨s1, o, h1, h2⟩ := run_cons hr
    obtain ⟨_, hi1, _, hcase⟩ := step_cases hc hi h1
    have hne : p ≠ s.index := by
      intro h; subst h; have := hi.av; unfold Ready at this; rw [hst] at this; cases this
    rcases hcase with ⟨htk, r, _⟩ | ⟨htk, _, r, _⟩
    · have htks : ticks (e :: es) = ticks es + 1 := by
        unfold ticks; rw [List.countP_cons_of_pos]; simpa using htk
      obtain ⟨m, rfl⟩ : ∃ m, k = m + 1 := ⟨k - 1, by omega⟩
      have hm : m ≠ 0 := by omega
      have hst1 : (s1.task p).state = .sleep := by
        rw [r.state p hp, if_neg]
        · exact hst
        · rintro ⟨_, h3⟩; exact hm ((Sched.countdown_wake hk).1 h3)
      have hk1 : ((s1.task p).tick - s1.tick).toNat = m := by
        rw [(r.other p hne).2.1, r.tick]; exact Sched.countdown_step hk
      have hh := ih s1 s' m hi1 hst1 hk1 (by omega) h2 (by omega)
      exact ⟨hh.1, by rw [hh.2, htks]; omega⟩
    · have htks : ticks (e :: es) = ticks es := by
        unfold ticks; rw [List.countP_cons_of_neg]; simpa using htk
      have ho := r.other p hne
      have hh := ih s1 s' k hi1 (by rw [ho]; exact hst) (by rw [ho, r.tick]; exact hk) hpos h2 (by omega)
      exact ⟨hh.1, by rw [hh.2, htks]⟩

/-- C34. `picoRTOS_sleep(d)`, `d ≥ 1`: the caller does not run before the `d`-th tick, and is ready at the `d`-th tick, where it
runs unless a more urgent task does. -/
theorem lite_sleep_lasts_exactly {c : Cfg} (hc : c.WF) {s s1 s2 : Core c.tw} {e : Ev c.tw} {o : Out c.tw} {d : BitVec c.tw}
    {evs : List (Ev c.tw)} (hr : Reach c s) (hcall : e.call = .sleep d) (hd : 0 < d.toNat)
    (hs : step c s e = .ok (s1, o)) (hrun : run c s1 evs = .ok s2) :
    (ticks evs < d.toNat → s2.index ≠ s.index ∧ (s2.task s.index).state = .sleep) ∧
    (∀ pre t, evs = pre ++ [t] → t.call = .tick → ticks evs = d.toNat →
      (s2.task s.index).state = .ready ∧ s2.index ≤ s.index) := by
  have hi := reach_inv hc hr
  obtain ⟨_, hi1, _, hcase⟩ := step_cases hc hi hs
  have hnt : e.call ≠ .tick := by rw [hcall]; simp
  rcases hcase with ⟨h, _⟩ | ⟨_, hu, r, _⟩
  · exact absurd h hnt
  have hst : (s1.task s.index).state = .sleep := by
    rw [r.cur]; unfold callerTask syscallSleep; rw [hcall]; simp [hd]
  have hk : ((s1.task s.index).tick - s1.tick).toNat = d.toNat := by
    rw [r.cur, r.tick]; unfold callerTask syscallSleep; rw [hcall]; simp only [gt_iff_lt, if_pos hd]
    rw [BitVec.add_comm, BitVec.add_sub_cancel]
  have hi2 := inv_run hc evs s1 s2 hi1 hrun
  refine ⟨?_, ?_⟩
  · intro ht
    have := (lite_sleeping_run hc (Nat.le_of_lt hu) evs s1 s2 d.toNat hi1 hst hk hd hrun ht).1
    refine ⟨?_, this⟩
    intro h; have h2 := hi2.av; unfold Ready at h2; rw [h, this] at h2; cases h2
  · intro pre t hev ht hticks
    subst hev
    have hone : ticks [t] = 1 := by simp [ticks, ht]
    rw [Sched.ticks_append, hone] at hticks
    obtain ⟨sa, ha, hb⟩ := (run_append _ _ _ _).1 hrun
    obtain ⟨a1, a2⟩ := lite_sleeping_run hc (Nat.le_of_lt hu) pre s1 sa d.toNat hi1 hst hk hd ha (by omega)
    have hia := inv_run hc pre s1 sa hi1 ha
    obtain ⟨sb, ob, hb1, hb2⟩ := run_cons hb
    simp [run] at hb2; subst hb2
    obtain ⟨_, hib, _, hcase⟩ := step_cases hc hia hb1
    rcases hcase with ⟨_, r2, _⟩ | ⟨h, _⟩
    rotate_left
    · exact absurd ht h
    have h5 : ((sa.task s.index).tick - sa.tick).toNat = 0 + 1 := by omega
    have h6 := (Sched.countdown_wake h5).2 rfl
    have h7 : (sb.task s.index).state = .ready := by
      rw [r2.state _ (Nat.le_of_lt hu), if_pos ⟨a1, h6⟩]
    refine ⟨h7, ?_⟩
    rcases Nat.lt_or_ge s.index sb.index with h8 | h8
    · exact absurd h7 (r2.least _ h8)
    · exact h8

-- priority 0 sleeps 3 ticks; it is back at the third
example : ∃ r, step Sched.Demo.cfg Demo.s1 (Sched.Demo.ev (.sleep 3) 205) = .ok r ∧
    ∃ s2, run Sched.Demo.cfg r.1 [Sched.Demo.ev .tick 105, Sched.Demo.ev .tick 105, Sched.Demo.ev .tick 105] = .ok s2 ∧ s2.index = 0 :=
  ⟨_, rfl, _, rfl, by decide⟩

/-- C34. A killed task never runs again. -/
theorem lite_killed_never_runs {c : Cfg} (hc : c.WF) {s s1 s2 : Core c.tw} {e : Ev c.tw} {o : Out c.tw} {evs : List (Ev c.tw)}
    (hr : Reach c s) (hcall : e.call = .kill) (hs : step c s e = .ok (s1, o)) (hrun : run c s1 evs = .ok s2) :
    s2.index ≠ s.index := by
  have hi := reach_inv hc hr
  obtain ⟨_, hi1, _, hcase⟩ := step_cases hc hi hs
  have hnt : e.call ≠ .tick := by rw [hcall]; simp
  rcases hcase with ⟨h, _⟩ | ⟨_, hu, r, _⟩
  · exact absurd h hnt
  have hst : (s1.task s.index).state = .empty := by rw [r.cur]; unfold callerTask; rw [hcall]; rfl
  have key : ∀ (evs : List (Ev c.tw)) (a b : Core c.tw) (p : Nat), p ≤ c.N → Inv c a → (a.task p).state = .empty →
      run c a evs = .ok b → b.index ≠ p := by
    intro evs
    induction evs with
    | nil =>
      intro a b p _ hia hpe hab
      simp [run] at hab; subst hab
      intro h; have := hia.av; unfold Ready at this; rw [h, hpe] at this; cases this
    | cons x xs ih =>
      intro a b p hpN hia hpe hab
      obtain ⟨a1, o1, k1, k2⟩ := run_cons hab
      obtain ⟨_, hia1, _, hc1⟩ := step_cases hc hia k1
      have hne : p ≠ a.index := by
        intro h; have := hia.av; unfold Ready at this; rw [← h, hpe] at this; cases this
      rcases hc1 with ⟨_, r1, _⟩ | ⟨_, _, r1, _⟩
      · exact ih a1 b p hpN hia1 (by rw [r1.state p hpN, hpe]; simp) k2
      · exact ih a1 b p hpN hia1 (by rw [r1.other p hne]; exact hpe) k2
  exact key evs s1 s2 s.index (Nat.le_of_lt hu) hi1 hst hrun

/-- priority `p` has not been given to any task -/
def Unused (c : Cfg) (adds : List (Desc × Nat)) (p : Nat) : Prop := p < c.N ∧ ∀ a ∈ adds, a.2 ≠ p

theorem empty_iff_unused {c : Cfg} {adds : List (Desc × Nat)} {s : Core c.tw} (h : addAll c (init c) adds = .ok s) {p : Nat}
    (hp : p < c.N) : (s.task p).state = .empty ↔ Unused c adds p := by
  obtain ⟨h1, h2, rfl⟩ := (addAll_iff adds _ _).1 h
  by_cases hu : ∀ a ∈ adds, a.2 ≠ p
  · have : (putAll c (init c).task adds p).state = .empty := by
      rw [putAll_other c adds _ p hu, init_empty hp]; rfl
    exact ⟨fun _ => ⟨hp, hu⟩, fun _ => this⟩
  · have : ∃ a ∈ adds, a.2 = p := by
      apply Classical.byContradiction
      intro hn; apply hu; intro a ha he; exact hn ⟨a, ha, he⟩
    obtain ⟨a, ha, rfl⟩ := this
    constructor
    · intro he
      rw [show ({ init c with task := putAll c (init c).task adds } : Core c.tw).task a.2 = putAll c (init c).task adds a.2 from rfl,
        putAll_mem c adds _ a h1 ha] at he
      cases he
    · intro hn; exact absurd rfl (hn.2 a ha)

theorem nextLoop_spec {tw : Nat} (s : Core tw) : ∀ (n p : Nat),
    (∃ q, nextLoop s n p = some q ∧ p ≤ q ∧ q < p + n ∧ (s.task q).state = .empty ∧ ∀ r, p ≤ r → r < q → (s.task r).state ≠ .empty) ∨
    (nextLoop s n p = none ∧ ∀ r, p ≤ r → r < p + n → (s.task r).state ≠ .empty) := by
  intro n
  induction n with
  | zero => intro p; right; exact ⟨rfl, fun r h1 h2 => by omega⟩
  | succ n ih =>
    intro p
    rw [nextLoop]
    by_cases h : (s.task p).state = .empty
    · left; exact ⟨p, by rw [if_pos h], Nat.le_refl _, by omega, h, fun r h1 h2 => by omega⟩
    · rw [if_neg h]
      rcases ih (p + 1) with ⟨q, h1, h2, h3, h4, h5⟩ | ⟨h1, h2⟩
      · left
        refine ⟨q, h1, by omega, by omega, h4, ?_⟩
        intro r hr1 hr2
        by_cases hrp : r = p
        · subst hrp; exact h
        · exact h5 r (by omega) hr2
      · right
        refine ⟨h1, ?_⟩
        intro r hr1 hr2
        by_cases hrp : r = p
        · subst hrp; exact h
        · exact h2 r (by omega) (by omega)

/-- C35. `picoRTOS_get_next_available_priority` returns the smallest unused priority, and stalls iff there is none. -/
theorem lite_get_next_prio {c : Cfg} {adds : List (Desc × Nat)} {s : Core c.tw} (h : addAll c (init c) adds = .ok s) :
    (∃ p, getNextPrio c s = .ok p ∧ Unused c adds p ∧ ∀ q, q < p → ¬ Unused c adds q) ∨
    (getNextPrio c s = .fatal ∧ ∀ q, ¬ Unused c adds q) := by
  unfold getNextPrio
  rcases nextLoop_spec s c.N 0 with ⟨q, h1, _, h3, h4, h5⟩ | ⟨h1, h2⟩
  · left
    rw [h1]
    exact ⟨q, rfl, (empty_iff_unused h (by omega)).1 h4, fun r hr hu => h5 r (by omega) hr ((empty_iff_unused h (by omega)).2 hu)⟩
  · right
    rw [h1]
    exact ⟨rfl, fun q hu => h2 q (by omega) (by have := hu.1; omega) ((empty_iff_unused h hu.1).2 hu)⟩

theorem lastLoop_spec {tw : Nat} (s : Core tw) : ∀ (p : Nat),
    (∃ q, lastLoop s p = some q ∧ 0 < q ∧ q ≤ p ∧ (s.task q).state = .empty ∧ ∀ r, q < r → r ≤ p → (s.task r).state ≠ .empty) ∨
    (lastLoop s p = none ∧ ∀ r, 0 < r → r ≤ p → (s.task r).state ≠ .empty) := by
  intro p
  induction p with
  | zero => right; exact ⟨rfl, fun r h1 h2 => by omega⟩
  | succ p ih =>
    rw [lastLoop]
    by_cases h : (s.task (p + 1)).state = .empty
    · left; exact ⟨p + 1, by rw [if_pos h], by omega, Nat.le_refl _, h, fun r h1 h2 => by omega⟩
    · rw [if_neg h]
      rcases ih with ⟨q, h1, h2, h3, h4, h5⟩ | ⟨h1, h2⟩
      · left
        refine ⟨q, h1, h2, by omega, h4, ?_⟩
        intro r hr1 hr2
        by_cases hrp : r = p + 1
        · subst hrp; exact h
        · exact h5 r hr1 (by omega)
      · right
        refine ⟨h1, ?_⟩
        intro r hr1 hr2
        by_cases hrp : r = p + 1
        · subst hrp; exact h
        · exact h2 r hr1 (by omega)

/-- C35. What `picoRTOS_get_last_available_priority` does exactly: it returns the largest unused priority other than 0
and, when there is none, returns `(picoRTOS_priority_t)-1` without stalling. -/
theorem lite_get_last_prio_exact {c : Cfg} (hc : c.WF) {adds : List (Desc × Nat)} {s : Core c.tw} (h : addAll c (init c) adds = .ok s) :
    (∃ p, getLastPrio c s = .ok p ∧ 0 < p ∧ Unused c adds p ∧ ∀ q, p < q → ¬ Unused c adds q) ∨
    (getLastPrio c s = .ok (2 ^ c.pw - 1) ∧ ∀ q, 0 < q → ¬ Unused c adds q) := by
  have hpos := hc.pos
  unfold getLastPrio
  rcases lastLoop_spec s (c.N - 1) with ⟨q, h1, h2, h3, h4, h5⟩ | ⟨h1, h2⟩
  · left
    rw [h1]
    exact ⟨q, rfl, h2, (empty_iff_unused h (by omega)).1 h4,
      fun r hr hu => h5 r hr (by have := hu.1; omega) ((empty_iff_unused h hu.1).2 hu)⟩
  · right
    rw [h1]
    have hne : (0 ≠ 2 ^ c.pw - 1) := by have := hc.fits; omega
    refine ⟨by simp [hne], fun q hq hu => h2 q hq (by have := hu.1; omega) ((empty_iff_unused h hu.1).2 hu)⟩

/-- C35, the documented result (the largest unused priority), proved only when some unused priority other than 0 exists.
Missing: priority 0 alone free, and no priority free, where the documented result is false (`lite_get_last_prio_wrong`). -/
theorem lite_get_last_prio_largest_partial {c : Cfg} (hc : c.WF) {adds : List (Desc × Nat)} {s : Core c.tw}
    (h : addAll c (init c) adds = .ok s) (hex : ∃ p, 0 < p ∧ Unused c adds p) :
    ∃ p, getLastPrio c s = .ok p ∧ Unused c adds p ∧ ∀ q, p < q → ¬ Unused c adds q := by
  rcases lite_get_last_prio_exact hc h with ⟨p, h1, _, h2, h3⟩ | ⟨_, h2⟩
  · exact ⟨p, h1, h2, h3⟩
  · obtain ⟨p, hp1, hp2⟩ := hex
    exact absurd hp2 (h2 p hp1)

/-- C35, counterexamples: with priority 0 the only unused one, and with none unused, 255 is returned. -/
theorem lite_get_last_prio_wrong :
    (∃ s, addAll Sched.Demo.cfg (init Sched.Demo.cfg) [(Sched.Demo.desc 1, 1), (Sched.Demo.desc 2, 2)] = .ok s ∧
      getLastPrio Sched.Demo.cfg s = .ok 255) ∧
    (∃ s, addAll Sched.Demo.cfg (init Sched.Demo.cfg) [(Sched.Demo.desc 1, 1), (Sched.Demo.desc 2, 2), (Sched.Demo.desc 3, 0)] = .ok s ∧
      getLastPrio Sched.Demo.cfg s = .ok 255) :=
  ⟨⟨_, rfl, by decide⟩, ⟨_, rfl, by decide⟩⟩

-- priorities 2 and 0 are taken: both queries answer 1
example : ∃ s, addAll Sched.Demo.cfg (init Sched.Demo.cfg) Demo.adds = .ok s ∧ getNextPrio Sched.Demo.cfg s = .ok 1 ∧
    getLastPrio Sched.Demo.cfg s = .ok 1 ∧ Unused Sched.Demo.cfg Demo.adds 1 :=
  ⟨_, rfl, by decide, by decide, by unfold Unused; decide⟩

/-- C35. `picoRTOS_add_task` calls are all accepted exactly when the priorities are below `CONFIG_TASK_COUNT` and pairwise distinct. -/
theorem lite_add_all_accepts {c : Cfg} (adds : List (Desc × Nat)) :
    (∃ s, addAll c (init c) adds = .ok s) ↔ (adds.map (·.2)).Nodup ∧ ∀ a ∈ adds, a.2 < c.N := by
  constructor
  · rintro ⟨s, h⟩
    obtain ⟨h1, h2, _⟩ := (addAll_iff adds _ _).1 h
    exact ⟨h1, fun a ha => (h2 a ha).1⟩
  · rintro ⟨h1, h2⟩
    exact ⟨_, (addAll_iff adds _ _).2 ⟨h1, fun a ha => ⟨h2 a ha, by rw [init_empty (h2 a ha)]; rfl⟩, rfl⟩⟩

end Pico.Lite
