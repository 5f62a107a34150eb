import Verif.Sched.Boot2
import Verif.Sched.Demo

/-! # Properties of the single-core scheduler, part 1: selection, sleeping, killing -/

namespace Pico.Sched

/-- C01. After every tick the running task is the most urgent eligible one, and idle runs exactly
when no user task is eligible. -/
theorem tick_runs_most_urgent {c : Cfg} (hc : c.WF) {s s' : Core c.tw} {e : Ev c.tw} {o : Out c.tw}
    (hr : Reach c s) (ht : e.call = .tick) (hs : step c s e = .ok (s', o)) :
    s'.index ≤ c.N ∧
    (s'.index < c.N → Eligible c s' s'.index ∧
      ∀ q, Eligible c s' q → q ≠ s'.index → (s'.task s'.index).prio < (s'.task q).prio) ∧
    (s'.index = c.N ↔ ∀ q, ¬ Eligible c s' q) := by
  obtain ⟨_, hi', _, hcase⟩ := step_cases hc (reach_inv hc hr) hs
  rcases hcase with ⟨_, r⟩ | ⟨h, _⟩
  rotate_left
  · exact absurd ht h
  refine ⟨r.idx, ?_, ?_⟩
  · intro hlt
    have hel : Eligible c s' s'.index := (hi'.eligible_iff _).2 ⟨hlt, r.av⟩
    refine ⟨hel, ?_⟩
    intro q hq hne
    have hq' := (hi'.eligible_iff q).1 hq
    have hge : s'.index < q := by
      rcases Nat.lt_trichotomy q s'.index with h1 | h1 | h1
      · exact absurd hq'.2 (r.least q h1)
      · exact absurd h1 hne
      · exact h1
    have hle := hi'.sorted s'.index q (by omega) hq'.1
    rcases Nat.lt_or_ge (s'.task s'.index).prio (s'.task q).prio with h1 | h1
    · exact h1
    · exfalso
      have heq : (s'.task s'.index).prio = (s'.task q).prio := by omega
      have hsh : sharers c s' s'.index = sharers c s' q := by unfold sharers; rw [heq]
      have : turn c s' s'.index = turn c s' q := by
        rw [← hel.2.2, ← hq.2.2, hsh]
      exact hne (turn_inj heq this).symm
  · constructor
    · intro hN q hq
      have hq' := (hi'.eligible_iff q).1 hq
      exact r.least q (by omega) hq'.2
    · intro hall
      have := r.idx
      rcases Nat.lt_or_ge s'.index c.N with h1 | h1
      · exact absurd ((hi'.eligible_iff _).2 ⟨h1, r.av⟩) (hall _)
      · omega

-- the hypotheses of `tick_runs_most_urgent` are met: the first tick of the demo starts pid 0
example : Reach Demo.cfg Demo.started ∧ (∃ r, step Demo.cfg Demo.started (Demo.ev .tick 5) = .ok r ∧ r.1.index = 0) :=
  ⟨⟨true, Demo.adds, [], _, rfl, rfl⟩, _, rfl, by decide⟩

/-- arithmetic of the wake-up countdown -/
theorem countdown_step {w : Nat} {x t : BitVec w} {k : Nat} (h : (x - t).toNat = k + 1) :
    (x - (t + 1)).toNat = k := by
  have h1 : x - (t + 1) = (x - t) - 1 := by grind
  have hlt := (x - t).isLt
  have hw : 1 < 2 ^ w ∨ k = 0 ∧ 2 ^ w ≤ 1 := by omega
  rw [h1, BitVec.toNat_sub, h]
  have hone : (1 : BitVec w).toNat = 1 := by
    have : (1 : BitVec w) = BitVec.ofNat w 1 := rfl
    rw [this, BitVec.toNat_ofNat]; apply Nat.mod_eq_of_lt; omega
  rw [hone]
  have : 2 ^ w - 1 + (k + 1) = k + 2 ^ w := by omega
  rw [this, Nat.add_mod_right]; apply Nat.mod_eq_of_lt; omega

theorem countdown_zero {w : Nat} {x t : BitVec w} (h : (x - t).toNat = 0) : x = t := by
  have : x - t = 0 := by
    apply BitVec.eq_of_toNat_eq; rw [h]; simp
  exact BitVec.sub_eq_iff_eq_add.1 this |>.trans (by simp)

theorem countdown_wake {w : Nat} {x t : BitVec w} {k : Nat} (h : (x - t).toNat = k + 1) : x = t + 1 ↔ k = 0 := by
  constructor
  · intro hx
    have h2 := countdown_step h
    have h3 : x - (t + 1) = 0#w := by rw [hx, BitVec.sub_self]
    rw [h3] at h2; simpa using h2.symm
  · intro hk
    subst hk
    exact countdown_zero (countdown_step h)

/-- a sleeping task with `k` ticks to go, followed along a history -/
theorem sleeping_run {c : Cfg} (hc : c.WF) {p : Nat} (hp : p ≤ c.N) : ∀ (evs : List (Ev c.tw)) (s s' : Core c.tw) (k : Nat),
    Inv c s → (s.task p).state = .sleep → ((s.task p).tick - s.tick).toNat = k → 0 < k →
    run c s evs = .ok s' → ticks evs < k →
    (s'.task p).state = .sleep ∧ ((s'.task p).tick - s'.tick).toNat = k - ticks evs ∧
      (s'.task p).tick = (s.task p).tick := by
  intro evs
  induction evs with
  | nil =>
    intro s s' k hi hst hk hpos hr _
    simp [run] at hr; subst hr
    exact ⟨hst, by simpa [ticks] using hk, rfl⟩
  | cons e es ih =>
    intro s s' k hi hst hk hpos hr ht
    obtain ⟨s1, o, h1, h2⟩ := run_cons hr
    obtain ⟨_, hi1, _, hcase⟩ := step_cases hc hi h1
    have hne : p ≠ s.index := by
      intro h; subst h; have := hi.av.1; rw [hst] at this; cases this
    rcases hcase with ⟨htk, r⟩ | ⟨htk, _, r, _⟩
    · have htks : ticks (e :: es) = ticks es + 1 := by
        unfold ticks; rw [List.countP_cons_of_pos]; simpa using htk
      obtain ⟨m, rfl⟩ : ∃ m, k = m + 1 := ⟨k - 1, by omega⟩
      have hm : m ≠ 0 := by omega
      have hst1 : (s1.task p).state = .sleep := by
        rw [r.state p hp, if_neg]
        · exact hst
        · rintro ⟨_, h3⟩; exact hm ((countdown_wake hk).1 h3)
      have hk1 : ((s1.task p).tick - s1.tick).toNat = m := by
        rw [(r.other p hne).tick, r.tick]; exact countdown_step hk
      have hh := ih s1 s' m hi1 hst1 hk1 (by omega) h2 (by omega)
      refine ⟨hh.1, ?_, hh.2.2.trans (r.other p hne).tick⟩
      rw [hh.2.1, htks]; omega
    · have htks : ticks (e :: es) = ticks es := by
        unfold ticks; rw [List.countP_cons_of_neg]; simpa using htk
      have ho := r.other p hne
      have hh := ih s1 s' k hi1 (ho.2.trans hst) (by rw [ho.1.tick, r.tick]; exact hk) hpos h2 (by omega)
      exact ⟨hh.1, by rw [hh.2.1, htks], hh.2.2.trans ho.1.tick⟩

theorem ticks_append {tw : Nat} (a b : List (Ev tw)) : ticks (a ++ b) = ticks a + ticks b := by
  unfold ticks; exact List.countP_append

/-- the tick at which a sleeping task wakes up -/
theorem sleeping_wake {c : Cfg} (hc : c.WF) {p : Nat} (hp : p ≤ c.N) {pre : List (Ev c.tw)} {e : Ev c.tw} {s s' : Core c.tw} {k : Nat}
    (hi : Inv c s) (hst : (s.task p).state = .sleep) (hk : ((s.task p).tick - s.tick).toNat = k) (hpos : 0 < k)
    (hr : run c s (pre ++ [e]) = .ok s') (he : e.call = .tick) (ht : ticks pre + 1 = k) :
    (s'.task p).state = .ready ∧ s'.tick = (s.task p).tick := by
  obtain ⟨s1, h1, h2⟩ := (run_append _ _ _ _).1 hr
  obtain ⟨a1, a2, a3⟩ := sleeping_run hc hp pre s s1 k hi hst hk hpos h1 (by omega)
  have hi1 := inv_run hc pre s s1 hi h1
  obtain ⟨s2, o, h3, h4⟩ := run_cons h2
  simp [run] at h4; subst h4
  obtain ⟨_, _, _, hcase⟩ := step_cases hc hi1 h3
  rcases hcase with ⟨_, r⟩ | ⟨h, _⟩
  rotate_left
  · exact absurd he h
  have h5 : ((s1.task p).tick - s1.tick).toNat = 0 + 1 := by omega
  have h6 := (countdown_wake h5).2 rfl
  refine ⟨?_, ?_⟩
  · rw [r.state p hp, if_pos ⟨a1, h6⟩]
  · rw [r.tick, ← h6, a3]

/-- C02. `picoRTOS_sleep(d)`, `d ≥ 1`: whatever happens next, the caller does not run before the
`d`-th tick, and it is ready at the `d`-th tick; it then runs, unless a more urgent task does or it is not
its turn. Holds across wrap-around of the tick counter. -/
theorem sleep_lasts_exactly {c : Cfg} (hc : c.WF) {s s1 s2 : Core c.tw} {e : Ev c.tw} {o : Out c.tw} {d : BitVec c.tw}
    {evs : List (Ev c.tw)} (hr : Reach c s) (hcall : e.call = .sleep d) (hd : 0 < d.toNat)
    (hs : step c s e = .ok (s1, o)) (hrun : run c s1 evs = .ok s2) :
    (ticks evs < d.toNat → s2.index ≠ s.index ∧ (s2.task s.index).state = .sleep) ∧
    (∀ pre t, evs = pre ++ [t] → t.call = .tick → ticks evs = d.toNat →
      (s2.task s.index).state = .ready ∧
      (s2.index = s.index ∨ ¬ Eligible c s2 s.index ∨ (s2.task s2.index).prio < (s2.task s.index).prio)) := by
  have hi := reach_inv hc hr
  obtain ⟨_, hi1, _, hcase⟩ := step_cases hc hi hs
  have hnt : e.call ≠ .tick := by rw [hcall]; simp
  rcases hcase with ⟨h, _⟩ | ⟨_, hu, r, _⟩
  · exact absurd h hnt
  have hst : (s1.task s.index).state = .sleep := by
    rw [r.curState, hcall]; simp [callerState, hd]
  have hk : ((s1.task s.index).tick - s1.tick).toNat = d.toNat := by
    rw [r.curTick, r.tick, hcall]; simp only [callerTick, if_pos hd]
    rw [BitVec.add_comm, BitVec.add_sub_cancel]
  have hi2 := inv_run hc evs s1 s2 hi1 hrun
  refine ⟨?_, ?_⟩
  · intro ht
    have := (sleeping_run hc (Nat.le_of_lt hu) evs s1 s2 d.toNat hi1 hst hk hd hrun ht).1
    refine ⟨?_, this⟩
    intro h; have h2 := hi2.av.1; rw [h, this] at h2; cases h2
  · intro pre t hev ht hticks
    subst hev
    have hone : ticks [t] = 1 := by simp [ticks, ht]
    have h1 := sleeping_wake hc (Nat.le_of_lt hu) hi1 hst hk hd hrun ht (by rw [ticks_append, hone] at hticks; omega)
    refine ⟨h1.1, ?_⟩
    obtain ⟨s1', ha, hb⟩ := (run_append _ _ _ _).1 hrun
    obtain ⟨s2', o', hb1, hb2⟩ := run_cons hb
    simp [run] at hb2; subst hb2
    have hR : Reach c s1' := reach_run (reach_step hr hs) ha
    obtain ⟨m1, m2, m3⟩ := tick_runs_most_urgent hc hR ht hb1
    by_cases hel : Eligible c s2' s.index
    · by_cases heq : s2'.index = s.index
      · exact .inl heq
      · right; right
        rcases Nat.lt_or_ge s2'.index c.N with hlt | hge
        · exact (m2 hlt).2 _ hel (fun h => heq h.symm)
        · exact absurd hel (m3.1 (by omega) _)
    · exact .inr (.inl hel)

-- pid 0 sleeps 3 ticks: the hypotheses are met, it wakes at the third tick
example : Reach Demo.cfg (Demo.after Demo.h1) ∧
    (∃ r, step Demo.cfg (Demo.after Demo.h1) (Demo.ev (.sleep 3) 205) = .ok r ∧
      ∃ s2, run Demo.cfg r.1 [Demo.ev .tick 105, Demo.ev .tick 305, Demo.ev .tick 105] = .ok s2 ∧
        s2.index = 0) :=
  ⟨Demo.reach_h1, _, rfl, _, rfl, by decide⟩

/-- C03. `picoRTOS_sleep(0)` lets another task run but does not put the caller to sleep: it is
still ready, also after any events that do not involve it up to and including the next tick. -/
theorem sleep_zero_stays_ready {c : Cfg} (hc : c.WF) {s s1 : Core c.tw} {e : Ev c.tw} {o : Out c.tw}
    (hr : Reach c s) (hcall : e.call = .sleep 0) (hs : step c s e = .ok (s1, o)) :
    s1.index ≠ s.index ∧ (s1.task s.index).state = .ready ∧
    (s1.index = c.N → ∀ q, s.index < q → ¬ Eligible c s1 q) ∧
    ∀ t s2 o2, t.call = .tick → step c s1 t = .ok (s2, o2) →
      (s2.task s.index).state = .ready ∧
      (Eligible c s2 s.index ↔ (s2.tick.toNat % 2 ^ c.pw) % sharers c s2 s.index = turn c s2 s.index) := by
  have hi := reach_inv hc hr
  obtain ⟨_, hi1, _, hcase⟩ := step_cases hc hi hs
  have hnt : e.call ≠ .tick := by rw [hcall]; simp
  rcases hcase with ⟨h, _⟩ | ⟨_, hu, r, _⟩
  · exact absurd h hnt
  have hst : (s1.task s.index).state = .ready := by
    rw [r.curState, hcall]; simpa [callerState] using hi.av.1
  have hpost : callerPost s e.call = s.postponed := by rw [hcall]; rfl
  have hgo := r.goes
  rw [hpost] at hgo
  refine ⟨?_, hst, ?_, ?_⟩
  · generalize s1.index = j at hgo ⊢
    generalize s1.postponed = b at hgo
    cases hgo with
    | next h1 h2 h3 h4 h5 => omega
    | wrap h1 h2 h3 h4 h5 =>
      obtain ⟨_, q, hq1, hq2⟩ := hi.post h1
      have : ¬ q < j := by
        intro hlt
        apply h5 q hlt
        unfold Avail AvailT
        rw [r.sub, r.tick, (r.other q (by omega)).2, (r.static q).prio, (r.static q).subPrio]; exact hq2
      omega
  · intro hN q hq hel
    have hq' := (hi1.eligible_iff q).1 hel
    generalize hj : s1.index = j at hgo
    generalize s1.postponed = b at hgo
    cases hgo with
    | next h1 h2 h3 h4 h5 => exact h4 q hq (by omega) hq'.2
    | wrap h1 h2 h3 h4 h5 => exact h2 q hq hq'.1 hq'.2
  · intro t s2 o2 ht hs2
    obtain ⟨_, hi2, _, hcase2⟩ := step_cases hc hi1 hs2
    rcases hcase2 with ⟨_, r2⟩ | ⟨h, _⟩
    rotate_left
    · exact absurd ht h
    have : (s2.task s.index).state = .ready := by
      rw [r2.state _ (Nat.le_of_lt hu), hst]; simp
    refine ⟨this, ?_⟩
    unfold Eligible
    exact ⟨fun h => h.2.2, fun h => ⟨hu, this, h⟩⟩

-- the hypotheses of `sleep_zero_stays_ready` are met; the caller runs again at the next tick
example : (∃ r, step Demo.cfg (Demo.after Demo.h1) (Demo.ev (.sleep 0) 205) = .ok r ∧ r.1.index = 1 ∧
    ∃ r2, step Demo.cfg r.1 (Demo.ev .tick 105) = .ok r2 ∧ r2.1.index = 0) :=
  ⟨_, rfl, by decide, _, rfl, by decide⟩

/-- C04. `picoRTOS_sleep_until` on time: the new reference is `ref + period`, no debug
exception; the caller does not run before the tick counter reaches the new reference, which takes
exactly `period - elapsed` ticks, and is ready at that very tick. -/
theorem sleep_until_on_time {c : Cfg} (hc : c.WF) {s s1 : Core c.tw} {e : Ev c.tw} {o : Out c.tw}
    {ref period : BitVec c.tw} (hr : Reach c s) (hcall : e.call = .sleepUntil ref period)
    (hs : step c s e = .ok (s1, o)) (hon : (s.tick - ref).toNat < period.toNat) :
    o.ref = ref + period ∧ o.brk = false ∧
    ∀ evs s2, run c s1 evs = .ok s2 →
      (ticks evs < period.toNat - (s.tick - ref).toNat → s2.index ≠ s.index ∧ (s2.task s.index).state = .sleep) ∧
      (∀ pre t, evs = pre ++ [t] → t.call = .tick → ticks evs = period.toNat - (s.tick - ref).toNat →
        (s2.task s.index).state = .ready ∧ s2.tick = o.ref) := by
  have hi := reach_inv hc hr
  obtain ⟨_, hi1, _, hcase⟩ := step_cases hc hi hs
  have hnt : e.call ≠ .tick := by rw [hcall]; simp
  rcases hcase with ⟨h, _⟩ | ⟨_, hu, r, ho⟩
  · exact absurd h hnt
  have hout : callerOut c s e = (ref + period, false) := by
    unfold callerOut; rw [hcall]; simp only [syscallSleepUntil, if_pos hon]
  rw [hout] at ho
  injection ho with ho1 ho2
  have hst : (s1.task s.index).state = .sleep := by
    rw [r.curState, hcall]; simp only [callerState, if_pos hon]
  have htk : (s1.task s.index).tick = ref + period := by
    rw [r.curTick, hcall]; simp only [callerTick, if_pos hon]
  have hk : ((s1.task s.index).tick - s1.tick).toNat = period.toNat - (s.tick - ref).toNat := by
    rw [htk, r.tick]
    have : ref + period - s.tick = period - (s.tick - ref) := by grind
    rw [this, BitVec.toNat_sub_of_le]
    exact Nat.le_of_lt hon
  refine ⟨ho1, ho2, ?_⟩
  intro evs s2 hrun
  have hi2 := inv_run hc evs s1 s2 hi1 hrun
  refine ⟨?_, ?_⟩
  · intro ht
    have := (sleeping_run hc (Nat.le_of_lt hu) evs s1 s2 _ hi1 hst hk (by omega) hrun ht).1
    refine ⟨?_, this⟩
    intro h; have h2 := hi2.av.1; rw [h, this] at h2; cases h2
  · intro pre t hev ht hticks
    subst hev
    have hone : ticks [t] = 1 := by simp [ticks, ht]
    have h1 := sleeping_wake hc (Nat.le_of_lt hu) hi1 hst hk (by omega) hrun ht (by rw [ticks_append, hone] at hticks; omega)
    exact ⟨h1.1, by rw [h1.2, htk, ho1]⟩

-- on time across a wrap of the 4-bit counter: ref = 15, tick = 0, period 3
example : ∃ r, step Demo.cfg (Demo.after Demo.h1) (Demo.ev (.sleepUntil 15 3) 205) = .ok r ∧
    ((Demo.after Demo.h1).tick - 15).toNat < (3 : BitVec 4).toNat ∧ r.2.ref = 2 ∧
      ∃ s2, run Demo.cfg r.1 [Demo.ev .tick 105, Demo.ev .tick 305] = .ok s2 ∧ s2.index = 0 ∧ s2.tick = 2 :=
  ⟨_, rfl, by decide, by decide, _, rfl, by decide, by decide⟩

/-- A periodic task: `n` iterations of `picoRTOS_sleep_until(&ref, period)` made by task `p`, each
with the reference left by the previous one and each on time, anything happening in
between. -/
inductive Periodic (c : Cfg) (p : Nat) (period : BitVec c.tw) :
    Core c.tw → BitVec c.tw → Nat → Core c.tw → BitVec c.tw → Prop
  | zero (s : Core c.tw) (ref : BitVec c.tw) : Periodic c p period s ref 0 s ref
  | iter {s s1 s2 s3 : Core c.tw} {ref ref1 : BitVec c.tw} {n : Nat} {e : Ev c.tw} {o : Out c.tw}
      {evs : List (Ev c.tw)} (h : Periodic c p period s ref n s1 ref1) (hp : s1.index = p)
      (hcall : e.call = .sleepUntil ref1 period) (hon : (s1.tick - ref1).toNat < period.toNat)
      (hs : step c s1 e = .ok (s2, o)) (hrun : run c s2 evs = .ok s3) :
      Periodic c p period s ref (n + 1) s3 o.ref

/-- C04. No drift: after `n` on-time iterations the reference is exactly `ref + n * period`. -/
theorem sleep_until_no_drift {c : Cfg} (hc : c.WF) {p n : Nat} {period ref ref' : BitVec c.tw} {s s' : Core c.tw}
    (hr : Reach c s) (h : Periodic c p period s ref n s' ref') :
    Reach c s' ∧ ref' = ref + BitVec.ofNat c.tw n * period := by
  induction h with
  | zero => exact ⟨hr, by simp⟩
  | iter h hp hcall hon hs hrun ih =>
    obtain ⟨ih1, ih2⟩ := ih
    obtain ⟨h1, _, _⟩ := sleep_until_on_time hc ih1 hcall hs hon
    refine ⟨reach_run (reach_step ih1 hs) hrun, ?_⟩
    rw [h1, ih2, BitVec.ofNat_add]
    have : BitVec.ofNat c.tw 1 = 1 := rfl
    rw [this]
    grind

/-- C04. Wake-ups stay on the grid: after `n` on-time iterations, the next on-time call makes the
task ready exactly when the tick counter is `ref + (n+1) * period`, not before. -/
theorem sleep_until_wakes_on_grid {c : Cfg} (hc : c.WF) {p n : Nat} {period ref ref' : BitVec c.tw}
    {s s' s1 s2 : Core c.tw} {e : Ev c.tw} {o : Out c.tw} {evs : List (Ev c.tw)}
    (hr : Reach c s) (h : Periodic c p period s ref n s' ref') (hp : s'.index = p)
    (hcall : e.call = .sleepUntil ref' period) (hon : (s'.tick - ref').toNat < period.toNat)
    (hs : step c s' e = .ok (s1, o)) (hrun : run c s1 evs = .ok s2) :
    (ticks evs < period.toNat - (s'.tick - ref').toNat → s2.index ≠ p) ∧
    (∀ pre t, evs = pre ++ [t] → t.call = .tick → ticks evs = period.toNat - (s'.tick - ref').toNat →
      (s2.task p).state = .ready ∧ s2.tick = ref + BitVec.ofNat c.tw (n + 1) * period) := by
  obtain ⟨h1, h2⟩ := sleep_until_no_drift hc hr h
  obtain ⟨k1, _, k3⟩ := sleep_until_on_time hc h1 hcall hs hon
  obtain ⟨_, k4⟩ := sleep_until_no_drift hc hr (.iter h hp hcall hon hs hrun)
  obtain ⟨m1, m2⟩ := k3 evs s2 hrun
  rw [hp] at m1 m2
  refine ⟨fun h => (m1 h).1, ?_⟩
  intro pre t a b d
  obtain ⟨n1, n2⟩ := m2 pre t a b d
  exact ⟨n1, n2.trans k4⟩

-- two on-time iterations exist in the demo
example : ∃ s' ref', Periodic Demo.cfg 0 2 (Demo.after Demo.h1) 0 2 s' ref' ∧ ref' = 4 :=
  ⟨_, _, .iter (.iter (e := Demo.ev (.sleepUntil 0 2) 205)
      (evs := [Demo.ev .tick 105, Demo.ev .tick 305]) (.zero _ _) (by decide) rfl (by decide) rfl rfl)
    (e := Demo.ev (.sleepUntil 2 2) 205) (evs := []) (by decide) rfl (by decide) rfl rfl, by decide⟩

/-- C06. A task that called `picoRTOS_kill` never runs again. -/
theorem killed_never_runs {c : Cfg} (hc : c.WF) {s s1 s2 : Core c.tw} {e : Ev c.tw} {o : Out c.tw} {evs : List (Ev c.tw)}
    (hr : Reach c s) (hcall : e.call = .kill) (hs : step c s e = .ok (s1, o)) (hrun : run c s1 evs = .ok s2) :
    s2.index ≠ s.index := by
  have hi := reach_inv hc hr
  obtain ⟨_, hi1, _, hcase⟩ := step_cases hc hi hs
  have hnt : e.call ≠ .tick := by rw [hcall]; simp
  rcases hcase with ⟨h, _⟩ | ⟨_, hu, r, _⟩
  · exact absurd h hnt
  have hst : (s1.task s.index).state = .empty := by rw [r.curState, hcall]; rfl
  have key : ∀ (evs : List (Ev c.tw)) (a b : Core c.tw) (p : Nat), p ≤ c.N → Inv c a → (a.task p).state = .empty →
      run c a evs = .ok b → b.index ≠ p := by
    intro evs
    induction evs with
    | nil =>
      intro a b p _ hia hpe hab
      simp [run] at hab; subst hab
      intro h; have := hia.av.1; rw [h, hpe] at this; cases this
    | cons x xs ih =>
      intro a b p hpN hia hpe hab
      obtain ⟨a1, o1, k1, k2⟩ := run_cons hab
      obtain ⟨_, hia1, _, hc1⟩ := step_cases hc hia k1
      have hne : p ≠ a.index := by
        intro h; have := hia.av.1; rw [← h, hpe] at this; cases this
      rcases hc1 with ⟨_, r1⟩ | ⟨_, _, r1, _⟩
      · exact ih a1 b p hpN hia1 (by rw [r1.state p hpN, hpe]; simp) k2
      · exact ih a1 b p hpN hia1 (by rw [(r1.other p hne).2]; exact hpe) k2
  exact key evs s1 s2 s.index (Nat.le_of_lt hu) hi1 hst hrun

-- the demo's pid 0 dies, ticks go on without it
example : ∃ r, step Demo.cfg (Demo.after Demo.h1) (Demo.ev .kill 205) = .ok r ∧
    ∃ s2, run Demo.cfg r.1 [Demo.ev .tick 105, Demo.ev .tick 305] = .ok s2 ∧ s2.index = 1 :=
  ⟨_, rfl, _, rfl, by decide⟩

end Pico.Sched
