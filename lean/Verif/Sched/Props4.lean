import Verif.Sched.Props2
import Verif.Sched.Props3

/-! # Properties of the single-core scheduler, part 4: late periods, fairness, postponing, statistics -/

namespace Pico.Sched

/-! ## C05: missed periods -/

/-- Number of consecutive late `picoRTOS_sleep_until` calls of task `p` along a history, starting from
`k`: a late call (the period is already elapsed) adds one, a call on time resets to 0, anything else
does not matter. -/
def lateCalls (c : Cfg) (p : Nat) : Core c.tw → List (Ev c.tw) → Nat → Nat
  | _, [], k => k
  | s, e :: es, k =>
    match step c s e with
    | .ok (s', _) =>
      match e.call with
      | .sleepUntil ref period =>
        if s.index = p then
          lateCalls c p s' es (if (s.tick - ref).toNat < period.toNat then 0 else k + 1)
        else lateCalls c p s' es k
      | _ => lateCalls c p s' es k
    | _ => k

theorem miss_counts {c : Cfg} (hc : c.WF) (p : Nat) : ∀ (evs : List (Ev c.tw)) (s s' : Core c.tw) (k : Nat),
    Inv c s → run c s evs = .ok s' → (s.task p).miss = k % 2 ^ c.sw →
    (s'.task p).miss = lateCalls c p s evs k % 2 ^ c.sw := by
  intro evs
  induction evs with
  | nil => intro s s' k _ h hk; simp [run] at h; subst h; exact hk
  | cons e es ih =>
    intro s s' k hi h hk
    obtain ⟨s1, o, h1, h2⟩ := run_cons h
    obtain ⟨_, hi1, _, hcase⟩ := step_cases hc hi h1
    rw [lateCalls, h1]
    simp only []
    have hother : s.index ≠ p → (s1.task p).miss = k % 2 ^ c.sw := by
      intro hp
      rcases hcase with ⟨_, r⟩ | ⟨_, _, r, _⟩
      · rw [(r.other p (Ne.symm hp)).miss, hk]
      · rw [(r.other p (Ne.symm hp)).1.miss, hk]
    cases hcall : e.call with
    | sleepUntil ref period =>
      simp only []
      split
      · rename_i hp
        apply ih s1 s' _ hi1 h2
        rcases hcase with ⟨ht, _⟩ | ⟨_, _, r, _⟩
        · rw [hcall] at ht; cases ht
        · rw [← hp, r.curMiss]
          unfold callerTask; rw [hcall]
          simp only [syscallSleepUntil]
          split
          · simp
          · have : ({ s.task s.index with sp := e.sp } : Task c.tw).miss = k % 2 ^ c.sw := by
              show (s.task s.index).miss = _; rw [hp]; exact hk
            split <;> simp [hp, hk]
      · rename_i hp
        exact ih s1 s' _ hi1 h2 (hother hp)
    | _ =>
      apply ih s1 s' _ hi1 h2
      by_cases hp : s.index = p
      · rcases hcase with ⟨_, r⟩ | ⟨_, _, r, _⟩
        · rw [← hp, r.curMiss, hp]; exact hk
        · rw [← hp, r.curMiss]
          unfold callerTask; rw [hcall]
          first
            | (show (s.task s.index).miss = _; rw [hp]; exact hk)
            | (simp only [syscallSleep]; split <;> (show (s.task s.index).miss = _; rw [hp]; exact hk))
      · exact hother hp

/-- C05, exact behaviour. `picoRTOS_sleep_until` when the period is already elapsed: the caller stays ready;
with `k` the number of consecutive late calls including this one, the debug exception is raised and
`*ref` set to the current tick exactly if `k` (modulo the width of `size_t`) exceeds
`CONFIG_DEADLOCK_COUNT`; otherwise nothing is raised and `*ref` is unchanged. -/
theorem sleep_until_late_exact {c : Cfg} (hc : c.WF) {strict : Bool} {adds : List (Desc × Nat)} {s0 s s1 : Core c.tw}
    {evs : List (Ev c.tw)} {e : Ev c.tw} {o : Out c.tw} {ref period : BitVec c.tw}
    (hb : boot c strict adds = .ok s0) (hrun : run c s0 evs = .ok s) (hcall : e.call = .sleepUntil ref period)
    (hs : step c s e = .ok (s1, o)) (hlate : period.toNat ≤ (s.tick - ref).toNat) :
    (s1.task s.index).state = .ready ∧
    (o.brk = true ↔ c.D < (lateCalls c s.index s0 evs 0 + 1) % 2 ^ c.sw) ∧
    o.ref = (if o.brk = true then s.tick else ref) := by
  have hi0 := boot_inv hc hb
  have hi := inv_run hc evs s0 s hi0 hrun
  have hm0 : (s0.task s.index).miss = 0 % 2 ^ c.sw := by
    obtain ⟨hpr, hl⟩ := boot_legal hc hb
    obtain ⟨f, g, hf, _, rfl⟩ := boot_shape hc hb
    show (numbered f c.N s.index).miss = _
    have hidx := hi.idx
    unfold numbered
    split
    · rename_i h; exact ((hf.fresh s.index h).2.2.2.2.2.2).trans (by simp)
    · have : s.index = c.N := by omega
      rw [this, hf.idle]; simp; rfl
  have hm := miss_counts hc s.index evs s0 s 0 hi0 hrun hm0
  obtain ⟨_, hi1, _, hcase⟩ := step_cases hc hi hs
  rcases hcase with ⟨ht, _⟩ | ⟨_, _, r, ho⟩
  · rw [hcall] at ht; cases ht
  have hnl : ¬ (s.tick - ref).toNat < period.toNat := by omega
  refine ⟨?_, ?_⟩
  · rw [r.curState, hcall]; simp only [callerState, if_neg hnl]; exact hi.av.1
  · unfold callerOut at ho; rw [hcall] at ho
    simp only [syscallSleepUntil, if_neg hnl] at ho
    rw [hm] at ho
    rw [show (lateCalls c s.index s0 evs 0 % 2 ^ c.sw + 1) % 2 ^ c.sw = (lateCalls c s.index s0 evs 0 + 1) % 2 ^ c.sw
      from by rw [Nat.mod_add_mod]] at ho
    by_cases hD : c.D < (lateCalls c s.index s0 evs 0 + 1) % 2 ^ c.sw
    · rw [if_pos hD] at ho
      injection ho with h1 h2
      rw [h1, h2]; simp [hD]
    · rw [if_neg hD] at ho
      injection ho with h1 h2
      rw [h1, h2]; simp [hD]

/-- C05. The documented behaviour (debug exception, `*ref` updated to the current tick), proved only for the
late calls preceded by at least `CONFIG_DEADLOCK_COUNT` consecutive late ones. Missing: the first
`CONFIG_DEADLOCK_COUNT` ones, for which it is false (`sleep_until_late_undocumented`). -/
theorem sleep_until_late_partial {c : Cfg} (hc : c.WF) {strict : Bool} {adds : List (Desc × Nat)} {s0 s s1 : Core c.tw}
    {evs : List (Ev c.tw)} {e : Ev c.tw} {o : Out c.tw} {ref period : BitVec c.tw}
    (hb : boot c strict adds = .ok s0) (hrun : run c s0 evs = .ok s) (hcall : e.call = .sleepUntil ref period)
    (hs : step c s e = .ok (s1, o)) (hlate : period.toNat ≤ (s.tick - ref).toNat)
    (hmany : c.D ≤ lateCalls c s.index s0 evs 0) (hfit : lateCalls c s.index s0 evs 0 + 1 < 2 ^ c.sw) :
    o.brk = true ∧ o.ref = s.tick ∧ (s1.task s.index).state = .ready := by
  obtain ⟨h1, h2, h3⟩ := sleep_until_late_exact hc hb hrun hcall hs hlate
  have hb : o.brk = true := h2.2 (by rw [Nat.mod_eq_of_lt hfit]; omega)
  rw [if_pos hb] at h3
  exact ⟨hb, h3, h1⟩

/-- C05 is false of the first late call: no exception, and `*ref` keeps its old value (here `ref` is 14, two
ticks ago; the tick is 0). -/
theorem sleep_until_late_undocumented : ∃ r, step Demo.cfg (Demo.after Demo.h1) (Demo.ev (.sleepUntil 14 2) 205) = .ok r ∧
    2 ≤ ((Demo.after Demo.h1).tick - 14).toNat ∧ r.2.brk = false ∧ r.2.ref = 14 ∧ (Demo.after Demo.h1).tick = 0 :=
  ⟨_, rfl, by decide, by decide, by decide, by decide⟩

-- the third consecutive late call (CONFIG_DEADLOCK_COUNT = 2) does what is documented
example : ∃ s, run Demo.cfg Demo.started [Demo.ev .tick 5, Demo.ev (.sleepUntil 14 2) 205, Demo.ev .tick 105,
      Demo.ev (.sleepUntil 14 2) 205, Demo.ev .tick 305] = .ok s ∧ s.index = 0 ∧
    ∃ r, step Demo.cfg s (Demo.ev (.sleepUntil 14 2) 205) = .ok r ∧ r.2.brk = true ∧ r.2.ref = s.tick :=
  ⟨_, rfl, by decide, _, rfl, by decide, by decide⟩

/-! ## C13: round-robin -/

/-- It is the turn of `p` among the tasks sharing its priority (the condition used in `Eligible`). -/
def HasTurn (c : Cfg) (s : Core c.tw) (p : Nat) : Prop :=
  (s.tick.toNat % 2 ^ c.pw) % sharers c s p = turn c s p

/-- C13. At any time exactly one of the tasks that share a priority has its turn. -/
theorem one_turn_at_a_time {c : Cfg} {s : Core c.tw} (p : Nat) (hp : p < c.N) :
    ∃ q, (q < c.N ∧ (s.task q).prio = (s.task p).prio ∧ HasTurn c s q) ∧
      ∀ q', q' < c.N ∧ (s.task q').prio = (s.task p).prio ∧ HasTurn c s q' → q' = q := by
  have hk : (s.tick.toNat % 2 ^ c.pw) % sharers c s p < sharers c s p := Nat.mod_lt _ (sharers_pos hp)
  have hsh : ∀ q, (s.task q).prio = (s.task p).prio → sharers c s q = sharers c s p := by
    intro q hq; unfold sharers; rw [hq]
  have hr := rank_list (fun q => decide ((s.task q).prio = (s.task p).prio)) c.N
  have hmem : (s.tick.toNat % 2 ^ c.pw) % sharers c s p ∈
      List.range ((List.range c.N).filter (fun q => decide ((s.task q).prio = (s.task p).prio))).length :=
    List.mem_range.2 hk
  rw [← hr, List.mem_map] at hmem
  obtain ⟨q, h1, h2⟩ := hmem
  simp at h1
  refine ⟨q, ⟨h1.1, h1.2, ?_⟩, ?_⟩
  · unfold HasTurn; rw [hsh q h1.2, ← h2]; unfold turn; rw [h1.2]
  · rintro q' ⟨_, g2, g3⟩
    apply turn_inj (g2.trans h1.2.symm)
    unfold HasTurn at g3
    rw [← g3, hsh q' g2, ← h2]; unfold turn; rw [h1.2]

theorem window_unique (a k t : Nat) (hk : 0 < k) (ht : t < k) :
    ∃ i, i < k ∧ ∀ j, j < k → ((a + j) % k = t ↔ j = i) := by
  refine ⟨(t + k - a % k) % k, Nat.mod_lt _ hk, ?_⟩
  intro j hj
  have ha : a % k < k := Nat.mod_lt _ hk
  have h1 : (a + j) % k = (a % k + j) % k := (Nat.mod_add_mod a k j).symm
  rw [h1]
  generalize a % k = b at *
  have e1 : (t + k - b) % k = if b ≤ t then t - b else t + k - b := by
    split
    · rw [show t + k - b = (t - b) + k by omega, Nat.add_mod_right, Nat.mod_eq_of_lt (by omega)]
    · rw [Nat.mod_eq_of_lt (by omega)]
  have e2 : (b + j) % k = if b + j < k then b + j else b + j - k := by
    split
    · rw [Nat.mod_eq_of_lt (by assumption)]
    · rw [Nat.mod_eq_sub_mod (by omega), Nat.mod_eq_of_lt (by omega)]
  rw [e1, e2]
  split <;> split <;> omega

theorem tick_after {c : Cfg} (hc : c.WF) : ∀ (evs : List (Ev c.tw)) (s s' : Core c.tw), Inv c s → run c s evs = .ok s' →
    s'.tick = s.tick + BitVec.ofNat c.tw (ticks evs) := by
  intro evs
  induction evs with
  | nil => intro s s' _ h; simp [run] at h; subst h; simp [ticks]
  | cons e es ih =>
    intro s s' hi h
    obtain ⟨s1, o, h1, h2⟩ := run_cons h
    obtain ⟨_, hi1, _, hcase⟩ := step_cases hc hi h1
    rw [ih s1 s' hi1 h2]
    rcases hcase with ⟨ht, r⟩ | ⟨ht, _, r, _⟩
    · have : ticks (e :: es) = ticks es + 1 := by
        unfold ticks; rw [List.countP_cons_of_pos]; simpa using ht
      rw [r.tick, this, BitVec.ofNat_add]
      have h1 : BitVec.ofNat c.tw 1 = 1 := rfl
      rw [h1]; grind
    · have : ticks (e :: es) = ticks es := by
        unfold ticks; rw [List.countP_cons_of_neg]; simpa using ht
      rw [r.tick, this]

/-- the tick counter as the round-robin sees it, without wrap-around or with a harmless one -/
theorem turn_counter {w pw k : Nat} (t : BitVec w) (i : Nat) (hi : i < k)
    (hw : (t.toNat % 2 ^ pw + k ≤ 2 ^ pw ∧ t.toNat + k ≤ 2 ^ w) ∨ (k ∣ 2 ^ pw ∧ k ∣ 2 ^ w)) :
    ((t + BitVec.ofNat w i).toNat % 2 ^ pw) % k = (t.toNat % 2 ^ pw + i) % k := by
  rw [BitVec.toNat_add, BitVec.toNat_ofNat, Nat.add_mod_mod]
  rcases hw with ⟨h1, h2⟩ | ⟨h1, h2⟩
  · rw [Nat.mod_eq_of_lt (a := t.toNat + i) (by omega)]
    congr 1
    rw [← Nat.mod_add_mod, Nat.mod_eq_of_lt (by omega)]
  · rw [Nat.mod_mod_of_dvd _ h1, Nat.mod_mod_of_dvd _ h2]
    rw [← Nat.mod_add_mod (t.toNat % 2 ^ pw), Nat.mod_mod_of_dvd _ h1, Nat.mod_add_mod]

/-- C13. In any `k` consecutive ticks each of the `k` tasks sharing a priority has its turn at exactly one of
them, whatever else happens — provided the tick counter (and its truncation to `picoRTOS_priority_t`)
does not wrap meanwhile, or `k` is a power of two that fits (so the wrap is harmless).
Missing: wraps with other `k`, for which it is false (`round_robin_wrap`). -/
theorem round_robin_partial {c : Cfg} (hc : c.WF) {s : Core c.tw} (hr : Reach c s) (p : Nat) (hp : p < c.N)
    (hw : (s.tick.toNat % 2 ^ c.pw + sharers c s p ≤ 2 ^ c.pw ∧ s.tick.toNat + sharers c s p ≤ 2 ^ c.tw) ∨
      (sharers c s p ∣ 2 ^ c.pw ∧ sharers c s p ∣ 2 ^ c.tw)) :
    ∃ i, i < sharers c s p ∧ ∀ evs s', run c s evs = .ok s' → ticks evs < sharers c s p →
      (HasTurn c s' p ↔ ticks evs = i) := by
  have hi := reach_inv hc hr
  obtain ⟨i, h1, h2⟩ := window_unique (s.tick.toNat % 2 ^ c.pw) (sharers c s p) (turn c s p) (sharers_pos hp)
    (turn_lt_sharers hp)
  refine ⟨i, h1, ?_⟩
  intro evs s' hrun ht
  have hprio : ∀ q, (s'.task q).prio = (s.task q).prio := fun q => (stack_bounds_constant hc hr hrun q).2.2
  unfold HasTurn
  rw [sharers_congr hprio, turn_congr hprio, tick_after hc evs s s' hi hrun, turn_counter s.tick _ ht hw]
  exact h2 _ ht

-- two tasks share priority 1 in the demo
example : Reach Demo.cfg Demo.started ∧ sharers Demo.cfg Demo.started 1 = 2 ∧ (2 ∣ 2 ^ Demo.cfg.pw ∧ 2 ∣ 2 ^ Demo.cfg.tw) :=
  ⟨⟨true, Demo.adds, [], _, rfl, rfl⟩, by decide, by decide, by decide⟩

/-- three tasks of the same priority -/
def Demo.adds3 : List (Desc × Nat) := [(Demo.desc 1, 0), (Demo.desc 2, 0), (Demo.desc 3, 0)]

/-- sixteen ticks, each with the stack pointer of the task whose turn it is -/
def Demo.ticks16 : List (Ev Demo.cfg.tw) :=
  [5, 105, 205, 305, 105, 205, 305, 105, 205, 305, 105, 205, 305, 105, 205, 305].map (Demo.ev .tick)

set_option maxRecDepth 20000 in
/-- C13 is false across a wrap of the tick counter: with three tasks and a 16-tick period, after 16 and 17
ticks the same task has its turn. -/
theorem round_robin_wrap : ∃ s0 s1 s2, boot Demo.cfg true Demo.adds3 = .ok s0 ∧ run Demo.cfg s0 Demo.ticks16 = .ok s1 ∧
    run Demo.cfg s1 [Demo.ev .tick 105] = .ok s2 ∧ HasTurn Demo.cfg s1 0 ∧ HasTurn Demo.cfg s2 0 ∧
    sharers Demo.cfg s0 0 = 3 :=
  ⟨_, _, _, rfl, rfl, rfl, by unfold HasTurn; decide, by unfold HasTurn; decide, by decide⟩

/-! ## C18: postponing -/

/-- C18. `picoRTOS_postpone` leaves the caller ready and the tick unchanged. It hands over to the eligible task
of smallest pid above the caller's if there is one, else to the most urgent eligible task (possibly the
caller); never to idle. -/
theorem postpone_selects {c : Cfg} (hc : c.WF) {s s1 : Core c.tw} {e : Ev c.tw} {o : Out c.tw}
    (hr : Reach c s) (hcall : e.call = .postpone) (hs : step c s e = .ok (s1, o)) :
    (s1.task s.index).state = .ready ∧ s1.tick = s.tick ∧ s1.index < c.N ∧ Eligible c s1 s1.index ∧
    ((∃ q, s.index < q ∧ Eligible c s1 q) → s.index < s1.index ∧ ∀ q, s.index < q → q < s1.index → ¬ Eligible c s1 q) ∧
    ((∀ q, s.index < q → ¬ Eligible c s1 q) → s1.index ≤ s.index ∧ ∀ q, q < s1.index → ¬ Eligible c s1 q) := by
  have hi := reach_inv hc hr
  obtain ⟨_, hi1, _, hcase⟩ := step_cases hc hi hs
  rcases hcase with ⟨ht, _⟩ | ⟨_, hu, r, _⟩
  · rw [hcall] at ht; cases ht
  have hst : (s1.task s.index).state = .ready := by rw [r.curState, hcall]; exact hi.av.1
  have hav : Avail c s1 s.index := by
    refine ⟨hst, ?_⟩
    rw [r.sub, r.tick, (r.static _).prio, (r.static _).subPrio]; exact hi.av.2
  have hgo := r.goes
  have hp : callerPost s e.call = true := by rw [hcall]; rfl
  rw [hp] at hgo
  have hlt : s1.index < c.N := by
    generalize s1.index = j at hgo
    generalize s1.postponed = b at hgo
    cases hgo with
    | next h1 h2 h3 h4 h5 =>
      rcases Nat.lt_or_ge j c.N with h | h
      · exact h
      · have := h5 (by omega); cases this
    | wrap h1 h2 h3 h4 h5 =>
      rcases Nat.lt_or_ge s.index j with h | h
      · exact absurd hav (h5 _ h)
      · omega
  have el := fun q => hi1.eligible_iff q
  refine ⟨hst, r.tick, hlt, (el _).2 ⟨hlt, hi1.av⟩, ?_, ?_⟩
  · rintro ⟨q, q1, q2⟩
    generalize s1.index = j at hgo
    generalize s1.postponed = b at hgo
    cases hgo with
    | next h1 h2 h3 h4 h5 => exact ⟨h1, fun q' a b h => h4 q' a b ((el q').1 h).2⟩
    | wrap h1 h2 h3 h4 h5 => exact absurd ((el q).1 q2).2 (h2 q q1 ((el q).1 q2).1)
  · intro hno
    generalize hj : s1.index = j at hgo
    generalize s1.postponed = b at hgo
    cases hgo with
    | next h1 h2 h3 h4 h5 => exact absurd ((el j).2 ⟨by omega, h3⟩) (hno j h1)
    | wrap h1 h2 h3 h4 h5 =>
      refine ⟨?_, fun q a h => h5 q a ((el q).1 h).2⟩
      rcases Nat.lt_or_ge s.index j with h | h
      · exact absurd hav (h5 _ h)
      · exact h

/-- the postponed task `p` is ahead, at most `m` syscalls away -/
theorem postponed_ahead {c : Cfg} (hc : c.WF) (p : Nat) (hp : p < c.N) : ∀ (evs : List (Ev c.tw)) (s s2 : Core c.tw) (m : Nat),
    Inv c s → Avail c s p →
    (s.index < p ∧ m = p - s.index ∨ s.postponed = true ∧ p < s.index ∧ s.index < c.N ∧ m = (c.N - s.index) + p) →
    ticks evs = 0 → run c s evs = .ok s2 →
    (∃ pre post sm, evs = pre ++ post ∧ run c s pre = .ok sm ∧ sm.index = p) ∨ (evs.length < m ∧ s2.index < c.N) := by
  intro evs
  induction evs with
  | nil =>
    intro s s2 m hi hav hJ _ h
    simp [run] at h; subst h
    right; rcases hJ with ⟨a, b⟩ | ⟨_, a, b, d⟩
    · exact ⟨by simp; omega, by omega⟩
    · exact ⟨by simp; omega, b⟩
  | cons e es ih =>
    intro s s2 m hi hav hJ ht h
    obtain ⟨s1, o, h1, h2⟩ := run_cons h
    obtain ⟨_, hi1, _, hcase⟩ := step_cases hc hi h1
    have htc : e.call ≠ .tick ∧ ticks es = 0 := by
      unfold ticks at ht ⊢
      rw [List.countP_eq_zero] at ht ⊢
      exact ⟨by simpa using ht e (by simp), fun a ha => ht a (by simp [ha])⟩
    rcases hcase with ⟨h3, _⟩ | ⟨_, hu, r, _⟩
    · exact absurd h3 htc.1
    have hne : p ≠ s.index := by rcases hJ with ⟨a, _⟩ | ⟨_, a, _, _⟩ <;> omega
    have hav1 : Avail c s1 p := by
      unfold Avail AvailT at hav ⊢
      rw [r.sub, r.tick, (r.other p hne).2, (r.static p).prio, (r.static p).subPrio]; exact hav
    have hgo := r.goes
    have hfin : s1.index = p ∨ ∃ m', m' < m ∧ (s1.index < p ∧ m' = p - s1.index ∨
        s1.postponed = true ∧ p < s1.index ∧ s1.index < c.N ∧ m' = (c.N - s1.index) + p) := by
      rcases hJ with ⟨a, b⟩ | ⟨a, b, d, f⟩
      · generalize s1.index = j at hgo ⊢
        generalize s1.postponed = fl at hgo ⊢
        cases hgo with
        | next g1 g2 g3 g4 g5 =>
          rcases Nat.lt_trichotomy j p with h4 | h4 | h4
          · right; exact ⟨p - j, by omega, .inl ⟨h4, rfl⟩⟩
          · left; exact h4
          · exact absurd hav1 (g4 p a h4)
        | wrap g1 g2 g3 g4 g5 => exact absurd hav1 (g2 p a hp)
      · have hcp : callerPost s e.call = true := by
          unfold callerPost; split <;> first | rfl | exact a
        rw [hcp] at hgo
        generalize s1.index = j at hgo ⊢
        generalize s1.postponed = fl at hgo ⊢
        cases hgo with
        | next g1 g2 g3 g4 g5 =>
          right
          have : j ≠ c.N := fun h => by have := g5 h; cases this
          exact ⟨(c.N - j) + p, by omega, .inr ⟨rfl, by omega, by omega, rfl⟩⟩
        | wrap g1 g2 g3 g4 g5 =>
          rcases Nat.lt_trichotomy j p with h4 | h4 | h4
          · right; exact ⟨p - j, by omega, .inl ⟨h4, rfl⟩⟩
          · left; exact h4
          · exact absurd hav1 (g5 p h4)
    rcases hfin with h4 | ⟨m', h4, h5⟩
    · left
      exact ⟨[e], es, s1, rfl, by simp [run, h1], h4⟩
    · rcases ih s1 s2 m' hi1 hav1 h5 htc.2 h2 with ⟨pre, post, sm, g1, g2, g3⟩ | ⟨g1, g2⟩
      · left
        refine ⟨e :: pre, post, sm, by rw [g1]; rfl, ?_, g3⟩
        simp [run, h1, g2]
      · right; exact ⟨by simp; omega, g2⟩

/-- C18. After `picoRTOS_postpone`, and as long as there is no tick, idle does not run before the caller
has run again, and the caller runs again after at most `2 * CONFIG_TASK_COUNT` syscalls. -/
theorem postponed_runs_again {c : Cfg} (hc : c.WF) {s s1 s2 : Core c.tw} {e : Ev c.tw} {o : Out c.tw} {evs : List (Ev c.tw)}
    (hr : Reach c s) (hcall : e.call = .postpone) (hs : step c s e = .ok (s1, o))
    (hrun : run c s1 evs = .ok s2) (ht : ticks evs = 0) (hend : s2.index = c.N ∨ 2 * c.N ≤ evs.length) :
    ∃ pre post sm, evs = pre ++ post ∧ run c s1 pre = .ok sm ∧ sm.index = s.index := by
  have hi := reach_inv hc hr
  obtain ⟨_, hi1, _, hcase⟩ := step_cases hc hi hs
  obtain ⟨p1, p2, p3, p4, _, _⟩ := postpone_selects hc hr hcall hs
  rcases hcase with ⟨ht, _⟩ | ⟨_, hu, r, _⟩
  · rw [hcall] at ht; cases ht
  have hav : Avail c s1 s.index := by
    refine ⟨p1, ?_⟩
    rw [r.sub, r.tick, (r.static _).prio, (r.static _).subPrio]; exact hi.av.2
  have hgo := r.goes
  have hp : callerPost s e.call = true := by rw [hcall]; rfl
  rw [hp] at hgo
  have hfin : s1.index = s.index ∨ ∃ m', m' ≤ 2 * c.N ∧ (s1.index < s.index ∧ m' = s.index - s1.index ∨
      s1.postponed = true ∧ s.index < s1.index ∧ s1.index < c.N ∧ m' = (c.N - s1.index) + s.index) := by
    generalize s1.index = j at hgo p3 ⊢
    generalize s1.postponed = fl at hgo ⊢
    cases hgo with
    | next g1 g2 g3 g4 g5 => right; exact ⟨_, by omega, .inr ⟨rfl, g1, p3, rfl⟩⟩
    | wrap g1 g2 g3 g4 g5 =>
      rcases Nat.lt_trichotomy j s.index with h4 | h4 | h4
      · right; exact ⟨_, by omega, .inl ⟨h4, rfl⟩⟩
      · left; exact h4
      · exact absurd hav (g5 _ h4)
  rcases hfin with h4 | ⟨m', h4, h5⟩
  · exact ⟨[], evs, s1, rfl, rfl, h4⟩
  · rcases postponed_ahead hc s.index hu evs s1 s2 m' hi1 hav h5 ht hrun with h6 | ⟨h6, h7⟩
    · exact h6
    · exfalso; rcases hend with h8 | h8 <;> omega

-- pid 0 postpones; pid 1 runs, then sleeps; pid 0 runs again; idle only runs after pid 0 sleeps
example : ∃ r, step Demo.cfg (Demo.after Demo.h1) (Demo.ev .postpone 205) = .ok r ∧ r.1.index = 1 ∧
    ∃ s2, run Demo.cfg r.1 [Demo.ev (.sleep 3) 105] = .ok s2 ∧ s2.index = 0 ∧
    ∃ s3, run Demo.cfg r.1 [Demo.ev (.sleep 3) 105, Demo.ev (.sleep 3) 205] = .ok s3 ∧ s3.index = 3 :=
  ⟨_, rfl, by decide, _, rfl, by decide, _, rfl, by decide⟩

/-! ## C22: statistics -/

/-- The durations sampled for task `p` along a history: one per event at which it was running (values of
`picoRTOS_cycles_t`). -/
def samples (c : Cfg) (p : Nat) : Core c.tw → List (Ev c.tw) → List Nat
  | _, [] => []
  | s, e :: es =>
    match step c s e with
    | .ok (s', _) => if s.index = p then (e.since % 2 ^ c.cw) :: samples c p s' es else samples c p s' es
    | _ => []

theorem stats_fold {c : Cfg} (hc : c.WF) (p : Nat) : ∀ (evs : List (Ev c.tw)) (s s' : Core c.tw), Inv c s → run c s evs = .ok s' →
    (s'.task p).statLo = (samples c p s evs).foldl min (s.task p).statLo ∧
    (s'.task p).statHi = (samples c p s evs).foldl max (s.task p).statHi := by
  intro evs
  induction evs with
  | nil => intro s s' _ h; simp [run] at h; subst h; exact ⟨rfl, rfl⟩
  | cons e es ih =>
    intro s s' hi h
    obtain ⟨s1, o, h1, h2⟩ := run_cons h
    obtain ⟨_, hi1, _, hcase⟩ := step_cases hc hi h1
    have hh : samples c p s (e :: es) =
        if s.index = p then (e.since % 2 ^ c.cw) :: samples c p s1 es else samples c p s1 es := by
      rw [samples, h1]
    rw [(ih s1 s' hi1 h2).1, (ih s1 s' hi1 h2).2, hh]
    by_cases hp : s.index = p
    · have hlohi : (s1.task p).statLo = (statFinish c (s.task p) e.since).statLo ∧
          (s1.task p).statHi = (statFinish c (s.task p) e.since).statHi := by
        rcases hcase with ⟨_, r⟩ | ⟨_, _, r, _⟩
        · rw [← hp]; exact ⟨r.curLo, r.curHi⟩
        · rw [← hp]; exact ⟨r.curLo, r.curHi⟩
      rw [if_pos hp, hlohi.1, hlohi.2]
      simp only [List.foldl_cons, statFinish]
      constructor
      · congr 1; rw [Nat.min_def]; split <;> split <;> omega
      · congr 1; rw [Nat.max_def]; split <;> split <;> omega
    · rw [if_neg hp]
      rcases hcase with ⟨_, r⟩ | ⟨_, _, r, _⟩
      · rw [(r.other p (Ne.symm hp)).statLo, (r.other p (Ne.symm hp)).statHi]; exact ⟨rfl, rfl⟩
      · rw [(r.other p (Ne.symm hp)).1.statLo, (r.other p (Ne.symm hp)).1.statHi]; exact ⟨rfl, rfl⟩

theorem foldl_min_spec : ∀ (l : List Nat) (a : Nat),
    l.foldl min a ≤ a ∧ (∀ v ∈ l, l.foldl min a ≤ v) ∧ (l.foldl min a = a ∨ l.foldl min a ∈ l) := by
  intro l
  induction l with
  | nil => intro a; exact ⟨Nat.le_refl _, fun v h => (by cases h), .inl rfl⟩
  | cons x l ih =>
    intro a
    obtain ⟨h1, h2, h3⟩ := ih (min a x)
    rw [List.foldl_cons]
    refine ⟨by omega, ?_, ?_⟩
    · intro v hv
      rcases List.mem_cons.1 hv with rfl | hv
      · omega
      · exact h2 v hv
    · rcases h3 with h3 | h3
      · rw [h3]
        by_cases h : a ≤ x
        · left; omega
        · right; rw [show min a x = x by omega]; exact List.mem_cons_self
      · right; exact List.mem_cons_of_mem _ h3

theorem foldl_max_spec : ∀ (l : List Nat) (a : Nat),
    a ≤ l.foldl max a ∧ (∀ v ∈ l, v ≤ l.foldl max a) ∧ (l.foldl max a = a ∨ l.foldl max a ∈ l) := by
  intro l
  induction l with
  | nil => intro a; exact ⟨Nat.le_refl _, fun v h => (by cases h), .inl rfl⟩
  | cons x l ih =>
    intro a
    obtain ⟨h1, h2, h3⟩ := ih (max a x)
    rw [List.foldl_cons]
    refine ⟨by omega, ?_, ?_⟩
    · intro v hv
      rcases List.mem_cons.1 hv with rfl | hv
      · omega
      · exact h2 v hv
    · rcases h3 with h3 | h3
      · rw [h3]
        by_cases h : x ≤ a
        · left; omega
        · right; rw [show max a x = x by omega]; exact List.mem_cons_self
      · right; exact List.mem_cons_of_mem _ h3

theorem samples_lt {c : Cfg} (p : Nat) : ∀ (evs : List (Ev c.tw)) (s : Core c.tw), ∀ v ∈ samples c p s evs, v < 2 ^ c.cw := by
  intro evs
  induction evs with
  | nil => intro s v h; cases h
  | cons e es ih =>
    intro s v h
    rw [samples] at h
    split at h
    · split at h
      · rcases List.mem_cons.1 h with rfl | h
        · exact Nat.mod_lt _ (Nat.two_pow_pos _)
        · exact ih _ v h
      · exact ih _ v h
    · cases h

/-- C22. Once a task has been sampled, its watermarks bound every sample since the start and are themselves
samples. -/
theorem watermarks_tight {c : Cfg} (hc : c.WF) {strict : Bool} {adds : List (Desc × Nat)} {s0 s : Core c.tw}
    {evs : List (Ev c.tw)} (hb : boot c strict adds = .ok s0) (hrun : run c s0 evs = .ok s) (p : Nat) (hp : p ≤ c.N) :
    (∀ v ∈ samples c p s0 evs, (s.task p).statLo ≤ v ∧ v ≤ (s.task p).statHi) ∧
    (samples c p s0 evs ≠ [] → (s.task p).statLo ∈ samples c p s0 evs ∧ (s.task p).statHi ∈ samples c p s0 evs) := by
  have hi0 := boot_inv hc hb
  obtain ⟨h1, h2⟩ := stats_fold hc p evs s0 s hi0 hrun
  have hinit : (s0.task p).statLo = 2 ^ c.cw - 1 ∧ (s0.task p).statHi = 0 := by
    obtain ⟨hpr, hl⟩ := boot_legal hc hb
    obtain ⟨f, g, hf, _, rfl⟩ := boot_shape hc hb
    show (numbered f c.N p).statLo = _ ∧ (numbered f c.N p).statHi = _
    unfold numbered
    split
    · rename_i h; exact ⟨(hf.fresh p h).2.2.1, (hf.fresh p h).2.2.2.1⟩
    · have : p = c.N := by omega
      rw [this, hf.idle]; exact ⟨rfl, rfl⟩
  rw [hinit.1] at h1; rw [hinit.2] at h2
  obtain ⟨a1, a2, a3⟩ := foldl_min_spec (samples c p s0 evs) (2 ^ c.cw - 1)
  obtain ⟨b1, b2, b3⟩ := foldl_max_spec (samples c p s0 evs) 0
  rw [← h1] at a1 a2 a3; rw [← h2] at b1 b2 b3
  have hlt := samples_lt p evs s0
  refine ⟨fun v hv => ⟨a2 v hv, b2 v hv⟩, ?_⟩
  intro hne
  obtain ⟨x, hx⟩ := List.exists_mem_of_ne_nil _ hne
  constructor
  · rcases a3 with h | h
    · have := a2 x hx; have := hlt x hx
      rw [show (s.task p).statLo = x by omega]; exact hx
    · exact h
  · rcases b3 with h | h
    · have := b2 x hx
      rw [show (s.task p).statHi = x by omega]; exact hx
    · exact h

-- pid 0 is sampled twice, with 7 and 20 cycles
example : samples Demo.cfg 0 Demo.started [Demo.ev .tick 5, { Demo.ev .tick 205 with since := 20 }, Demo.ev .tick 205] = [20, 7] ∧
    ∃ s, run Demo.cfg Demo.started [Demo.ev .tick 5, { Demo.ev .tick 205 with since := 20 }, Demo.ev .tick 205] = .ok s ∧
    (s.task 0).statLo = 7 ∧ (s.task 0).statHi = 20 := ⟨by decide, _, rfl, by decide, by decide⟩

end Pico.Sched
