import Verif.Sched.Props1

/-! # Properties of the single-core scheduler, part 2: progress, context, stacks, tick count -/

namespace Pico.Sched

/-- C07. A tick with a valid stack pointer always completes. -/
theorem tick_never_stalls {c : Cfg} (hc : c.WF) {s : Core c.tw} {e : Ev c.tw} (hr : Reach c s)
    (ht : e.call = .tick) (hsp : SpOk s e.sp) : ∃ r, step c s e = .ok r := by
  obtain ⟨s', h1, _⟩ := tickFn_spec hc s e (reach_inv hc hr) hsp
  have hst : step c s e = tickFn c s e := by unfold step; rw [ht]
  exact ⟨_, hst.trans h1⟩

/-- C07. A syscall made by a user task with a valid stack pointer (and a positive period for
`picoRTOS_sleep_until`) always completes. -/
theorem syscall_never_stalls {c : Cfg} (hc : c.WF) {s : Core c.tw} {e : Ev c.tw} (hr : Reach c s)
    (hu : s.index < c.N) (ht : e.call ≠ .tick) (hsp : SpOk s e.sp)
    (hper : ∀ ref period, e.call = .sleepUntil ref period → 0 < period.toNat) : ∃ r, step c s e = .ok r := by
  obtain ⟨s', h1, _⟩ := syscall_spec hc s e (reach_inv hc hr) hsp hu ht
  exact ⟨_, (step_syscall (reach_inv hc hr) e ht hper).trans h1⟩

/-- C07. No event is ever undefined behaviour (no access outside the tables, no modulo by zero), whatever
its arguments; after a successful one a ready task, or idle, is selected. -/
theorem step_never_undefined {c : Cfg} (hc : c.WF) {s : Core c.tw} (e : Ev c.tw) (hr : Reach c s) :
    step c s e ≠ .ub ∧
    ∀ s' o, step c s e = .ok (s', o) → s'.index ≤ c.N ∧ (s'.task s'.index).state = .ready := by
  have hi := reach_inv hc hr
  refine ⟨?_, ?_⟩
  · by_cases hsp : SpOk s e.sp
    · by_cases ht : e.call = .tick
      · obtain ⟨r, h⟩ := tick_never_stalls hc hr ht hsp
        rw [h]; simp
      · by_cases hper : ∀ ref period, e.call = .sleepUntil ref period → 0 < period.toNat
        · rcases Nat.lt_or_ge s.index c.N with hu | hu
          · obtain ⟨r, h⟩ := syscall_never_stalls hc hr hu ht hsp hper
            rw [h]; simp
          · rw [step_syscall hi e ht hper, syscall_idle hc s e (by have := hi.idx; omega)]; simp
        · have : ∃ ref period, e.call = .sleepUntil ref period ∧ ¬ 0 < period.toNat := by
            cases hcall : e.call with
            | sleepUntil r p =>
              refine ⟨r, p, rfl, fun hp => hper ?_⟩
              intro r' p' h; rw [hcall] at h; injection h with _ h2; rw [← h2]; exact hp
            | tick => exact absurd (fun r p h => by rw [hcall] at h; cases h) hper
            | sleep d => exact absurd (fun r p h => by rw [hcall] at h; cases h) hper
            | kill => exact absurd (fun r p h => by rw [hcall] at h; cases h) hper
            | postpone => exact absurd (fun r p h => by rw [hcall] at h; cases h) hper
          obtain ⟨r, p, hcall, hp⟩ := this
          unfold step; rw [hcall]; simp [hp]
    · unfold step
      cases hcall : e.call with
      | tick => simp only []; rw [tickFn_badSp s e hsp]; simp
      | sleepUntil r p =>
        simp only [hi.running, syscall_badSp s e hsp]
        cases decide (p.toNat > 0) <;> simp
      | sleep _ => simp [hi.running, syscall_badSp s e hsp]
      | kill => simp [hi.running, syscall_badSp s e hsp]
      | postpone => simp [hi.running, syscall_badSp s e hsp]
  · intro s' o h
    obtain ⟨_, hi', _⟩ := step_cases hc hi h
    exact ⟨hi'.idx, hi'.av.1⟩

/-- C07. A syscall made by the idle task stalls the system. -/
theorem idle_syscall_stalls {c : Cfg} (hc : c.WF) {s : Core c.tw} {e : Ev c.tw} (hr : Reach c s)
    (hN : s.index = c.N) (ht : e.call ≠ .tick) : step c s e = .fatal := by
  have hi := reach_inv hc hr
  have h1 := syscall_idle hc s e hN
  unfold step
  cases hcall : e.call with
  | tick => exact absurd hcall ht
  | sleepUntil r p => simp only [hi.running, h1]; cases decide (p.toNat > 0) <;> rfl
  | sleep _ => simp [hi.running, h1]
  | kill => simp [hi.running, h1]
  | postpone => simp [hi.running, h1]

-- a reachable state with a valid stack pointer, and a reachable idle state
example : Reach Demo.cfg (Demo.after Demo.h1) ∧ SpOk (Demo.after Demo.h1) 205 ∧ (Demo.after Demo.h1).index < Demo.cfg.N :=
  ⟨Demo.reach_h1, ⟨by decide, by decide⟩, by decide⟩
example : Reach Demo.cfg Demo.started ∧ Demo.started.index = Demo.cfg.N :=
  ⟨⟨true, Demo.adds, [], _, rfl, rfl⟩, by decide⟩

/-- The stack pointers a task handed over when it was suspended, in order: one per event at which
`p` was running. -/
def handedOver (c : Cfg) (p : Nat) : Core c.tw → List (Ev c.tw) → List Nat
  | _, [] => []
  | s, e :: es =>
    match step c s e with
    | .ok (s', _) => if s.index = p then e.sp :: handedOver c p s' es else handedOver c p s' es
    | _ => []

/-- C08. The stack pointer a task will be resumed with is the one it handed over last, or
the one it had at the beginning of the history if it did not run since; and the pointer given to the
context switch code is that of the selected task. -/
theorem resumed_where_suspended {c : Cfg} (hc : c.WF) {s s' : Core c.tw} {evs : List (Ev c.tw)} (hr : Reach c s)
    (hrun : run c s evs = .ok s') (p : Nat) :
    (s'.task p).sp = ((handedOver c p s evs).getLast?).getD (s.task p).sp := by
  have key : ∀ (evs : List (Ev c.tw)) (s s' : Core c.tw), Inv c s → run c s evs = .ok s' →
      (s'.task p).sp = ((handedOver c p s evs).getLast?).getD (s.task p).sp := by
    intro evs
    induction evs with
    | nil => intro s s' _ h; simp [run] at h; subst h; rfl
    | cons e es ih =>
      intro s s' hi h
      obtain ⟨s1, o, h1, h2⟩ := run_cons h
      obtain ⟨_, hi1, _, hcase⟩ := step_cases hc hi h1
      have hsp : (s1.task p).sp = if s.index = p then e.sp else (s.task p).sp := by
        rcases hcase with ⟨_, r⟩ | ⟨_, _, r, _⟩
        · split
          · rename_i hp; rw [← hp]; exact r.curSp
          · rename_i hp; exact (r.other p (fun h => hp h.symm)).sp
        · split
          · rename_i hp; rw [← hp]; exact r.curSp
          · rename_i hp; exact (r.other p (fun h => hp h.symm)).1.sp
      rw [ih s1 s' hi1 h2, hsp]
      have hh : handedOver c p s (e :: es) =
          if s.index = p then e.sp :: handedOver c p s1 es else handedOver c p s1 es := by
        rw [handedOver, h1]
      rw [hh]
      split
      · rw [List.getLast?_cons]; simp
      · rfl
  exact key evs s s' (reach_inv hc hr) hrun

/-- C08. The pointer returned to the context switch code is the selected task's; on the first
switch to a task it is the one prepared by `arch_prepare_stack` for a task the user added. -/
theorem resumed_with_selected {c : Cfg} (hc : c.WF) {s s' : Core c.tw} {e : Ev c.tw} {o : Out c.tw} (hr : Reach c s)
    (hs : step c s e = .ok (s', o)) : o.sp = (s'.task s'.index).sp :=
  (step_cases hc (reach_inv hc hr) hs).2.2.1

theorem first_sp_is_prepared {c : Cfg} (hc : c.WF) {strict : Bool} {adds : List (Desc × Nat)} {s : Core c.tw}
    (h : boot c strict adds = .ok s) (p : Nat) (hp : p < adds.length) :
    ∃ a ∈ adds, (s.task p).sp = c.prep a.1.stack a.1.stackCount a.1.fn a.1.priv ∧
      (s.task p).bottom = a.1.stack ∧ (s.task p).top = a.1.stack + a.1.stackCount ∧ (s.task p).prio = a.2 := by
  obtain ⟨hpr, hl⟩ := boot_legal hc h
  obtain ⟨f, g, hf, _, rfl⟩ := boot_shape hc h
  obtain ⟨a, h1, h2⟩ := hf.used hc hl hpr p hp
  refine ⟨a, h1, ?_⟩
  show (numbered f c.N p).sp = _ ∧ (numbered f c.N p).bottom = _ ∧ (numbered f c.N p).top = _ ∧ (numbered f c.N p).prio = _
  unfold numbered; rw [if_pos (by omega), h2]; exact ⟨rfl, rfl, rfl, rfl⟩

-- pid 0 is suspended at 205 by its sleep, resumed at 205 although pid 1 and 2 ran in between
example : ∃ s2, run Demo.cfg (Demo.after Demo.h1) [Demo.ev (.sleep 2) 205, Demo.ev .tick 107, Demo.ev .tick 309] = .ok s2 ∧
    s2.index = 0 ∧ (s2.task 0).sp = 205 ∧ (s2.task 1).sp = 107 ∧ (s2.task 2).sp = 309 :=
  ⟨_, rfl, by decide, by decide, by decide, by decide⟩

/-- C09. An event with a stack pointer outside the running task's stack stalls the system; the
stack bounds of a task never change after the start. -/
theorem stack_overflow_stalls {c : Cfg} (hc : c.WF) {s : Core c.tw} {e : Ev c.tw} (hr : Reach c s) (hsp : ¬ SpOk s e.sp) :
    step c s e = .fatal := by
  have hi := reach_inv hc hr
  unfold step
  cases hcall : e.call with
  | tick => exact tickFn_badSp s e hsp
  | sleepUntil r p =>
    simp only [hi.running, syscall_badSp s e hsp]
    cases decide (p.toNat > 0) <;> simp
  | sleep _ => simp [hi.running, syscall_badSp s e hsp]
  | kill => simp [hi.running, syscall_badSp s e hsp]
  | postpone => simp [hi.running, syscall_badSp s e hsp]

theorem stack_bounds_constant {c : Cfg} (hc : c.WF) {s s' : Core c.tw} {evs : List (Ev c.tw)} (hr : Reach c s)
    (hrun : run c s evs = .ok s') (p : Nat) :
    (s'.task p).bottom = (s.task p).bottom ∧ (s'.task p).top = (s.task p).top ∧ (s'.task p).prio = (s.task p).prio := by
  have key : ∀ (evs : List (Ev c.tw)) (s s' : Core c.tw), Inv c s → run c s evs = .ok s' →
      SameStatic (s.task p) (s'.task p) := by
    intro evs
    induction evs with
    | nil => intro s s' _ h; simp [run] at h; subst h; exact (SameTask.refl _).toSameStatic
    | cons e es ih =>
      intro s s' hi h
      obtain ⟨s1, o, h1, h2⟩ := run_cons h
      obtain ⟨_, hi1, _, hcase⟩ := step_cases hc hi h1
      have h3 := ih s1 s' hi1 h2
      have h4 : SameStatic (s.task p) (s1.task p) := by
        rcases hcase with ⟨_, r⟩ | ⟨_, _, r, _⟩
        · exact r.static p
        · exact r.static p
      exact ⟨h3.prio.trans h4.prio, h3.subPrio.trans h4.subPrio, h3.bottom.trans h4.bottom, h3.top.trans h4.top,
        h3.count.trans h4.count⟩
  have := key evs s s' (reach_inv hc hr) hrun
  exact ⟨this.bottom, this.top, this.prio⟩

example : ¬ SpOk (Demo.after Demo.h1) 199 ∧ ¬ SpOk (Demo.after Demo.h1) 250 := by
  constructor <;> (unfold SpOk; decide)

/-- C10. `picoRTOS_get_tick` is the number of ticks since the start minus one, modulo the width of
`picoRTOS_tick_t`. -/
theorem get_tick_counts_ticks {c : Cfg} (hc : c.WF) {strict : Bool} {adds : List (Desc × Nat)} {s0 s : Core c.tw}
    {evs : List (Ev c.tw)} (hb : boot c strict adds = .ok s0) (hrun : run c s0 evs = .ok s) :
    ∃ t, getTick c s = .ok t ∧ t.toNat = (ticks evs + (2 ^ c.tw - 1)) % 2 ^ c.tw := by
  have key : ∀ (evs : List (Ev c.tw)) (s s' : Core c.tw), Inv c s → run c s evs = .ok s' →
      s'.tick = s.tick + BitVec.ofNat c.tw (ticks evs) := by
    intro evs
    induction evs with
    | nil => intro s s' _ h; simp [run] at h; subst h; simp [ticks]
    | cons e es ih =>
      intro s s' hi h
      obtain ⟨s1, o, h1, h2⟩ := run_cons h
      obtain ⟨_, hi1, _, hcase⟩ := step_cases hc hi h1
      rw [ih s1 s' hi1 h2]
      rcases hcase with ⟨ht, r⟩ | ⟨ht, _, r, _⟩
      · have : ticks (e :: es) = ticks es + 1 := by
          unfold ticks; rw [List.countP_cons_of_pos]; simpa using ht
        rw [r.tick, this, BitVec.ofNat_add]
        have h1 : BitVec.ofNat c.tw 1 = 1 := rfl
        rw [h1]; grind
      · have : ticks (e :: es) = ticks es := by
          unfold ticks; rw [List.countP_cons_of_neg]; simpa using ht
        rw [r.tick, this]
  have hi := boot_inv hc hb
  have hi' := inv_run hc evs s0 s hi hrun
  refine ⟨s.tick, ?_, ?_⟩
  · unfold getTick; rw [hi'.running]; rfl
  · rw [key evs s0 s hi hrun]
    obtain ⟨f, g, hf, _, rfl⟩ := boot_shape hc hb
    show ((-1 : BitVec c.tw) + _).toNat = _
    rw [BitVec.toNat_add, BitVec.toNat_neg, BitVec.toNat_ofNat]
    rcases Nat.eq_zero_or_pos c.tw with h0 | h0
    · have h2 : 2 ^ c.tw = 1 := by rw [h0]
      rw [h2]; omega
    · have h1 : (1 : BitVec c.tw).toNat = 1 := by
        have : (1 : BitVec c.tw) = BitVec.ofNat c.tw 1 := rfl
        rw [this, BitVec.toNat_ofNat]; apply Nat.mod_eq_of_lt
        exact Nat.one_lt_two_pow (by omega)
      rw [h1]
      have h2 : (2 ^ c.tw - 1) % 2 ^ c.tw = 2 ^ c.tw - 1 := Nat.mod_eq_of_lt (by have := Nat.two_pow_pos c.tw; omega)
      rw [h2, Nat.add_mod_mod, Nat.add_comm]

-- the first tick is 0; 17 ticks of a 4-bit counter wrap to 0
example : ∃ s t, run Demo.cfg Demo.started [Demo.ev .tick 5] = .ok s ∧ getTick Demo.cfg s = .ok t ∧ t.toNat = 0 :=
  ⟨_, _, rfl, rfl, by decide⟩

/-- C19. Before `picoRTOS_start` the API stalls; afterwards it is never the `running` check that does. -/
theorem api_before_start_stalls {c : Cfg} (hc : c.WF) {adds : List (Desc × Nat)} {s : Core c.tw}
    (h : addAll c (init c) adds = .ok s) (e : Ev c.tw) (ht : e.call ≠ .tick) :
    step c s e = .fatal ∧ self c s = .fatal ∧ getTick c s = .fatal ∧ suspendResume c s = .fatal := by
  rw [addAll_iff hc] at h
  by_cases hh : (∀ a ∈ adds, a.2 < c.N) ∧ adds.length ≤ c.N
  · rw [if_pos hh] at h; injection h with h; subst h
    have hr : (addedCore c adds).running = false := rfl
    refine ⟨?_, ?_, ?_, ?_⟩
    · unfold step
      cases hcall : e.call with
      | tick => exact absurd hcall ht
      | sleepUntil r p => simp only [hr]; cases decide (p.toNat > 0) <;> rfl
      | sleep _ => simp [hr]
      | kill => simp [hr]
      | postpone => simp [hr]
    · simp [self, hr]
    · simp [getTick, hr]
    · simp [suspendResume, hr]
  · rw [if_neg hh] at h; cases h

theorem api_after_start {c : Cfg} (hc : c.WF) {s : Core c.tw} (hr : Reach c s) :
    self c s = .ok s.index ∧ getTick c s = .ok s.tick ∧ suspendResume c s = .ok () := by
  have := (reach_inv hc hr).running
  simp [self, getTick, suspendResume, this]

theorem sleep_until_zero_period_stalls {c : Cfg} (s : Core c.tw) (e : Ev c.tw) (ref : BitVec c.tw)
    (h : e.call = .sleepUntil ref 0) : step c s e = .fatal := by
  unfold step; rw [h]; simp

example : ∃ s, addAll Demo.cfg (init Demo.cfg) Demo.adds = .ok s := ⟨_, rfl⟩

/-- C20. When a task stops running by itself (sleep, sleep_until, kill) and no task postponed since the
last tick, the next one is the eligible task of smallest pid above the caller's, or idle if there is none:
no eligible task in between is skipped, no more urgent task is run again. -/
theorem voluntary_switch_next {c : Cfg} (hc : c.WF) {s s' : Core c.tw} {e : Ev c.tw} {o : Out c.tw}
    (hr : Reach c s) (hcall : e.call ≠ .tick ∧ e.call ≠ .postpone) (hpost : s.postponed = false)
    (hs : step c s e = .ok (s', o)) :
    s.index < s'.index ∧ s'.index ≤ c.N ∧ (s'.index < c.N → Eligible c s' s'.index) ∧
    (∀ q, s.index < q → q < s'.index → ¬ Eligible c s' q) ∧ s'.postponed = false := by
  obtain ⟨_, hi', _, hcase⟩ := step_cases hc (reach_inv hc hr) hs
  rcases hcase with ⟨h, _⟩ | ⟨_, hu, r, _⟩
  · exact absurd h hcall.1
  have hp : callerPost s e.call = false := by
    cases h : e.call with
    | postpone => exact absurd h hcall.2
    | _ => exact hpost
  have hgo := r.goes
  rw [hp] at hgo
  generalize hj : s'.index = j at hgo ⊢
  generalize hb : s'.postponed = b at hgo ⊢
  cases hgo with
  | next h1 h2 h3 h4 h5 =>
    refine ⟨h1, h2, fun h => (hi'.eligible_iff _).2 ⟨h, h3⟩, ?_, rfl⟩
    intro q q1 q2 hq; exact h4 q q1 q2 ((hi'.eligible_iff q).1 hq).2
  | wrap h1 => cases h1

/-- C20. The postponed flag is clear after every tick. -/
theorem tick_clears_postponed {c : Cfg} (hc : c.WF) {s s' : Core c.tw} {e : Ev c.tw} {o : Out c.tw}
    (hr : Reach c s) (ht : e.call = .tick) (hs : step c s e = .ok (s', o)) : s'.postponed = false := by
  obtain ⟨_, _, _, hcase⟩ := step_cases hc (reach_inv hc hr) hs
  rcases hcase with ⟨_, r⟩ | ⟨h, _⟩
  · exact r.postponed
  · exact absurd ht h

-- pid 0 sleeps, pid 1 (whose turn it is) runs next, then idle since pid 2 must wait for its turn
example : ∃ r, step Demo.cfg (Demo.after Demo.h1) (Demo.ev (.sleep 3) 205) = .ok r ∧ r.1.index = 1 ∧
    (Demo.after Demo.h1).postponed = false ∧
    ∃ r2, step Demo.cfg r.1 (Demo.ev (.sleep 3) 105) = .ok r2 ∧ r2.1.index = 3 :=
  ⟨_, rfl, by decide, by decide, _, rfl, by decide⟩

end Pico.Sched
