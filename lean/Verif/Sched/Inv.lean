import Verif.Sched.Lemmas

/-! The invariant of the running system is preserved by every event. -/

namespace Pico.Sched

theorem range_split {a b : Nat} (h : a ≤ b) : List.range b = List.range a ++ List.range' a (b - a) := by
  have := List.range'_append_1 (s := 0) (m := a) (n := b - a)
  rw [Nat.zero_add, Nat.add_sub_cancel' h] at this
  rw [List.range_eq_range', List.range_eq_range', this]

theorem sharers_congr {c : Cfg} {s s' : Core c.tw} (h : ∀ q, (s'.task q).prio = (s.task q).prio) (p : Nat) :
    sharers c s' p = sharers c s p := by
  unfold sharers; simp only [h]

theorem turn_congr {c : Cfg} {s s' : Core c.tw} (h : ∀ q, (s'.task q).prio = (s.task q).prio) (p : Nat) :
    turn c s' p = turn c s p := by
  unfold turn; simp only [h]

theorem turn_lt_sharers {c : Cfg} {s : Core c.tw} {p : Nat} (hp : p < c.N) :
    turn c s p < sharers c s p := by
  unfold turn sharers
  have h1 := range_split (Nat.le_of_lt hp)
  rw [h1, List.filter_append, List.length_append]
  have h2 : 0 < ((List.range' p (c.N - p)).filter (fun q => decide ((s.task q).prio = (s.task p).prio))).length := by
    apply List.length_pos_of_mem (a := p)
    simp; omega
  omega

/-- two tasks of the same priority have different turns -/
theorem turn_inj {c : Cfg} {s : Core c.tw} {p q : Nat}
    (hpr : (s.task p).prio = (s.task q).prio) (ht : turn c s p = turn c s q) : p = q := by
  have aux : ∀ a b, a < b → (s.task a).prio = (s.task b).prio → turn c s a < turn c s b := by
    intro a b hab hp
    unfold turn
    have h1 := range_split (Nat.le_of_lt hab)
    rw [h1, List.filter_append, List.length_append, hp]
    have h2 : 0 < ((List.range' a (b - a)).filter (fun q => decide ((s.task q).prio = (s.task b).prio))).length := by
      apply List.length_pos_of_mem (a := a)
      simp [hp]; omega
    omega
  rcases Nat.lt_trichotomy p q with h | h | h
  · have := aux p q h hpr; omega
  · exact h
  · have := aux q p h hpr.symm; omega

theorem Inv.eligible_iff {c : Cfg} {s : Core c.tw} (h : Inv c s) (p : Nat) :
    Eligible c s p ↔ p < c.N ∧ Avail c s p := by
  unfold Eligible Avail AvailT
  constructor
  · rintro ⟨h1, h2, h3⟩
    have := h.subEq p h1 (h.userPrio p h1 (by rw [h2]; simp))
    rw [this.1, this.2]; exact ⟨h1, h2, h3⟩
  · rintro ⟨h1, h2, h3⟩
    have := h.subEq p h1 (h.userPrio p h1 (by rw [h2]; simp))
    rw [this.1, this.2] at h3; exact ⟨h1, h2, h3⟩

theorem inv_tick {c : Cfg} {s s' : Core c.tw} {e : Ev c.tw} (h : Inv c s) (r : TickRes c s e s') : Inv c s' := by
  have hp : ∀ q, (s'.task q).prio = (s.task q).prio := fun q => (r.static q).prio
  refine
    { running := r.running.trans h.running
      idx := r.idx
      av := r.av
      idleSt := ?_
      idlePrio := (hp _).trans h.idlePrio
      idleSub := (r.static _).subPrio.trans h.idleSub
      subIdle := by rw [r.sub]; exact h.subIdle
      userPrio := ?_
      subEq := ?_
      sorted := ?_
      post := ?_ }
  · rw [r.state _ (Nat.le_refl _), h.idleSt]; simp
  · intro p hpn hne
    rw [hp]; apply h.userPrio p hpn
    intro he; apply hne; rw [r.state p (by omega), he]; simp
  · intro p hpn hlt
    rw [hp] at hlt
    rw [hp, r.sub, (r.static p).subPrio, sharers_congr hp, turn_congr hp]
    exact h.subEq p hpn hlt
  · intro p q h1 h2; rw [hp, hp]; exact h.sorted p q h1 h2
  · intro hpp; rw [r.postponed] at hpp; exact absurd hpp (by simp)

theorem inv_sys {c : Cfg} {s s' : Core c.tw} {e : Ev c.tw} (h : Inv c s) (hu : s.index < c.N)
    (r : SysRes c s e s') : Inv c s' := by
  have hp : ∀ q, (s'.task q).prio = (s.task q).prio := fun q => (r.static q).prio
  have hidx : s'.index ≤ c.N ∧ Avail c s' s'.index := by
    have hg := r.goes
    generalize s'.index = j at hg ⊢
    generalize s'.postponed = b at hg
    cases hg with
    | next h1 h2 h3 h4 h5 => exact ⟨h2, h3⟩
    | wrap h1 h2 h3 h4 h5 => exact ⟨h3, h4⟩
  have hot := r.other c.N (by omega)
  refine
    { running := r.running.trans h.running
      idx := hidx.1
      av := hidx.2
      idleSt := hot.2.trans h.idleSt
      idlePrio := (hp _).trans h.idlePrio
      idleSub := (r.static _).subPrio.trans h.idleSub
      subIdle := by rw [r.sub]; exact h.subIdle
      userPrio := ?_
      subEq := ?_
      sorted := ?_
      post := ?_ }
  · intro p hpn hne
    rw [hp]; apply h.userPrio p hpn
    by_cases hq : p = s.index
    · subst hq; have := h.av.1; rw [this]; simp
    · rw [(r.other p hq).2] at hne; exact hne
  · intro p hpn hlt
    rw [hp] at hlt
    rw [hp, r.sub, (r.static p).subPrio, sharers_congr hp, turn_congr hp]
    exact h.subEq p hpn hlt
  · intro p q h1 h2; rw [hp, hp]; exact h.sorted p q h1 h2
  · have hav : ∀ q, q ≠ s.index → (Avail c s' q ↔ Avail c s q) := by
      intro q hq
      unfold Avail AvailT
      rw [r.sub, r.tick, (r.other q hq).2, (r.static q).prio, (r.static q).subPrio]
    have hg := r.goes
    intro hpp
    generalize hj : s'.index = j at hg ⊢
    rw [hpp] at hg
    generalize hb : callerPost s e.call = post at hg
    cases hg with
    | next h1 h2 h3 h4 h5 =>
      refine ⟨?_, ?_⟩
      · rcases Nat.lt_or_ge j c.N with hlt | hge
        · exact hlt
        · have := h5 (by omega); simp at this
      · cases hcall : e.call with
        | postpone =>
          refine ⟨s.index, h1, ?_⟩
          unfold Avail AvailT
          rw [r.sub, r.tick, r.curState, (r.static s.index).prio, (r.static s.index).subPrio, hcall]
          exact h.av
        | tick =>
          rw [hcall] at hb
          obtain ⟨_, q, hq1, hq2⟩ := h.post hb
          exact ⟨q, by omega, (hav q (by omega)).2 hq2⟩
        | sleep _ =>
          rw [hcall] at hb
          obtain ⟨_, q, hq1, hq2⟩ := h.post hb
          exact ⟨q, by omega, (hav q (by omega)).2 hq2⟩
        | sleepUntil _ _ =>
          rw [hcall] at hb
          obtain ⟨_, q, hq1, hq2⟩ := h.post hb
          exact ⟨q, by omega, (hav q (by omega)).2 hq2⟩
        | kill =>
          rw [hcall] at hb
          obtain ⟨_, q, hq1, hq2⟩ := h.post hb
          exact ⟨q, by omega, (hav q (by omega)).2 hq2⟩

/-- A syscall made while idle is running stalls. -/
theorem syscall_idle {c : Cfg} (hc : c.WF) (s : Core c.tw) (e : Ev c.tw) (hi : s.index = c.N) :
    syscall c s e = .fatal := by
  have hsw : ∀ (s0 : Core c.tw) pid since cur, s0.index = c.N → switchContext c s0 pid since cur = .fatal := by
    intro s0 pid since cur h0
    unfold switchContext
    have : ∀ s1 : Core c.tw, s1.index = c.N → nextAvail c (c.N + 2) s1 = .fatal := by
      intro s1 h1
      unfold nextAvail
      have h2 : (s1.index + 1) % 2 ^ c.pw = c.N + 1 := by
        rw [h1]; exact Nat.mod_eq_of_lt hc.fits
      simp [h2, Cfg.taskCount]
    show (nextAvail c (c.N + 2) (s0.setTask pid (statFinish c (s0.task pid) since)) >>= _) = _
    rw [this _ (by exact h0)]; rfl
  unfold syscall
  simp only []
  cases hb : decide ((s.task s.index).bottom ≤ e.sp)
  · rfl
  cases ht : decide (e.sp < (s.task s.index).top)
  · rfl
  simp only [assertFatal_true, Res.ok_bind]
  cases e.call with
  | tick => rfl
  | sleep d => simp only []; rw [hsw _ _ _ _ (by exact hi)]; rfl
  | sleepUntil r p => simp only []; rw [hsw _ _ _ _ (by exact hi)]; rfl
  | kill => simp only []; rw [hsw _ _ _ _ (by exact hi)]; rfl
  | postpone => simp only []; rw [hsw _ _ _ _ (by exact hi)]; rfl

theorem tickFn_badSp {c : Cfg} (s : Core c.tw) (e : Ev c.tw) (h : ¬ SpOk s e.sp) : tickFn c s e = .fatal := by
  unfold SpOk at h
  unfold tickFn
  by_cases h1 : (s.task s.index).bottom ≤ e.sp
  · have h2 : ¬ e.sp < (s.task s.index).top := fun h2 => h ⟨h1, h2⟩
    simp [h1, h2]
  · simp [h1]

theorem syscall_badSp {c : Cfg} (s : Core c.tw) (e : Ev c.tw) (h : ¬ SpOk s e.sp) : syscall c s e = .fatal := by
  unfold SpOk at h
  unfold syscall
  by_cases h1 : (s.task s.index).bottom ≤ e.sp
  · have h2 : ¬ e.sp < (s.task s.index).top := fun h2 => h ⟨h1, h2⟩
    simp [h1, h2]
  · simp [h1]

theorem step_syscall {c : Cfg} {s : Core c.tw} (h : Inv c s) (e : Ev c.tw) (hnt : e.call ≠ .tick)
    (hper : ∀ r p, e.call = .sleepUntil r p → p.toNat > 0) : step c s e = syscall c s e := by
  have hr := h.running
  unfold step
  cases hcall : e.call with
  | tick => exact absurd hcall hnt
  | sleepUntil r p => have := hper r p hcall; simp [hr, this]
  | sleep _ => simp [hr]
  | kill => simp [hr]
  | postpone => simp [hr]

/-- Everything about a successful event. -/
theorem step_cases {c : Cfg} (hc : c.WF) {s s' : Core c.tw} {e : Ev c.tw} {o : Out c.tw} (h : Inv c s)
    (hs : step c s e = .ok (s', o)) :
    SpOk s e.sp ∧ Inv c s' ∧ o.sp = (s'.task s'.index).sp ∧
    ((e.call = .tick ∧ TickRes c s e s') ∨
     (e.call ≠ .tick ∧ s.index < c.N ∧ SysRes c s e s' ∧ (o.ref, o.brk) = callerOut c s e)) := by
  by_cases ht : e.call = .tick
  · have hst : step c s e = tickFn c s e := by unfold step; rw [ht]
    rw [hst] at hs
    by_cases hsp : SpOk s e.sp
    · obtain ⟨s1, h1, h2⟩ := tickFn_spec hc s e h hsp
      rw [h1] at hs
      injection hs with hs; injection hs with ha hb
      subst ha hb
      exact ⟨hsp, inv_tick h h2, rfl, .inl ⟨ht, h2⟩⟩
    · rw [tickFn_badSp s e hsp] at hs; cases hs
  · have hper : ∀ r p, e.call = .sleepUntil r p → p.toNat > 0 := by
      intro r p hcall
      unfold step at hs; rw [hcall] at hs
      obtain ⟨a, h1, _⟩ := Res.bind_eq_ok hs
      have := assertFatal_ok h1; simpa using this
    rw [step_syscall h e ht hper] at hs
    by_cases hsp : SpOk s e.sp
    · have hidx := h.idx
      rcases Nat.lt_or_ge s.index c.N with hu | hu
      · obtain ⟨s1, h1, h2⟩ := syscall_spec hc s e h hsp hu ht
        rw [h1] at hs
        injection hs with hs; injection hs with ha hb
        subst ha hb
        exact ⟨hsp, inv_sys h hu h2, rfl, .inr ⟨ht, hu, h2, rfl⟩⟩
      · rw [syscall_idle hc s e (by omega)] at hs; cases hs
    · rw [syscall_badSp s e hsp] at hs; cases hs

theorem run_cons {c : Cfg} {s s' : Core c.tw} {e : Ev c.tw} {es : List (Ev c.tw)}
    (h : run c s (e :: es) = .ok s') : ∃ s1 o, step c s e = .ok (s1, o) ∧ run c s1 es = .ok s' := by
  unfold run at h
  obtain ⟨a, h1, h2⟩ := Res.bind_eq_ok h
  exact ⟨a.1, a.2, h1, h2⟩

theorem run_append {c : Cfg} : ∀ (es fs : List (Ev c.tw)) (s s' : Core c.tw),
    run c s (es ++ fs) = .ok s' ↔ ∃ s1, run c s es = .ok s1 ∧ run c s1 fs = .ok s' := by
  intro es
  induction es with
  | nil => intro fs s s'; simp [run]
  | cons e es ih =>
    intro fs s s'
    constructor
    · intro h
      obtain ⟨s1, o, h1, h2⟩ := run_cons (show run c s (e :: (es ++ fs)) = .ok s' from h)
      obtain ⟨s2, h3, h4⟩ := (ih fs s1 s').1 h2
      exact ⟨s2, by simp [run, h1, h3], h4⟩
    · rintro ⟨s1, h1, h2⟩
      obtain ⟨s2, o, h3, h4⟩ := run_cons h1
      have := (ih fs s2 s').2 ⟨s1, h4, h2⟩
      show run c s (e :: (es ++ fs)) = _
      simp [run, h3, this]

theorem inv_run {c : Cfg} (hc : c.WF) : ∀ (es : List (Ev c.tw)) (s s' : Core c.tw), Inv c s →
    run c s es = .ok s' → Inv c s' := by
  intro es
  induction es with
  | nil => intro s s' h hr; simp [run] at hr; subst hr; exact h
  | cons e es ih =>
    intro s s' h hr
    obtain ⟨s1, o, h1, h2⟩ := run_cons hr
    exact ih s1 s' (step_cases hc h h1).2.1 h2

end Pico.Sched
