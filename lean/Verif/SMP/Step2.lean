import Verif.SMP.Step

/-! What a syscall of the SMP scheduler does; the invariant holds in every reachable state. -/

namespace Pico.SMP

open Pico.Sched (Desc Call Out Goes)

/-- State of the calling task after its syscall (unless chosen again). -/
def callerState {tw : Nat} (s : Core tw) : Call tw → TState
  | .sleep d => if d.toNat > 0 then .sleep else .done
  | .sleepUntil ref period => if (s.tick - ref).toNat < period.toNat then .sleep else .done
  | .kill => .empty
  | .postpone => .ready
  | .tick => .ready

/-- New wake-up tick of the caller's slot. -/
def callerTick {tw : Nat} (s : Core tw) (old : BitVec tw) : Call tw → BitVec tw
  | .sleep d => if d.toNat > 0 then s.tick + d else old
  | .sleepUntil ref period => if (s.tick - ref).toNat < period.toNat then ref + period else old
  | _ => old

/-- the slot of the caller when `syscall_switch_context` is called -/
def callerTask (c : Cfg) (s : Core c.tw) (e : Ev c.tw) : Task c.tw :=
  let t0 : Task c.tw := { s.task (s.index e.core) with sp := e.sp }
  match e.call with
  | .sleep d => syscallSleep s t0 d
  | .sleepUntil ref period => (syscallSleepUntil c s t0 ref period).1
  | .kill => syscallKill t0
  | .postpone => { t0 with state := .ready }
  | .tick => t0

/-- the result value of each syscall -/
def callerOut (c : Cfg) (s : Core c.tw) (e : Ev c.tw) : BitVec c.tw × Bool :=
  let t0 : Task c.tw := { s.task (s.index e.core) with sp := e.sp }
  match e.call with
  | .sleepUntil ref period => (syscallSleepUntil c s t0 ref period).2
  | _ => (0, false)

/-- postponed flag seen by the context switch -/
def callerPost {tw : Nat} (s : Core tw) : Call tw → Bool
  | .postpone => true
  | _ => s.postponed

/-- the slot of the caller after `syscall_switch_context` has marked it (528-532) -/
def leftTask (c : Cfg) (t : Task c.tw) (since : Nat) : Task c.tw :=
  let t0 := statFinish c t since
  if t0.state = .busy then { t0 with state := .done } else t0

theorem leftTask_same (c : Cfg) (t : Task c.tw) (since : Nat) : SameTask t (leftTask c t since) := by
  unfold leftTask
  by_cases h : (statFinish c t since).state = .busy
  · simp only [if_pos h]; exact ⟨⟨rfl, rfl, rfl, rfl, rfl, rfl⟩, rfl, rfl, rfl⟩
  · simp only [if_neg h]; exact ⟨⟨rfl, rfl, rfl, rfl, rfl, rfl⟩, rfl, rfl, rfl⟩

theorem leftTask_state (c : Cfg) (t : Task c.tw) (since : Nat) :
    (leftTask c t since).state = if t.state = .busy then .done else t.state := by
  unfold leftTask
  have h0 : (statFinish c t since).state = t.state := rfl
  by_cases h : t.state = .busy
  · simp [h0, h]
  · simp [h0, h]

/-- the state in the middle of a syscall -/
def sysMid (c : Cfg) (s : Core c.tw) (e : Ev c.tw) : Core c.tw :=
  { s with
    task := upd s.task (s.index e.core) (leftTask c (callerTask c s e) e.since)
    postponed := callerPost s e.call }

/-- Effect of a syscall made by the task running on `e.core`. -/
structure SysRes (c : Cfg) (s : Core c.tw) (e : Ev c.tw) (s' : Core c.tw) : Prop where
  mid : Mid c e.core (sysMid c s e)
  picked : Picked c e.core (sysMid c s e) s'
  counter : s'.coreCounter = s.coreCounter
  goes : Goes (c.N + e.core) (Avail c (sysMid c s e) e.core) (callerPost s e.call) (s.index e.core)
    (s'.index e.core) s'.postponed

theorem callerTask_facts (c : Cfg) (s : Core c.tw) (e : Ev c.tw) (hb : (s.task (s.index e.core)).state = .busy)
    (hnt : e.call ≠ .tick) :
    SameStatic (s.task (s.index e.core)) (callerTask c s e) ∧ (callerTask c s e).sp = e.sp ∧
    (callerTask c s e).tick = callerTick s (s.task (s.index e.core)).tick e.call ∧
    (if (callerTask c s e).state = .busy then .done else (callerTask c s e).state) = callerState s e.call := by
  unfold callerTask callerTick callerState
  cases hcall : e.call with
  | tick => exact absurd hcall hnt
  | postpone => exact ⟨⟨rfl, rfl, rfl, rfl, rfl, rfl⟩, rfl, rfl, rfl⟩
  | kill => exact ⟨⟨rfl, rfl, rfl, rfl, rfl, rfl⟩, rfl, rfl, rfl⟩
  | sleep d =>
    simp only [syscallSleep]
    split
    · exact ⟨⟨rfl, rfl, rfl, rfl, rfl, rfl⟩, rfl, rfl, rfl⟩
    · refine ⟨⟨rfl, rfl, rfl, rfl, rfl, rfl⟩, rfl, rfl, ?_⟩
      simp [hb]
  | sleepUntil r p =>
    simp only [syscallSleepUntil]
    split
    · exact ⟨⟨rfl, rfl, rfl, rfl, rfl, rfl⟩, rfl, rfl, rfl⟩
    · split <;>
      · refine ⟨⟨rfl, rfl, rfl, rfl, rfl, rfl⟩, rfl, rfl, ?_⟩
        simp [hb]

theorem sysMid_cur {c : Cfg} {s : Core c.tw} {e : Ev c.tw} (hb : (s.task (s.index e.core)).state = .busy)
    (hnt : e.call ≠ .tick) :
    SameStatic (s.task (s.index e.core)) ((sysMid c s e).task (s.index e.core)) ∧
    ((sysMid c s e).task (s.index e.core)).sp = e.sp ∧
    ((sysMid c s e).task (s.index e.core)).tick = callerTick s (s.task (s.index e.core)).tick e.call ∧
    ((sysMid c s e).task (s.index e.core)).state = callerState s e.call := by
  have f := callerTask_facts c s e hb hnt
  have h1 : (sysMid c s e).task (s.index e.core) = leftTask c (callerTask c s e) e.since := upd_same _ _ _
  have h2 := leftTask_same c (callerTask c s e) e.since
  rw [h1]
  refine ⟨f.1.trans h2.toSameStatic, h2.sp.trans f.2.1, h2.tick.trans f.2.2.1, ?_⟩
  rw [leftTask_state]; exact f.2.2.2

theorem sysMid_other {c : Cfg} {s : Core c.tw} {e : Ev c.tw} {q : Nat} (hq : q ≠ s.index e.core) :
    (sysMid c s e).task q = s.task q := upd_ne _ _ hq

theorem sysMid_static {c : Cfg} {s : Core c.tw} {e : Ev c.tw} (hb : (s.task (s.index e.core)).state = .busy)
    (hnt : e.call ≠ .tick) (q : Nat) : SameStatic (s.task q) ((sysMid c s e).task q) := by
  by_cases hq : q = s.index e.core
  · subst hq; exact (sysMid_cur hb hnt).1
  · rw [sysMid_other hq]; exact SameStatic.refl _

theorem callerState_ne_busy {tw : Nat} (s : Core tw) (call : Call tw) : callerState s call ≠ .busy := by
  unfold callerState
  cases call with
  | sleep d => simp only []; split <;> simp
  | sleepUntil r p => simp only []; split <;> simp
  | kill => simp
  | postpone => simp
  | tick => simp

theorem sys_mid {c : Cfg} {s : Core c.tw} {e : Ev c.tw} (h : Inv c s) (hk : e.core < c.K)
    (hsp : SpOk s e.core e.sp) (hu : s.index e.core < c.N) (hb : (s.task (s.index e.core)).state = .busy)
    (hnt : e.call ≠ .tick) : Mid c e.core (sysMid c s e) := by
  have hcur := sysMid_cur hb hnt
  apply h.suspend hk (sysMid_static hb hnt) rfl rfl h.count
  · intro i _; rfl
  · rw [hcur.2.2.2]; exact callerState_ne_busy _ _
  · intro h1; omega
  · intro _; rw [hcur.2.1, hcur.1.top]; have := hsp.2; omega
  · intro q hq hne
    rw [sysMid_other hne]
    exact ⟨rfl, .inl rfl⟩

/-- the context switch from the middle of a syscall -/
theorem switchContext_spec {c : Cfg} (hc : c.WF) {k : Nat} (hk : k < c.K) (s sm : Core c.tw) (pid since cur : Nat)
    (hs0 : s.setTask pid (leftTask c (s.task pid) since) = sm)
    (hm : Mid c k sm) (hi : sm.index k < c.N) :
    ∃ s', switchContext c s k pid since cur = .ok s' ∧ Picked c k sm s' ∧ s'.coreCounter = sm.coreCounter ∧
      Goes (c.N + k) (Avail c sm k) sm.postponed (sm.index k) (s'.index k) s'.postponed := by
  have hg : ∀ p, p < c.taskCount → TaskGood c sm (sm.task p) := hm.toStatic.good
  have hidle := hm.idleAvail hk
  have hfits := hc.fits
  have hlo : (sm.index k + 1) % 2 ^ c.pw = sm.index k + 1 := by
    apply Nat.mod_eq_of_lt; omega
  obtain ⟨j, h1, h2, h3, h4, h5⟩ := nextAvail_spec hc hk (c.taskCount + 1) sm (sm.index k + 1) hg hidle hlo (by omega)
    (by unfold Cfg.taskCount; omega)
  -- the final state for a chosen slot
  let fin : Nat → Bool → Core c.tw := fun i b =>
    { sm with
      index := upd sm.index k i
      postponed := b
      task := upd sm.task i (statStart c { sm.task i with state := .busy } cur) }
  have hfin : ∀ i b, i ≤ c.N + k → Avail c sm k i → Picked c k sm (fin i b) := by
    intro i b hle hav
    have hi' : (fin i b).index k = i := upd_same _ _ _
    refine ⟨rfl, rfl, rfl, rfl, ?_, ?_, ?_, ?_, ?_, ?_⟩
    · intro q
      by_cases hq : q = i
      · subst hq; simp only [fin, upd_same]; exact ⟨⟨rfl, rfl, rfl, rfl, rfl, rfl⟩, rfl, rfl, rfl⟩
      · simp only [fin, upd_ne _ _ hq]; exact SameTask.refl _
    · intro j hj; exact upd_ne _ _ hj
    · rw [hi']; exact hle
    · rw [hi']; exact hav
    · rw [hi']; simp only [fin, upd_same]; rfl
    · intro q hq
      rw [hi'] at hq; simp only [fin, upd_ne _ _ hq]
  have hjge : j ≥ c.N ↔ j = c.N + k := by
    constructor
    · intro hge
      exact hm.toStatic.avail_idle_only hk (by unfold Cfg.taskCount; omega) hge h3.1
    · intro h; omega
  have hbusy : ∀ (x : Core c.tw) i, x.task = sm.task → x.index k = i →
      (setBusy x k).setTask ((setBusy x k).index k) (statStart c ((setBusy x k).task ((setBusy x k).index k)) cur) =
      { x with task := upd sm.task i (statStart c { sm.task i with state := .busy } cur) } := by
    intro x i hx hxi
    simp only [setBusy, Core.setTask, hxi, hx, upd_same, upd_upd]
  by_cases hw : j = c.N + k ∧ sm.postponed = true
  · let s1' : Core c.tw := { sm with postponed := false, index := upd sm.index k (2 ^ c.pw - 1) }
    have hlo' : (s1'.index k + 1) % 2 ^ c.pw = 0 := by
      show (upd sm.index k (2 ^ c.pw - 1) k + 1) % 2 ^ c.pw = 0
      rw [upd_same]
      have : 0 < 2 ^ c.pw := Nat.two_pow_pos _
      rw [Nat.sub_add_cancel this, Nat.mod_self]
    obtain ⟨i, k1, k2, k3, k4, k5⟩ := nextAvail_spec hc hk (c.taskCount + 1) s1' 0 hg hidle hlo' (by omega)
      (by unfold Cfg.taskCount; omega)
    have hi' : (fin i false).index k = i := upd_same _ _ _
    refine ⟨fin i false, ?_, hfin i false k2 k3, rfl, ?_⟩
    · unfold switchContext
      show (nextAvail c k (c.taskCount + 1) (s.setTask pid (leftTask c (s.task pid) since)) >>= _) = _
      rw [hs0, h5]
      simp only [Res.ok_bind]
      have hij : (sm.setIndex k j).index k = j := upd_same _ _ _
      rw [if_pos ⟨by rw [hij]; omega, hw.2⟩]
      have hs1' : ({ sm.setIndex k j with postponed := false } : Core c.tw).setIndex k (2 ^ c.pw - 1) = s1' := by
        simp only [Core.setIndex, s1', upd_upd]
      rw [hs1', k5]
      simp only [Res.ok_bind]
      have hii : (s1'.setIndex k i).index k = i := upd_same _ _ _
      rw [if_neg (by simp [s1', Core.setIndex])]
      simp only [Res.pure_eq, Res.ok_bind]
      rw [hbusy (s1'.setIndex k i) i rfl hii]
      simp only [fin, s1', Core.setIndex, upd_upd]
    · rw [hi']
      refine .wrap hw.2 ?_ k2 k3 ?_
      · intro q q1 q2 h; exact h4 q (by omega) (by omega) h
      · intro q q1 h; exact k4 q (by omega) q1 h
  · have hi' : (fin j sm.postponed).index k = j := upd_same _ _ _
    refine ⟨fin j sm.postponed, ?_, hfin j _ h2 h3, rfl, ?_⟩
    · unfold switchContext
      show (nextAvail c k (c.taskCount + 1) (s.setTask pid (leftTask c (s.task pid) since)) >>= _) = _
      rw [hs0, h5]
      simp only [Res.ok_bind]
      have hij : (sm.setIndex k j).index k = j := upd_same _ _ _
      rw [if_neg (by
        rintro ⟨a, b⟩
        rw [hij] at a
        exact hw ⟨hjge.1 a, b⟩)]
      simp only [Res.pure_eq, Res.ok_bind]
      rw [hbusy (sm.setIndex k j) j rfl hij]
      rfl
    · rw [hi']
      refine .next (by omega) h2 h3 ?_ ?_
      · intro q q1 q2 h; exact h4 q (by omega) q2 h
      · intro hj; cases hp : sm.postponed
        · rfl
        · exact absurd ⟨hj, hp⟩ hw

theorem syscall_spec {c : Cfg} (hc : c.WF) (s : Core c.tw) (e : Ev c.tw)
    (h : Inv c s) (hk : e.core < c.K) (hsp : SpOk s e.core e.sp) (hu : s.index e.core < c.N)
    (hb : (s.task (s.index e.core)).state = .busy) (hnt : e.call ≠ .tick) :
    ∃ s', syscall c s e =
        .ok (s', ⟨(s'.task (s'.index e.core)).sp, (callerOut c s e).1, (callerOut c s e).2⟩) ∧ SysRes c s e s' := by
  have hm := sys_mid h hk hsp hu hb hnt
  let s0 : Core c.tw := { s with
    task := upd s.task (s.index e.core) (callerTask c s e)
    postponed := callerPost s e.call }
  have hs0 : s0.setTask (s.index e.core) (leftTask c (s0.task (s.index e.core)) e.since) = sysMid c s e := by
    have : s0.task (s.index e.core) = callerTask c s e := upd_same _ _ _
    rw [this]
    simp only [Core.setTask, s0, sysMid, upd_upd]
  obtain ⟨s', h1, h2, h3, h4⟩ := switchContext_spec hc hk s0 (sysMid c s e) (s.index e.core) e.since e.cur hs0 hm hu
  have hinv := h2.inv hm hk (by rw [h3]; exact hm.count)
  have hl := hinv.curSp hk
  refine ⟨s', ?_, ⟨hm, h2, h3, h4⟩⟩
  have a1 := hsp.1
  have a2 := hsp.2
  unfold syscall
  simp only [a1, a2, decide_true, assertFatal_true, Res.ok_bind]
  cases hcall : e.call with
  | tick => exact absurd hcall hnt
  | sleep d =>
    have hE : s.setTask (s.index e.core) (syscallSleep s { s.task (s.index e.core) with sp := e.sp } d) = s0 := by
      simp only [s0, callerTask, callerPost, hcall]; rfl
    simp only [hE, h1, Res.ok_bind]
    simp only [callerOut, hcall]; exact leave_ok _ _ hl
  | sleepUntil r p =>
    have hE : s.setTask (s.index e.core) (syscallSleepUntil c s { s.task (s.index e.core) with sp := e.sp } r p).1 = s0 := by
      simp only [s0, callerTask, callerPost, hcall]; rfl
    simp only [hE, h1, Res.ok_bind]
    simp only [callerOut, hcall]; exact leave_ok _ _ hl
  | kill =>
    have hE : s.setTask (s.index e.core) (syscallKill { s.task (s.index e.core) with sp := e.sp }) = s0 := by
      simp only [s0, callerTask, callerPost, hcall]; rfl
    simp only [hE, h1, Res.ok_bind]
    simp only [callerOut, hcall]; exact leave_ok _ _ hl
  | postpone =>
    have hE : ({ (s.setTask (s.index e.core) { s.task (s.index e.core) with sp := e.sp, state := .ready }) with
        postponed := true } : Core c.tw) = s0 := by
      simp only [s0, callerTask, callerPost, hcall]; rfl
    simp only [hE, h1, Res.ok_bind]
    simp only [callerOut, hcall]; exact leave_ok _ _ hl

/-! ### Failing events -/

theorem tickFn_badSp {c : Cfg} (s : Core c.tw) (e : Ev c.tw) (h : ¬ SpOk s e.core e.sp) : tickFn c s e = .fatal := by
  unfold SpOk at h
  unfold tickFn
  by_cases h1 : (s.task (s.index e.core)).bottom ≤ e.sp
  · have h2 : ¬ e.sp < (s.task (s.index e.core)).top := fun h2 => h ⟨h1, h2⟩
    simp [h1, h2]
  · simp [h1]

theorem syscall_badSp {c : Cfg} (s : Core c.tw) (e : Ev c.tw) (h : ¬ SpOk s e.core e.sp) : syscall c s e = .fatal := by
  unfold SpOk at h
  unfold syscall
  by_cases h1 : (s.task (s.index e.core)).bottom ≤ e.sp
  · have h2 : ¬ e.sp < (s.task (s.index e.core)).top := fun h2 => h ⟨h1, h2⟩
    simp [h1, h2]
  · simp [h1]

/-- with no available slot from `lo` on, the search stalls -/
theorem nextAvail_fatal {c : Cfg} (hc : c.WF) {k : Nat} (hk : k < c.K) : ∀ (fuel : Nat) (s : Core c.tw) (lo : Nat),
    (∀ p, p < c.taskCount → TaskGood c s (s.task p)) → (s.index k + 1) % 2 ^ c.pw = lo → lo ≤ c.taskCount →
    (∀ q, lo ≤ q → q < c.taskCount → ¬ Avail c s k q) → c.taskCount + 1 ≤ fuel + lo →
    nextAvail c k fuel s = .fatal := by
  intro fuel
  induction fuel with
  | zero => intro s lo _ _ h1 _ h2; omega
  | succ n ih =>
    intro s lo hg hlo hle hno hf
    let s1 := s.setIndex k lo
    have hi1 : s1.index k = lo := upd_same _ _ _
    have hunf : nextAvail c k (n + 1) s =
        (assertFatal (decide (lo < c.taskCount)) >>= fun _ => isAvailable c s1 (s1.task lo) k >>= fun a =>
          if a then pure s1 else nextAvail c k n s1) := by
      rw [nextAvail, hlo]
      show (assertFatal (decide (s1.index k < c.taskCount)) >>= fun _ => isAvailable c s1 (s1.task (s1.index k)) k >>= _) = _
      rw [hi1]
    rw [hunf]
    by_cases hlt : lo < c.taskCount
    · simp only [hlt, decide_true, assertFatal_true, Res.ok_bind]
      rw [isAvailable_eq hc hk (s := s1) (t := s1.task lo) (hg lo hlt)]
      have ha : ¬ AvailT c s1 k (s1.task lo) := hno lo (Nat.le_refl _) hlt
      rw [decide_eq_false ha]
      simp only [Res.ok_bind]
      have hs : ((s1.index k + 1) % 2 ^ c.pw) = lo + 1 := by
        rw [hi1]; apply Nat.mod_eq_of_lt; have := hc.fits; unfold Cfg.taskCount at hlt; omega
      exact ih s1 (lo + 1) hg hs (by omega) (fun q h1 h2 => hno q (by omega) h2) (by omega)
    · simp [hlt]

/-- A syscall made while the idle task of the core is running stalls. -/
theorem syscall_idle {c : Cfg} (hc : c.WF) {s : Core c.tw} {e : Ev c.tw} (h : Inv c s) (hk : e.core < c.K)
    (hi : c.N ≤ s.index e.core) (hb : (s.task (s.index e.core)).state = .busy) (hnt : e.call ≠ .tick) :
    syscall c s e = .fatal := by
  have hidx : s.index e.core = c.N + e.core :=
    h.toStatic.avail_idle_only hk (h.idx e.core hk trivial) hi (h.allowed e.core hk trivial)
  by_cases hsp : SpOk s e.core e.sp
  rotate_left
  · exact syscall_badSp s e hsp
  have hsw : ∀ s0 : Core c.tw, s0.setTask (s.index e.core) (leftTask c (s0.task (s.index e.core)) e.since) = sysMid c s e →
      switchContext c s0 e.core (s.index e.core) e.since e.cur = .fatal := by
    intro s0 hs0
    unfold switchContext
    show (nextAvail c e.core (c.taskCount + 1) (s0.setTask (s.index e.core) (leftTask c (s0.task (s.index e.core)) e.since)) >>= _) = _
    rw [hs0]
    have hst := sysMid_static hb hnt
    rw [nextAvail_fatal hc hk (c.taskCount + 1) (sysMid c s e) (c.N + e.core + 1)]
    · rfl
    · intro p hp hne
      have h1 := h.toStatic.good p hp (by
        by_cases hq : p = s.index e.core
        · subst hq; rw [hb]; simp
        · rw [sysMid_other hq] at hne; exact hne)
      rw [(hst p).prio]; exact h1
    · show (s.index e.core + 1) % _ = _
      rw [hidx]; apply Nat.mod_eq_of_lt; have := hc.fits; omega
    · unfold Cfg.taskCount; omega
    · intro q h1 h2 ha
      have h3 := ha.1
      rw [(hst q).mask] at h3
      have := h.toStatic.avail_idle_only hk h2 (by omega) h3
      omega
    · omega
  let s0 : Core c.tw := { s with
    task := upd s.task (s.index e.core) (callerTask c s e)
    postponed := callerPost s e.call }
  have hs0 : s0.setTask (s.index e.core) (leftTask c (s0.task (s.index e.core)) e.since) = sysMid c s e := by
    have : s0.task (s.index e.core) = callerTask c s e := upd_same _ _ _
    rw [this]
    simp only [Core.setTask, s0, sysMid, upd_upd]
  have hsw' := hsw s0 hs0
  have a1 := hsp.1
  have a2 := hsp.2
  unfold syscall
  simp only [a1, a2, decide_true, assertFatal_true, Res.ok_bind]
  cases hcall : e.call with
  | tick => rfl
  | sleep d =>
    have hE : s.setTask (s.index e.core) (syscallSleep s { s.task (s.index e.core) with sp := e.sp } d) = s0 := by
      simp only [s0, callerTask, callerPost, hcall]; rfl
    simp only [hE, hsw', Res.fatal_bind]
  | sleepUntil r p =>
    have hE : s.setTask (s.index e.core) (syscallSleepUntil c s { s.task (s.index e.core) with sp := e.sp } r p).1 = s0 := by
      simp only [s0, callerTask, callerPost, hcall]; rfl
    simp only [hE, hsw', Res.fatal_bind]
  | kill =>
    have hE : s.setTask (s.index e.core) (syscallKill { s.task (s.index e.core) with sp := e.sp }) = s0 := by
      simp only [s0, callerTask, callerPost, hcall]; rfl
    simp only [hE, hsw', Res.fatal_bind]
  | postpone =>
    have hE : ({ (s.setTask (s.index e.core) { s.task (s.index e.core) with sp := e.sp, state := .ready }) with
        postponed := true } : Core c.tw) = s0 := by
      simp only [s0, callerTask, callerPost, hcall]; rfl
    simp only [hE, hsw', Res.fatal_bind]

theorem step_syscall {c : Cfg} {s : Core c.tw} (e : Ev c.tw) (hnt : e.call ≠ .tick)
    (hb : (s.task (s.index e.core)).state = .busy)
    (hper : ∀ r p, e.call = .sleepUntil r p → p.toNat > 0) : step c s e = syscall c s e := by
  unfold step
  cases hcall : e.call with
  | tick => exact absurd hcall hnt
  | sleepUntil r p => have := hper r p hcall; simp [hb, this]
  | sleep _ => simp [hb]
  | kill => simp [hb]
  | postpone => simp [hb]

/-- Everything about a successful event. -/
theorem step_cases {c : Cfg} (hc : c.WF) {s s' : Core c.tw} {e : Ev c.tw} {o : Out c.tw} (h : Inv c s) (hk : e.core < c.K)
    (hs : step c s e = .ok (s', o)) :
    SpOk s e.core e.sp ∧ Inv c s' ∧ o.sp = (s'.task (s'.index e.core)).sp ∧
    ((e.call = .tick ∧ TickRes c s e s') ∨
     (e.call ≠ .tick ∧ s.index e.core < c.N ∧ (s.task (s.index e.core)).state = .busy ∧ SysRes c s e s' ∧
       (o.ref, o.brk) = callerOut c s e)) := by
  by_cases ht : e.call = .tick
  · have hst : step c s e = tickFn c s e := by unfold step; rw [ht]
    rw [hst] at hs
    by_cases hsp : SpOk s e.core e.sp
    · obtain ⟨s1, h1, h2⟩ := tickFn_spec hc s e h hk hsp
      rw [h1] at hs
      injection hs with hs; injection hs with ha hb
      subst ha hb
      exact ⟨hsp, h2.picked.inv h2.mid hk (by rw [h2.counter]; exact h2.mid.count), rfl, .inl ⟨ht, h2⟩⟩
    · rw [tickFn_badSp s e hsp] at hs; cases hs
  · have hper : ∀ r p, e.call = .sleepUntil r p → p.toNat > 0 := by
      intro r p hcall
      unfold step at hs; rw [hcall] at hs
      obtain ⟨a, h1, _⟩ := Res.bind_eq_ok hs
      have := assertFatal_ok h1; simpa using this
    have hb : (s.task (s.index e.core)).state = .busy := by
      unfold step at hs
      cases hcall : e.call with
      | tick => exact absurd hcall ht
      | sleepUntil r p =>
        rw [hcall] at hs
        obtain ⟨a, h1, h2⟩ := Res.bind_eq_ok hs
        obtain ⟨a, h1, h2⟩ := Res.bind_eq_ok h2
        simpa using assertFatal_ok h1
      | sleep _ =>
        rw [hcall] at hs
        obtain ⟨a, h1, h2⟩ := Res.bind_eq_ok hs
        simpa using assertFatal_ok h1
      | kill =>
        rw [hcall] at hs
        obtain ⟨a, h1, h2⟩ := Res.bind_eq_ok hs
        simpa using assertFatal_ok h1
      | postpone =>
        rw [hcall] at hs
        obtain ⟨a, h1, h2⟩ := Res.bind_eq_ok hs
        simpa using assertFatal_ok h1
    rw [step_syscall e ht hb hper] at hs
    by_cases hsp : SpOk s e.core e.sp
    · rcases Nat.lt_or_ge (s.index e.core) c.N with hu | hu
      · obtain ⟨s1, h1, h2⟩ := syscall_spec hc s e h hk hsp hu hb ht
        rw [h1] at hs
        injection hs with hs; injection hs with ha hb'
        subst ha hb'
        exact ⟨hsp, h2.picked.inv h2.mid hk (by rw [h2.counter]; exact h2.mid.count), rfl, .inr ⟨ht, hu, hb, h2, rfl⟩⟩
      · rw [syscall_idle hc h hk hu hb ht] at hs; cases hs
    · rw [syscall_badSp s e hsp] at hs; cases hs

theorem run_cons {c : Cfg} {s s' : Core c.tw} {e : Ev c.tw} {es : List (Ev c.tw)}
    (h : run c s (e :: es) = .ok s') : ∃ s1 o, step c s e = .ok (s1, o) ∧ run c s1 es = .ok s' := by
  unfold run at h
  obtain ⟨a, h1, h2⟩ := Res.bind_eq_ok h
  exact ⟨a.1, a.2, h1, h2⟩

theorem run_append {c : Cfg} : ∀ (es fs : List (Ev c.tw)) (s s' : Core c.tw),
    run c s (es ++ fs) = .ok s' ↔ ∃ s1, run c s es = .ok s1 ∧ run c s1 fs = .ok s' := by
  intro es
  induction es with
  | nil => intro fs s s'; simp [run]
  | cons e es ih =>
    intro fs s s'
    constructor
    · intro h
      obtain ⟨s1, o, h1, h2⟩ := run_cons (show run c s (e :: (es ++ fs)) = .ok s' from h)
      obtain ⟨s2, h3, h4⟩ := (ih fs s1 s').1 h2
      exact ⟨s2, by simp [run, h1, h3], h4⟩
    · rintro ⟨s1, h1, h2⟩
      obtain ⟨s2, o, h3, h4⟩ := run_cons h1
      have := (ih fs s2 s').2 ⟨s1, h4, h2⟩
      show run c s (e :: (es ++ fs)) = _
      simp [run, h3, this]

theorem inv_run {c : Cfg} (hc : c.WF) : ∀ (es : List (Ev c.tw)) (s s' : Core c.tw), Inv c s → OnCores c es →
    run c s es = .ok s' → Inv c s' := by
  intro es
  induction es with
  | nil => intro s s' h _ hr; simp [run] at hr; subst hr; exact h
  | cons e es ih =>
    intro s s' h ho hr
    obtain ⟨s1, o, h1, h2⟩ := run_cons hr
    exact ih s1 s' (step_cases hc h (ho e (by simp)) h1).2.1 (fun x hx => ho x (by simp [hx])) h2

end Pico.SMP
