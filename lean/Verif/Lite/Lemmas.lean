import Verif.Lite.Model
import Verif.Sched.Lemmas

/-! Helper lemmas on the lite scheduler. -/

namespace Pico.Lite

open Pico.Sched (Cfg Desc TState Call Ev Out Goes)

/-- the slot is ready -/
def Ready {tw : Nat} (s : Core tw) (p : Nat) : Prop := (s.task p).state = .ready

instance {tw : Nat} (s : Core tw) (p : Nat) : Decidable (Ready s p) := by unfold Ready; infer_instance

theorem nextAvail_spec {c : Cfg} (hc : c.WF) : ∀ (fuel : Nat) (s : Core c.tw) (lo : Nat),
    Ready s c.N → (s.index + 1) % 2 ^ c.pw = lo → lo ≤ c.N → c.N + 1 ≤ fuel + lo →
    ∃ j, lo ≤ j ∧ j ≤ c.N ∧ Ready s j ∧ (∀ q, lo ≤ q → q < j → ¬ Ready s q) ∧
      nextAvail c fuel s = .ok { s with index := j } := by
  intro fuel
  induction fuel with
  | zero => intro s lo _ _ h1 h2; omega
  | succ n ih =>
    intro s lo hidle hlo hle hf
    have hlt : lo < c.taskCount := by unfold Cfg.taskCount; omega
    by_cases ha : Ready s lo
    · refine ⟨lo, Nat.le_refl _, hle, ha, fun q h1 h2 => by omega, ?_⟩
      unfold nextAvail
      have ha' : (s.task lo).state = .ready := ha
      simp [hlo, hlt, ha']
    · have hne : lo ≠ c.N := by intro h; subst h; exact ha hidle
      have hs : ((lo + 1) % 2 ^ c.pw) = lo + 1 := by
        apply Nat.mod_eq_of_lt; have := hc.fits; omega
      obtain ⟨j, h1, h2, h3, h4, h5⟩ := ih { s with index := lo } (lo + 1) hidle hs (by omega) (by omega)
      refine ⟨j, by omega, h2, h3, ?_, ?_⟩
      · intro q hq1 hq2
        by_cases hq : q = lo
        · subst hq; exact ha
        · exact h4 q (by omega) hq2
      · unfold nextAvail
        have ha' : ¬ (s.task lo).state = .ready := ha
        simp [hlo, hlt, ha', h5]

theorem switchContext_spec {c : Cfg} (hc : c.WF) (s : Core c.tw) (hidle : Ready s c.N) (hi : s.index < c.N) :
    ∃ j b, Goes c.N (Ready s) s.postponed s.index j b ∧
      switchContext c s = .ok { s with index := j, postponed := b } := by
  have hlo : (s.index + 1) % 2 ^ c.pw = s.index + 1 := by
    apply Nat.mod_eq_of_lt; have := hc.fits; omega
  obtain ⟨j, h1, h2, h3, h4, h5⟩ := nextAvail_spec hc (c.N + 2) s (s.index + 1) hidle hlo (by omega) (by omega)
  by_cases hw : j = c.N ∧ s.postponed = true
  · let s1' : Core c.tw := { s with postponed := false, index := 2 ^ c.pw - 1 }
    have hlo' : (s1'.index + 1) % 2 ^ c.pw = 0 := by
      show (2 ^ c.pw - 1 + 1) % 2 ^ c.pw = 0
      have : 0 < 2 ^ c.pw := Nat.two_pow_pos _
      rw [Nat.sub_add_cancel this, Nat.mod_self]
    obtain ⟨k, k1, k2, k3, k4, k5⟩ := nextAvail_spec hc (c.N + 2) s1' 0 hidle hlo' (by omega) (by omega)
    refine ⟨k, false, .wrap hw.2 ?_ k2 k3 ?_, ?_⟩
    · intro q q1 q2 h; exact h4 q (by omega) (by omega) h
    · intro q q1 h; exact k4 q (by omega) q1 h
    · unfold switchContext
      rw [h5]
      simp only [Res.ok_bind]
      rw [if_pos hw]
      show (nextAvail c (c.N + 2) s1' >>= _) = _
      rw [k5]
      simp only [Res.ok_bind]
      rw [if_neg (by simp [s1'])]
      rfl
  · refine ⟨j, s.postponed, .next (by omega) h2 h3 ?_ ?_, ?_⟩
    · intro q q1 q2 h; exact h4 q (by omega) q2 h
    · intro hj; cases hp : s.postponed
      · rfl
      · exact absurd ⟨hj, hp⟩ hw
    · unfold switchContext
      rw [h5]
      simp only [Res.ok_bind]
      rw [if_neg hw]
      rfl

/-- result of the wake-up pass on one task -/
def woken {tw : Nat} (tick : BitVec tw) (t : Task tw) : Task tw :=
  if t.state = .sleep ∧ t.tick = tick then { t with state := .ready } else t

theorem woken_state {tw : Nat} (k : BitVec tw) (t : Task tw) :
    (woken k t).state = if t.state = .sleep ∧ t.tick = k then .ready else t.state := by
  unfold woken; split <;> rfl

theorem tickLoop_spec {tw : Nat} : ∀ (n : Nat) (s : Core tw),
    ∃ i, tickLoop n s =
        { s with task := fun q => if q < n then woken s.tick (s.task q) else s.task q, index := i } ∧
      ((i < n ∧ (woken s.tick (s.task i)).state = .ready ∧ ∀ q, q < i → (woken s.tick (s.task q)).state ≠ .ready) ∨
       (i = s.index ∧ ∀ q, q < n → (woken s.tick (s.task q)).state ≠ .ready)) := by
  intro n
  induction n with
  | zero => intro s; exact ⟨s.index, by simp [tickLoop], .inr ⟨rfl, by simp⟩⟩
  | succ n ih =>
    intro s
    let t1 := woken s.tick (s.task n)
    let i1 := if t1.state = .ready then n else s.index
    let s2 : Core tw := { s with task := upd s.task n t1, index := i1 }
    have hunf : tickLoop (n + 1) s = tickLoop n s2 := by
      rw [tickLoop]
      show tickLoop n (Core.setTask (if t1.state = .ready then { s with index := n } else s) n t1) = _
      congr 1
      simp only [s2, i1]; split <;> rfl
    obtain ⟨i, hi, hcase⟩ := ih s2
    have htr : ∀ q, q < n → s2.task q = s.task q := by
      intro q hq; show upd s.task n t1 q = _; rw [upd_ne _ _ (by omega)]
    refine ⟨i, ?_, ?_⟩
    · rw [hunf, hi]
      show { s with task := fun q => if q < n then woken s.tick (upd s.task n t1 q) else upd s.task n t1 q, index := i } = _
      congr 1
      funext q
      by_cases hq : q < n
      · rw [if_pos hq, upd_ne _ _ (by omega), if_pos (by omega)]
      · by_cases hq' : q = n
        · subst hq'; rw [if_neg hq, upd_same, if_pos (by omega)]
        · rw [if_neg hq, upd_ne _ _ hq', if_neg (by omega)]
    · rcases hcase with ⟨h1, h2, h3⟩ | ⟨h1, h2⟩
      · left
        rw [htr i h1] at h2
        exact ⟨by omega, h2, fun q hq => by have := h3 q hq; rw [htr q (by omega)] at this; exact this⟩
      · have h2' : ∀ q, q < n → (woken s.tick (s.task q)).state ≠ .ready := by
          intro q hq; have := h2 q hq; rw [htr q hq] at this; exact this
        by_cases ha : t1.state = .ready
        · left
          have hin : i = n := by rw [h1]; show i1 = n; simp [i1, ha]
          subst hin
          exact ⟨by omega, ha, h2'⟩
        · right
          have hin : i = s.index := by rw [h1]; show i1 = _; simp [i1, ha]
          refine ⟨hin, ?_⟩
          intro q hq
          by_cases hqn : q = n
          · subst hqn; exact ha
          · exact h2' q (by omega)

/-- invariant of the running lite scheduler -/
structure Inv (c : Cfg) (s : Core c.tw) : Prop where
  running : s.running = true
  idx : s.index ≤ c.N
  av : Ready s s.index
  idleSt : Ready s c.N
  post : s.postponed = true → s.index < c.N ∧ ∃ q, q < s.index ∧ Ready s q

/-- everything an event leaves unchanged in a task that was not running, but its state -/
def Same {tw : Nat} (t t' : Task tw) : Prop :=
  t'.sp = t.sp ∧ t'.tick = t.tick ∧ t'.bottom = t.bottom ∧ t'.top = t.top ∧ t'.count = t.count ∧ t'.miss = t.miss

theorem Same.refl {tw : Nat} (t : Task tw) : Same t t := ⟨rfl, rfl, rfl, rfl, rfl, rfl⟩

theorem same_woken {tw : Nat} (k : BitVec tw) (t : Task tw) : Same t (woken k t) := by
  unfold woken; split <;> exact Same.refl _

/-- effect of a tick -/
structure TickRes (c : Cfg) (s : Core c.tw) (e : Ev c.tw) (s' : Core c.tw) : Prop where
  tick : s'.tick = s.tick + 1
  postponed : s'.postponed = false
  running : s'.running = s.running
  other : ∀ q, q ≠ s.index → Same (s.task q) (s'.task q)
  cur : Same { s.task s.index with sp := e.sp } (s'.task s.index)
  state : ∀ q, q ≤ c.N → (s'.task q).state =
    if (s.task q).state = .sleep ∧ (s.task q).tick = s.tick + 1 then .ready else (s.task q).state
  idx : s'.index ≤ c.N
  av : Ready s' s'.index
  least : ∀ q, q < s'.index → ¬ Ready s' q

theorem tickFn_spec {c : Cfg} (hc : c.WF) (s : Core c.tw) (e : Ev c.tw) (h : Inv c s) (hsp : SpOk s e.sp) :
    ∃ s', tickFn c s e = .ok (s', { sp := (s'.task s'.index).sp, ref := 0, brk := false }) ∧ TickRes c s e s' := by
  let s1 : Core c.tw := { s with task := upd s.task s.index { s.task s.index with sp := e.sp }, tick := s.tick + 1, postponed := false }
  have hmod : c.taskCount % 2 ^ c.pw = c.taskCount := Nat.mod_eq_of_lt hc.fits
  have hst : ∀ q, (s1.task q).state = (s.task q).state ∧ (s1.task q).tick = (s.task q).tick := by
    intro q
    show (upd s.task s.index _ q).state = _ ∧ (upd s.task s.index _ q).tick = _
    by_cases hq : q = s.index
    · subst hq; rw [upd_same]; exact ⟨rfl, rfl⟩
    · rw [upd_ne _ _ hq]; exact ⟨rfl, rfl⟩
  obtain ⟨i, hi, hcase⟩ := tickLoop_spec c.taskCount s1
  have hcase' : i < c.taskCount ∧ (woken s1.tick (s1.task i)).state = .ready ∧
      ∀ q, q < i → (woken s1.tick (s1.task q)).state ≠ .ready := by
    rcases hcase with h1 | ⟨_, h2⟩
    · exact h1
    · exfalso
      apply h2 c.N (by unfold Cfg.taskCount; omega)
      rw [woken_state, (hst c.N).1]
      have := h.idleSt; unfold Ready at this; rw [this]; simp
  let s' : Core c.tw := { s1 with task := fun q => if q < c.taskCount then woken s1.tick (s1.task q) else s1.task q, index := i }
  have hT : ∀ q, Same (s1.task q) (s'.task q) := by
    intro q
    show Same _ (if q < c.taskCount then _ else _)
    split
    · exact same_woken _ _
    · exact Same.refl _
  have hready : ∀ q, q < c.taskCount → (Ready s' q ↔ (woken s1.tick (s1.task q)).state = .ready) := by
    intro q hq; unfold Ready; simp only [s', if_pos hq]
  refine ⟨s', ?_, ?_⟩
  · unfold tickFn
    simp only [hsp.1, hsp.2, decide_true, assertFatal_true, Res.ok_bind]
    rw [hmod]
    show Res.ok (tickLoop c.taskCount s1, ({ sp := ((tickLoop c.taskCount s1).task (tickLoop c.taskCount s1).index).sp, ref := 0, brk := false } : Out c.tw)) = _
    rw [hi]
  · refine
      { tick := rfl
        postponed := rfl
        running := rfl
        other := ?_
        cur := ?_
        state := ?_
        idx := ?_
        av := (hready i hcase'.1).2 hcase'.2.1
        least := ?_ }
    · intro q hq
      have := hT q
      rw [show s1.task q = s.task q from upd_ne _ _ hq] at this; exact this
    · have := hT s.index
      rw [show s1.task s.index = { s.task s.index with sp := e.sp } from upd_same _ _ _] at this; exact this
    · intro q hq
      have hq' : q < c.taskCount := by unfold Cfg.taskCount; omega
      show (if q < c.taskCount then woken s1.tick (s1.task q) else s1.task q).state = _
      rw [if_pos hq', woken_state, (hst q).1, (hst q).2]
    · have := hcase'.1; unfold Cfg.taskCount at this; show i ≤ _; omega
    · intro q hq
      have hq1 : q < i := hq
      rw [hready q (by have := hcase'.1; omega)]
      exact hcase'.2.2 q hq1

/-- the caller's slot written back by each syscall -/
def callerTask (c : Cfg) (s : Core c.tw) (e : Ev c.tw) : Task c.tw :=
  let t0 : Task c.tw := { s.task s.index with sp := e.sp }
  match e.call with
  | .sleep d => syscallSleep s t0 d
  | .sleepUntil ref period => (syscallSleepUntil c s t0 ref period).1
  | .kill => syscallKill t0
  | _ => t0

/-- the result of each syscall -/
def callerOut (c : Cfg) (s : Core c.tw) (e : Ev c.tw) : BitVec c.tw × Bool :=
  let t0 : Task c.tw := { s.task s.index with sp := e.sp }
  match e.call with
  | .sleepUntil ref period => (syscallSleepUntil c s t0 ref period).2
  | _ => (0, false)

/-- the flag seen by the context switch -/
def callerPost {tw : Nat} (s : Core tw) : Call tw → Bool
  | .postpone => true
  | _ => s.postponed

/-- effect of a syscall of a user task -/
structure SysRes (c : Cfg) (s : Core c.tw) (e : Ev c.tw) (s' : Core c.tw) : Prop where
  tick : s'.tick = s.tick
  running : s'.running = s.running
  other : ∀ q, q ≠ s.index → s'.task q = s.task q
  cur : s'.task s.index = callerTask c s e
  goes : Goes c.N (Ready s') (callerPost s e.call) s.index s'.index s'.postponed

theorem syscall_spec {c : Cfg} (hc : c.WF) (s : Core c.tw) (e : Ev c.tw)
    (h : Inv c s) (hsp : SpOk s e.sp) (hu : s.index < c.N) (hnt : e.call ≠ .tick) :
    ∃ s', syscall c s e = .ok (s', ⟨(s'.task s'.index).sp, (callerOut c s e).1, (callerOut c s e).2⟩) ∧ SysRes c s e s' := by
  let sm : Core c.tw := { s with task := upd s.task s.index (callerTask c s e), postponed := callerPost s e.call }
  have hidle : Ready sm c.N := by
    unfold Ready
    show (upd s.task s.index _ c.N).state = _
    rw [upd_ne _ _ (by omega)]; exact h.idleSt
  obtain ⟨j, b, hgo, hsw⟩ := switchContext_spec hc sm hidle hu
  let s' : Core c.tw := { sm with index := j, postponed := b }
  refine ⟨s', ?_, ⟨rfl, rfl, fun q hq => upd_ne _ _ hq, upd_same _ _ _, hgo⟩⟩
  unfold syscall
  simp only [hsp.1, hsp.2, decide_true, assertFatal_true, Res.ok_bind]
  cases hcall : e.call with
  | tick => exact absurd hcall hnt
  | sleep d =>
    have hE : s.setTask s.index (syscallSleep s { s.task s.index with sp := e.sp } d) = sm := by
      simp only [sm, callerTask, callerPost, hcall]; rfl
    simp only [hE, hsw, Res.ok_bind]
    simp only [callerOut, hcall]; rfl
  | sleepUntil r p =>
    have hE : s.setTask s.index (syscallSleepUntil c s { s.task s.index with sp := e.sp } r p).1 = sm := by
      simp only [sm, callerTask, callerPost, hcall]; rfl
    simp only [hE, hsw, Res.ok_bind]
    simp only [callerOut, hcall]; rfl
  | kill =>
    have hE : s.setTask s.index (syscallKill { s.task s.index with sp := e.sp }) = sm := by
      simp only [sm, callerTask, callerPost, hcall]; rfl
    simp only [hE, hsw, Res.ok_bind]
    simp only [callerOut, hcall]; rfl
  | postpone =>
    have hE : ({ (s.setTask s.index { s.task s.index with sp := e.sp }) with postponed := true } : Core c.tw) = sm := by
      simp only [sm, callerTask, callerPost, hcall]; rfl
    simp only [hE, hsw, Res.ok_bind]
    simp only [callerOut, hcall]; rfl

theorem inv_tick {c : Cfg} {s s' : Core c.tw} {e : Ev c.tw} (h : Inv c s) (r : TickRes c s e s') : Inv c s' := by
  refine ⟨r.running.trans h.running, r.idx, r.av, ?_, ?_⟩
  · unfold Ready; rw [r.state _ (Nat.le_refl _), show (s.task c.N).state = .ready from h.idleSt]; simp
  · intro hp; rw [r.postponed] at hp; cases hp

theorem inv_sys {c : Cfg} {s s' : Core c.tw} {e : Ev c.tw} (h : Inv c s) (hu : s.index < c.N)
    (r : SysRes c s e s') : Inv c s' := by
  have hav : ∀ q, q ≠ s.index → (Ready s' q ↔ Ready s q) := by
    intro q hq; unfold Ready; rw [r.other q hq]
  have hgo := r.goes
  have hidx : s'.index ≤ c.N ∧ Ready s' s'.index := by
    generalize s'.index = j at hgo ⊢
    generalize s'.postponed = b at hgo
    cases hgo with
    | next h1 h2 h3 h4 h5 => exact ⟨h2, h3⟩
    | wrap h1 h2 h3 h4 h5 => exact ⟨h3, h4⟩
  refine ⟨r.running.trans h.running, hidx.1, hidx.2, (hav _ (by omega)).2 h.idleSt, ?_⟩
  intro hpp
  generalize hj : s'.index = j at hgo ⊢
  rw [hpp] at hgo
  generalize hb : callerPost s e.call = post at hgo
  cases hgo with
  | next h1 h2 h3 h4 h5 =>
    refine ⟨?_, ?_⟩
    · rcases Nat.lt_or_ge j c.N with hlt | hge
      · exact hlt
      · have := h5 (by omega); simp at this
    · by_cases hcall : e.call = .postpone
      · refine ⟨s.index, h1, ?_⟩
        unfold Ready; rw [r.cur]; unfold callerTask; rw [hcall]; exact h.av
      · have : s.postponed = true := by
          unfold callerPost at hb; split at hb
          · rename_i hx; exact absurd hx hcall
          · exact hb
        obtain ⟨_, q, hq1, hq2⟩ := h.post this
        exact ⟨q, by omega, (hav q (by omega)).2 hq2⟩

theorem syscall_idle {c : Cfg} (hc : c.WF) (s : Core c.tw) (e : Ev c.tw) (hi : s.index = c.N) :
    syscall c s e = .fatal := by
  have hsw : ∀ (s0 : Core c.tw), s0.index = c.N → switchContext c s0 = .fatal := by
    intro s0 h0
    unfold switchContext
    have : nextAvail c (c.N + 2) s0 = .fatal := by
      unfold nextAvail
      have h2 : (s0.index + 1) % 2 ^ c.pw = c.N + 1 := by
        rw [h0]; exact Nat.mod_eq_of_lt hc.fits
      simp [h2, Cfg.taskCount]
    rw [this]; rfl
  unfold syscall
  simp only []
  cases hb : decide ((s.task s.index).bottom ≤ e.sp)
  · rfl
  cases ht : decide (e.sp < (s.task s.index).top)
  · rfl
  simp only [assertFatal_true, Res.ok_bind]
  cases e.call with
  | tick => rfl
  | sleep d => simp only []; rw [hsw _ (by exact hi)]; rfl
  | sleepUntil r p => simp only []; rw [hsw _ (by exact hi)]; rfl
  | kill => simp only []; rw [hsw _ (by exact hi)]; rfl
  | postpone => simp only []; rw [hsw _ (by exact hi)]; rfl

theorem tickFn_badSp {c : Cfg} (s : Core c.tw) (e : Ev c.tw) (h : ¬ SpOk s e.sp) : tickFn c s e = .fatal := by
  unfold SpOk at h
  unfold tickFn
  by_cases h1 : (s.task s.index).bottom ≤ e.sp
  · have h2 : ¬ e.sp < (s.task s.index).top := fun h2 => h ⟨h1, h2⟩
    simp [h1, h2]
  · simp [h1]

theorem syscall_badSp {c : Cfg} (s : Core c.tw) (e : Ev c.tw) (h : ¬ SpOk s e.sp) : syscall c s e = .fatal := by
  unfold SpOk at h
  unfold syscall
  by_cases h1 : (s.task s.index).bottom ≤ e.sp
  · have h2 : ¬ e.sp < (s.task s.index).top := fun h2 => h ⟨h1, h2⟩
    simp [h1, h2]
  · simp [h1]

/-- the request is one the scheduler accepts: a tick, or a syscall of a user task with a positive period -/
def Legal {tw : Nat} (N index : Nat) (call : Call tw) : Prop :=
  call = .tick ∨ (index < N ∧ ∀ r p, call = .sleepUntil r p → 0 < p.toNat)

/-- every event either is legal, with a valid stack pointer, and has the described effect, or stalls -/
theorem step_total {c : Cfg} (hc : c.WF) {s : Core c.tw} (h : Inv c s) (e : Ev c.tw) :
    (SpOk s e.sp ∧ Legal c.N s.index e.call ∧ ∃ s' o, step c s e = .ok (s', o) ∧ Inv c s' ∧ o.sp = (s'.task s'.index).sp ∧
      ((e.call = .tick ∧ TickRes c s e s' ∧ o.ref = 0 ∧ o.brk = false) ∨
       (e.call ≠ .tick ∧ s.index < c.N ∧ SysRes c s e s' ∧ (o.ref, o.brk) = callerOut c s e))) ∨
    (¬ (SpOk s e.sp ∧ Legal c.N s.index e.call) ∧ step c s e = .fatal) := by
  by_cases ht : e.call = .tick
  · have hst : step c s e = tickFn c s e := by unfold step; rw [ht]
    rw [hst]
    by_cases hsp : SpOk s e.sp
    · left
      obtain ⟨s1, h1, h2⟩ := tickFn_spec hc s e h hsp
      exact ⟨hsp, .inl ht, s1, _, h1, inv_tick h h2, rfl, .inl ⟨ht, h2, rfl, rfl⟩⟩
    · right
      exact ⟨fun h => hsp h.1, tickFn_badSp s e hsp⟩
  · by_cases hper : ∀ r p, e.call = .sleepUntil r p → 0 < p.toNat
    · have hst : step c s e = syscall c s e := by
        have hr := h.running
        unfold step
        cases hcall : e.call with
        | tick => exact absurd hcall ht
        | sleepUntil r p => have := hper r p hcall; simp [hr, this]
        | sleep _ => simp [hr]
        | kill => simp [hr]
        | postpone => simp [hr]
      rw [hst]
      by_cases hsp : SpOk s e.sp
      · rcases Nat.lt_or_ge s.index c.N with hu | hu
        · left
          obtain ⟨s1, h1, h2⟩ := syscall_spec hc s e h hsp hu ht
          exact ⟨hsp, .inr ⟨hu, hper⟩, s1, _, h1, inv_sys h hu h2, rfl, .inr ⟨ht, hu, h2, rfl⟩⟩
        · right
          refine ⟨?_, syscall_idle hc s e (by have := h.idx; omega)⟩
          rintro ⟨_, h1 | h1⟩
          · exact ht h1
          · omega
      · right
        exact ⟨fun h => hsp h.1, syscall_badSp s e hsp⟩
    · right
      refine ⟨?_, ?_⟩
      · rintro ⟨_, h1 | h1⟩
        · exact ht h1
        · exact hper h1.2
      · have : ∃ r p, e.call = .sleepUntil r p ∧ ¬ 0 < p.toNat := by
          apply Classical.byContradiction
          intro hn
          apply hper
          intro r p hcall
          apply Classical.byContradiction
          intro hp; exact hn ⟨r, p, hcall, hp⟩
        obtain ⟨r, p, hcall, hp⟩ := this
        unfold step; rw [hcall]; simp [hp]

theorem step_cases {c : Cfg} (hc : c.WF) {s s' : Core c.tw} {e : Ev c.tw} {o : Out c.tw} (h : Inv c s)
    (hs : step c s e = .ok (s', o)) :
    SpOk s e.sp ∧ Inv c s' ∧ o.sp = (s'.task s'.index).sp ∧
      ((e.call = .tick ∧ TickRes c s e s' ∧ o.ref = 0 ∧ o.brk = false) ∨
       (e.call ≠ .tick ∧ s.index < c.N ∧ SysRes c s e s' ∧ (o.ref, o.brk) = callerOut c s e)) := by
  rcases step_total hc h e with ⟨h1, _, s1, o1, h2, h3⟩ | ⟨_, h2⟩
  · rw [h2] at hs; injection hs with hs; injection hs with ha hb; subst ha hb
    exact ⟨h1, h3⟩
  · rw [h2] at hs; cases hs

theorem run_cons {c : Cfg} {s s' : Core c.tw} {e : Ev c.tw} {es : List (Ev c.tw)}
    (h : run c s (e :: es) = .ok s') : ∃ s1 o, step c s e = .ok (s1, o) ∧ run c s1 es = .ok s' := by
  rw [run] at h
  obtain ⟨⟨s1, o⟩, h1, h2⟩ := Res.bind_eq_ok h
  exact ⟨s1, o, h1, h2⟩

theorem run_append {c : Cfg} : ∀ (es fs : List (Ev c.tw)) (s s' : Core c.tw),
    run c s (es ++ fs) = .ok s' ↔ ∃ s1, run c s es = .ok s1 ∧ run c s1 fs = .ok s' := by
  intro es
  induction es with
  | nil => intro fs s s'; simp [run]
  | cons e es ih =>
    intro fs s s'
    constructor
    · intro h
      obtain ⟨s1, o, h1, h2⟩ := run_cons (es := es ++ fs) h
      obtain ⟨s2, h3, h4⟩ := (ih fs s1 s').1 h2
      exact ⟨s2, by simp [run, h1, h3], h4⟩
    · rintro ⟨s1, h1, h2⟩
      obtain ⟨s2, o, h3, h4⟩ := run_cons h1
      have := (ih fs s2 s').2 ⟨s1, h4, h2⟩
      simp [run, h3, this]

theorem inv_run {c : Cfg} (hc : c.WF) : ∀ (es : List (Ev c.tw)) (s s' : Core c.tw), Inv c s →
    run c s es = .ok s' → Inv c s' := by
  intro es
  induction es with
  | nil => intro s s' h hr; simp [run] at hr; subst hr; exact h
  | cons e es ih =>
    intro s s' h hr
    obtain ⟨s1, o, h1, h2⟩ := run_cons hr
    exact ih s1 s' (step_cases hc h h1).2.1 h2

/-- used priorities are pairwise distinct -/
def Distinct (adds : List (Desc × Nat)) : Prop := (adds.map (·.2)).Nodup

/-- table after adding -/
def putAll (c : Cfg) : (Nat → Task c.tw) → List (Desc × Nat) → Nat → Task c.tw
  | f, [] => f
  | f, (d, p) :: r => putAll c (upd f p (fillSlot c (f p) d)) r

theorem putAll_other (c : Cfg) : ∀ (adds : List (Desc × Nat)) (f : Nat → Task c.tw) (q : Nat), (∀ a ∈ adds, a.2 ≠ q) →
    putAll c f adds q = f q := by
  intro adds
  induction adds with
  | nil => intro f q _; rfl
  | cons a r ih =>
    intro f q h
    obtain ⟨d, p⟩ := a
    rw [putAll, ih _ q (fun a ha => h a (by simp [ha])), upd_ne]
    exact fun e => h (d, p) (by simp) e.symm

theorem putAll_mem (c : Cfg) : ∀ (adds : List (Desc × Nat)) (f : Nat → Task c.tw) (a : Desc × Nat), Distinct adds → a ∈ adds →
    putAll c f adds a.2 = fillSlot c (f a.2) a.1 := by
  intro adds
  induction adds with
  | nil => intro f a _ h; cases h
  | cons b r ih =>
    intro f a hd h
    obtain ⟨d, p⟩ := b
    have hd' : p ∉ r.map (·.2) ∧ Distinct r := List.nodup_cons.1 hd
    rw [putAll]
    rcases List.mem_cons.1 h with rfl | h
    · rw [putAll_other]
      · exact upd_same _ _ _
      · intro b hb e; apply hd'.1; rw [← show b.2 = p from e]; exact List.mem_map_of_mem hb
    · rw [ih _ a hd'.2 h, upd_ne]
      intro e; apply hd'.1; rw [← e]; exact List.mem_map_of_mem h

theorem addAll_iff {c : Cfg} : ∀ (adds : List (Desc × Nat)) (s s' : Core c.tw),
    addAll c s adds = .ok s' ↔
      Distinct adds ∧ (∀ a ∈ adds, a.2 < c.N ∧ (s.task a.2).state = .empty) ∧ s' = { s with task := putAll c s.task adds } := by
  intro adds
  induction adds with
  | nil => intro s s'; simp only [addAll, Distinct, putAll]; constructor
           · intro h; injection h with h; subst h; simp
           · rintro ⟨_, _, rfl⟩; rfl
  | cons a r ih =>
    intro s s'
    obtain ⟨d, p⟩ := a
    by_cases hp : p < c.N ∧ (s.task p).state = .empty
    · have hadd : addTask c s d p = .ok (s.setTask p (fillSlot c (s.task p) d)) := by
        simp [addTask, hp.1, hp.2]
      rw [addAll, hadd, Res.ok_bind, ih]
      constructor
      · rintro ⟨h1, h2, h3⟩
        have hne : ∀ a ∈ r, a.2 ≠ p := by
          intro a ha e
          have := (h2 a ha).2
          rw [e] at this
          simp [Core.setTask, fillSlot] at this
        refine ⟨?_, ?_, h3⟩
        · refine List.nodup_cons.2 ⟨?_, h1⟩
          intro hm
          obtain ⟨b, hb1, hb2⟩ := List.mem_map.1 hm
          exact hne b hb1 hb2
        · intro a ha
          rcases List.mem_cons.1 ha with rfl | ha
          · exact hp
          · have := h2 a ha
            rw [show (s.setTask p (fillSlot c (s.task p) d)).task a.2 = s.task a.2 from upd_ne _ _ (hne a ha)] at this
            exact this
      · rintro ⟨h1, h2, h3⟩
        have hd' : p ∉ r.map (·.2) ∧ Distinct r := List.nodup_cons.1 h1
        refine ⟨hd'.2, ?_, h3⟩
        intro a ha
        have hne : a.2 ≠ p := by intro e; apply hd'.1; rw [← e]; exact List.mem_map_of_mem ha
        rw [show (s.setTask p (fillSlot c (s.task p) d)).task a.2 = s.task a.2 from upd_ne _ _ hne]
        exact h2 a (by simp [ha])
    · have hadd : addTask c s d p = .fatal := by
        unfold addTask
        by_cases h1 : p < c.N
        · have h2 : ¬ (s.task p).state = .empty := fun h => hp ⟨h1, h⟩
          simp [h1, h2]
        · simp [h1]
      rw [addAll, hadd]
      constructor
      · intro h; cases h
      · rintro ⟨_, h2, _⟩; exact absurd (h2 (d, p) (by simp)) hp

theorem init_empty {c : Cfg} {p : Nat} (hp : p < c.N) : (init c).task p = taskCoreInit c.tw := by
  have : p ≠ c.N := by omega
  simp [init, this]

/-- the state after a successful boot -/
theorem boot_iff {c : Cfg} (adds : List (Desc × Nat)) (s : Core c.tw) :
    boot c adds = .ok s ↔ Distinct adds ∧ (∀ a ∈ adds, a.2 < c.N) ∧
      s = { init c with running := true, task := putAll c (init c).task adds } := by
  unfold boot
  constructor
  · intro h
    obtain ⟨s1, h1, h2⟩ := Res.bind_eq_ok h
    obtain ⟨a, b, d⟩ := (addAll_iff adds _ _).1 h1
    refine ⟨a, fun x hx => (b x hx).1, ?_⟩
    injection h2 with h2
    rw [← h2, d]
  · rintro ⟨h1, h2, h3⟩
    have := (addAll_iff adds (init c) { init c with task := putAll c (init c).task adds }).2
      ⟨h1, fun a ha => ⟨h2 a ha, by rw [init_empty (h2 a ha)]; rfl⟩, rfl⟩
    rw [this, h3]; rfl

theorem boot_inv {c : Cfg} {adds : List (Desc × Nat)} {s : Core c.tw} (h : boot c adds = .ok s) : Inv c s := by
  obtain ⟨_, h2, rfl⟩ := (boot_iff adds s).1 h
  have hidle : ((putAll c (init c).task adds) c.N).state = .ready := by
    rw [putAll_other c adds _ c.N (fun a ha => by have := h2 a ha; omega)]
    unfold init
    simp [fillSlot]
  exact ⟨rfl, Nat.le_refl _, hidle, hidle, fun h => by cases h⟩

theorem reach_inv {c : Cfg} (hc : c.WF) {s : Core c.tw} (h : Reach c s) : Inv c s := by
  obtain ⟨adds, evs, s0, h1, h2⟩ := h
  exact inv_run hc evs s0 s (boot_inv h1) h2

end Pico.Lite
