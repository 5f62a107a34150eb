import Verif.Sched.Spec

/-! Helper lemmas for the single-core scheduler: characterisation of the loops. -/

namespace Pico.Sched

/-- availability of a task value -/
def AvailT (c : Cfg) (s : Core c.tw) (t : Task c.tw) : Prop :=
  t.state = .ready ∧ (s.tick.toNat % 2 ^ c.pw) % s.sub t.prio = t.subPrio

instance (c : Cfg) (s : Core c.tw) (t : Task c.tw) : Decidable (AvailT c s t) := by
  unfold AvailT; infer_instance

/-- availability of a pid -/
def Avail (c : Cfg) (s : Core c.tw) (p : Nat) : Prop := AvailT c s (s.task p)

instance (c : Cfg) (s : Core c.tw) (p : Nat) : Decidable (Avail c s p) := by
  unfold Avail; infer_instance

/-- the sub table is usable for a task -/
def TaskGood (c : Cfg) (s : Core c.tw) (t : Task c.tw) : Prop :=
  t.state ≠ .empty → t.prio < c.taskCount ∧ s.sub t.prio ≠ 0

theorem isAvailable_eq {c : Cfg} {s : Core c.tw} {t : Task c.tw} (h : TaskGood c s t) :
    isAvailable c s t = .ok (decide (AvailT c s t)) := by
  unfold isAvailable AvailT
  by_cases hr : t.state = .ready
  · have h' := h (by simp [hr])
    simp [hr, h'.1, h'.2]
  · simp [hr]

theorem nextAvail_spec {c : Cfg} (hc : c.WF) : ∀ (fuel : Nat) (s : Core c.tw) (lo : Nat),
    (∀ p, p ≤ c.N → TaskGood c s (s.task p)) → Avail c s c.N →
    (s.index + 1) % 2 ^ c.pw = lo → lo ≤ c.N → c.N + 1 ≤ fuel + lo →
    ∃ j, lo ≤ j ∧ j ≤ c.N ∧ Avail c s j ∧ (∀ q, lo ≤ q → q < j → ¬ Avail c s q) ∧
      nextAvail c fuel s = .ok { s with index := j } := by
  intro fuel
  induction fuel with
  | zero => intro s lo _ _ _ h1 h2; omega
  | succ n ih =>
    intro s lo hg hidle hlo hle hf
    have hlt : lo < c.taskCount := by unfold Cfg.taskCount; omega
    by_cases ha : Avail c s lo
    · refine ⟨lo, Nat.le_refl _, hle, ha, fun q h1 h2 => by omega, ?_⟩
      unfold nextAvail
      have hg' : TaskGood c { s with index := lo } (s.task lo) := hg lo hle
      have ha' : AvailT c { s with index := lo } (s.task lo) := ha
      simp [hlo, hlt, isAvailable_eq hg', ha']
    · have hne : lo ≠ c.N := by intro h; subst h; exact ha hidle
      have hs : ((lo + 1) % 2 ^ c.pw) = lo + 1 := by
        apply Nat.mod_eq_of_lt; have := hc.fits; omega
      obtain ⟨j, h1, h2, h3, h4, h5⟩ := ih { s with index := lo } (lo + 1) hg hidle hs (by omega) (by omega)
      refine ⟨j, by omega, h2, h3, ?_, ?_⟩
      · intro q hq1 hq2
        by_cases hq : q = lo
        · subst hq; exact ha
        · exact h4 q (by omega) hq2
      · unfold nextAvail
        have hg' : TaskGood c { s with index := lo } (s.task lo) := hg lo hle
        have ha' : ¬ AvailT c { s with index := lo } (s.task lo) := ha
        simp [hlo, hlt, isAvailable_eq hg', ha', h5]

/-- result of the wake-up pass on one task -/
def woken {tw : Nat} (tick : BitVec tw) (t : Task tw) : Task tw :=
  { (if t.state = .sleep ∧ t.tick = tick then { t with state := .ready } else t) with statCounter := 0 }

theorem woken_prio {tw : Nat} (k : BitVec tw) (t : Task tw) : (woken k t).prio = t.prio := by
  unfold woken; split <;> rfl
theorem woken_subPrio {tw : Nat} (k : BitVec tw) (t : Task tw) : (woken k t).subPrio = t.subPrio := by
  unfold woken; split <;> rfl
theorem woken_sp {tw : Nat} (k : BitVec tw) (t : Task tw) : (woken k t).sp = t.sp := by
  unfold woken; split <;> rfl
theorem woken_tick {tw : Nat} (k : BitVec tw) (t : Task tw) : (woken k t).tick = t.tick := by
  unfold woken; split <;> rfl
theorem woken_bottom {tw : Nat} (k : BitVec tw) (t : Task tw) : (woken k t).bottom = t.bottom := by
  unfold woken; split <;> rfl
theorem woken_top {tw : Nat} (k : BitVec tw) (t : Task tw) : (woken k t).top = t.top := by
  unfold woken; split <;> rfl
theorem woken_count {tw : Nat} (k : BitVec tw) (t : Task tw) : (woken k t).count = t.count := by
  unfold woken; split <;> rfl
theorem woken_miss {tw : Nat} (k : BitVec tw) (t : Task tw) : (woken k t).miss = t.miss := by
  unfold woken; split <;> rfl
theorem woken_statLo {tw : Nat} (k : BitVec tw) (t : Task tw) : (woken k t).statLo = t.statLo := by
  unfold woken; split <;> rfl
theorem woken_statHi {tw : Nat} (k : BitVec tw) (t : Task tw) : (woken k t).statHi = t.statHi := by
  unfold woken; split <;> rfl
theorem woken_state {tw : Nat} (k : BitVec tw) (t : Task tw) :
    (woken k t).state = if t.state = .sleep ∧ t.tick = k then .ready else t.state := by
  unfold woken; split <;> rfl
theorem woken_empty {tw : Nat} (k : BitVec tw) (t : Task tw) :
    (woken k t).state = .empty ↔ t.state = .empty := by
  rw [woken_state]; split
  · rename_i h; simp [h.1]
  · rfl

theorem tickLoop_spec {c : Cfg} : ∀ (n : Nat) (s : Core c.tw),
    (∀ p, p < n → TaskGood c s (s.task p)) →
    ∃ i, tickLoop c n s =
        .ok { s with task := fun q => if q < n then woken s.tick (s.task q) else s.task q, index := i } ∧
      ((i < n ∧ AvailT c s (woken s.tick (s.task i)) ∧ ∀ q, q < i → ¬ AvailT c s (woken s.tick (s.task q))) ∨
       (i = s.index ∧ ∀ q, q < n → ¬ AvailT c s (woken s.tick (s.task q)))) := by
  intro n
  induction n with
  | zero => intro s _; exact ⟨s.index, by simp [tickLoop], .inr ⟨rfl, by simp⟩⟩
  | succ n ih =>
    intro s hg
    let t := s.task n
    let t1 : Task c.tw := if t.state = .sleep ∧ t.tick = s.tick then { t with state := .ready } else t
    have hw : woken s.tick t = { t1 with statCounter := 0 } := rfl
    have hgt1 : TaskGood c s t1 := by
      have := hg n (by omega)
      intro hne
      show t1.prio < c.taskCount ∧ s.sub t1.prio ≠ 0
      have hp : t1.prio = t.prio := by simp only [t1]; split <;> rfl
      rw [hp]; apply this
      intro he; apply hne; simp only [t1]; rw [if_neg]
      · exact he
      · rw [show t.state = .empty from he]; simp
    let b := decide (AvailT c s t1)
    let s1 : Core c.tw := if b then { s with index := n } else s
    let s2 := s1.setTask n { t1 with statCounter := 0 }
    have hunf : tickLoop c (n + 1) s = tickLoop c n s2 := by
      show (isAvailable c s t1 >>= fun a => _) = _
      rw [isAvailable_eq hgt1]; rfl
    have hs1t : s1.task = s.task := by simp only [s1]; split <;> rfl
    have hs1k : s1.tick = s.tick := by simp only [s1]; split <;> rfl
    have hs1s : s1.sub = s.sub := by simp only [s1]; split <;> rfl
    have hs2t : s2.task = upd s.task n (woken s.tick t) := by
      show upd s1.task n _ = _; rw [hs1t, hw]
    have hs2k : s2.tick = s.tick := hs1k
    have hs2s : s2.sub = s.sub := hs1s
    have hs2e : s2 = { s with task := upd s.task n (woken s.tick t), index := s1.index } := by
      have h1 : s1 = { s with index := s1.index } := by
        simp only [s1]; split <;> rfl
      show s1.setTask n _ = _
      rw [h1, ← hw]; rfl
    have hav : ∀ t', AvailT c s2 t' ↔ AvailT c s t' := by
      intro t'; unfold AvailT; rw [hs2k, hs2s]
    have hgood : ∀ p, p < n → TaskGood c s2 (s2.task p) := by
      intro p hp
      rw [hs2t, upd_ne _ _ (by omega)]
      have := hg p (by omega)
      intro hne; have := this hne; rw [hs2s]; exact this
    obtain ⟨i, hi, hcase⟩ := ih s2 hgood
    have hwn : AvailT c s (woken s.tick t) ↔ AvailT c s t1 := by rw [hw]; rfl
    refine ⟨i, ?_, ?_⟩
    · rw [hunf, hi, hs2e]
      congr 2
      funext q
      show (if q < n then woken s.tick (upd s.task n (woken s.tick t) q) else upd s.task n (woken s.tick t) q) = _
      by_cases hq : q < n
      · rw [if_pos hq, upd_ne _ _ (by omega), if_pos (by omega)]
      · by_cases hq' : q = n
        · subst hq'; simp [t]
        · rw [if_neg hq, upd_ne _ _ hq', if_neg (by omega)]
    · have htr : ∀ q, q < n → (AvailT c s2 (woken s2.tick (s2.task q)) ↔ AvailT c s (woken s.tick (s.task q))) := by
        intro q hq; rw [hav, hs2k, hs2t, upd_ne _ _ (by omega)]
      rcases hcase with ⟨h1, h2, h3⟩ | ⟨h1, h2⟩
      · left
        refine ⟨by omega, (htr i h1).1 h2, ?_⟩
        intro q hq; exact fun h => h3 q hq ((htr q (by omega)).2 h)
      · by_cases ha : AvailT c s t1
        · left
          have hin : i = n := by rw [h1]; show s1.index = n; simp [s1, b, ha]
          subst hin
          refine ⟨by omega, hwn.2 ha, ?_⟩
          intro q hq; exact fun h => h2 q hq ((htr q hq).2 h)
        · right
          have hin : i = s.index := by rw [h1]; show s1.index = _; simp [s1, b, ha]
          refine ⟨hin, ?_⟩
          intro q hq h
          by_cases hqn : q = n
          · subst hqn; exact ha (hwn.1 h)
          · exact h2 q (by omega) ((htr q (by omega)).2 h)

/-- Where a context switch from pid `i` goes, `A` being the available pids and `post` the postponed
flag: the new index `j` and the new postponed flag `b`. -/
inductive Goes (N : Nat) (A : Nat → Prop) (post : Bool) (i : Nat) : Nat → Bool → Prop
  | next {j : Nat} (h1 : i < j) (h2 : j ≤ N) (h3 : A j)
      (h4 : ∀ q, i < q → q < j → ¬ A q) (h5 : j = N → post = false) :
      Goes N A post i j post
  | wrap {j : Nat} (h1 : post = true) (h2 : ∀ q, i < q → q < N → ¬ A q)
      (h3 : j ≤ N) (h4 : A j) (h5 : ∀ q, q < j → ¬ A q) :
      Goes N A post i j false

theorem switchContext_spec {c : Cfg} (hc : c.WF) (s : Core c.tw) (pid since cur : Nat)
    (hg : ∀ p, p ≤ c.N → TaskGood c s (s.task p)) (hidle : Avail c s c.N) (hi : s.index < c.N) :
    ∃ j b, Goes c.N (Avail c s) s.postponed s.index j b ∧
      switchContext c s pid since cur = .ok
        { s with
          index := j
          postponed := b
          task := upd (upd s.task pid (statFinish c (s.task pid) since)) j
            (statStart c (upd s.task pid (statFinish c (s.task pid) since) j) cur) } := by
  let s0 := s.setTask pid (statFinish c (s.task pid) since)
  have hst : ∀ p, (s0.task p).state = (s.task p).state ∧ (s0.task p).prio = (s.task p).prio ∧
      (s0.task p).subPrio = (s.task p).subPrio := by
    intro p
    show ((upd s.task pid _) p).state = _ ∧ _
    by_cases hp : p = pid
    · subst hp; simp only [s0, Core.setTask, upd_same]; exact ⟨rfl, rfl, rfl⟩
    · simp only [s0, Core.setTask, upd_ne _ _ hp]; exact ⟨trivial, trivial, trivial⟩
  have hg0 : ∀ p, p ≤ c.N → TaskGood c s0 (s0.task p) := by
    intro p hp hne
    have := hg p hp (by rw [← (hst p).1]; exact hne)
    rw [(hst p).2.1]; exact this
  have hav0 : ∀ p, Avail c s0 p ↔ Avail c s p := by
    intro p; unfold Avail AvailT; rw [(hst p).1, (hst p).2.1, (hst p).2.2]; rfl
  have hidle0 : Avail c s0 c.N := (hav0 _).2 hidle
  have hlo : (s0.index + 1) % 2 ^ c.pw = s.index + 1 := by
    apply Nat.mod_eq_of_lt; have := hc.fits; show s.index + 1 < _; omega
  obtain ⟨j, h1, h2, h3, h4, h5⟩ := nextAvail_spec hc (c.N + 2) s0 (s.index + 1) hg0 hidle0 hlo (by omega) (by omega)
  by_cases hw : j = c.N ∧ s.postponed = true
  · let s1' : Core c.tw := { s0 with postponed := false, index := 2 ^ c.pw - 1 }
    have hlo' : (s1'.index + 1) % 2 ^ c.pw = 0 := by
      show (2 ^ c.pw - 1 + 1) % 2 ^ c.pw = 0
      have : 0 < 2 ^ c.pw := Nat.two_pow_pos _
      rw [Nat.sub_add_cancel this, Nat.mod_self]
    obtain ⟨k, k1, k2, k3, k4, k5⟩ := nextAvail_spec hc (c.N + 2) s1' 0 hg0 hidle0 hlo' (by omega) (by omega)
    refine ⟨k, false, .wrap hw.2 ?_ k2 ((hav0 k).1 k3) ?_, ?_⟩
    · intro q q1 q2 h; exact h4 q (by omega) (by omega) ((hav0 q).2 h)
    · intro q q1 h; exact k4 q (by omega) q1 ((hav0 q).2 h)
    · unfold switchContext
      show (nextAvail c (c.N + 2) s0 >>= _) = _
      rw [h5]
      simp only [Res.ok_bind]
      have hw0 : j = c.N ∧ s0.postponed = true := hw
      rw [if_pos hw0]
      show (nextAvail c (c.N + 2) s1' >>= _) = _
      rw [k5]
      simp only [Res.ok_bind]
      rw [if_neg (by simp [s1'])]
      rfl
  · refine ⟨j, s.postponed, .next (by omega) h2 ((hav0 j).1 h3) ?_ ?_, ?_⟩
    · intro q q1 q2 h; exact h4 q (by omega) q2 ((hav0 q).2 h)
    · intro hj; cases hp : s.postponed
      · rfl
      · exact absurd ⟨hj, hp⟩ hw
    · unfold switchContext
      show (nextAvail c (c.N + 2) s0 >>= _) = _
      rw [h5]
      simp only [Res.ok_bind]
      have hw0 : ¬ (j = c.N ∧ s0.postponed = true) := hw
      rw [if_neg hw0]
      rfl

/-- Everything an event leaves unchanged in a task. -/
structure SameStatic {tw : Nat} (t t' : Task tw) : Prop where
  prio : t'.prio = t.prio
  subPrio : t'.subPrio = t.subPrio
  bottom : t'.bottom = t.bottom
  top : t'.top = t.top
  count : t'.count = t.count

/-- Everything an event leaves unchanged in a task that was not running. -/
structure SameTask {tw : Nat} (t t' : Task tw) : Prop extends SameStatic t t' where
  sp : t'.sp = t.sp
  tick : t'.tick = t.tick
  miss : t'.miss = t.miss
  statLo : t'.statLo = t.statLo
  statHi : t'.statHi = t.statHi
  statMiss : t'.statMiss = t.statMiss

theorem SameTask.refl {tw : Nat} (t : Task tw) : SameTask t t :=
  ⟨⟨rfl, rfl, rfl, rfl, rfl⟩, rfl, rfl, rfl, rfl, rfl, rfl⟩

theorem sameTask_woken {tw : Nat} (k : BitVec tw) (t : Task tw) : SameTask t (woken k t) := by
  unfold woken; split <;> exact ⟨⟨rfl, rfl, rfl, rfl, rfl⟩, rfl, rfl, rfl, rfl, rfl, rfl⟩

theorem sameTask_statStart (c : Cfg) (t t' : Task c.tw) (cur : Nat) (h : SameTask t t') :
    SameTask t (statStart c t' cur) :=
  ⟨⟨h.prio, h.subPrio, h.bottom, h.top, h.count⟩, h.sp, h.tick, h.miss, h.statLo, h.statHi, h.statMiss⟩

/-- Invariant of the running system. -/
structure Inv (c : Cfg) (s : Core c.tw) : Prop where
  running : s.running = true
  idx : s.index ≤ c.N
  av : Avail c s s.index
  idleSt : (s.task c.N).state = .ready
  idlePrio : (s.task c.N).prio = c.N
  idleSub : (s.task c.N).subPrio = 0
  subIdle : s.sub c.N = 1
  userPrio : ∀ p, p < c.N → (s.task p).state ≠ .empty → (s.task p).prio < c.N
  subEq : ∀ p, p < c.N → (s.task p).prio < c.N →
    s.sub (s.task p).prio = sharers c s p ∧ (s.task p).subPrio = turn c s p
  sorted : ∀ p q, p ≤ q → q < c.N → (s.task p).prio ≤ (s.task q).prio
  post : s.postponed = true → s.index < c.N ∧ ∃ q, q < s.index ∧ Avail c s q

theorem sharers_pos {c : Cfg} {s : Core c.tw} {p : Nat} (hp : p < c.N) : 0 < sharers c s p := by
  unfold sharers
  apply List.length_pos_of_mem (a := p)
  simp [hp]

theorem Inv.good {c : Cfg} {s : Core c.tw} (h : Inv c s) (p : Nat) (hp : p ≤ c.N) :
    TaskGood c s (s.task p) := by
  intro hne
  by_cases hpn : p = c.N
  · subst hpn; rw [h.idlePrio, h.subIdle]; unfold Cfg.taskCount; omega
  · have hlt : p < c.N := by omega
    have h1 := h.userPrio p hlt hne
    have h2 := (h.subEq p hlt h1).1
    refine ⟨by unfold Cfg.taskCount; omega, ?_⟩
    rw [h2]; have := sharers_pos (c := c) (s := s) hlt; omega

theorem Inv.idleAvail {c : Cfg} {s : Core c.tw} (h : Inv c s) : Avail c s c.N := by
  refine ⟨h.idleSt, ?_⟩
  rw [h.idlePrio, h.subIdle, h.idleSub, Nat.mod_one]

/-- Effect of a tick. -/
structure TickRes (c : Cfg) (s : Core c.tw) (e : Ev c.tw) (s' : Core c.tw) : Prop where
  tick : s'.tick = s.tick + 1
  postponed : s'.postponed = false
  running : s'.running = s.running
  sub : s'.sub = s.sub
  pidCount : s'.pidCount = s.pidCount
  static : ∀ q, SameStatic (s.task q) (s'.task q)
  other : ∀ q, q ≠ s.index → SameTask (s.task q) (s'.task q)
  curSp : (s'.task s.index).sp = e.sp
  curTick : (s'.task s.index).tick = (s.task s.index).tick
  curMiss : (s'.task s.index).miss = (s.task s.index).miss
  curLo : (s'.task s.index).statLo = (statFinish c (s.task s.index) e.since).statLo
  curHi : (s'.task s.index).statHi = (statFinish c (s.task s.index) e.since).statHi
  state : ∀ q, q ≤ c.N → (s'.task q).state =
    if (s.task q).state = .sleep ∧ (s.task q).tick = s.tick + 1 then .ready else (s.task q).state
  idx : s'.index ≤ c.N
  av : Avail c s' s'.index
  least : ∀ q, q < s'.index → ¬ Avail c s' q

/-- a task slot after the running task was suspended by a tick -/
def suspended (c : Cfg) (s : Core c.tw) (e : Ev c.tw) : Nat → Task c.tw :=
  upd s.task s.index { statFinish c (s.task s.index) e.since with sp := e.sp }

theorem tickFn_spec {c : Cfg} (hc : c.WF) (s : Core c.tw) (e : Ev c.tw)
    (h : Inv c s) (hsp : SpOk s e.sp) :
    ∃ s', tickFn c s e = .ok (s', { sp := (s'.task s'.index).sp, ref := 0, brk := false }) ∧
      TickRes c s e s' := by
  let s1 : Core c.tw := { s with task := suspended c s e, tick := s.tick + 1, postponed := false }
  have hsusp : ∀ q, SameStatic (s.task q) (s1.task q) ∧ (s1.task q).state = (s.task q).state ∧
      (s1.task q).tick = (s.task q).tick := by
    intro q
    by_cases hq : q = s.index
    · subst hq; simp only [s1, suspended, upd_same]
      exact ⟨⟨rfl, rfl, rfl, rfl, rfl⟩, rfl, rfl⟩
    · simp only [s1, suspended, upd_ne _ _ hq]; exact ⟨(SameTask.refl _).toSameStatic, trivial, trivial⟩
  have hgood : ∀ p, p < c.taskCount → TaskGood c s1 (s1.task p) := by
    intro p hp hne
    have h1 := h.good p (by unfold Cfg.taskCount at hp; omega) (by rw [← (hsusp p).2.1]; exact hne)
    rw [(hsusp p).1.prio]; exact h1
  have hmod : c.taskCount % 2 ^ c.pw = c.taskCount := Nat.mod_eq_of_lt hc.fits
  obtain ⟨i, hi, hcase⟩ := tickLoop_spec c.taskCount s1 hgood
  let T : Nat → Task c.tw := fun q => if q < c.taskCount then woken s1.tick (s1.task q) else s1.task q
  let s' : Core c.tw := { s1 with task := upd T i (statStart c (T i) e.cur), index := i }
  have hTsame : ∀ q, SameTask (s1.task q) (s'.task q) ∧
      (s'.task q).state = (T q).state := by
    intro q
    have hT : SameTask (s1.task q) (T q) := by
      simp only [T]; split
      · exact sameTask_woken _ _
      · exact SameTask.refl _
    by_cases hq : q = i
    · subst hq
      simp only [s', upd_same]
      exact ⟨sameTask_statStart c _ _ _ hT, rfl⟩
    · simp only [s', upd_ne _ _ hq]
      exact ⟨hT, trivial⟩
  have hav : ∀ q, q < c.taskCount → (Avail c s' q ↔ AvailT c s1 (woken s1.tick (s1.task q))) := by
    intro q hq
    unfold Avail AvailT
    rw [(hTsame q).1.prio, (hTsame q).1.subPrio, (hTsame q).2, woken_prio, woken_subPrio]
    simp only [T, if_pos hq]; rfl
  have hcase' : i < c.taskCount ∧ AvailT c s1 (woken s1.tick (s1.task i)) ∧
      ∀ q, q < i → ¬ AvailT c s1 (woken s1.tick (s1.task q)) := by
    rcases hcase with h1 | ⟨_, h2⟩
    · exact h1
    · exfalso
      apply h2 c.N (by unfold Cfg.taskCount; omega)
      unfold AvailT
      rw [woken_prio, woken_subPrio, woken_state, (hsusp c.N).2.1, (hsusp c.N).1.prio, (hsusp c.N).1.subPrio,
        h.idleSt, h.idlePrio, h.idleSub]
      simp [s1, h.subIdle, Nat.mod_one]
  refine ⟨s', ?_, ?_⟩
  · have h1 := hsp.1
    have h2 := hsp.2
    unfold tickFn
    simp only [h1, h2, decide_true, assertFatal_true, Res.ok_bind]
    rw [hmod]
    show (tickLoop c c.taskCount s1 >>= _) = _
    rw [hi]
    rfl
  · refine
      { tick := rfl
        postponed := rfl
        running := rfl
        sub := rfl
        pidCount := rfl
        static := ?_
        other := ?_
        curSp := ?_
        curTick := ?_
        curMiss := ?_
        curLo := ?_
        curHi := ?_
        state := ?_
        idx := ?_
        av := (hav i hcase'.1).2 hcase'.2.1
        least := ?_ }
    · intro q
      have a := (hsusp q).1
      have b := (hTsame q).1
      exact ⟨b.prio.trans a.prio, b.subPrio.trans a.subPrio, b.bottom.trans a.bottom, b.top.trans a.top,
        b.count.trans a.count⟩
    · intro q hq
      have b := (hTsame q).1
      have hs : s1.task q = s.task q := by simp only [s1, suspended, upd_ne _ _ hq]
      rw [hs] at b; exact b
    · rw [(hTsame _).1.sp]; simp [s1, suspended]
    · rw [(hTsame _).1.tick]; simp [s1, suspended, statFinish]
    · rw [(hTsame _).1.miss]; simp [s1, suspended, statFinish]
    · rw [(hTsame _).1.statLo]; simp [s1, suspended]
    · rw [(hTsame _).1.statHi]; simp [s1, suspended]
    · intro q hq
      rw [(hTsame q).2]
      have hq' : q < c.taskCount := by unfold Cfg.taskCount; omega
      simp only [T, if_pos hq', woken_state, (hsusp q).2.1, (hsusp q).2.2]; rfl
    · have := hcase'.1; unfold Cfg.taskCount at this; show i ≤ _; omega
    · intro q hq
      have hq1 : q < i := hq
      rw [hav q (by have := hcase'.1; omega)]
      exact hcase'.2.2 q hq1

/-- New state of the caller's slot. -/
def callerState {tw : Nat} (s : Core tw) (old : TState) : Call tw → TState
  | .tick => old
  | .sleep d => if d.toNat > 0 then .sleep else old
  | .sleepUntil ref period => if (s.tick - ref).toNat < period.toNat then .sleep else old
  | .kill => .empty
  | .postpone => old

/-- New wake-up tick of the caller's slot. -/
def callerTick {tw : Nat} (s : Core tw) (old : BitVec tw) : Call tw → BitVec tw
  | .sleep d => if d.toNat > 0 then s.tick + d else old
  | .sleepUntil ref period => if (s.tick - ref).toNat < period.toNat then ref + period else old
  | _ => old

/-- the task written back by each syscall -/
def callerTask (c : Cfg) (s : Core c.tw) (e : Ev c.tw) : Task c.tw :=
  let t0 : Task c.tw := { s.task s.index with sp := e.sp }
  match e.call with
  | .sleep d => syscallSleep s t0 d
  | .sleepUntil ref period => (syscallSleepUntil c s t0 ref period).1
  | .kill => syscallKill t0
  | _ => t0

/-- the result value of each syscall -/
def callerOut (c : Cfg) (s : Core c.tw) (e : Ev c.tw) : BitVec c.tw × Bool :=
  let t0 : Task c.tw := { s.task s.index with sp := e.sp }
  match e.call with
  | .sleepUntil ref period => (syscallSleepUntil c s t0 ref period).2
  | _ => (0, false)

/-- postponed flag seen by the context switch -/
def callerPost {tw : Nat} (s : Core tw) : Call tw → Bool
  | .postpone => true
  | _ => s.postponed

/-- Effect of a syscall made by the user task `s.index`. -/
structure SysRes (c : Cfg) (s : Core c.tw) (e : Ev c.tw) (s' : Core c.tw) : Prop where
  tick : s'.tick = s.tick
  running : s'.running = s.running
  sub : s'.sub = s.sub
  pidCount : s'.pidCount = s.pidCount
  static : ∀ q, SameStatic (s.task q) (s'.task q)
  other : ∀ q, q ≠ s.index → SameTask (s.task q) (s'.task q) ∧ (s'.task q).state = (s.task q).state
  curSp : (s'.task s.index).sp = e.sp
  curTick : (s'.task s.index).tick = callerTick s (s.task s.index).tick e.call
  curState : (s'.task s.index).state = callerState s (s.task s.index).state e.call
  curMiss : (s'.task s.index).miss = (callerTask c s e).miss
  curStatMiss : (s'.task s.index).statMiss = (callerTask c s e).statMiss
  curLo : (s'.task s.index).statLo = (statFinish c (s.task s.index) e.since).statLo
  curHi : (s'.task s.index).statHi = (statFinish c (s.task s.index) e.since).statHi
  goes : Goes c.N (Avail c s') (callerPost s e.call) s.index s'.index s'.postponed

theorem callerTask_facts (c : Cfg) (s : Core c.tw) (e : Ev c.tw) :
    SameStatic (s.task s.index) (callerTask c s e) ∧ (callerTask c s e).sp = e.sp ∧
    (callerTask c s e).tick = callerTick s (s.task s.index).tick e.call ∧
    (callerTask c s e).state = callerState s (s.task s.index).state e.call ∧
    (callerTask c s e).statLo = (s.task s.index).statLo ∧
    (callerTask c s e).statHi = (s.task s.index).statHi := by
  unfold callerTask callerTick callerState
  cases hcall : e.call with
  | tick => exact ⟨⟨rfl, rfl, rfl, rfl, rfl⟩, rfl, rfl, rfl, rfl, rfl⟩
  | postpone => exact ⟨⟨rfl, rfl, rfl, rfl, rfl⟩, rfl, rfl, rfl, rfl, rfl⟩
  | kill => exact ⟨⟨rfl, rfl, rfl, rfl, rfl⟩, rfl, rfl, rfl, rfl, rfl⟩
  | sleep d =>
    simp only [syscallSleep]
    split <;> exact ⟨⟨rfl, rfl, rfl, rfl, rfl⟩, rfl, rfl, rfl, rfl, rfl⟩
  | sleepUntil r p =>
    simp only [syscallSleepUntil]
    split
    · exact ⟨⟨rfl, rfl, rfl, rfl, rfl⟩, rfl, rfl, rfl, rfl, rfl⟩
    · split <;> exact ⟨⟨rfl, rfl, rfl, rfl, rfl⟩, rfl, rfl, rfl, rfl, rfl⟩

theorem syscall_spec {c : Cfg} (hc : c.WF) (s : Core c.tw) (e : Ev c.tw)
    (h : Inv c s) (hsp : SpOk s e.sp) (hu : s.index < c.N) (hnt : e.call ≠ .tick) :
    ∃ s', syscall c s e = .ok (s', ⟨(s'.task s'.index).sp, (callerOut c s e).1, (callerOut c s e).2⟩) ∧ SysRes c s e s' := by
  have hfacts := callerTask_facts c s e
  let sm : Core c.tw := { s with task := upd s.task s.index (callerTask c s e), postponed := callerPost s e.call }
  have hmt : ∀ q, SameStatic (s.task q) (sm.task q) := by
    intro q
    by_cases hq : q = s.index
    · subst hq; simp only [sm, upd_same]; exact hfacts.1
    · simp only [sm, upd_ne _ _ hq]; exact (SameTask.refl _).toSameStatic
  have hcs : callerState s (s.task s.index).state e.call ≠ .empty → (s.task s.index).state ≠ .empty := by
    intro _; have := h.av.1; rw [this]; simp
  have hgm : ∀ p, p ≤ c.N → TaskGood c sm (sm.task p) := by
    intro p hp hne
    have h1 : (s.task p).state ≠ .empty := by
      by_cases hq : p = s.index
      · subst hq; have := h.av.1; rw [this]; simp
      · simp only [sm, upd_ne _ _ hq] at hne; exact hne
    have h2 := h.good p hp h1
    rw [(hmt p).prio]; exact h2
  have hidle : Avail c sm c.N := by
    have h1 : sm.task c.N = s.task c.N := by simp only [sm]; rw [upd_ne _ _ (by omega)]
    have h2 := h.idleAvail
    unfold Avail at h2 ⊢; rw [h1]; exact h2
  obtain ⟨j, b, hgo, hsw⟩ := switchContext_spec hc sm s.index e.since e.cur hgm hidle hu
  let T := upd sm.task s.index (statFinish c (sm.task s.index) e.since)
  let s' : Core c.tw := { sm with index := j, postponed := b, task := upd T j (statStart c (T j) e.cur) }
  have hT : ∀ q, q ≠ s.index → T q = s.task q := by
    intro q hq; simp only [T, sm, upd_ne _ _ hq]
  have hTp : T s.index = statFinish c (callerTask c s e) e.since := by
    simp only [T, sm, upd_same]
  have hS : ∀ q, SameTask (T q) (s'.task q) ∧ (s'.task q).state = (T q).state := by
    intro q
    by_cases hq : q = j
    · subst hq; simp only [s', upd_same]; exact ⟨sameTask_statStart c _ _ _ (SameTask.refl _), rfl⟩
    · simp only [s', upd_ne _ _ hq]; exact ⟨SameTask.refl _, trivial⟩
  have hTm : ∀ q, (T q).state = (sm.task q).state ∧ (T q).prio = (sm.task q).prio ∧
      (T q).subPrio = (sm.task q).subPrio := by
    intro q
    by_cases hq : q = s.index
    · subst hq; simp only [T, upd_same]; exact ⟨rfl, rfl, rfl⟩
    · simp only [T, upd_ne _ _ hq]; exact ⟨trivial, trivial, trivial⟩
  have hav : ∀ q, Avail c s' q ↔ Avail c sm q := by
    intro q; unfold Avail AvailT
    rw [(hS q).2, (hS q).1.prio, (hS q).1.subPrio, (hTm q).1, (hTm q).2.1, (hTm q).2.2]
  have hpm : sm.postponed = callerPost s e.call := rfl
  have hgo' : Goes c.N (Avail c s') (callerPost s e.call) s.index j b := by
    have : Avail c s' = Avail c sm := by funext q; exact propext (hav q)
    rw [this]; exact hgo
  refine ⟨s', ?_, ?_⟩
  · have h1 := hsp.1
    have h2 := hsp.2
    unfold syscall
    simp only [h1, h2, decide_true, assertFatal_true, Res.ok_bind]
    cases hcall : e.call with
    | tick => exact absurd hcall hnt
    | sleep d =>
      have hE : s.setTask s.index (syscallSleep s { s.task s.index with sp := e.sp } d) = sm := by
        simp only [sm, callerTask, callerPost, hcall]; rfl
      simp only [hE, hsw, Res.ok_bind]
      simp only [callerOut, hcall]; rfl
    | sleepUntil r p =>
      have hE : s.setTask s.index (syscallSleepUntil c s { s.task s.index with sp := e.sp } r p).1 = sm := by
        simp only [sm, callerTask, callerPost, hcall]; rfl
      simp only [hE, hsw, Res.ok_bind]
      simp only [callerOut, hcall]; rfl
    | kill =>
      have hE : s.setTask s.index (syscallKill { s.task s.index with sp := e.sp }) = sm := by
        simp only [sm, callerTask, callerPost, hcall]; rfl
      simp only [hE, hsw, Res.ok_bind]
      simp only [callerOut, hcall]; rfl
    | postpone =>
      have hE : ({ (s.setTask s.index { s.task s.index with sp := e.sp }) with postponed := true } : Core c.tw) = sm := by
        simp only [sm, callerTask, callerPost, hcall]; rfl
      simp only [hE, hsw, Res.ok_bind]
      simp only [callerOut, hcall]; rfl
  · have hcur := (hS s.index)
    rw [hTp] at hcur
    refine
      { tick := rfl
        running := rfl
        sub := rfl
        pidCount := rfl
        static := ?_
        other := ?_
        curSp := hcur.1.sp.trans hfacts.2.1
        curTick := hcur.1.tick.trans hfacts.2.2.1
        curState := hcur.2.trans hfacts.2.2.2.1
        curMiss := hcur.1.miss
        curStatMiss := hcur.1.statMiss
        curLo := ?_
        curHi := ?_
        goes := hgo' }
    · intro q
      by_cases hq : q = s.index
      · subst hq
        have f := hfacts.1
        exact ⟨hcur.1.prio.trans f.prio, hcur.1.subPrio.trans f.subPrio, hcur.1.bottom.trans f.bottom,
          hcur.1.top.trans f.top, hcur.1.count.trans f.count⟩
      · have := (hS q).1; rw [hT q hq] at this; exact this.toSameStatic
    · intro q hq
      have := hS q; rw [hT q hq] at this; exact this
    · rw [hcur.1.statLo]; simp only [statFinish, hfacts.2.2.2.2.1]
    · rw [hcur.1.statHi]; simp only [statFinish, hfacts.2.2.2.2.2]

end Pico.Sched
