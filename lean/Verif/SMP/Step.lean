import Verif.SMP.Lemmas

/-! What a tick and a syscall of the SMP scheduler do. -/

namespace Pico.SMP

open Pico.Sched (Desc Call Out Goes)

theorem upd_self {α : Type} (f : Nat → α) (i : Nat) : upd f i (f i) = f := by
  funext q; by_cases h : q = i
  · subst h; simp
  · simp [h]

/-- a slot after its visit by the loop of `picoRTOS_tick` -/
def woken {tw : Nat} (tick : BitVec tw) (t : Task tw) : Task tw :=
  { wakeTask tick t with statCounter := 0 }

theorem woken_state {tw : Nat} (k : BitVec tw) (t : Task tw) :
    (woken k t).state = if (t.state = .sleep ∧ t.tick = k) ∨ t.state = .done then .ready else t.state := by
  unfold woken wakeTask
  by_cases h1 : t.state = .sleep ∧ t.tick = k
  · simp [h1]
  · by_cases h2 : t.state = .done
    · simp [h2]
    · simp [h1, h2]

theorem sameTask_woken {tw : Nat} (k : BitVec tw) (t : Task tw) : SameTask t (woken k t) := by
  unfold woken wakeTask
  by_cases h1 : t.state = .sleep ∧ t.tick = k
  · rw [if_pos h1]; exact ⟨⟨rfl, rfl, rfl, rfl, rfl, rfl⟩, rfl, rfl, rfl⟩
  · rw [if_neg h1]
    by_cases h2 : t.state = .done
    · simp only [if_pos h2]; exact ⟨⟨rfl, rfl, rfl, rfl, rfl, rfl⟩, rfl, rfl, rfl⟩
    · simp only [if_neg h2]; exact ⟨⟨rfl, rfl, rfl, rfl, rfl, rfl⟩, rfl, rfl, rfl⟩

theorem woken_empty {tw : Nat} (k : BitVec tw) (t : Task tw) :
    (woken k t).state = .empty ↔ t.state = .empty := by
  rw [woken_state]; split
  · rename_i h
    rcases h with h | h
    · simp [h.1]
    · simp [h]
  · rfl

theorem tickLoop_spec {c : Cfg} (hc : c.WF) {k : Nat} (hk : k < c.K) : ∀ (n : Nat) (s : Core c.tw),
    (∀ p, p < n → TaskGood c s (s.task p)) →
    ∃ i, tickLoop c k n s =
        .ok { s with task := fun q => if q < n then woken s.tick (s.task q) else s.task q, index := upd s.index k i } ∧
      ((i < n ∧ AvailT c s k (woken s.tick (s.task i)) ∧ ∀ q, q < i → ¬ AvailT c s k (woken s.tick (s.task q))) ∨
       (i = s.index k ∧ ∀ q, q < n → ¬ AvailT c s k (woken s.tick (s.task q)))) := by
  intro n
  induction n with
  | zero => intro s _; exact ⟨s.index k, by simp [tickLoop, upd_self], .inr ⟨rfl, by simp⟩⟩
  | succ n ih =>
    intro s hg
    let t := s.task n
    let t1 : Task c.tw := wakeTask s.tick t
    have hw : woken s.tick t = { t1 with statCounter := 0 } := rfl
    have hgt1 : TaskGood c s t1 := by
      have := hg n (by omega)
      intro hne
      show t1.prio < c.taskCount ∧ s.sub t1.prio ≠ 0
      have hp : t1.prio = t.prio := (sameTask_woken s.tick t).prio
      rw [hp]; apply this
      intro he; apply hne
      exact (woken_empty s.tick t).2 he
    let b := decide (AvailT c s k t1)
    let s1 : Core c.tw := if b then s.setIndex k n else s
    let s2 := s1.setTask n { t1 with statCounter := 0 }
    have hunf : tickLoop c k (n + 1) s = tickLoop c k n s2 := by
      show (isAvailable c s t1 k >>= fun a => _) = _
      rw [isAvailable_eq hc hk hgt1]; rfl
    have hs1t : s1.task = s.task := by simp only [s1]; split <;> rfl
    have hs1k : s1.tick = s.tick := by simp only [s1]; split <;> rfl
    have hs1s : s1.sub = s.sub := by simp only [s1]; split <;> rfl
    have hs2t : s2.task = upd s.task n (woken s.tick t) := by
      show upd s1.task n _ = _; rw [hs1t, hw]
    have hs2k : s2.tick = s.tick := hs1k
    have hs2s : s2.sub = s.sub := hs1s
    have hs1i : ∀ i, upd s1.index k i = upd s.index k i := by
      intro i; simp only [s1]; split
      · exact upd_upd _ _ _ _
      · rfl
    have hs2e : s2 = { s with task := upd s.task n (woken s.tick t), index := s1.index } := by
      have h1 : s1 = { s with index := s1.index } := by
        simp only [s1]; split <;> rfl
      show s1.setTask n _ = _
      rw [h1, ← hw]; rfl
    have hav : ∀ t', AvailT c s2 k t' ↔ AvailT c s k t' := by
      intro t'; unfold AvailT; rw [hs2k, hs2s]
    have hgood : ∀ p, p < n → TaskGood c s2 (s2.task p) := by
      intro p hp
      rw [hs2t, upd_ne _ _ (by omega)]
      have := hg p (by omega)
      intro hne; have := this hne; rw [hs2s]; exact this
    obtain ⟨i, hi, hcase⟩ := ih s2 hgood
    have hwn : AvailT c s k (woken s.tick t) ↔ AvailT c s k t1 := by rw [hw]; rfl
    refine ⟨i, ?_, ?_⟩
    · rw [hunf, hi, hs2e]
      simp only [hs1i]
      congr 2
      funext q
      by_cases hq : q < n
      · rw [if_pos hq, upd_ne _ _ (by omega), if_pos (by omega)]
      · by_cases hq' : q = n
        · subst hq'; simp [t]
        · rw [if_neg hq, upd_ne _ _ hq', if_neg (by omega)]
    · have htr : ∀ q, q < n → (AvailT c s2 k (woken s2.tick (s2.task q)) ↔ AvailT c s k (woken s.tick (s.task q))) := by
        intro q hq; rw [hav, hs2k, hs2t, upd_ne _ _ (by omega)]
      rcases hcase with ⟨h1, h2, h3⟩ | ⟨h1, h2⟩
      · left
        refine ⟨by omega, (htr i h1).1 h2, ?_⟩
        intro q hq; exact fun h => h3 q hq ((htr q (by omega)).2 h)
      · by_cases ha : AvailT c s k t1
        · left
          have hin : i = n := by rw [h1]; show s1.index k = n; simp [s1, b, ha, Core.setIndex]
          subst hin
          refine ⟨by omega, hwn.2 ha, ?_⟩
          intro q hq; exact fun h => h2 q hq ((htr q hq).2 h)
        · right
          have hin : i = s.index k := by rw [h1]; show s1.index k = _; simp [s1, b, ha]
          refine ⟨hin, ?_⟩
          intro q hq h
          by_cases hqn : q = n
          · subst hqn; exact ha (hwn.1 h)
          · exact h2 q (by omega) ((htr q (by omega)).2 h)

/-! ### Tick -/

/-- system tick after a `picoRTOS_tick` call -/
def nextTick {tw : Nat} (s : Core tw) : BitVec tw := if s.coreCounter = 0 then s.tick + 1 else s.tick

/-- the current task of the core, suspended by a tick -/
def tickTask (c : Cfg) (s : Core c.tw) (e : Ev c.tw) (q : Nat) : Task c.tw :=
  if q = s.index e.core then statFinish c { s.task q with sp := e.sp, state := .ready } e.since else s.task q

/-- the state in the middle of a tick: the current task is suspended and tasks are woken up -/
def tickMid (c : Cfg) (s : Core c.tw) (e : Ev c.tw) : Core c.tw :=
  { s with
    tick := nextTick s
    postponed := if s.coreCounter = 0 then false else s.postponed
    coreCounter := if s.coreCounter + 1 = c.K then 0 else s.coreCounter + 1
    task := fun q => if q < c.taskCount then woken (nextTick s) (tickTask c s e q) else tickTask c s e q }

/-- Effect of a tick. -/
structure TickRes (c : Cfg) (s : Core c.tw) (e : Ev c.tw) (s' : Core c.tw) : Prop where
  mid : Mid c e.core (tickMid c s e)
  picked : Picked c e.core (tickMid c s e) s'
  postponed : s'.postponed = (tickMid c s e).postponed
  counter : s'.coreCounter = (tickMid c s e).coreCounter
  least : ∀ q, q < s'.index e.core → ¬ Avail c (tickMid c s e) e.core q

theorem tickTask_static (c : Cfg) (s : Core c.tw) (e : Ev c.tw) (q : Nat) : SameStatic (s.task q) (tickTask c s e q) := by
  unfold tickTask
  split
  · exact ⟨rfl, rfl, rfl, rfl, rfl, rfl⟩
  · exact SameStatic.refl _

theorem tickMid_static (c : Cfg) (s : Core c.tw) (e : Ev c.tw) (q : Nat) :
    SameStatic (s.task q) ((tickMid c s e).task q) := by
  have h1 := tickTask_static c s e q
  show SameStatic _ (if q < c.taskCount then woken (nextTick s) (tickTask c s e q) else tickTask c s e q)
  split
  · exact h1.trans (sameTask_woken _ _).toSameStatic
  · exact h1

theorem tickMid_cur {c : Cfg} {s : Core c.tw} {e : Ev c.tw} (hlt : s.index e.core < c.taskCount) :
    ((tickMid c s e).task (s.index e.core)).state = .ready ∧
    ((tickMid c s e).task (s.index e.core)).sp = e.sp := by
  show (if s.index e.core < c.taskCount then woken (nextTick s) (tickTask c s e (s.index e.core)) else _).state = _ ∧
    (if s.index e.core < c.taskCount then woken (nextTick s) (tickTask c s e (s.index e.core)) else _).sp = _
  simp only [if_pos hlt, woken_state, (sameTask_woken _ _).sp]
  unfold tickTask
  simp [statFinish]

theorem tickMid_other {c : Cfg} {s : Core c.tw} {e : Ev c.tw} {q : Nat} (hq : q < c.taskCount) (hne : q ≠ s.index e.core) :
    SameTask (s.task q) ((tickMid c s e).task q) ∧
    ((tickMid c s e).task q).state =
      if ((s.task q).state = .sleep ∧ (s.task q).tick = nextTick s) ∨ (s.task q).state = .done then .ready
      else (s.task q).state := by
  show SameTask _ (if q < c.taskCount then woken (nextTick s) (tickTask c s e q) else _) ∧
    (if q < c.taskCount then woken (nextTick s) (tickTask c s e q) else _).state = _
  have h1 : tickTask c s e q = s.task q := by unfold tickTask; rw [if_neg hne]
  rw [if_pos hq, h1, woken_state]
  exact ⟨sameTask_woken _ _, rfl⟩

theorem tick_mid {c : Cfg} {s : Core c.tw} {e : Ev c.tw} (h : Inv c s) (hk : e.core < c.K)
    (hsp : SpOk s e.core e.sp) : Mid c e.core (tickMid c s e) := by
  have hlt := h.idx e.core hk trivial
  have hcur := tickMid_cur (e := e) hlt
  apply h.suspend hk (tickMid_static c s e) rfl rfl
  · show (if s.coreCounter + 1 = c.K then 0 else s.coreCounter + 1) < c.K
    have := h.count
    split <;> omega
  · intro i _; rfl
  · rw [hcur.1]; simp
  · intro _; exact hcur.1
  · intro _; rw [hcur.2, (tickMid_static c s e _).top]; have := hsp.2; omega
  · intro q hq hne
    have := tickMid_other (e := e) hq hne
    refine ⟨this.1.sp, ?_⟩
    rw [this.2]
    split
    · rename_i hh
      right
      rcases hh with hh | hh
      · simp [hh.1]
      · simp [hh]
    · left; rfl

theorem leave_ok {tw : Nat} {s : Core tw} {k : Nat} (ref : BitVec tw) (brk : Bool)
    (h : (s.task (s.index k)).sp ≠ (s.task (s.index k)).top) :
    leave s k ref brk = .ok (s, { sp := (s.task (s.index k)).sp, ref := ref, brk := brk }) := by
  unfold leave
  simp only [h, ne_eq, not_false_eq_true, decide_true, assertFatal_true, Res.ok_bind]; rfl

theorem Inv.curSp {c : Cfg} {s : Core c.tw} (h : Inv c s) {k : Nat} (hk : k < c.K) :
    (s.task (s.index k)).sp ≠ (s.task (s.index k)).top := by
  apply h.spTop _ (h.idx k hk trivial)
  rcases h.run k hk trivial with h1 | ⟨_, h1⟩ <;> rw [h1] <;> simp

theorem tickFn_spec {c : Cfg} (hc : c.WF) (s : Core c.tw) (e : Ev c.tw)
    (h : Inv c s) (hk : e.core < c.K) (hsp : SpOk s e.core e.sp) :
    ∃ s', tickFn c s e = .ok (s', { sp := (s'.task (s'.index e.core)).sp, ref := 0, brk := false }) ∧
      TickRes c s e s' := by
  have hm := tick_mid h hk hsp
  have hlt := h.idx e.core hk trivial
  let sm := tickMid c s e
  -- state before the loop
  let s1 : Core c.tw := { s with
    task := tickTask c s e
    tick := nextTick s
    postponed := if s.coreCounter = 0 then false else s.postponed
    coreCounter := s.coreCounter + 1 }
  have hgood : ∀ p, p < c.taskCount → TaskGood c s1 (s1.task p) := by
    intro p hp hne
    have hst := tickTask_static c s e p
    have h1 := h.toStatic.good p hp (by
      by_cases hq : p = s.index e.core
      · subst hq
        rcases h.run e.core hk trivial with h1 | ⟨_, h1⟩ <;> rw [h1] <;> simp
      · have : s1.task p = s.task p := by show tickTask c s e p = _; unfold tickTask; rw [if_neg hq]
        rw [this] at hne; exact hne)
    show (tickTask c s e p).prio < _ ∧ s.sub (tickTask c s e p).prio ≠ 0
    rw [hst.prio]; exact h1
  obtain ⟨i, hi, hcase⟩ := tickLoop_spec hc hk c.taskCount s1 hgood
  have htr : ∀ q, q < c.taskCount → (AvailT c s1 e.core (woken s1.tick (s1.task q)) ↔ Avail c sm e.core q) := by
    intro q hq
    unfold Avail
    have : sm.task q = woken s1.tick (s1.task q) := by
      show (if q < c.taskCount then woken (nextTick s) (tickTask c s e q) else _) = _
      rw [if_pos hq]
    rw [this]; rfl
  have hsel : i < c.taskCount ∧ Avail c sm e.core i ∧ ∀ q, q < i → ¬ Avail c sm e.core q := by
    rcases hcase with ⟨h1, h2, h3⟩ | ⟨_, h2⟩
    · exact ⟨h1, (htr i h1).1 h2, fun q hq h => h3 q hq ((htr q (by omega)).2 h)⟩
    · exfalso
      have hn : c.N + e.core < c.taskCount := by unfold Cfg.taskCount; omega
      exact h2 _ hn ((htr _ hn).2 (hm.idleAvail hk))
  let T := sm.task
  let s' : Core c.tw := { sm with
    index := upd s.index e.core i
    task := upd T i (statStart c { T i with state := .busy } e.cur) }
  have hi' : s'.index e.core = i := upd_same _ _ _
  have hpick : Picked c e.core sm s' := by
    refine ⟨rfl, rfl, rfl, rfl, ?_, ?_, ?_, ?_, ?_, ?_⟩
    · intro q
      by_cases hq : q = i
      · subst hq; simp only [s', upd_same]; exact ⟨⟨rfl, rfl, rfl, rfl, rfl, rfl⟩, rfl, rfl, rfl⟩
      · simp only [s', upd_ne _ _ hq]; exact SameTask.refl _
    · intro j hj; exact upd_ne _ _ hj
    · rw [hi']
      rcases Nat.lt_or_ge i c.N with h1 | h1
      · omega
      · exact Nat.le_of_eq (hm.toStatic.avail_idle_only hk hsel.1 h1 hsel.2.1.1)
    · rw [hi']; exact hsel.2.1
    · rw [hi']; simp only [s', upd_same]; rfl
    · intro q hq
      rw [hi'] at hq; simp only [s', upd_ne _ _ hq]; rfl
  have hinv := hpick.inv hm hk hm.count
  refine ⟨s', ?_, ⟨hm, hpick, rfl, rfl, ?_⟩⟩
  · have h1 := hsp.1
    have h2 := hsp.2
    have hmod : c.taskCount % 2 ^ c.pw = c.taskCount := Nat.mod_eq_of_lt hc.fits
    have hmodk : c.K % 2 ^ c.kw = c.K := Nat.mod_eq_of_lt hc.counter
    have hmodc : (s.coreCounter + 1) % 2 ^ c.kw = s.coreCounter + 1 := by
      apply Nat.mod_eq_of_lt; have := h.count; have := hc.counter; omega
    unfold tickFn
    simp only [h1, h2, decide_true, assertFatal_true, Res.ok_bind]
    have hs0 : (s.setTask (s.index e.core) (statFinish c { s.task (s.index e.core) with sp := e.sp, state := .ready } e.since)) =
        { s with task := tickTask c s e } := by
      show ({ s with task := upd s.task _ _ } : Core c.tw) = _
      congr 1
      funext q
      unfold tickTask
      by_cases hq : q = s.index e.core
      · subst hq; simp
      · rw [upd_ne _ _ hq, if_neg hq]
    rw [hs0]
    have hs1 : ({ (if ({ s with task := tickTask c s e } : Core c.tw).coreCounter = 0 then
          { ({ s with task := tickTask c s e } : Core c.tw) with
            tick := ({ s with task := tickTask c s e } : Core c.tw).tick + 1, postponed := false }
        else ({ s with task := tickTask c s e } : Core c.tw)) with
        coreCounter := ((if ({ s with task := tickTask c s e } : Core c.tw).coreCounter = 0 then
          { ({ s with task := tickTask c s e } : Core c.tw) with
            tick := ({ s with task := tickTask c s e } : Core c.tw).tick + 1, postponed := false }
        else ({ s with task := tickTask c s e } : Core c.tw)).coreCounter + 1) % 2 ^ c.kw } : Core c.tw) = s1 := by
      simp only [s1, nextTick]
      by_cases h0 : s.coreCounter = 0
      · simp only [h0, if_true]; rw [h0] at hmodc; simp only [hmodc]
      · simp only [h0, if_false, hmodc]
    rw [hs1, hmod, hi]
    simp only [Res.ok_bind]
    rw [show (if (_ : Nat) = c.K % 2 ^ c.kw then _ else _) = s' from ?_]
    · exact leave_ok _ _ (hinv.curSp hk)
    · rw [hmodk]
      have hTT : (fun q => if q < c.taskCount then woken s1.tick (s1.task q) else s1.task q) = T := rfl
      have hii : upd s.index e.core i e.core = i := upd_same _ _ _
      simp only [setBusy, Core.setTask]
      show (if s.coreCounter + 1 = c.K then _ else _) = _
      simp only [hTT]
      have e1 : upd s1.index e.core i e.core = i := upd_same _ _ _
      simp only [e1, upd_same]
      rw [upd_upd]
      by_cases hkk : s.coreCounter + 1 = c.K
      · simp only [s', sm, tickMid, hkk, if_true]; rfl
      · simp only [s', sm, tickMid, hkk, if_false]; rfl
  · intro q hq; rw [hi'] at hq; exact hsel.2.2 q hq

end Pico.SMP
