import Verif.SMP.Spec
import Verif.Sched.Inv
import Mathlib.Data.Nat.Bitwise

/-! Helper lemmas on the SMP scheduler. -/

namespace Pico.SMP

open Pico.Sched (Desc Call Out Goes)

theorem coreMask_eq {c : Cfg} (hc : c.WF) {k : Nat} (hk : k < c.K) : coreMask c k = 2 ^ k := by
  unfold coreMask
  apply Nat.mod_eq_of_lt
  exact Nat.pow_lt_pow_right (by omega) (by have := hc.mask; omega)

theorem mask_and {c : Cfg} (hc : c.WF) {k : Nat} (hk : k < c.K) (m : Nat) :
    m &&& coreMask c k ≠ 0 ↔ m.testBit k = true := by
  rw [coreMask_eq hc hk]
  cases h : m.testBit k
  · simp only [Bool.false_eq_true, iff_false, Decidable.not_not]
    apply Nat.eq_of_testBit_eq
    intro i
    rw [Nat.testBit_and, Nat.testBit_two_pow, Nat.zero_testBit]
    by_cases hi : k = i
    · subst hi; simp [h]
    · simp [hi]
  · simp only [iff_true]
    intro h0
    have : (m &&& 2 ^ k).testBit k = true := by
      rw [Nat.testBit_and, Nat.testBit_two_pow]; simp [h]
    rw [h0, Nat.zero_testBit] at this; cases this

/-- the task can be given core `k` -/
def AvailT (c : Cfg) (s : Core c.tw) (k : Nat) (t : Task c.tw) : Prop :=
  t.mask.testBit k = true ∧ t.state = .ready ∧ (s.tick.toNat % 2 ^ c.pw) % s.sub t.prio = t.subPrio

instance (c : Cfg) (s : Core c.tw) (k : Nat) (t : Task c.tw) : Decidable (AvailT c s k t) := by
  unfold AvailT; infer_instance

/-- slot `p` can be given core `k` -/
def Avail (c : Cfg) (s : Core c.tw) (k p : Nat) : Prop := AvailT c s k (s.task p)

instance (c : Cfg) (s : Core c.tw) (k p : Nat) : Decidable (Avail c s k p) := by
  unfold Avail; infer_instance

/-- the sub table is usable for a task -/
def TaskGood (c : Cfg) (s : Core c.tw) (t : Task c.tw) : Prop :=
  t.state ≠ .empty → t.prio < c.taskCount ∧ s.sub t.prio ≠ 0

theorem isAvailable_eq {c : Cfg} (hc : c.WF) {k : Nat} (hk : k < c.K) {s : Core c.tw} {t : Task c.tw} (h : TaskGood c s t) :
    isAvailable c s t k = .ok (decide (AvailT c s k t)) := by
  unfold isAvailable AvailT
  by_cases hm : t.mask.testBit k = true
  · rw [if_pos ((mask_and hc hk _).2 hm)]
    by_cases hr : t.state = .ready
    · have h' := h (by simp [hr])
      simp [hr, h'.1, h'.2, hm]
    · simp [hr]
  · rw [if_neg (fun h => hm ((mask_and hc hk _).1 h))]
    simp [hm]

theorem upd_upd {α : Type} (f : Nat → α) (i : Nat) (a b : α) : upd (upd f i a) i b = upd f i b := by
  funext q; by_cases h : q = i
  · subst h; simp
  · simp [h]

theorem nextAvail_spec {c : Cfg} (hc : c.WF) {k : Nat} (hk : k < c.K) : ∀ (fuel : Nat) (s : Core c.tw) (lo : Nat),
    (∀ p, p < c.taskCount → TaskGood c s (s.task p)) → Avail c s k (c.N + k) →
    (s.index k + 1) % 2 ^ c.pw = lo → lo ≤ c.N + k → c.N + k + 1 ≤ fuel + lo →
    ∃ j, lo ≤ j ∧ j ≤ c.N + k ∧ Avail c s k j ∧ (∀ q, lo ≤ q → q < j → ¬ Avail c s k q) ∧
      nextAvail c k fuel s = .ok (s.setIndex k j) := by
  intro fuel
  induction fuel with
  | zero => intro s lo _ _ _ h1 h2; omega
  | succ n ih =>
    intro s lo hg hidle hlo hle hf
    have hlt : lo < c.taskCount := by unfold Cfg.taskCount; omega
    let s1 := s.setIndex k lo
    have hi1 : s1.index k = lo := upd_same _ _ _
    have hunf : nextAvail c k (n + 1) s =
        (isAvailable c s1 (s1.task lo) k >>= fun a => if a then pure s1 else nextAvail c k n s1) := by
      rw [nextAvail, hlo]
      show (assertFatal (decide (s1.index k < c.taskCount)) >>= fun _ => isAvailable c s1 (s1.task (s1.index k)) k >>= _) = _
      rw [hi1]
      simp only [hlt, decide_true, assertFatal_true, Res.ok_bind]; rfl
    rw [hunf, isAvailable_eq hc hk (s := s1) (t := s1.task lo) (hg lo hlt)]
    simp only [Res.ok_bind]
    by_cases ha : Avail c s k lo
    · refine ⟨lo, Nat.le_refl _, hle, ha, fun q h1 h2 => by omega, ?_⟩
      have : AvailT c s1 k (s1.task lo) := ha
      rw [decide_eq_true this]; rfl
    · have ha' : ¬ AvailT c s1 k (s1.task lo) := ha
      rw [decide_eq_false ha']
      have hne : lo ≠ c.N + k := by intro h; subst h; exact ha hidle
      have hs : ((s1.index k + 1) % 2 ^ c.pw) = lo + 1 := by
        rw [hi1]; apply Nat.mod_eq_of_lt; have := hc.fits; unfold Cfg.taskCount at hlt; omega
      obtain ⟨j, h1, h2, h3, h4, h5⟩ := ih s1 (lo + 1) hg hidle hs (by omega) (by omega)
      refine ⟨j, by omega, h2, h3, ?_, ?_⟩
      · intro q hq1 hq2
        by_cases hq : q = lo
        · subst hq; exact ha
        · exact h4 q (by omega) hq2
      · show nextAvail c k n s1 = _
        rw [h5]
        show Res.ok { s with index := upd (upd s.index k lo) k j } = _
        rw [upd_upd]; rfl

/-- Static fields. -/
structure SameStatic {tw : Nat} (t t' : Task tw) : Prop where
  prio : t'.prio = t.prio
  subPrio : t'.subPrio = t.subPrio
  bottom : t'.bottom = t.bottom
  top : t'.top = t.top
  count : t'.count = t.count
  mask : t'.mask = t.mask

/-- Everything but the state and the statistics. -/
structure SameTask {tw : Nat} (t t' : Task tw) : Prop extends SameStatic t t' where
  sp : t'.sp = t.sp
  tick : t'.tick = t.tick
  miss : t'.miss = t.miss

theorem SameTask.refl {tw : Nat} (t : Task tw) : SameTask t t :=
  ⟨⟨rfl, rfl, rfl, rfl, rfl, rfl⟩, rfl, rfl, rfl⟩

theorem SameStatic.refl {tw : Nat} (t : Task tw) : SameStatic t t := ⟨rfl, rfl, rfl, rfl, rfl, rfl⟩

theorem SameStatic.trans {tw : Nat} {a b d : Task tw} (h : SameStatic a b) (g : SameStatic b d) : SameStatic a d :=
  ⟨g.prio.trans h.prio, g.subPrio.trans h.subPrio, g.bottom.trans h.bottom, g.top.trans h.top, g.count.trans h.count,
    g.mask.trans h.mask⟩

theorem SameTask.trans {tw : Nat} {a b d : Task tw} (h : SameTask a b) (g : SameTask b d) : SameTask a d :=
  ⟨h.toSameStatic.trans g.toSameStatic, g.sp.trans h.sp, g.tick.trans h.tick, g.miss.trans h.miss⟩

/-- Facts about the numbering, which events do not change. -/
structure Static (c : Cfg) (s : Core c.tw) : Prop where
  running : s.running = true
  idleMask : ∀ i, i < c.K → ∀ j, (s.task (c.N + i)).mask.testBit j = true ↔ j = i
  idlePrio : ∀ i, i < c.K → (s.task (c.N + i)).prio = c.N
  idleSub : ∀ i, i < c.K → (s.task (c.N + i)).subPrio = 0
  subIdle : s.sub c.N = 1
  userPrio : ∀ p, p < c.N → (s.task p).state ≠ .empty → (s.task p).prio < c.N
  subEq : ∀ p, p < c.N → (s.task p).prio < c.N →
    s.sub (s.task p).prio = sharers c s p ∧ (s.task p).subPrio = turn c s p
  sorted : ∀ p q, p ≤ q → q < c.N → (s.task p).prio ≤ (s.task q).prio
  spTop : ∀ p, p < c.taskCount → (s.task p).state ≠ .empty → (s.task p).sp ≠ (s.task p).top
  count : s.coreCounter < c.K
  idleSt : ∀ i, i < c.K → (s.task (c.N + i)).state = .ready ∨ (s.task (c.N + i)).state = .busy

/-- Invariant about the running tasks of the cores satisfying `P`. -/
structure Owned (c : Cfg) (s : Core c.tw) (P : Nat → Prop) : Prop where
  idx : ∀ i, i < c.K → P i → s.index i < c.taskCount
  allowed : ∀ i, i < c.K → P i → Allowed s (s.index i) i
  run : ∀ i, i < c.K → P i → (s.task (s.index i)).state = .busy ∨ (s.index i = c.N + i ∧ (s.task (s.index i)).state = .ready)
  inj : ∀ i j, i < c.K → j < c.K → P i → P j → s.index i = s.index j → i = j
  owned : ∀ p, p < c.taskCount → (s.task p).state = .busy → ∃ i, i < c.K ∧ P i ∧ s.index i = p

/-- Invariant of the running system. -/
structure Inv (c : Cfg) (s : Core c.tw) : Prop extends Static c s, Owned c s (fun _ => True)

/-- Invariant in the middle of an event of core `k`: its task has been suspended, the next one is not yet chosen. -/
structure Mid (c : Cfg) (k : Nat) (s : Core c.tw) : Prop extends Static c s, Owned c s (fun i => i ≠ k) where
  idleK : (s.task (c.N + k)).state = .ready

theorem sharers_pos {c : Cfg} {s : Core c.tw} {p : Nat} (hp : p < c.N) : 0 < sharers c s p := by
  unfold sharers
  apply List.length_pos_of_mem (a := p)
  simp [hp]

theorem sharers_congr {c : Cfg} {s s' : Core c.tw} (h : ∀ q, (s'.task q).prio = (s.task q).prio) (p : Nat) :
    sharers c s' p = sharers c s p := by
  unfold sharers; simp only [h]

theorem turn_congr {c : Cfg} {s s' : Core c.tw} (h : ∀ q, (s'.task q).prio = (s.task q).prio) (p : Nat) :
    turn c s' p = turn c s p := by
  unfold turn; simp only [h]

theorem Static.good {c : Cfg} {s : Core c.tw} (h : Static c s) (p : Nat) (hp : p < c.taskCount) :
    TaskGood c s (s.task p) := by
  intro hne
  unfold Cfg.taskCount at hp ⊢
  by_cases hpn : c.N ≤ p
  · obtain ⟨i, rfl⟩ : ∃ i, p = c.N + i := ⟨p - c.N, by omega⟩
    rw [h.idlePrio i (by omega), h.subIdle]; omega
  · have hlt : p < c.N := by omega
    have h1 := h.userPrio p hlt hne
    have h2 := (h.subEq p hlt h1).1
    refine ⟨by omega, ?_⟩
    rw [h2]; have := sharers_pos (c := c) (s := s) hlt; omega

theorem Static.availT_idle {c : Cfg} {s : Core c.tw} (h : Static c s) {k : Nat} (hk : k < c.K)
    (hr : (s.task (c.N + k)).state = .ready) : Avail c s k (c.N + k) := by
  refine ⟨(h.idleMask k hk k).2 rfl, hr, ?_⟩
  rw [h.idlePrio k hk, h.subIdle, h.idleSub k hk, Nat.mod_one]

theorem Mid.idleAvail {c : Cfg} {s : Core c.tw} {k : Nat} (h : Mid c k s) (hk : k < c.K) : Avail c s k (c.N + k) :=
  h.toStatic.availT_idle hk h.idleK

/-- on core `k` the only idle task available is its own -/
theorem Static.avail_idle_only {c : Cfg} {s : Core c.tw} (h : Static c s) {k j : Nat} (hk : k < c.K) (hj : j < c.taskCount)
    (hge : c.N ≤ j) (ha : (s.task j).mask.testBit k = true) : j = c.N + k := by
  unfold Cfg.taskCount at hj
  obtain ⟨i, rfl⟩ : ∃ i, j = c.N + i := ⟨j - c.N, by omega⟩
  have := (h.idleMask i (by omega) k).1 ha
  omega

/-- transfer of the static part: nothing but states, stack pointers, ticks and statistics changed -/
theorem Static.transfer {c : Cfg} {s s' : Core c.tw} (h : Static c s)
    (hst : ∀ q, SameStatic (s.task q) (s'.task q)) (hsub : s'.sub = s.sub) (hrun : s'.running = s.running)
    (hcnt : s'.coreCounter < c.K)
    (hempty : ∀ q, q < c.taskCount → (s'.task q).state ≠ .empty → (s.task q).state ≠ .empty)
    (hsp : ∀ q, q < c.taskCount → (s'.task q).state ≠ .empty → (s'.task q).sp ≠ (s'.task q).top)
    (hidle : ∀ i, i < c.K → (s'.task (c.N + i)).state = .ready ∨ (s'.task (c.N + i)).state = .busy) : Static c s' := by
  have hp : ∀ q, (s'.task q).prio = (s.task q).prio := fun q => (hst q).prio
  refine
    { running := hrun.trans h.running
      idleMask := ?_
      idlePrio := fun i hi => (hp _).trans (h.idlePrio i hi)
      idleSub := fun i hi => (hst _).subPrio.trans (h.idleSub i hi)
      subIdle := by rw [hsub]; exact h.subIdle
      userPrio := ?_
      subEq := ?_
      sorted := ?_
      spTop := hsp
      count := hcnt
      idleSt := hidle }
  · intro i hi j; rw [(hst _).mask]; exact h.idleMask i hi j
  · intro p hpN hne
    rw [hp]; exact h.userPrio p hpN (hempty p (by unfold Cfg.taskCount; omega) hne)
  · intro p hpN hlt
    rw [hp] at hlt ⊢
    rw [hsub, (hst p).subPrio, sharers_congr hp, turn_congr hp]; exact h.subEq p hpN hlt
  · intro p q h1 h2; rw [hp, hp]; exact h.sorted p q h1 h2

/-- the choice of the next task of core `k` -/
structure Picked (c : Cfg) (k : Nat) (s s' : Core c.tw) : Prop where
  tick : s'.tick = s.tick
  sub : s'.sub = s.sub
  running : s'.running = s.running
  pidCount : s'.pidCount = s.pidCount
  same : ∀ q, SameTask (s.task q) (s'.task q)
  indexO : ∀ i, i ≠ k → s'.index i = s.index i
  idx : s'.index k ≤ c.N + k
  av : Avail c s k (s'.index k)
  busy : (s'.task (s'.index k)).state = .busy
  stateO : ∀ q, q ≠ s'.index k → (s'.task q).state = (s.task q).state

/-- the task chosen was not running anywhere -/
theorem Picked.fresh {c : Cfg} {k : Nat} {s s' : Core c.tw} (h : Picked c k s s') (hm : Mid c k s) (hk : k < c.K) {i : Nat}
    (hi : i < c.K) (hik : i ≠ k) : s.index i ≠ s'.index k := by
  intro he
  rcases hm.run i hi hik with h1 | ⟨h1, h2⟩
  · rw [he] at h1; have := h.av.2.1; rw [h1] at this; cases this
  · have h3 := h.av.1
    rw [← he, h1] at h3
    have := (hm.idleMask i hi k).1 h3
    exact hik this.symm

theorem Picked.inv {c : Cfg} {k : Nat} {s s' : Core c.tw} (h : Picked c k s s') (hm : Mid c k s) (hk : k < c.K)
    (hcnt : s'.coreCounter < c.K) : Inv c s' := by
  have hjlt : s'.index k < c.taskCount := by have := h.idx; unfold Cfg.taskCount; omega
  have hst : Static c s' := by
    apply hm.toStatic.transfer (fun q => (h.same q).toSameStatic) h.sub h.running hcnt
    · intro q hq hne
      by_cases he : q = s'.index k
      · subst he; have := h.av.2.1; rw [this]; simp
      · rw [h.stateO q he] at hne; exact hne
    · intro q hq hne
      rw [(h.same q).sp, (h.same q).top]
      apply hm.spTop q hq
      by_cases he : q = s'.index k
      · subst he; have := h.av.2.1; rw [this]; simp
      · rw [h.stateO q he] at hne; exact hne
    · intro i hi
      by_cases he : c.N + i = s'.index k
      · right; rw [he]; exact h.busy
      · rw [h.stateO _ he]; exact hm.idleSt i hi
  refine { toStatic := hst, toOwned := ⟨?_, ?_, ?_, ?_, ?_⟩ }
  · intro i hi _
    by_cases hik : i = k
    · subst hik; exact hjlt
    · rw [h.indexO i hik]; exact hm.idx i hi hik
  · intro i hi _
    unfold Allowed
    rw [(h.same _).mask]
    by_cases hik : i = k
    · subst hik; exact h.av.1
    · rw [h.indexO i hik]; exact hm.allowed i hi hik
  · intro i hi _
    by_cases hik : i = k
    · subst hik; exact .inl h.busy
    · rw [h.indexO i hik, h.stateO _ (h.fresh hm hk hi hik)]; exact hm.run i hi hik
  · intro i j hi hj _ _ he
    by_cases hik : i = k
    · by_cases hjk : j = k
      · omega
      · exfalso
        rw [h.indexO j hjk] at he
        subst hik
        exact h.fresh hm hk hj hjk he.symm
    · by_cases hjk : j = k
      · exfalso
        rw [h.indexO i hik] at he
        subst hjk
        exact h.fresh hm hk hi hik he
      · rw [h.indexO i hik, h.indexO j hjk] at he
        exact hm.inj i j hi hj hik hjk he
  · intro p hp hb
    by_cases he : p = s'.index k
    · exact ⟨k, hk, trivial, he.symm⟩
    · rw [h.stateO p he] at hb
      obtain ⟨i, hi, hik, h1⟩ := hm.owned p hp hb
      exact ⟨i, hi, trivial, by rw [h.indexO i hik]; exact h1⟩

/-- suspending the running task of core `k` -/
theorem Inv.suspend {c : Cfg} {k : Nat} {s s' : Core c.tw} (h : Inv c s) (hk : k < c.K)
    (hst : ∀ q, SameStatic (s.task q) (s'.task q)) (hsub : s'.sub = s.sub) (hrun : s'.running = s.running)
    (hcnt : s'.coreCounter < c.K) (hidx : ∀ i, i ≠ k → s'.index i = s.index i)
    (hcur : (s'.task (s.index k)).state ≠ .busy)
    (hcurIdle : c.N ≤ s.index k → (s'.task (s.index k)).state = .ready)
    (hcurSp : (s'.task (s.index k)).state ≠ .empty → (s'.task (s.index k)).sp ≠ (s'.task (s.index k)).top)
    (hoth : ∀ q, q < c.taskCount → q ≠ s.index k → (s'.task q).sp = (s.task q).sp ∧
      ((s'.task q).state = (s.task q).state ∨
       ((s.task q).state ≠ .busy ∧ (s.task q).state ≠ .ready ∧ (s.task q).state ≠ .empty ∧ (s'.task q).state = .ready))) : Mid c k s' := by
  have hcurlt := h.idx k hk trivial
  have hidleOther : ∀ i, i < c.K → c.N + i ≠ s.index k → (s'.task (c.N + i)).state = (s.task (c.N + i)).state := by
    intro i hi hne
    rcases (hoth _ (by unfold Cfg.taskCount; omega) hne).2 with h1 | ⟨h1, h2, _, _⟩
    · exact h1
    · rcases h.idleSt i hi with h3 | h3
      · exact absurd h3 h2
      · exact absurd h3 h1
  have hst' : Static c s' := by
    apply h.toStatic.transfer hst hsub hrun hcnt
    · intro q hq hne
      by_cases he : q = s.index k
      · subst he
        rcases h.run k hk trivial with h1 | ⟨_, h1⟩ <;> rw [h1] <;> simp
      · rcases (hoth q hq he).2 with h1 | ⟨_, _, h1, _⟩
        · rw [h1] at hne; exact hne
        · exact h1
    · intro q hq hne
      by_cases he : q = s.index k
      · subst he; exact hcurSp hne
      · rw [(hoth q hq he).1, (hst q).top]
        apply h.spTop q hq
        rcases (hoth q hq he).2 with h1 | ⟨_, _, h1, _⟩
        · rw [h1] at hne; exact hne
        · exact h1
    · intro i hi
      by_cases he : c.N + i = s.index k
      · left; rw [he]; exact hcurIdle (by omega)
      · rw [hidleOther i hi he]; exact h.idleSt i hi
  have hne : ∀ i, i < c.K → i ≠ k → s.index i ≠ s.index k := fun i hi hik he => hik (h.inj i k hi hk trivial trivial he)
  refine { toStatic := hst', toOwned := ⟨?_, ?_, ?_, ?_, ?_⟩, idleK := ?_ }
  · intro i hi hik; rw [hidx i hik]; exact h.idx i hi trivial
  · intro i hi hik; unfold Allowed; rw [hidx i hik, (hst _).mask]; exact h.allowed i hi trivial
  · intro i hi hik
    rw [hidx i hik]
    rcases (hoth _ (h.idx i hi trivial) (hne i hi hik)).2 with h1 | ⟨h1, h2, _, _⟩
    · rw [h1]; exact h.run i hi trivial
    · rcases h.run i hi trivial with h3 | ⟨_, h3⟩
      · exact absurd h3 h1
      · exact absurd h3 h2
  · intro i j hi hj hik hjk he
    rw [hidx i hik, hidx j hjk] at he
    exact h.inj i j hi hj trivial trivial he
  · intro p hp hb
    by_cases he : p = s.index k
    · subst he; exact absurd hb hcur
    · rcases (hoth p hp he).2 with h1 | ⟨_, _, _, h1⟩
      · rw [h1] at hb
        obtain ⟨i, hi, _, h2⟩ := h.owned p hp hb
        have hik : i ≠ k := by intro h3; subst h3; exact he h2.symm
        exact ⟨i, hi, hik, by rw [hidx i hik]; exact h2⟩
      · rw [h1] at hb; cases hb
  · by_cases he : c.N + k = s.index k
    · rw [he]; exact hcurIdle (by omega)
    · rw [hidleOther k hk he]
      rcases h.idleSt k hk with h1 | h1
      · exact h1
      · exfalso
        obtain ⟨i, hi, _, h2⟩ := h.owned _ (by unfold Cfg.taskCount; omega) h1
        have h3 := h.allowed i hi trivial
        unfold Allowed at h3
        rw [h2] at h3
        have := (h.idleMask k hk i).1 h3
        subst this; exact he h2.symm

end Pico.SMP
