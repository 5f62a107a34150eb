import Verif.SMP.Props2

/-! # Properties of the SMP scheduler, part 3: the rest of the API

Accepting tasks, `picoRTOS_get_tick`, `picoRTOS_self` (which reads the core number and the task table in separate steps),
`picoRTOS_sleep(0)`, `picoRTOS_sleep_until`, stacks.
-/

namespace Pico.SMP

open Pico.Sched (Desc Call Out Goes countdown_step countdown_wake countdown_zero range_split)

/-! ## C49: what `picoRTOS_SMP_add_task` and `picoRTOS_add_task` accept -/

/-- The slot `p` of `s'` holds a new task made from descriptor `d` with this priority, and nothing else changed
in the task table. -/
structure AddedAt (c : Cfg) (s s' : Core c.tw) (p : Nat) (d : Desc) (prio : Nat) : Prop where
  state : (s'.task p).state = .ready
  sp : (s'.task p).sp = c.prep d.stack d.stackCount d.fn d.priv
  bottom : (s'.task p).bottom = d.stack
  top : (s'.task p).top = d.stack + d.stackCount
  prio : (s'.task p).prio = prio
  other : ∀ q, q ≠ p → s'.task q = s.task q

theorem addAll_core {c : Cfg} (hc : c.WF) {adds : List Add} {s : Core c.tw}
    (h : addAll c (init c) adds = .ok s) : s = addedCore c adds ∧ (∀ a ∈ adds, Legal c a) ∧ adds.length ≤ c.N := by
  rw [addAll_iff hc] at h
  by_cases hh : (∀ a ∈ adds, Legal c a) ∧ adds.length ≤ c.N
  · rw [if_pos hh] at h; injection h with h; exact ⟨h.symm, hh⟩
  · rw [if_neg hh] at h; cases h

theorem addedCore_at {c : Cfg} (adds : List Add) (a : Add) :
    AddedAt c (addedCore c adds) (addedCore c (adds ++ [a])) adds.length a.desc a.prio ∧
    ((addedCore c (adds ++ [a])).task adds.length).mask = a.mask := by
  have h : (addedCore c (adds ++ [a])).task adds.length = addedTask c a := by
    show addedTable c (adds ++ [a]) adds.length = _
    unfold addedTable; simp
  refine ⟨⟨by rw [h]; rfl, by rw [h]; rfl, by rw [h]; rfl, by rw [h]; rfl, by rw [h]; rfl, ?_⟩, by rw [h]; rfl⟩
  intro q hq
  show addedTable c (adds ++ [a]) q = addedTable c adds q
  unfold addedTable
  have hg : (adds ++ [a])[q]? = adds[q]? := by
    rcases Nat.lt_or_ge q adds.length with h | h
    · rw [List.getElem?_append_left h]
    · have : adds.length + 1 ≤ q := by omega
      rw [List.getElem?_eq_none (by simpa using this), List.getElem?_eq_none (by omega)]
  rw [hg]

/-- C49. `picoRTOS_SMP_add_task` after any calls that were accepted: it is accepted exactly if the priority is below
`CONFIG_TASK_COUNT`, fewer than `CONFIG_TASK_COUNT` tasks were added before, and the mask is not empty and contains existing
cores only; the task is then registered with exactly these cores. Otherwise the system stalls. -/
theorem smp_add_task_accepts {c : Cfg} (hc : c.WF) {adds : List Add} {s : Core c.tw}
    (h : addAll c (init c) adds = .ok s) (a : Add) :
    (a.prio < c.N ∧ adds.length < c.N ∧ (∃ i, a.mask.testBit i = true) ∧ (∀ i, a.mask.testBit i = true → i < c.K) →
      ∃ s', addTask c s a = .ok s' ∧ AddedAt c s s' adds.length a.desc a.prio ∧
        ∀ i, Allowed s' adds.length i ↔ a.mask.testBit i = true) ∧
    (¬ (a.prio < c.N ∧ adds.length < c.N ∧ (∃ i, a.mask.testBit i = true) ∧ (∀ i, a.mask.testBit i = true → i < c.K)) →
      addTask c s a = .fatal) := by
  obtain ⟨rfl, hl, hn⟩ := addAll_core hc h
  have hmask : (a.mask ≠ 0 ↔ ∃ i, a.mask.testBit i = true) := by
    constructor
    · exact fun h => Nat.exists_testBit_of_ne_zero h
    · rintro ⟨i, hi⟩ h0; rw [h0] at hi; simp at hi
  have hlt : (a.mask < 2 ^ c.K ↔ ∀ i, a.mask.testBit i = true → i < c.K) := by
    constructor
    · intro h i hi
      rcases Nat.lt_or_ge i c.K with h1 | h1
      · exact h1
      · have : a.mask < 2 ^ i := Nat.lt_of_lt_of_le h (Nat.pow_le_pow_right (by omega) h1)
        rw [Nat.testBit_lt_two_pow this] at hi; cases hi
    · intro h
      apply Nat.lt_pow_two_of_testBit
      intro i hi
      cases hb : a.mask.testBit i with
      | false => rfl
      | true => have := h i hb; omega
  refine ⟨?_, ?_⟩
  · rintro ⟨h1, h2, h3, h4⟩
    have hk := addedCore_at (c := c) adds a
    refine ⟨_, addTask_added hc adds a ⟨h1, hmask.2 h3, hlt.2 h4⟩ h2, hk.1, ?_⟩
    intro i; unfold Allowed; rw [hk.2]
  · intro hno
    apply addTask_fatal hc
    rintro ⟨⟨h1, h2, h3⟩, h4⟩
    exact hno ⟨h1, h4, hmask.1 h2, hlt.1 h3⟩

/-- C49. `picoRTOS_add_task` on SMP: accepted exactly if the priority is below `CONFIG_TASK_COUNT` and there is room; the
task may then run on every core. -/
theorem smp_add_task_any {c : Cfg} (hc : c.WF) {adds : List Add} {s : Core c.tw}
    (h : addAll c (init c) adds = .ok s) (d : Desc) (prio : Nat) :
    (prio < c.N ∧ adds.length < c.N → ∃ s', addTaskAny c s d prio = .ok s' ∧ AddedAt c s s' adds.length d prio ∧
      ∀ i, Allowed s' adds.length i ↔ i < c.K) ∧
    (¬ (prio < c.N ∧ adds.length < c.N) → addTaskAny c s d prio = .fatal) := by
  have hm : (2 ^ c.K - 1) % 2 ^ c.mw = 2 ^ c.K - 1 := by
    apply Nat.mod_eq_of_lt
    have := Nat.pow_lt_pow_right (a := 2) (by omega) hc.mask
    have := Nat.two_pow_pos c.K
    omega
  have hb : ∀ i, (2 ^ c.K - 1).testBit i = true ↔ i < c.K := by
    intro i; rw [Nat.testBit_two_pow_sub_one]; simp
  have key := smp_add_task_accepts hc h { desc := d, prio := prio, mask := (2 ^ c.K - 1) % 2 ^ c.mw }
  simp only [hm, hb] at key
  have hK : ∃ i, i < c.K := ⟨0, hc.cores⟩
  unfold addTaskAny
  refine ⟨?_, ?_⟩
  · rintro ⟨h1, h2⟩
    obtain ⟨s', k1, k2, k3⟩ := key.1 ⟨h1, h2, hK, fun i hi => hi⟩
    refine ⟨s', ?_, k2, k3⟩
    simp only [h1, decide_true, assertFatal_true, Res.ok_bind, hm]; exact k1
  · intro hno
    by_cases h1 : prio < c.N
    · simp only [h1, decide_true, assertFatal_true, Res.ok_bind, hm]
      exact key.2 (fun ⟨a, b, _⟩ => hno ⟨a, b⟩)
    · simp [h1]

-- a fifth task does not fit; a third one added with picoRTOS_add_task may run on both cores
example : ∃ s, addAll Demo.cfg (init Demo.cfg) (Demo.adds.take 2) = .ok s ∧
    ∃ s', addTaskAny Demo.cfg s (Demo.desc 9) 3 = .ok s' ∧ (s'.task 2).mask = 3 := ⟨_, rfl, _, rfl, by decide⟩
example : ∃ s, addAll Demo.cfg (init Demo.cfg) Demo.adds = .ok s ∧ addTaskAny Demo.cfg s (Demo.desc 9) 3 = .fatal :=
  ⟨_, rfl, rfl⟩

/-! ## C49: `picoRTOS_get_tick` -/

/-- Core `i` has had a tick in this history. -/
def Ticked {tw : Nat} (evs : List (Ev tw)) (i : Nat) : Prop := ∃ e ∈ evs, e.core = i ∧ e.call = .tick

/-- the running task of another core, through an event -/
theorem step_other_core {c : Cfg} (hc : c.WF) {s s' : Core c.tw} {e : Ev c.tw} {o : Out c.tw} (h : Inv c s) (hk : e.core < c.K)
    (hs : step c s e = .ok (s', o)) {i : Nat} (hi : i < c.K) (hne : i ≠ e.core) :
    s'.index i = s.index i ∧ (s'.task (s.index i)).state = (s.task (s.index i)).state ∧
    SameTask (s.task (s.index i)) (s'.task (s.index i)) := by
  obtain ⟨_, _, _, hcase⟩ := step_cases hc h hk hs
  have hcur : s.index i ≠ s.index e.core := fun he => hne (h.inj i e.core hi hk trivial trivial he)
  rcases hcase with ⟨_, r⟩ | ⟨_, _, _, r, _⟩
  · have hm := tickMid_other (e := e) (h.idx i hi trivial) hcur
    have hfr := r.picked.fresh r.mid hk hi hne
    have hfr' : s.index i ≠ s'.index e.core := hfr
    refine ⟨r.picked.indexO i hne, ?_, hm.1.trans (r.picked.same _)⟩
    rw [r.picked.stateO _ hfr', hm.2, if_neg]
    rintro (⟨h1, _⟩ | h1)
    · exact (h.not_sleep hi).1 h1
    · exact (h.not_sleep hi).2.2 h1
  · have hm : (sysMid c s e).task (s.index i) = s.task (s.index i) := sysMid_other hcur
    have hfr' : s.index i ≠ s'.index e.core := r.picked.fresh r.mid hk hi hne
    have hsame := r.picked.same (s.index i)
    rw [hm] at hsame
    refine ⟨r.picked.indexO i hne, ?_, hsame⟩
    rw [r.picked.stateO _ hfr', hm]

/-- after an event on a core, its task is busy -/
theorem step_own_core {c : Cfg} (hc : c.WF) {s s' : Core c.tw} {e : Ev c.tw} {o : Out c.tw} (h : Inv c s) (hk : e.core < c.K)
    (hs : step c s e = .ok (s', o)) : (s'.task (s'.index e.core)).state = .busy := by
  obtain ⟨_, _, _, hcase⟩ := step_cases hc h hk hs
  rcases hcase with ⟨_, r⟩ | ⟨_, _, _, r, _⟩ <;> exact r.picked.busy

/-- which cores run something that counts as running -/
theorem ticked_iff {c : Cfg} (hc : c.WF) {i : Nat} (hi : i < c.K) : ∀ (evs : List (Ev c.tw)) (s s' : Core c.tw), Inv c s →
    OnCores c evs → run c s evs = .ok s' →
    ((s'.task (s'.index i)).state = .busy ↔ (s.task (s.index i)).state = .busy ∨ Ticked evs i) := by
  intro evs
  induction evs with
  | nil => intro s s' _ _ h; simp [run] at h; subst h; simp [Ticked]
  | cons e es ih =>
    intro s s' hi0 ho h
    obtain ⟨s1, o, h1, h2⟩ := run_cons h
    have hi1 := (step_cases hc hi0 ho.head h1).2.1
    rw [ih s1 s' hi1 ho.tail h2]
    have ht : Ticked (e :: es) i ↔ (e.core = i ∧ e.call = .tick) ∨ Ticked es i := by
      unfold Ticked; simp
    rw [ht]
    by_cases hci : e.core = i
    · have hb := step_own_core hc hi0 ho.head h1
      rw [hci] at hb
      refine ⟨fun _ => ?_, fun _ => .inl hb⟩
      obtain ⟨_, _, _, hcase⟩ := step_cases hc hi0 ho.head h1
      rcases hcase with ⟨h3, _⟩ | ⟨_, _, h3, _⟩
      · exact .inr (.inl ⟨hci, h3⟩)
      · rw [hci] at h3; exact .inl h3
    · obtain ⟨a1, a2, _⟩ := step_other_core hc hi0 ho.head h1 hi (Ne.symm hci)
      rw [a1, a2]; simp [hci]

/-- C49. `picoRTOS_get_tick` called on core `i`: `⌈n / cores⌉ - 1` (modulo the width of `picoRTOS_tick_t`), `n` being the
number of `picoRTOS_tick` calls so far on all cores. It stalls if this core has not had its first tick yet. -/
theorem smp_get_tick {c : Cfg} (hc : c.WF) {strict : Bool} {adds : List Add} {s0 s : Core c.tw} {evs : List (Ev c.tw)}
    (hb : boot c strict adds = .ok s0) (ho : OnCores c evs) (hrun : run c s0 evs = .ok s) {i : Nat} (hi : i < c.K) :
    (Ticked evs i → getTick c s i = .ok (BitVec.ofNat c.tw ((tickCalls evs + c.K - 1) / c.K) - 1)) ∧
    (¬ Ticked evs i → getTick c s i = .fatal) := by
  have h0 := boot_inv hc hb
  have hst := ticked_iff hc hi evs s0 s h0 ho hrun
  have hn : (s0.task (s0.index i)).state ≠ .busy := by
    obtain ⟨f, g, hf, _, rfl⟩ := boot_shape hc hb
    have : (numbered f c.N (c.N + i)).state = .ready := by
      rw [numbered_state, hf.idle i hi]; rfl
    show (numbered f c.N (c.N + i)).state ≠ .busy
    rw [this]; simp
  have hst' : (s.task (s.index i)).state = .busy ↔ Ticked evs i :=
    hst.trans ⟨fun h => h.elim (fun h => absurd h hn) id, .inr⟩
  unfold getTick
  refine ⟨fun h => ?_, fun h => ?_⟩
  · rw [smp_tick_per_round hc hb ho hrun]; simp [hst'.2 h]
  · have : ¬ (s.task (s.index i)).state = .busy := fun hh => h (hst'.1 hh)
    simp [this]

example : Ticked Demo.h1 0 ∧ getTick Demo.cfg (Demo.after Demo.h1) 0 = .ok 0 ∧ getTick Demo.cfg Demo.started 0 = .fatal :=
  ⟨⟨Demo.ev 0 .tick 1005, by simp [Demo.h1], rfl, rfl⟩, rfl, rfl⟩

/-! ## C50: `picoRTOS_self` and the running check are not atomic -/

/-- `TASK_CURRENT().state == PICORTOS_TASK_STATE_BUSY` (434-474, macro 60): `arch_core()` gave `core`, `index[core]` is read in
state `s1`, the state of that task in state `s2`. Interrupts are not masked in between. -/
def busyCheck (c : Cfg) (core : Nat) (s1 s2 : Core c.tw) : Res Unit :=
  assertFatal (decide ((s2.task (s1.index core)).state = .busy))

/-- `picoRTOS_self` (463-469): the check with the first reading of `arch_core()`, then a second reading gave `core'`, and
`index[core']` is read in state `s3`. -/
def self (c : Cfg) (core core' : Nat) (s1 s2 s3 : Core c.tw) : Res Nat := do
  busyCheck c core s1 s2
  pure (s3.index core')

/-- `s'` comes after `s`: any events of any cores happen in between. -/
def Later (c : Cfg) (s s' : Core c.tw) : Prop := ∃ evs, OnCores c evs ∧ run c s evs = .ok s'

theorem Later.reach {c : Cfg} {s s' : Core c.tw} (h : Later c s s') (hr : Reach c s) : Reach c s' := by
  obtain ⟨evs, h1, h2⟩ := h
  exact reach_run hr h1 h2

theorem Later.allowed {c : Cfg} (hc : c.WF) {s s' : Core c.tw} (h : Later c s s') (hr : Reach c s) (p i : Nat) :
    Allowed s' p i ↔ Allowed s p i := by
  obtain ⟨evs, h1, h2⟩ := h
  unfold Allowed
  rw [(run_static hc evs s s' (reach_inv hc hr) h1 h2 p).mask]

/-- C50, proved only for a task that may run on one core (missing: other tasks, for which it is false, see below). `picoRTOS_self` called by such a user task `p` returns `p`, whatever happens between its
five readings (the core number in `a`, `index` in `b`, the state in `d`, the core number again in `e`, `index` in `f`, `p` running
in each of them); the running check never stalls. -/
theorem smp_self_pinned_partial {c : Cfg} (hc : c.WF) {a b d e f : Core c.tw} {p i j i2 i3 i5 : Nat} (hp : p < c.N) (hr : Reach c a)
    (h1 : Later c a b) (h2 : Later c b d) (h3 : Later c d e) (h4 : Later c e f)
    (hone : ∀ k l, Allowed a p k → Allowed a p l → k = l)
    (hi : i < c.K) (hj : j < c.K) (hi2 : i2 < c.K) (hi3 : i3 < c.K) (hi5 : i5 < c.K)
    (ra : RunsOn a p i) (rb : RunsOn b p i2) (rd : RunsOn d p i3) (re : RunsOn e p j) (rf : RunsOn f p i5) :
    self c i j b d f = .ok p := by
  have hrb := h1.reach hr
  have hrd := h2.reach hrb
  have hre := h3.reach hrd
  have hrf := h4.reach hre
  have al : ∀ {s : Core c.tw} {k}, Reach c s → k < c.K → RunsOn s p k → Allowed s p k := by
    intro s k hs hk hrun
    have := (reach_inv hc hs).allowed k hk trivial
    unfold RunsOn at hrun; rw [hrun] at this; exact this
  have tb : ∀ k, Allowed b p k ↔ Allowed a p k := h1.allowed hc hr p
  have td : ∀ k, Allowed d p k ↔ Allowed a p k := fun k => (h2.allowed hc hrb p k).trans (tb k)
  have te : ∀ k, Allowed e p k ↔ Allowed a p k := fun k => (h3.allowed hc hrd p k).trans (td k)
  have tf : ∀ k, Allowed f p k ↔ Allowed a p k := fun k => (h4.allowed hc hre p k).trans (te k)
  have e2 : i = i2 := hone _ _ (al hr hi ra) ((tb _).1 (al hrb hi2 rb))
  have e5 : j = i5 := hone _ _ ((te _).1 (al hre hj re)) ((tf _).1 (al hrf hi5 rf))
  subst e2 e5
  have hbusy : (d.task p).state = .busy := (smp_busy_iff_running hc hrd hp).2 ⟨i3, hi3, rd⟩
  unfold self busyCheck
  rw [show b.index i = p from rb, hbusy, show f.index j = p from rf]
  rfl

/-! The same calls are wrong for a task that may run on several cores. -/

namespace Demo

/-- pid 2 runs on core 0 -/
def migA : List (Ev cfg.tw) := h1 ++ [ev 0 (.sleep 1) 205]
/-- pid 2 was preempted there and now runs on core 1 -/
def migB : List (Ev cfg.tw) := [ev 1 (.sleep 5) 105, ev 0 .tick 305, ev 1 .tick 1105, ev 1 .tick 405]
/-- the task that replaced it on core 0 goes to sleep -/
def migC : List (Ev cfg.tw) := [ev 0 (.sleep 3) 205]

theorem on_all {evs : List (Ev cfg.tw)} (h : evs.all (fun e => decide (e.core < 2)) = true) : OnCores cfg evs := by
  intro e he; exact of_decide_eq_true (List.all_eq_true.1 h e he)

end Demo

/-- C50 is false of a task that may run on both cores. `picoRTOS_self` called by task 2 returns 1: it is moved from core 0 to
core 1 between the reading of the core number and that of `index`. -/
theorem smp_self_migrates_wrong : ∃ a f, Reach Demo.cfg a ∧ Later Demo.cfg a f ∧ RunsOn a 2 0 ∧ RunsOn f 2 1 ∧
    self Demo.cfg 0 0 a a f = .ok 1 :=
  ⟨Demo.after Demo.migA, Demo.after (Demo.migA ++ Demo.migB), Demo.reach_after (by decide) (Demo.on_all (by decide)),
    ⟨Demo.migB, Demo.on_all (by decide), rfl⟩, by unfold RunsOn; decide, by unfold RunsOn; decide, rfl⟩

/-- C50 is false of a task that may run on both cores. The running check that opens every call of the API stalls the system
although the caller, task 2, runs all the time it is evaluated: it is moved after the reading of the core number, and the task that
replaced it goes to sleep. -/
theorem smp_running_check_stalls : ∃ a b d, Reach Demo.cfg a ∧ Later Demo.cfg a b ∧ Later Demo.cfg b d ∧ RunsOn a 2 0 ∧
    RunsOn b 2 1 ∧ RunsOn d 2 1 ∧ busyCheck Demo.cfg 0 b d = .fatal :=
  ⟨Demo.after Demo.migA, Demo.after (Demo.migA ++ Demo.migB), Demo.after (Demo.migA ++ Demo.migB ++ Demo.migC),
    Demo.reach_after (by decide) (Demo.on_all (by decide)),
    ⟨Demo.migB, Demo.on_all (by decide), rfl⟩, ⟨Demo.migC, Demo.on_all (by decide), rfl⟩,
    by unfold RunsOn; decide, by unfold RunsOn; decide, by unfold RunsOn; decide, rfl⟩

-- task 1 may run on core 0 only; a tick happens between its readings
example : ∃ f, Later Demo.cfg (Demo.after Demo.h1) f ∧ RunsOn (Demo.after Demo.h1) 1 0 ∧ RunsOn f 1 0 ∧
    (∀ k l, Allowed (Demo.after Demo.h1) 1 k → Allowed (Demo.after Demo.h1) 1 l → k = l) ∧
    self Demo.cfg 0 0 (Demo.after Demo.h1) f f = .ok 1 := by
  refine ⟨Demo.after (Demo.h1 ++ [Demo.ev 1 .tick 105]), ⟨[Demo.ev 1 .tick 105], Demo.on_all (by decide), rfl⟩,
    by unfold RunsOn; decide, by unfold RunsOn; decide, ?_, rfl⟩
  have hm : ((Demo.after Demo.h1).task 1).mask = 2 ^ 0 := by decide
  intro k l hk hl
  unfold Allowed at hk hl
  rw [hm, Nat.testBit_two_pow] at hk hl
  simp at hk hl; omega

/-! ## C51: `picoRTOS_sleep(0)`, `picoRTOS_sleep_until`, stacks on SMP -/

/-- a task that gave up its turn stays out until a tick -/
theorem done_run {c : Cfg} (hc : c.WF) {p : Nat} :
    ∀ (evs : List (Ev c.tw)) (s s' : Core c.tw), Inv c s → OnCores c evs → (s.task p).state = .done →
    run c s evs = .ok s' → (∀ e ∈ evs, e.call ≠ .tick) → (s'.task p).state = .done := by
  intro evs
  induction evs with
  | nil => intro s s' _ _ hst h _; simp [run] at h; subst h; exact hst
  | cons e es ih =>
    intro s s' hi ho hst h hnt
    obtain ⟨s1, o, h1, h2⟩ := run_cons h
    obtain ⟨_, hi1, _, hcase⟩ := step_cases hc hi ho.head h1
    refine ih s1 s' hi1 ho.tail ?_ h2 (fun x hx => hnt x (by simp [hx]))
    have hcur : p ≠ s.index e.core := by
      intro he; have := (hi.not_sleep ho.head).2.2; rw [← he] at this; exact this hst
    rcases hcase with ⟨ht, _⟩ | ⟨_, _, _, r, _⟩
    · exact absurd ht (hnt e (by simp))
    · have hm : (sysMid c s e).task p = s.task p := sysMid_other hcur
      have h2 : p ≠ s1.index e.core := by
        intro he; have := r.picked.av.2.1; rw [← he, hm, hst] at this; cases this
      rw [r.picked.stateO p h2, hm, hst]

/-- ... and becomes ready at the tick -/
theorem done_tick {c : Cfg} (hc : c.WF) {p : Nat} (hp : p < c.taskCount) {s s' : Core c.tw} {e : Ev c.tw} {o : Out c.tw}
    (hi : Inv c s) (hk : e.core < c.K) (hst : (s.task p).state = .done) (ht : e.call = .tick) (hs : step c s e = .ok (s', o)) :
    (s'.task p).state = .ready ∨ ((s'.task p).state = .busy ∧ RunsOn s' p e.core) := by
  obtain ⟨_, hi1, _, hcase⟩ := step_cases hc hi hk hs
  rcases hcase with ⟨_, r⟩ | ⟨h, _⟩
  rotate_left
  · exact absurd ht h
  have hcur : p ≠ s.index e.core := by
    intro he; have := (hi.not_sleep hk).2.2; rw [← he] at this; exact this hst
  have hm := (tickMid_other (e := e) hp hcur).2
  rw [if_pos (.inr hst)] at hm
  by_cases h2 : p = s'.index e.core
  · right; refine ⟨?_, h2.symm⟩; rw [h2]; exact r.picked.busy
  · left; rw [r.picked.stateO p h2, hm]

theorem Inv.not_on {c : Cfg} {s : Core c.tw} (h : Inv c s) {p : Nat} (hst : (s.task p).state = .done ∨ (s.task p).state = .sleep) {i : Nat}
    (hi : i < c.K) : ¬ RunsOn s p i := by
  intro hr
  have h1 := h.not_sleep hi
  rw [show s.index i = p from hr] at h1
  rcases hst with h2 | h2
  · exact h1.2.2 h2
  · exact h1.1 h2

/-- a syscall that does not put its caller to sleep -/
theorem step_done {c : Cfg} (hc : c.WF) {s s1 : Core c.tw} {e : Ev c.tw} {o : Out c.tw} (hi : Inv c s) (hk : e.core < c.K)
    (hnt : e.call ≠ .tick) (hd : callerState s e.call = .done) (hs : step c s e = .ok (s1, o)) :
    (s1.task (s.index e.core)).state = .done := by
  obtain ⟨_, hi1, _, hcase⟩ := step_cases hc hi hk hs
  rcases hcase with ⟨h, _⟩ | ⟨_, hu, hb, r, _⟩
  · exact absurd h hnt
  have hstM : ((sysMid c s e).task (s.index e.core)).state = .done := by rw [(sysMid_cur hb hnt).2.2.2, hd]
  have hne : s.index e.core ≠ s1.index e.core := by
    intro he; have := r.picked.av.2.1; rw [← he, hstM] at this; cases this
  rw [r.picked.stateO _ hne, hstM]

/-- C51. `picoRTOS_sleep(0)`: the caller runs on no core until the next `picoRTOS_tick` of any core, at which it is ready
again or already runs on the core of that tick. -/
theorem smp_sleep_zero {c : Cfg} (hc : c.WF) {s s1 s2 : Core c.tw} {e : Ev c.tw} {o : Out c.tw} {evs : List (Ev c.tw)}
    (hr : Reach c s) (hk : e.core < c.K) (hcall : e.call = .sleep 0) (hs : step c s e = .ok (s1, o))
    (ho : OnCores c evs) (hnt : ∀ x ∈ evs, x.call ≠ .tick) (hrun : run c s1 evs = .ok s2) :
    (∀ i, i < c.K → ¬ RunsOn s2 (s.index e.core) i) ∧
    ∀ t s3 o3, t.core < c.K → t.call = .tick → step c s2 t = .ok (s3, o3) →
      (s3.task (s.index e.core)).state = .ready ∨
      ((s3.task (s.index e.core)).state = .busy ∧ RunsOn s3 (s.index e.core) t.core) := by
  have hi := reach_inv hc hr
  have hi1 := (step_cases hc hi hk hs).2.1
  have hd := step_done hc hi hk (by rw [hcall]; simp) (by rw [hcall]; simp [callerState]) hs
  have hplt : s.index e.core < c.taskCount := hi.idx _ hk trivial
  have h2 := done_run hc evs s1 s2 hi1 ho hd hrun hnt
  have hi2 := inv_run hc evs s1 s2 hi1 ho hrun
  exact ⟨fun i hiK => hi2.not_on (.inl h2) hiK, fun t s3 o3 htk ht h3 => done_tick hc hplt hi2 htk h2 ht h3⟩

-- pid 0 (core 1) gives up its turn, and is back on the next core that ticks
example : ∃ r, step Demo.cfg (Demo.after Demo.h1) (Demo.ev 1 (.sleep 0) 105) = .ok r ∧
    ∃ s2, run Demo.cfg r.1 [Demo.ev 0 .tick 205] = .ok s2 ∧ s2.index 0 = 0 := ⟨_, rfl, _, rfl, by decide⟩

/-- C51. `picoRTOS_sleep_until` on time: the new reference is `ref + period`, no debug exception; the caller runs on no
core before the tick counter has advanced `period - elapsed` times, and is ready (or runs on the core of that event) as soon
as it has: the counter is then the new reference. -/
theorem smp_sleep_until_on_time {c : Cfg} (hc : c.WF) {s s1 : Core c.tw} {e : Ev c.tw} {o : Out c.tw}
    {ref period : BitVec c.tw} (hr : Reach c s) (hk : e.core < c.K) (hcall : e.call = .sleepUntil ref period)
    (hs : step c s e = .ok (s1, o)) (hon : (s.tick - ref).toNat < period.toNat) :
    o.ref = ref + period ∧ o.brk = false ∧
    ∀ evs s2, OnCores c evs → run c s1 evs = .ok s2 →
      (sysTicks c s1 evs < period.toNat - (s.tick - ref).toNat → ∀ i, i < c.K → ¬ RunsOn s2 (s.index e.core) i) ∧
      (∀ pre t, evs = pre ++ [t] → sysTicks c s1 pre < period.toNat - (s.tick - ref).toNat →
        sysTicks c s1 evs = period.toNat - (s.tick - ref).toNat →
        s2.tick = o.ref ∧ ((s2.task (s.index e.core)).state = .ready ∨
          ((s2.task (s.index e.core)).state = .busy ∧ RunsOn s2 (s.index e.core) t.core))) := by
  have hi := reach_inv hc hr
  have hw : 0 < c.tw := by
    rcases Nat.eq_zero_or_pos c.tw with h | h
    · have h1 := period.isLt
      have h2 : 2 ^ c.tw = 1 := by simp [h]
      omega
    · exact h
  obtain ⟨_, hi1, _, hcase⟩ := step_cases hc hi hk hs
  have hnt : e.call ≠ .tick := by rw [hcall]; simp
  rcases hcase with ⟨h, _⟩ | ⟨_, hu, hb, r, hout⟩
  · exact absurd h hnt
  have hout' : callerOut c s e = (ref + period, false) := by
    unfold callerOut; rw [hcall]; simp only [syscallSleepUntil, if_pos hon]
  rw [hout'] at hout
  injection hout with ho1 ho2
  have hcur := sysMid_cur hb hnt
  have hstM : ((sysMid c s e).task (s.index e.core)).state = .sleep := by
    rw [hcur.2.2.2, hcall]; simp only [callerState, if_pos hon]
  have hne : s.index e.core ≠ s1.index e.core := by
    intro he; have := r.picked.av.2.1; rw [← he, hstM] at this; cases this
  have hst : (s1.task (s.index e.core)).state = .sleep := by rw [r.picked.stateO _ hne, hstM]
  have htk : (s1.task (s.index e.core)).tick = ref + period := by
    rw [(r.picked.same _).tick, hcur.2.2.1, hcall]; simp only [callerTick, if_pos hon]
  have hkk : ((s1.task (s.index e.core)).tick - s1.tick).toNat = period.toNat - (s.tick - ref).toNat := by
    have ht : s1.tick = s.tick := r.picked.tick
    rw [htk, ht]
    have : ref + period - s.tick = period - (s.tick - ref) := by grind
    rw [this, BitVec.toNat_sub_of_le]
    exact Nat.le_of_lt hon
  have hplt : s.index e.core < c.taskCount := hi.idx _ hk trivial
  refine ⟨ho1, ho2, ?_⟩
  intro evs s2 ho hrun
  have hi2 := inv_run hc evs s1 s2 hi1 ho hrun
  refine ⟨?_, ?_⟩
  · intro ht i hiK
    exact hi2.not_on (.inr (sleeping_run hc hw hplt evs s1 s2 _ hi1 ho hst hkk (by omega) hrun ht).1) hiK
  · intro pre t hev h1 h2
    subst hev
    have h3 := sleeping_wake hc hw hplt hi1 ho hst hkk (by omega) hrun h1 h2
    exact ⟨by rw [h3.2, htk, ho1], h3.1⟩

-- on time across a wrap of the 4-bit counter: ref = 15, tick = 0, period 3
example : ∃ r, step Demo.cfg (Demo.after Demo.h1) (Demo.ev 1 (.sleepUntil 15 3) 105) = .ok r ∧
    ((Demo.after Demo.h1).tick - 15).toNat < (3 : BitVec 4).toNat ∧ r.2.ref = 2 ∧
      ∃ s2, run Demo.cfg r.1 [Demo.ev 0 .tick 205, Demo.ev 0 .tick 205, Demo.ev 0 .tick 205] = .ok s2 ∧ s2.index 0 = 0 ∧ s2.tick = 2 :=
  ⟨_, rfl, by decide, by decide, _, rfl, by decide, by decide⟩

/-- A periodic task on SMP: `n` iterations of `picoRTOS_sleep_until(&ref, period)` made by task `p`, on whichever cores, each with
the reference left by the previous one and each on time, anything happening in between. -/
inductive Periodic (c : Cfg) (p : Nat) (period : BitVec c.tw) :
    Core c.tw → BitVec c.tw → Nat → Core c.tw → BitVec c.tw → Prop
  | zero (s : Core c.tw) (ref : BitVec c.tw) : Periodic c p period s ref 0 s ref
  | iter {s s1 s2 s3 : Core c.tw} {ref ref1 : BitVec c.tw} {n : Nat} {e : Ev c.tw} {o : Out c.tw}
      {evs : List (Ev c.tw)} (h : Periodic c p period s ref n s1 ref1) (hk : e.core < c.K) (hp : RunsOn s1 p e.core)
      (hcall : e.call = .sleepUntil ref1 period) (hon : (s1.tick - ref1).toNat < period.toNat)
      (hs : step c s1 e = .ok (s2, o)) (ho : OnCores c evs) (hrun : run c s2 evs = .ok s3) :
      Periodic c p period s ref (n + 1) s3 o.ref

/-- C51. No drift on SMP: after `n` on-time iterations the reference is exactly `ref + n * period`. -/
theorem smp_sleep_until_no_drift {c : Cfg} (hc : c.WF) {p n : Nat} {period ref ref' : BitVec c.tw} {s s' : Core c.tw}
    (hr : Reach c s) (h : Periodic c p period s ref n s' ref') :
    Reach c s' ∧ ref' = ref + BitVec.ofNat c.tw n * period := by
  induction h with
  | zero => exact ⟨hr, by simp⟩
  | iter h hk hp hcall hon hs ho hrun ih =>
    obtain ⟨ih1, ih2⟩ := ih
    obtain ⟨h1, _, _⟩ := smp_sleep_until_on_time hc ih1 hk hcall hs hon
    refine ⟨reach_run (reach_step ih1 hk hs) ho hrun, ?_⟩
    rw [h1, ih2, BitVec.ofNat_add]
    have : BitVec.ofNat c.tw 1 = 1 := rfl
    rw [this]
    grind

-- two on-time iterations, the second on another core
example : ∃ s' ref', Periodic Demo.cfg 0 2 (Demo.after Demo.h1) 0 2 s' ref' ∧ ref' = 4 :=
  ⟨_, _, .iter (e := Demo.ev 0 (.sleepUntil 2 2) 105) (.iter (e := Demo.ev 1 (.sleepUntil 0 2) 105)
      (evs := [Demo.ev 0 .tick 205, Demo.ev 0 .tick 205, Demo.ev 0 .tick 205]) (.zero _ _) (by decide) (by unfold RunsOn; decide) rfl
        (by decide) rfl (Demo.on_all (by decide)) rfl)
      (by decide) (by unfold RunsOn; decide) rfl (by decide) rfl (Demo.on_all (evs := []) (by decide)) rfl, by decide⟩

/-! ### missed periods -/

/-- Number of consecutive late `picoRTOS_sleep_until` calls of task `p` along a history, starting from `k`: a late call (the
period is already elapsed) adds one, a call on time resets to 0, anything else does not matter. -/
def lateCalls (c : Cfg) (p : Nat) : Core c.tw → List (Ev c.tw) → Nat → Nat
  | _, [], k => k
  | s, e :: es, k =>
    match step c s e with
    | .ok (s', _) =>
      match e.call with
      | .sleepUntil ref period =>
        if s.index e.core = p then
          lateCalls c p s' es (if (s.tick - ref).toNat < period.toNat then 0 else k + 1)
        else lateCalls c p s' es k
      | _ => lateCalls c p s' es k
    | _ => k

theorem tickMid_miss {c : Cfg} {s : Core c.tw} {e : Ev c.tw} {q : Nat} :
    ((tickMid c s e).task q).miss = (s.task q).miss := by
  have h1 : (tickTask c s e q).miss = (s.task q).miss := by
    unfold tickTask; split <;> rfl
  show (if q < c.taskCount then woken (nextTick s) (tickTask c s e q) else tickTask c s e q).miss = _
  split
  · rw [(sameTask_woken _ _).miss, h1]
  · exact h1

/-- the miss counter after an event -/
theorem step_miss {c : Cfg} (hc : c.WF) {s s' : Core c.tw} {e : Ev c.tw} {o : Out c.tw} (h : Inv c s) (hk : e.core < c.K)
    (hs : step c s e = .ok (s', o)) (p : Nat) :
    (s'.task p).miss = if p = s.index e.core then (callerTask c s e).miss else (s.task p).miss := by
  obtain ⟨_, _, _, hcase⟩ := step_cases hc h hk hs
  rcases hcase with ⟨ht, r⟩ | ⟨_, _, _, r, _⟩
  · rw [(r.picked.same p).miss, tickMid_miss]
    split
    · rename_i hp; subst hp; unfold callerTask; rw [ht]
    · rfl
  · rw [(r.picked.same p).miss]
    split
    · rename_i hp; subst hp
      have h1 : (sysMid c s e).task (s.index e.core) = leftTask c (callerTask c s e) e.since := upd_same _ _ _
      rw [h1, (leftTask_same c (callerTask c s e) e.since).miss]
    · rename_i hp; rw [sysMid_other hp]

theorem miss_counts {c : Cfg} (hc : c.WF) (p : Nat) : ∀ (evs : List (Ev c.tw)) (s s' : Core c.tw) (k : Nat),
    Inv c s → OnCores c evs → run c s evs = .ok s' → (s.task p).miss = k % 2 ^ c.sw →
    (s'.task p).miss = lateCalls c p s evs k % 2 ^ c.sw := by
  intro evs
  induction evs with
  | nil => intro s s' k _ _ h hk; simp [run] at h; subst h; exact hk
  | cons e es ih =>
    intro s s' k hi ho h hk
    obtain ⟨s1, o, h1, h2⟩ := run_cons h
    have hi1 := (step_cases hc hi ho.head h1).2.1
    have hm := step_miss hc hi ho.head h1 p
    rw [lateCalls, h1]
    simp only []
    cases hcall : e.call with
    | sleepUntil ref period =>
      simp only []
      split
      · rename_i hp
        apply ih s1 s' _ hi1 ho.tail h2
        rw [hm, if_pos hp.symm]
        unfold callerTask; rw [hcall]
        simp only [syscallSleepUntil]
        split
        · simp
        · split <;> simp [hp, hk]
      · rename_i hp
        apply ih s1 s' _ hi1 ho.tail h2
        rw [hm, if_neg (Ne.symm hp), hk]
    | _ =>
      apply ih s1 s' _ hi1 ho.tail h2
      by_cases hp : p = s.index e.core
      · rw [hm, if_pos hp]
        unfold callerTask; rw [hcall]
        first
          | (show (s.task (s.index e.core)).miss = _; rw [← hp]; exact hk)
          | (simp only [syscallSleep]; split <;> (show (s.task (s.index e.core)).miss = _; rw [← hp]; exact hk))
      · rw [hm, if_neg hp, hk]

/-- C51. `picoRTOS_sleep_until` on SMP when the period is already elapsed: the caller gives up its turn until the next tick of any
core; with `k` the number of consecutive late calls including this one, the debug exception is raised and `*ref` set to the
current tick exactly if `k` (modulo the width of `size_t`) exceeds `CONFIG_DEADLOCK_COUNT`; otherwise `*ref` is unchanged. -/
theorem smp_sleep_until_late {c : Cfg} (hc : c.WF) {strict : Bool} {adds : List Add} {s0 s s1 s2 : Core c.tw}
    {evs fut : List (Ev c.tw)} {e : Ev c.tw} {o : Out c.tw} {ref period : BitVec c.tw}
    (hb : boot c strict adds = .ok s0) (ho : OnCores c evs) (hrun : run c s0 evs = .ok s) (hk : e.core < c.K)
    (hcall : e.call = .sleepUntil ref period)
    (hs : step c s e = .ok (s1, o)) (hlate : period.toNat ≤ (s.tick - ref).toNat)
    (ho2 : OnCores c fut) (hnt : ∀ x ∈ fut, x.call ≠ .tick) (hrun2 : run c s1 fut = .ok s2) :
    (o.brk = true ↔ c.D < (lateCalls c (s.index e.core) s0 evs 0 + 1) % 2 ^ c.sw) ∧
    o.ref = (if o.brk = true then s.tick else ref) ∧
    (∀ i, i < c.K → ¬ RunsOn s2 (s.index e.core) i) ∧
    ∀ t s3 o3, t.core < c.K → t.call = .tick → step c s2 t = .ok (s3, o3) →
      (s3.task (s.index e.core)).state = .ready ∨
      ((s3.task (s.index e.core)).state = .busy ∧ RunsOn s3 (s.index e.core) t.core) := by
  have hi0 := boot_inv hc hb
  have hi := inv_run hc evs s0 s hi0 ho hrun
  have hnl : ¬ (s.tick - ref).toNat < period.toNat := by omega
  have hi1 := (step_cases hc hi hk hs).2.1
  have hd := step_done hc hi hk (by rw [hcall]; simp) (by rw [hcall]; simp only [callerState, if_neg hnl]) hs
  have hplt : s.index e.core < c.taskCount := hi.idx _ hk trivial
  have h2 := done_run hc fut s1 s2 hi1 ho2 hd hrun2 hnt
  have hi2 := inv_run hc fut s1 s2 hi1 ho2 hrun2
  have hm0 : (s0.task (s.index e.core)).miss = 0 % 2 ^ c.sw := by
    obtain ⟨f, g, hf, _, rfl⟩ := boot_shape hc hb
    show (numbered f c.N (s.index e.core)).miss = _
    unfold numbered
    split
    · rename_i h; exact ((hf.fresh _ h).2.2.2.2.2.2).trans (by simp)
    · rename_i h
      have he : s.index e.core = c.N + (s.index e.core - c.N) := by omega
      unfold Cfg.taskCount at hplt
      rw [he, hf.idle _ (by omega)]; simp; rfl
  have hm := miss_counts hc (s.index e.core) evs s0 s 0 hi0 ho hrun hm0
  obtain ⟨_, _, _, hcase⟩ := step_cases hc hi hk hs
  rcases hcase with ⟨ht, _⟩ | ⟨_, _, _, r, hout⟩
  · rw [hcall] at ht; cases ht
  have hfin : (o.brk = true ↔ c.D < (lateCalls c (s.index e.core) s0 evs 0 + 1) % 2 ^ c.sw) ∧
      o.ref = (if o.brk = true then s.tick else ref) := by
    unfold callerOut at hout; rw [hcall] at hout
    simp only [syscallSleepUntil, if_neg hnl] at hout
    rw [hm] at hout
    rw [show (lateCalls c (s.index e.core) s0 evs 0 % 2 ^ c.sw + 1) % 2 ^ c.sw =
      (lateCalls c (s.index e.core) s0 evs 0 + 1) % 2 ^ c.sw from by rw [Nat.mod_add_mod]] at hout
    by_cases hD : c.D < (lateCalls c (s.index e.core) s0 evs 0 + 1) % 2 ^ c.sw
    · rw [if_pos hD] at hout
      injection hout with h1 h2
      rw [h1, h2]; simp [hD]
    · rw [if_neg hD] at hout
      injection hout with h1 h2
      rw [h1, h2]; simp [hD]
  exact ⟨hfin.1, hfin.2, fun i hiK => hi2.not_on (.inl h2) hiK, fun t s3 o3 htk ht h3 => done_tick hc hplt hi2 htk h2 ht h3⟩

-- the first late call is silent, the third (CONFIG_DEADLOCK_COUNT = 2) raises the exception
example : ∃ r, step Demo.cfg (Demo.after Demo.h1) (Demo.ev 1 (.sleepUntil 14 2) 105) = .ok r ∧
    r.2.brk = false ∧ r.2.ref = 14 ∧
    ∃ s, run Demo.cfg r.1 [Demo.ev 0 .tick 205, Demo.ev 0 (.sleepUntil 14 2) 105, Demo.ev 1 .tick 305] = .ok s ∧ s.index 1 = 0 ∧
    ∃ r2, step Demo.cfg s (Demo.ev 1 (.sleepUntil 14 2) 105) = .ok r2 ∧ r2.2.brk = true ∧ r2.2.ref = s.tick :=
  ⟨_, rfl, by decide, by decide, _, rfl, by decide, _, rfl, by decide, by decide⟩

/-! ### stacks -/

/-- The stack pointers task `p` handed over when it was suspended, on any core, in order. -/
def handedOver (c : Cfg) (p : Nat) : Core c.tw → List (Ev c.tw) → List Nat
  | _, [] => []
  | s, e :: es =>
    match step c s e with
    | .ok (s', _) => if s.index e.core = p then e.sp :: handedOver c p s' es else handedOver c p s' es
    | _ => []

/-- C51. The stack pointer a task will be resumed with, on whichever core, is the one it handed over last, or the one it had at
the beginning of the history if it did not run since. -/
theorem smp_resumed_where_suspended {c : Cfg} (hc : c.WF) {s s' : Core c.tw} {evs : List (Ev c.tw)} (hr : Reach c s)
    (ho : OnCores c evs) (hrun : run c s evs = .ok s') (p : Nat) (hp : p < c.taskCount) :
    (s'.task p).sp = ((handedOver c p s evs).getLast?).getD (s.task p).sp := by
  have key : ∀ (evs : List (Ev c.tw)) (s s' : Core c.tw), Inv c s → OnCores c evs → run c s evs = .ok s' →
      (s'.task p).sp = ((handedOver c p s evs).getLast?).getD (s.task p).sp := by
    intro evs
    induction evs with
    | nil => intro s s' _ _ h; simp [run] at h; subst h; rfl
    | cons e es ih =>
      intro s s' hi ho h
      obtain ⟨s1, o, h1, h2⟩ := run_cons h
      obtain ⟨_, hi1, _, hcase⟩ := step_cases hc hi ho.head h1
      have hsp : (s1.task p).sp = if s.index e.core = p then e.sp else (s.task p).sp := by
        rcases hcase with ⟨_, r⟩ | ⟨hnt, _, hb, r, _⟩
        · rw [(r.picked.same p).sp]
          split
          · rename_i hp'; rw [← hp']; exact (tickMid_cur (hi.idx _ ho.head trivial)).2
          · rename_i hp'; exact (tickMid_other hp (Ne.symm hp')).1.sp
        · rw [(r.picked.same p).sp]
          split
          · rename_i hp'; rw [← hp']; exact (sysMid_cur hb hnt).2.1
          · rename_i hp'; rw [sysMid_other (Ne.symm hp')]
      rw [ih s1 s' hi1 ho.tail h2, hsp]
      have hh : handedOver c p s (e :: es) =
          if s.index e.core = p then e.sp :: handedOver c p s1 es else handedOver c p s1 es := by
        rw [handedOver, h1]
      rw [hh]
      split
      · rw [List.getLast?_cons]; simp
      · rfl
  exact key evs s s' (reach_inv hc hr) ho hrun

/-- C51. The pointer returned to the context switch code of a core is that of the task the core now runs. -/
theorem smp_resumed_with_selected {c : Cfg} (hc : c.WF) {s s' : Core c.tw} {e : Ev c.tw} {o : Out c.tw} (hr : Reach c s)
    (hk : e.core < c.K) (hs : step c s e = .ok (s', o)) : o.sp = (s'.task (s'.index e.core)).sp :=
  (step_cases hc (reach_inv hc hr) hk hs).2.2.1

/-- C51. An event with a stack pointer outside the stack of the task running on its core stalls the system. -/
theorem smp_stack_overflow_stalls {c : Cfg} {s : Core c.tw} {e : Ev c.tw} (hsp : ¬ SpOk s e.core e.sp) : step c s e = .fatal := by
  unfold step
  cases hcall : e.call with
  | tick => exact tickFn_badSp s e hsp
  | sleepUntil r p =>
    simp only [syscall_badSp s e hsp]
    cases decide (p.toNat > 0) <;> cases decide ((s.task (s.index e.core)).state = .busy) <;> simp
  | sleep _ => simp only [syscall_badSp s e hsp]; cases decide ((s.task (s.index e.core)).state = .busy) <;> simp
  | kill => simp only [syscall_badSp s e hsp]; cases decide ((s.task (s.index e.core)).state = .busy) <;> simp
  | postpone => simp only [syscall_badSp s e hsp]; cases decide ((s.task (s.index e.core)).state = .busy) <;> simp

/-- C51. Stack bounds, priority and core mask of a task never change after the start. -/
theorem smp_task_constant {c : Cfg} (hc : c.WF) {s s' : Core c.tw} {evs : List (Ev c.tw)} (hr : Reach c s)
    (ho : OnCores c evs) (hrun : run c s evs = .ok s') (p : Nat) :
    (s'.task p).bottom = (s.task p).bottom ∧ (s'.task p).top = (s.task p).top ∧ (s'.task p).prio = (s.task p).prio ∧
    (s'.task p).mask = (s.task p).mask := by
  have := run_static hc evs s s' (reach_inv hc hr) ho hrun p
  exact ⟨this.bottom, this.top, this.prio, this.mask⟩

-- pid 0 suspended at 107 on core 1 is resumed at 107 on core 0
example : ∃ s2, run Demo.cfg (Demo.after Demo.h1) [Demo.ev 1 (.sleep 1) 107, Demo.ev 0 .tick 209] = .ok s2 ∧
    s2.index 0 = 0 ∧ (s2.task 0).sp = 107 ∧ (s2.task 1).sp = 209 := ⟨_, rfl, by decide, by decide, by decide⟩
example : ¬ SpOk (Demo.after Demo.h1) 0 199 ∧ ¬ SpOk (Demo.after Demo.h1) 0 250 := by
  constructor <;> (unfold SpOk; decide)

/-- C51. `picoRTOS_sleep_until` with a period of 0 stalls. -/
theorem smp_sleep_until_zero_period_stalls {c : Cfg} (s : Core c.tw) (e : Ev c.tw) (ref : BitVec c.tw)
    (h : e.call = .sleepUntil ref 0) : step c s e = .fatal := by
  unfold step; rw [h]; simp

end Pico.SMP
