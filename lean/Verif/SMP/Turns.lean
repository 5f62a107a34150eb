import Verif.SMP.Props2
import Verif.Sched.Props4
/-
C106: order and turns of the tasks on SMP (scheduler/picoRTOS-SMP.c:352-408, 124-132).
-/
namespace Pico.SMP

open Pico.Sched (Desc Call Out range_split rank_list window_unique turn_counter)

/-- What a user can tell of a task slot: first stack pointer, stack bounds and size, priority, cores. -/
structure View where
  sp : Nat
  bottom : Nat
  top : Nat
  count : Nat
  prio : Nat
  mask : Nat
deriving DecidableEq, Repr

/-- what is in a slot -/
def slotView {tw : Nat} (t : Task tw) : View := ⟨t.sp, t.bottom, t.top, t.count, t.prio, t.mask⟩

/-- what the user asked for -/
def addView (c : Cfg) (a : Add) : View :=
  ⟨c.prep a.desc.stack a.desc.stackCount a.desc.fn a.desc.priv, a.desc.stack, a.desc.stack + a.desc.stackCount, a.desc.stackCount, a.prio, a.mask⟩

/-- the slots of priority `pr`, in pid order -/
def slotsOf (c : Cfg) (s : Core c.tw) (pr : Nat) : List Nat :=
  (List.range c.N).filter (fun p => (s.task p).prio = pr)

theorem slotView_numbered {tw : Nat} (f : Nat → Task tw) (n q : Nat) : slotView (numbered f n q) = slotView (f q) := by
  unfold numbered slotView; split <;> rfl

/-- C106. After `picoRTOS_start`: pids are in order of priority; the tasks of one priority are, in pid order, the added tasks of that priority in the
order they were added, each with its own stack, size, priority and cores; all the added tasks occupy the first pids, ready, and nothing else is occupied. -/
theorem smp_start_orders_tasks {c : Cfg} (hc : c.WF) {strict : Bool} {adds : List Add} {s : Core c.tw}
    (h : boot c strict adds = .ok s) :
    (∀ p q, p ≤ q → q < c.N → (s.task p).prio ≤ (s.task q).prio) ∧
    (∀ pr, pr < c.N → (slotsOf c s pr).map (fun p => slotView (s.task p)) =
      (adds.filter (fun a => a.prio = pr)).map (addView c)) ∧
    ((List.range adds.length).map (fun p => slotView (s.task p))).Perm (adds.map (addView c)) ∧
    (∀ p, p < adds.length → (s.task p).state = .ready) ∧
    (∀ p, adds.length ≤ p → p < c.N → (s.task p).state = .empty) := by
  obtain ⟨hpr, hl⟩ := boot_legal hc h
  obtain ⟨f, g, hf, _, rfl⟩ := boot_shape hc h
  refine ⟨?_, ?_, ?_, ?_, ?_⟩
  · intro p q h1 h2
    show (numbered f c.N p).prio ≤ (numbered f c.N q).prio
    rw [numbered_prio, numbered_prio]; exact hf.sorted p q h1 h2
  · intro pr hlt
    have h1 := congrArg (List.map slotView) (hf.same pr)
    unfold ofPrio at h1
    rw [map_addedTable hl, List.filter_append, List.filter_map, List.map_append, List.filter_map] at h1
    have h2 : List.filter (fun t => decide (t.prio = pr)) (List.replicate (c.N - adds.length) (taskCoreInit c)) = [] := by
      rw [List.filter_eq_nil_iff]
      intro t ht
      rw [List.eq_of_mem_replicate ht, unused_prio hc]; simp; omega
    rw [h2, List.map_nil, List.append_nil, List.map_map, List.map_map] at h1
    have h3 : slotsOf c { addedCore c adds with task := numbered f c.N, sub := g, running := true } pr =
        List.filter ((fun t => decide (t.prio = pr)) ∘ f) (List.range c.N) := by
      unfold slotsOf
      congr 1; funext p
      show decide ((numbered f c.N p).prio = pr) = _
      rw [numbered_prio]; rfl
    rw [h3]
    have h4 : (fun p => slotView (numbered f c.N p)) = slotView ∘ f := by
      funext p; exact slotView_numbered f c.N p
    show List.map (fun p => slotView (numbered f c.N p)) _ = _
    rw [h4, h1]; rfl
  · have h1 := hf.perm
    rw [map_addedTable hl, range_split hl, List.map_append] at h1
    have h2 : List.map f (List.range' adds.length (c.N - adds.length)) =
        List.replicate (c.N - adds.length) (taskCoreInit c) := by
      rw [List.eq_replicate_iff]
      refine ⟨by simp, ?_⟩
      intro t ht
      simp [List.mem_range'_1] at ht
      obtain ⟨q, hq, rfl⟩ := ht
      exact hf.unused hc hl hpr q (by omega) hq.1
    rw [h2, List.perm_append_right_iff] at h1
    have h3 := h1.map slotView
    rw [List.map_map, List.map_map] at h3
    have h4 : (fun p => slotView (numbered f c.N p)) = slotView ∘ f := by
      funext p; exact slotView_numbered f c.N p
    show (List.map (fun p => slotView (numbered f c.N p)) _).Perm _
    rw [h4]; exact h3
  · intro p hp
    show (numbered f c.N p).state = _
    rw [numbered_state]
    obtain ⟨a, _, h2⟩ := hf.used hc hl hpr p hp
    rw [h2]; rfl
  · intro p hp hpN
    show (numbered f c.N p).state = _
    rw [numbered_state, hf.unused hc hl hpr p hpN hp]; rfl

/-- C106. After `picoRTOS_start` the tasks of one priority have, in pid order, the turns 0, 1, …, k-1 out of k, where k is the number of tasks added with that
priority, whatever their cores. -/
theorem smp_shared_priority_turns {c : Cfg} (hc : c.WF) {strict : Bool} {adds : List Add} {s : Core c.tw}
    (h : boot c strict adds = .ok s) (pr : Nat) (hpr : pr < c.N) :
    (slotsOf c s pr).length = (adds.filter (fun a => a.prio = pr)).length ∧
    (slotsOf c s pr).map (fun p => (s.task p).subPrio) = List.range (adds.filter (fun a => a.prio = pr)).length ∧
    ((adds.filter (fun a => a.prio = pr)).length ≠ 0 → s.sub pr = (adds.filter (fun a => a.prio = pr)).length) := by
  have hlen : (slotsOf c s pr).length = (adds.filter (fun a => a.prio = pr)).length := by
    have := congrArg List.length ((smp_start_orders_tasks hc h).2.1 pr hpr)
    simpa using this
  have hi := boot_inv hc h
  have hmem : ∀ p ∈ slotsOf c s pr, p < c.N ∧ (s.task p).prio = pr := by
    intro p hp; unfold slotsOf at hp; simpa using hp
  refine ⟨hlen, ?_, ?_⟩
  · rw [← hlen]
    have := rank_list (fun p => decide ((s.task p).prio = pr)) c.N
    unfold slotsOf
    rw [← this]
    apply List.map_congr_left
    intro p hp
    obtain ⟨h1, h2⟩ := hmem p hp
    have h3 := (hi.subEq p h1 (by omega)).2
    rw [h3]; unfold turn; rw [h2]
  · intro hne
    rw [← hlen] at hne ⊢
    obtain ⟨p, hp⟩ := List.exists_mem_of_length_pos (Nat.pos_of_ne_zero hne)
    obtain ⟨h1, h2⟩ := hmem p hp
    have h3 := (hi.subEq p h1 (by omega)).1
    rw [← h2, h3, h2]; unfold sharers slotsOf; rw [h2]

/-- C106. At any time exactly one of the tasks that share a priority has its turn. -/
theorem smp_one_turn_at_a_time {c : Cfg} {s : Core c.tw} (p : Nat) (hp : p < c.N) :
    ∃ q, (q < c.N ∧ (s.task q).prio = (s.task p).prio ∧ HasTurn c s q) ∧
      ∀ q', q' < c.N ∧ (s.task q').prio = (s.task p).prio ∧ HasTurn c s q' → q' = q := by
  have hk : (s.tick.toNat % 2 ^ c.pw) % sharers c s p < sharers c s p := Nat.mod_lt _ (sharers_pos hp)
  have hsh : ∀ q, (s.task q).prio = (s.task p).prio → sharers c s q = sharers c s p := by
    intro q hq; unfold sharers; rw [hq]
  have hr := rank_list (fun q => decide ((s.task q).prio = (s.task p).prio)) c.N
  have hmem : (s.tick.toNat % 2 ^ c.pw) % sharers c s p ∈
      List.range ((List.range c.N).filter (fun q => decide ((s.task q).prio = (s.task p).prio))).length :=
    List.mem_range.2 hk
  rw [← hr, List.mem_map] at hmem
  obtain ⟨q, h1, h2⟩ := hmem
  simp at h1
  refine ⟨q, ⟨h1.1, h1.2, ?_⟩, ?_⟩
  · unfold HasTurn; rw [hsh q h1.2, ← h2]; unfold turn; rw [h1.2]
  · rintro q' ⟨_, g2, g3⟩
    apply turn_inj (g2.trans h1.2.symm)
    unfold HasTurn at g3
    rw [← g3, hsh q' g2, ← h2]; unfold turn; rw [h1.2]

theorem turn_lt_sharers {c : Cfg} {s : Core c.tw} {p : Nat} (hp : p < c.N) : turn c s p < sharers c s p := by
  unfold turn sharers
  rw [range_split (Nat.succ_le_of_lt hp), List.filter_append, List.length_append, List.range_succ, List.filter_append, List.length_append]
  simp; omega

theorem tick_after {c : Cfg} (hc : c.WF) (hw : 0 < c.tw) : ∀ (evs : List (Ev c.tw)) (s s' : Core c.tw), Inv c s → OnCores c evs → run c s evs = .ok s' →
    s'.tick = s.tick + BitVec.ofNat c.tw (sysTicks c s evs) := by
  intro evs
  induction evs with
  | nil => intro s s' _ _ h; simp [run] at h; subst h; simp [sysTicks]
  | cons e es ih =>
    intro s s' hi ho h
    obtain ⟨s1, o, h1, h2⟩ := run_cons h
    have hi1 := (step_cases hc hi ho.head h1).2.1
    rw [ih s1 s' hi1 ho.tail h2, sysTicks_cons h1]
    obtain ⟨a, b⟩ := step_tick hc hi ho.head h1
    have key : s1.tick = s.tick ∨ s1.tick = s.tick + 1 := by
      by_cases ht : e.call = .tick
      · rw [(a ht).1]; unfold nextTick; split
        · exact .inr rfl
        · exact .inl rfl
      · exact .inl (b ht).1
    rcases key with k | k
    · rw [if_pos k, k, Nat.zero_add]
    · have hne : s1.tick ≠ s.tick := by rw [k]; exact add_one_ne hw _
      rw [if_neg hne, k, Nat.add_comm 1, BitVec.ofNat_add]
      have h1 : BitVec.ofNat c.tw 1 = 1 := rfl
      rw [h1]; grind

/-- C106. In any `k` consecutive system ticks each of the `k` tasks sharing a priority has its turn at exactly one of them, whatever else happens on whatever
cores — provided the tick counter (and its truncation to `picoRTOS_priority_t`) does not wrap meanwhile, or `k` is a power of two that fits.
Missing: wraps with other `k`, for which it is false (`Pico.Sched.round_robin_wrap`, same code). -/
theorem smp_round_robin_partial {c : Cfg} (hc : c.WF) (htw : 0 < c.tw) {s : Core c.tw} (hr : Reach c s) (p : Nat) (hp : p < c.N)
    (hw : (s.tick.toNat % 2 ^ c.pw + sharers c s p ≤ 2 ^ c.pw ∧ s.tick.toNat + sharers c s p ≤ 2 ^ c.tw) ∨
      (sharers c s p ∣ 2 ^ c.pw ∧ sharers c s p ∣ 2 ^ c.tw)) :
    ∃ i, i < sharers c s p ∧ ∀ evs s', OnCores c evs → run c s evs = .ok s' → sysTicks c s evs < sharers c s p →
      (HasTurn c s' p ↔ sysTicks c s evs = i) := by
  have hi := reach_inv hc hr
  obtain ⟨i, h1, h2⟩ := window_unique (s.tick.toNat % 2 ^ c.pw) (sharers c s p) (turn c s p) (sharers_pos hp)
    (turn_lt_sharers hp)
  refine ⟨i, h1, ?_⟩
  intro evs s' ho hrun ht
  have hprio : ∀ q, (s'.task q).prio = (s.task q).prio := fun q => (run_static hc evs s s' hi ho hrun q).prio
  unfold HasTurn
  rw [sharers_congr hprio, turn_congr hprio, tick_after hc htw evs s s' hi ho hrun, turn_counter s.tick _ ht hw]
  exact h2 _ ht

/-- the user task given a core has its turn then -/
theorem given_has_turn {c : Cfg} (hc : c.WF) {s s' : Core c.tw} {e : Ev c.tw} {o : Out c.tw} (h : Inv c s) (hk : e.core < c.K) (hs : step c s e = .ok (s', o))
    (hu : s'.index e.core < c.N) : HasTurn c s' (s'.index e.core) := by
  obtain ⟨_, _, _, hcase⟩ := step_cases hc h hk hs
  rcases hcase with ⟨_, r⟩ | ⟨_, _, _, r, _⟩
  · exact r.picked.turn.2 ((r.mid.toStatic.avail_iff hu).1 r.picked.av).2.2.2
  · exact r.picked.turn.2 ((r.mid.toStatic.avail_iff hu).1 r.picked.av).2.2.2

/-- C106. Two different tasks of the same priority are never given cores during the same system tick: the second core takes a less urgent one, or idles, even if
the other task is ready and allowed there. -/
theorem smp_sharers_not_together {c : Cfg} (hc : c.WF) {s s1 s2 s3 : Core c.tw} {e1 e2 : Ev c.tw} {o1 o2 : Out c.tw} {es : List (Ev c.tw)} (hr : Reach c s)
    (hk1 : e1.core < c.K) (hk2 : e2.core < c.K) (ho : OnCores c es) (h1 : step c s e1 = .ok (s1, o1)) (h2 : run c s1 es = .ok s2) (h3 : step c s2 e2 = .ok (s3, o2))
    (htick : s3.tick = s1.tick) (hu1 : s1.index e1.core < c.N) (hu2 : s3.index e2.core < c.N)
    (hp : (s3.task (s1.index e1.core)).prio = (s3.task (s3.index e2.core)).prio) : s1.index e1.core = s3.index e2.core := by
  have i0 := reach_inv hc hr
  have i1 := (step_cases hc i0 hk1 h1).2.1
  have i2 := inv_run hc es s1 s2 i1 ho h2
  have t1 := given_has_turn hc i0 hk1 h1 hu1
  have t3 := given_has_turn hc i2 hk2 h3 hu2
  have hst : ∀ q, (s3.task q).prio = (s1.task q).prio := fun q =>
    (step_static hc i2 hk2 h3 q).prio.trans (run_static hc es s1 s2 i1 ho h2 q).prio
  have t1' : HasTurn c s3 (s1.index e1.core) := by
    unfold HasTurn at t1 ⊢
    rw [htick, sharers_congr hst, turn_congr hst]; exact t1
  exact HasTurn.inj t1' t3 hp

/- the demo: pids 2 and 3 share priority 2, turns 0 and 1 of 2 -/
example : slotsOf Demo.cfg Demo.started 2 = [2, 3] ∧ (Demo.started.task 2).subPrio = 0 ∧ (Demo.started.task 3).subPrio = 1 ∧ Demo.started.sub 2 = 2 := by decide
example : Reach Demo.cfg Demo.started ∧ sharers Demo.cfg Demo.started 2 = 2 ∧ (2 ∣ 2 ^ Demo.cfg.pw ∧ 2 ∣ 2 ^ Demo.cfg.tw) :=
  ⟨⟨true, Demo.adds, [], _, rfl, fun _ h => (by cases h), rfl⟩, by decide, by decide, by decide⟩
/- two tasks of one priority and two cores: core 0 is given pid 0, core 1 idles although pid 1 is ready and allowed there -/
def addsShared : List Add := [⟨Demo.desc 1, 0, 3⟩, ⟨Demo.desc 2, 0, 3⟩, ⟨Demo.desc 3, 0, 3⟩]
theorem smp_idles_though_ready : ∃ s0 s, boot Demo.cfg true addsShared = .ok s0 ∧ run Demo.cfg s0 [Demo.ev 0 .tick 1005, Demo.ev 1 .tick 1105] = .ok s ∧
    s.index 0 = 0 ∧ s.index 1 = Demo.cfg.N + 1 ∧ (s.task 1).state = .ready ∧ Allowed s 1 1 :=
  ⟨_, _, rfl, rfl, by decide, by decide, by decide, by unfold Allowed; decide⟩

end Pico.SMP
