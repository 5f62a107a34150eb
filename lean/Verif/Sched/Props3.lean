import Verif.Sched.Boot2
import Verif.Sched.Demo

/-! # Properties of the single-core scheduler, part 3: adding tasks and starting -/

namespace Pico.Sched

/-- What a user can tell of a task slot: first stack pointer, stack bounds and size, priority. -/
structure View where
  sp : Nat
  bottom : Nat
  top : Nat
  count : Nat
  prio : Nat
deriving DecidableEq, Repr

/-- what is in a slot -/
def slotView {tw : Nat} (t : Task tw) : View := ⟨t.sp, t.bottom, t.top, t.count, t.prio⟩

/-- what the user asked for -/
def addView (c : Cfg) (a : Desc × Nat) : View :=
  ⟨c.prep a.1.stack a.1.stackCount a.1.fn a.1.priv, a.1.stack, a.1.stack + a.1.stackCount, a.1.stackCount, a.2⟩

/-- the slots of priority `pr`, in pid order -/
def slotsOf (c : Cfg) (s : Core c.tw) (pr : Nat) : List Nat :=
  (List.range c.N).filter (fun p => (s.task p).prio = pr)

theorem slotView_numbered {tw : Nat} (f : Nat → Task tw) (n q : Nat) : slotView (numbered f n q) = slotView (f q) := by
  unfold numbered slotView; split <;> rfl

/-- C11. After `picoRTOS_start`: pids are in order of priority; the tasks of one
priority are, in pid order, the added tasks of that priority in the order they were added, each with its
own stack, size and priority; all the added tasks occupy the first pids, ready, and nothing else is
occupied. -/
theorem start_orders_tasks {c : Cfg} (hc : c.WF) {strict : Bool} {adds : List (Desc × Nat)} {s : Core c.tw}
    (h : boot c strict adds = .ok s) :
    (∀ p q, p ≤ q → q < c.N → (s.task p).prio ≤ (s.task q).prio) ∧
    (∀ pr, pr < c.N → (slotsOf c s pr).map (fun p => slotView (s.task p)) =
      (adds.filter (fun a => a.2 = pr)).map (addView c)) ∧
    ((List.range adds.length).map (fun p => slotView (s.task p))).Perm (adds.map (addView c)) ∧
    (∀ p, p < adds.length → (s.task p).state = .ready) ∧
    (∀ p, adds.length ≤ p → p < c.N → (s.task p).state = .empty) := by
  obtain ⟨hpr, hl⟩ := boot_legal hc h
  obtain ⟨f, g, hf, _, rfl⟩ := boot_shape hc h
  refine ⟨?_, ?_, ?_, ?_, ?_⟩
  · intro p q h1 h2
    show (numbered f c.N p).prio ≤ (numbered f c.N q).prio
    rw [numbered_prio, numbered_prio]; exact hf.sorted p q h1 h2
  · intro pr hlt
    have h1 := congrArg (List.map slotView) (hf.same pr)
    unfold ofPrio at h1
    rw [map_addedTable hl, List.filter_append, List.filter_map, List.map_append, List.filter_map] at h1
    have h2 : List.filter (fun t => decide (t.prio = pr)) (List.replicate (c.N - adds.length) (taskCoreInit c)) = [] := by
      rw [List.filter_eq_nil_iff]
      intro t ht
      rw [List.eq_of_mem_replicate ht, unused_prio hc]; simp; omega
    rw [h2, List.map_nil, List.append_nil, List.map_map, List.map_map] at h1
    have h3 : slotsOf c { addedCore c adds with task := numbered f c.N, sub := g, running := true } pr =
        List.filter ((fun t => decide (t.prio = pr)) ∘ f) (List.range c.N) := by
      unfold slotsOf
      congr 1; funext p
      show decide ((numbered f c.N p).prio = pr) = _
      rw [numbered_prio]; rfl
    rw [h3]
    have h4 : (fun p => slotView (numbered f c.N p)) = slotView ∘ f := by
      funext p; exact slotView_numbered f c.N p
    show List.map (fun p => slotView (numbered f c.N p)) _ = _
    rw [h4, h1]; rfl
  · have h1 := hf.perm
    rw [map_addedTable hl, range_split hl, List.map_append] at h1
    have h2 : List.map f (List.range' adds.length (c.N - adds.length)) =
        List.replicate (c.N - adds.length) (taskCoreInit c) := by
      rw [List.eq_replicate_iff]
      refine ⟨by simp, ?_⟩
      intro t ht
      simp [List.mem_range'_1] at ht
      obtain ⟨q, hq, rfl⟩ := ht
      exact hf.unused hc hl hpr q (by omega) hq.1
    rw [h2, List.perm_append_right_iff] at h1
    have h3 := h1.map slotView
    rw [List.map_map, List.map_map] at h3
    have h4 : (fun p => slotView (numbered f c.N p)) = slotView ∘ f := by
      funext p; exact slotView_numbered f c.N p
    show (List.map (fun p => slotView (numbered f c.N p)) _).Perm _
    rw [h4]; exact h3
  · intro p hp
    show (numbered f c.N p).state = _
    rw [numbered_state]
    obtain ⟨a, _, h2⟩ := hf.used hc hl hpr p hp
    rw [h2]; rfl
  · intro p hp hpN
    show (numbered f c.N p).state = _
    rw [numbered_state, hf.unused hc hl hpr p hpN hp]; rfl

-- three tasks with priorities 1, 0, 1 (stacks 100, 200, 300) start as 200, 100, 300
example : ∃ s, boot Demo.cfg true Demo.adds = .ok s ∧
    (List.range 3).map (fun p => (s.task p).bottom) = [200, 100, 300] := ⟨_, rfl, by decide⟩

theorem rank_list (P : Nat → Bool) (n : Nat) :
    ((List.range n).filter P).map (fun p => ((List.range p).filter P).length) =
      List.range ((List.range n).filter P).length := by
  induction n with
  | zero => rfl
  | succ n ih =>
    rw [List.range_succ, List.filter_append, List.map_append, ih, List.length_append]
    cases hP : P n
    · simp [hP]
    · simp [hP, List.range_succ]

/-- C12. After `picoRTOS_start` the tasks of one priority have, in pid order (which by
`start_orders_tasks` is the order in which they were added), the turns 0, 1, …, k-1 out of k, where k is the
number of tasks added with that priority. -/
theorem shared_priority_turns {c : Cfg} (hc : c.WF) {strict : Bool} {adds : List (Desc × Nat)} {s : Core c.tw}
    (h : boot c strict adds = .ok s) (pr : Nat) (hpr : pr < c.N) :
    (slotsOf c s pr).length = (adds.filter (fun a => a.2 = pr)).length ∧
    (slotsOf c s pr).map (fun p => (s.task p).subPrio) = List.range (adds.filter (fun a => a.2 = pr)).length ∧
    ((adds.filter (fun a => a.2 = pr)).length ≠ 0 → s.sub pr = (adds.filter (fun a => a.2 = pr)).length) := by
  have hlen : (slotsOf c s pr).length = (adds.filter (fun a => a.2 = pr)).length := by
    have := congrArg List.length ((start_orders_tasks hc h).2.1 pr hpr)
    simpa using this
  have hi := boot_inv hc h
  have hmem : ∀ p ∈ slotsOf c s pr, p < c.N ∧ (s.task p).prio = pr := by
    intro p hp; unfold slotsOf at hp; simpa using hp
  refine ⟨hlen, ?_, ?_⟩
  · rw [← hlen]
    have := rank_list (fun p => decide ((s.task p).prio = pr)) c.N
    unfold slotsOf
    rw [← this]
    apply List.map_congr_left
    intro p hp
    obtain ⟨h1, h2⟩ := hmem p hp
    have h3 := (hi.subEq p h1 (by omega)).2
    rw [h3]; unfold turn; rw [h2]
  · intro hne
    rw [← hlen] at hne ⊢
    obtain ⟨p, hp⟩ := List.exists_mem_of_length_pos (Nat.pos_of_ne_zero hne)
    obtain ⟨h1, h2⟩ := hmem p hp
    have h3 := (hi.subEq p h1 (by omega)).1
    rw [← h2, h3, h2]; unfold sharers slotsOf; rw [h2]

-- the two tasks of priority 1 have turns 0 and 1 of 2
example : slotsOf Demo.cfg Demo.started 1 = [1, 2] ∧ (Demo.started.task 1).subPrio = 0 ∧
    (Demo.started.task 2).subPrio = 1 ∧ Demo.started.sub 1 = 2 := by decide

/-- C14. `picoRTOS_add_task`, called after any sequence of successful calls, succeeds exactly if the
priority is below `CONFIG_TASK_COUNT` and fewer than `CONFIG_TASK_COUNT` tasks have been added, and
stalls otherwise (a priority already in use is accepted). -/
theorem add_task_accepts {c : Cfg} (hc : c.WF) {adds : List (Desc × Nat)} {s : Core c.tw}
    (h : addAll c (init c) adds = .ok s) (d : Desc) (prio : Nat) :
    ((prio < c.N ∧ adds.length < c.N) →
      ∃ s', addTask c s d prio = .ok s' ∧
        slotView (s'.task adds.length) = addView c (d, prio) ∧ (s'.task adds.length).state = .ready ∧
        ∀ q, q ≠ adds.length → s'.task q = s.task q) ∧
    (¬ (prio < c.N ∧ adds.length < c.N) → addTask c s d prio = .fatal) := by
  rw [addAll_iff hc] at h
  by_cases hh : (∀ a ∈ adds, a.2 < c.N) ∧ adds.length ≤ c.N
  · rw [if_pos hh] at h; injection h with h; subst h
    refine ⟨?_, ?_⟩
    · rintro ⟨h1, h2⟩
      refine ⟨_, addTask_added hc adds (d, prio) h1 h2, ?_, ?_, ?_⟩
      · show slotView (addedTable c (adds ++ [(d, prio)]) adds.length) = _
        rw [addedTable_lt (by simp)]; simp; rfl
      · show (addedTable c (adds ++ [(d, prio)]) adds.length).state = _
        rw [addedTable_lt (by simp)]; simp; rfl
      · intro q hq
        show addedTable c (adds ++ [(d, prio)]) q = addedTable c adds q
        unfold addedTable
        rcases Nat.lt_or_ge q adds.length with h3 | h3
        · rw [List.getElem?_append_left h3]
        · rw [List.getElem?_append_right h3, List.getElem?_eq_none (l := adds) h3,
            List.getElem?_eq_none (l := [(d, prio)]) (by simp; omega)]
    · intro hn
      exact addTask_fatal adds (d, prio) hn
  · rw [if_neg hh] at h; cases h

/-- C14. A whole sequence of calls succeeds exactly if every priority is below `CONFIG_TASK_COUNT` and
there are at most `CONFIG_TASK_COUNT` tasks; otherwise the system stalls. -/
theorem add_all_accepts {c : Cfg} (hc : c.WF) (adds : List (Desc × Nat)) :
    ((∃ s, addAll c (init c) adds = .ok s) ↔ (∀ a ∈ adds, a.2 < c.N) ∧ adds.length ≤ c.N) ∧
    ((¬ ∃ s, addAll c (init c) adds = .ok s) → addAll c (init c) adds = .fatal) := by
  rw [addAll_iff hc]
  by_cases hh : (∀ a ∈ adds, a.2 < c.N) ∧ adds.length ≤ c.N
  · rw [if_pos hh]; exact ⟨⟨fun _ => hh, fun _ => ⟨_, rfl⟩⟩, fun h => absurd ⟨_, rfl⟩ h⟩
  · rw [if_neg hh]; exact ⟨⟨fun ⟨_, h⟩ => (by cases h), fun h => absurd h hh⟩, fun _ => rfl⟩

-- a shared priority is accepted, a fourth task or a priority of 3 is not
example : (∃ s, addAll Demo.cfg (init Demo.cfg) [(Demo.desc 1, 1), (Demo.desc 2, 1)] = .ok s) ∧
    addAll Demo.cfg (init Demo.cfg) [(Demo.desc 1, 3)] = .fatal ∧
    addAll Demo.cfg (init Demo.cfg) (Demo.adds ++ [(Demo.desc 4, 0)]) = .fatal := ⟨⟨_, rfl⟩, rfl, rfl⟩

/-- C17. `picoRTOS_start` (after legal `picoRTOS_add_task` calls) stays inside its tables exactly if at
most one task slot is unused. With two or more unused slots it writes one element past the end of `sub`. -/
theorem start_in_bounds_iff {c : Cfg} (hc : c.WF) {adds : List (Desc × Nat)}
    (hp : ∀ a ∈ adds, a.2 < c.N) (hl : adds.length ≤ c.N) :
    ((∃ s, boot c true adds = .ok s) ↔ c.N ≤ adds.length + 1) ∧
    (adds.length + 1 < c.N → boot c true adds = .ub) := by
  refine ⟨⟨?_, ?_⟩, ?_⟩
  · rintro ⟨s, h⟩
    rcases Nat.lt_or_ge (adds.length + 1) c.N with h1 | h1
    · rw [boot_strict_ub hc (by omega) hp] at h; cases h
    · exact h1
  · intro h
    obtain ⟨f, g, _, _, h3⟩ := boot_ok hc true hl hp (fun _ => h)
    exact ⟨_, h3⟩
  · intro h; exact boot_strict_ub hc (by omega) hp

/-- C17. If the stray write is assumed harmless, the start always succeeds. -/
theorem start_lenient {c : Cfg} (hc : c.WF) {adds : List (Desc × Nat)}
    (hp : ∀ a ∈ adds, a.2 < c.N) (hl : adds.length ≤ c.N) : ∃ s, boot c false adds = .ok s := by
  obtain ⟨f, g, _, _, h3⟩ := boot_ok hc false hl hp (fun h => by cases h)
  exact ⟨_, h3⟩

-- one task out of three slots: undefined behaviour
example : boot Demo.cfg true [(Demo.desc 1, 0)] = .ub := rfl

end Pico.Sched
