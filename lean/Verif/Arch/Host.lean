/-
The two host ports (arch/pthread/linux, arch/win32): tasks are threads of the host, and the port must let exactly one of
them run, the one the scheduler has chosen (`current_thread`).

Threads are numbered; what the scheduler chooses is a parameter of the events.  A call of the scheduler is one step here
(simplification: on both ports a tick may in fact come in the middle of a system call, which only adds behaviours).
-/
namespace Pico.Host

def upd {α} (f : Nat → α) (i : Nat) (x : α) : Nat → α := fun j => if j = i then x else f j

@[simp] theorem upd_same {α} (f : Nat → α) (i : Nat) (x : α) : upd f i x i = x := by simp [upd]
theorem upd_other {α} (f : Nat → α) {i j : Nat} (x : α) (h : j ≠ i) : upd f i x j = f j := by simp [upd, h]

/-! ## Specification

`active i`: thread `i` executes, or is bound to execute without anyone else doing anything. -/

/-- **C66** exactly one thread is active, the chosen one -/
def One (active : Nat → Prop) (cur : Nat) : Prop := ∀ i, active i ↔ i = cur

/-! ## arch/win32/picoRTOS_port.c

Windows keeps a suspend count per thread; a thread executes when it is 0.  ResumeThread takes one from a positive count,
SuspendThread adds one. -/

namespace Win

structure St where
  /-- suspend counts; created with CREATE_SUSPENDED, lines 62-63 -/
  count : Nat → Nat
  /-- current_thread, line 18 -/
  cur : Nat
  /-- the thread arch_TICK has still to suspend, between its lines 25 and 26 -/
  tick : Option Nat
  /-- the thread arch_syscall of each caller has still to suspend, between its lines 90 and 93 -/
  sys : Nat → Option Nat

def resume (c : Nat → Nat) (i : Nat) : Nat → Nat := upd c i (c i - 1)
def suspend (c : Nat → Nat) (i : Nat) : Nat → Nat := upd c i (c i + 1)

/-- tasks created by arch_prepare_stack (line 62), then arch_start_first_task, lines 70-71 -/
def boot (first : Nat) : St := { count := resume (fun _ => 1) first, cur := first, tick := none, sys := fun _ => none }

inductive Ev
  | tick (n : Nat)        -- arch_TICK, lines 22-25, in the thread that ticks
  | tickEnd               -- line 26
  | sys (i n : Nat)       -- arch_syscall of thread i, lines 87-90
  | sysEnd (i : Nat)      -- line 93

def step (s : St) : Ev → Option St
  | .tick n => if s.tick = none then some { s with cur := n, count := resume s.count n, tick := some s.cur } else none
  | .tickEnd => match s.tick with
    | some t => some { s with count := suspend s.count t, tick := none }
    | none => none
  | .sys i n => if s.count i = 0 ∧ s.sys i = none then
      some { s with cur := n, count := resume s.count n, sys := upd s.sys i (some s.cur) } else none
  | .sysEnd i => if s.count i = 0 then match s.sys i with
      | some t => some { s with count := suspend s.count t, sys := upd s.sys i none }
      | none => none
    else none

def run (s : St) : List Ev → Option St
  | [] => some s
  | e :: es => (step s e).bind (run · es)

def active (s : St) (i : Nat) : Prop := s.count i = 0

/-- a whole tick or a whole system call (of the current thread), nothing in between -/
inductive Turn
  | tick (n : Nat)
  | sys (n : Nat)

def Turn.next : Turn → Nat
  | .tick n => n
  | .sys n => n

def turn (s : St) : Turn → Option St
  | .tick n => run s [.tick n, .tickEnd]
  | .sys n => run s [.sys s.cur n, .sysEnd s.cur]

def turns (s : St) : List Turn → Option St
  | [] => some s
  | e :: es => (turn s e).bind (turns · es)

/-- nothing is under way -/
def Rest (s : St) : Prop := s.tick = none ∧ ∀ i, s.sys i = none

theorem turn_eq {s s' : St} {t : Turn} (h : turn s t = some s') (hr : Rest s) :
    Rest s' ∧ s'.cur = t.next ∧ s'.count = suspend (resume s.count t.next) s.cur := by
  obtain ⟨h1, h2⟩ := hr
  cases t with
  | tick n =>
    simp [turn, run, step, h1] at h
    subst h; exact ⟨⟨rfl, h2⟩, rfl, rfl⟩
  | sys n =>
    simp only [turn, run, step, Option.bind] at h
    by_cases hc : s.count s.cur = 0
    · have hc' : resume s.count n s.cur = 0 := by
        unfold resume upd; split
        · rename_i e; rw [← e, hc]
        · exact hc
      simp [hc, hc', h2] at h
      subst h
      refine ⟨⟨h1, fun i => ?_⟩, rfl, rfl⟩
      simp only [upd]; split
      · rfl
      · exact h2 i
    · simp [hc] at h

/-- every turn changes the current thread -/
def Changing : Nat → List Turn → Prop
  | _, [] => True
  | c, t :: ts => t.next ≠ c ∧ Changing t.next ts

theorem turns_inv : ∀ (ts : List Turn) (s s' : St), Rest s → Changing s.cur ts →
    (∀ i, s.count i = if i = s.cur then 0 else 1) → turns s ts = some s' →
    Rest s' ∧ (∀ i, s'.count i = if i = s'.cur then 0 else 1) := by
  intro ts
  induction ts with
  | nil => intro s s' hr _ hc h; simp [turns] at h; subst h; exact ⟨hr, hc⟩
  | cons t ts ih =>
    intro s s' hr hch hc h
    rw [turns] at h
    cases ht : turn s t with
    | none => rw [ht] at h; cases h
    | some s1 =>
      rw [ht] at h
      obtain ⟨hr1, hcur, hcnt⟩ := turn_eq ht hr
      refine ih s1 s' hr1 (hcur ▸ hch.2) ?_ h
      intro i
      rw [hcnt, hcur]
      simp only [suspend, resume, upd, hc]
      have := hch.1
      by_cases e1 : i = s.cur <;> by_cases e2 : i = t.next <;> simp_all <;> omega

/-- **C66, win32, partial**: as long as no turn is interrupted and every turn changes the task, exactly the chosen task runs. -/
theorem win32_one_partial (first : Nat) (ts : List Turn) (s : St) (hch : Changing first ts) (h : turns (boot first) ts = some s) :
    One (active s) s.cur := by
  have h0 : ∀ i, (boot first).count i = if i = (boot first).cur then 0 else 1 := by
    intro i; simp only [boot, resume, upd]; split <;> simp_all
  obtain ⟨_, hc⟩ := turns_inv ts (boot first) s ⟨rfl, fun _ => rfl⟩ hch h0 h
  intro i; simp [active, hc]

/-- satisfiable: two tasks alternate -/
example : ∃ s, turns (boot 1) [.sys 2, .tick 1, .sys 0] = some s ∧ s.cur = 0 ∧ Changing 1 [.sys 2, .tick 1, .sys 0] := by
  exact ⟨_, rfl, rfl, by decide, by decide, by decide, trivial⟩

/-- a thread that is more deeply suspended than it should -/
def Stuck (s : St) (i : Nat) : Prop := (s.cur = i → 1 ≤ s.count i) ∧ (s.cur ≠ i → 2 ≤ s.count i)

theorem stuck_turn {s s' : St} {t : Turn} {i : Nat} (hs : Stuck s i) (h : turn s t = some s') (hr : Rest s) : Stuck s' i := by
  obtain ⟨_, hcur, hcnt⟩ := turn_eq h hr
  obtain ⟨a, b⟩ := hs
  rw [Stuck, hcur, hcnt]
  simp only [suspend, resume, upd]
  by_cases e1 : i = s.cur <;> by_cases e2 : i = t.next <;> simp_all <;> omega

theorem stuck_turns : ∀ (ts : List Turn) (s s' : St) (i : Nat), Rest s → Stuck s i → turns s ts = some s' → Stuck s' i := by
  intro ts
  induction ts with
  | nil => intro s s' i _ hs h; simp [turns] at h; exact h ▸ hs
  | cons t ts ih =>
    intro s s' i hr hs h
    rw [turns] at h
    cases ht : turn s t with
    | none => rw [ht] at h; cases h
    | some s1 =>
      rw [ht] at h
      exact ih s1 s' i (turn_eq ht hr).1 (stuck_turn hs ht hr) h

/-- **C66, win32, refuted**: a tick or a system call that keeps the current task suspends it, and it never runs again
whatever follows: ResumeThread of a thread that runs does nothing, SuspendThread then stops it. -/
theorem win32_kept_task_dies (s s1 s2 : St) (t : Turn) (hr : Rest s) (hc : t.next = s.cur)
    (h1 : turn s t = some s1) (ts : List Turn) (h2 : turns s1 ts = some s2) :
    ¬ active s2 s.cur := by
  obtain ⟨hr1, hcur, hcnt⟩ := turn_eq h1 hr
  have hs : Stuck s1 s.cur := by
    rw [Stuck, hcur, hc, hcnt, hc]
    exact ⟨fun _ => by simp [suspend], fun h => absurd rfl h⟩
  obtain ⟨a, b⟩ := stuck_turns ts s1 s2 _ hr1 hs h2
  unfold active
  by_cases e : s2.cur = s.cur
  · have := a e; omega
  · have := b e; omega

/-- it happens at the first tick a task does not sleep through, and every later tick leaves it suspended -/
example : ∃ s, turns (boot 1) [.tick 1, .tick 0, .tick 1] = some s ∧ s.cur = 1 ∧ s.count 1 = 1 := ⟨_, rfl, rfl, rfl⟩

/-- **C66, win32, refuted**: between ResumeThread and SuspendThread of a tick, both tasks run. -/
theorem win32_two_run (first n : Nat) (h : n ≠ first) :
    ∃ s, run (boot first) [.tick n] = some s ∧ active s n ∧ active s first := by
  refine ⟨_, rfl, ?_, ?_⟩ <;> simp [active, boot, resume, upd, h, Ne.symm h]

/-- **C66, win32, refuted**: a task gives way to `n`, which gives way to it before it has suspended itself: its
ResumeThread is lost, and no task runs. -/
theorem win32_none_runs (first n : Nat) (h : n ≠ first) :
    ∃ s, run (boot first) [.sys first n, .sys n first, .sysEnd n, .sysEnd first] = some s ∧ Rest s ∧ s.cur = first ∧
      ∀ i, ¬ active s i := by
  have h' := Ne.symm h
  refine ⟨⟨suspend (suspend (resume (resume (boot first).count n) first) n) first, first, none,
    upd (upd (upd (upd (fun _ => none) first (some first)) n (some n)) n none) first none⟩, ?_, ⟨rfl, ?_⟩, rfl, ?_⟩
  · simp [run, step, boot, suspend, resume, upd, h, h']
  · intro i; simp only [upd]; by_cases e1 : i = first <;> by_cases e2 : i = n <;> simp [e1, e2]
  · intro i; simp only [active, suspend, resume, boot, upd]
    by_cases e1 : i = first <;> by_cases e2 : i = n <;> simp_all

/-! ### the function a task runs

arch_prepare_stack stores the function in one static variable (line 60) and creates the thread suspended; start_routine
(lines 46-50) reads that variable when the thread first runs, after picoRTOS_start. -/

/-- what (function, argument) the threads of the tasks prepared run, in order of preparation -/
def started (l : List (Nat × Nat)) : List (Nat × Nat) :=
  match l.getLast? with
  | some (f, _) => l.map fun x => (f, x.2)
  | none => []

/-- **C55, win32, refuted**: a task whose function is not the one prepared last runs that one instead; the idle task, which
picoRTOS_init prepares first, is one of them as soon as another task is added. -/
theorem win32_entry_wrong (l : List (Nat × Nat)) (f p g q : Nat) (h : f ≠ g) (_hm : (f, p) ∈ l) :
    (f, p) ∉ started (l ++ [(g, q)]) := by
  simp only [started, List.getLast?_append, List.getLast?_singleton, Option.some_or, List.mem_map]
  rintro ⟨x, _, hx⟩
  injection hx with h1 _
  exact h h1.symm

/-- **C55, win32**: the arguments are right; the function is when all the tasks share it. -/
theorem win32_entry_partial (l : List (Nat × Nat)) :
    (started l).map (·.2) = l.map (·.2) ∧ (started l = l ↔ ∀ x ∈ l, ∀ y ∈ l.getLast?, x.1 = y.1) := by
  unfold started
  cases hl : l.getLast? with
  | none =>
    have : l = [] := List.getLast?_eq_none_iff.mp hl
    subst this; simp
  | some y =>
    obtain ⟨g, q⟩ := y
    refine ⟨by simp, ?_⟩
    constructor
    · intro e x hx y hy
      simp at hy; subst hy
      rw [← e] at hx
      obtain ⟨z, _, hz⟩ := List.mem_map.mp hx
      rw [← hz]
    · intro e
      conv => rhs; rw [← List.map_id l]
      apply List.map_congr_left
      intro x hx
      have := e x hx _ rfl
      simp at this
      simp [← this]

example : started [(100, 0), (7, 1), (8, 2)] = [(8, 0), (8, 1), (8, 2)] := rfl

end Win

/-! ## arch/pthread/linux/picoRTOS_port.c

A thread waits for SIGUSR1 in sigwait, in arch_syscall, at its start, or in the handler of SIGALRM (arch_TICK).
SIGUSR1 is blocked in the handler (sigfillset, line 64); it is not blocked in the threads themselves: they are created by
picoRTOS_init / picoRTOS_add_task, before picoRTOS_start calls arch_init whose pthread_sigmask (line 106) concerns the
thread that calls it.  Outside sigwait and the handler, SIGUSR1 runs arch_sigusr1 (line 88), which does nothing: it is lost.
SIGALRM is for the process: any thread that does not block it may get it. -/

namespace Pth

/-- where a thread is, the handler of SIGALRM aside -/
inductive Pc
  | task     -- in the code of its task
  | pre      -- about to call sigwait: just created (line 32), or in arch_syscall after its pthread_kill (lines 167-170)
  | wait     -- in sigwait
  deriving DecidableEq

structure St where
  pc : Nat → Pc
  /-- in wait_for_sigusr1 of arch_TICK, line 50 -/
  tick : Nat → Bool
  /-- SIGUSR1 pending -/
  usr1 : Nat → Bool
  /-- the main thread is in wait_for_sigusr1 of arch_TICK -/
  main : Bool
  cur : Nat

/-- pthread_kill(i, SIGUSR1) -/
def kill (s : St) (i : Nat) : St :=
  if s.tick i = true ∨ s.pc i = .wait then { s with usr1 := upd s.usr1 i true } else s

/-- the threads created by arch_prepare_stack, lines 131-149; those in `slow` have not reached sigwait when
arch_start_first_task (lines 151-159) sends the signal -/
def boot (slow : Nat → Bool) (first : Nat) : St :=
  kill { pc := fun i => if slow i then Pc.pre else Pc.wait, tick := fun _ => false, usr1 := fun _ => false, main := false,
         cur := first } first

inductive Ev
  | enter (i : Nat)              -- thread i calls sigwait
  | sys (i n : Nat)              -- arch_syscall of thread i, lines 163-167; the scheduler chooses n
  | tick (r n : Nat)             -- SIGALRM delivered to thread r: arch_TICK, lines 42-50
  | tickMain (n : Nat)           -- the same, delivered to the main thread, which is in pause (line 158)
  | wake (i : Nat)               -- sigwait returns in thread i

def step (s : St) : Ev → Option St
  | .enter i => if s.pc i = .pre ∧ s.tick i = false then some { s with pc := upd s.pc i .wait } else none
  | .sys i n => if s.pc i = .task ∧ s.tick i = false then
      let s1 := kill { s with cur := n } n
      some { s1 with pc := upd s1.pc i .pre } else none
  | .tick r n => if s.tick r = false then
      -- the whole handler runs with SIGUSR1 blocked
      some (kill { s with cur := n, tick := upd s.tick r true } n) else none
  | .tickMain n => if s.main = false then some (kill { s with cur := n, main := true } n) else none
  | .wake i => if s.usr1 i = true then
      if s.tick i = true then some { s with usr1 := upd s.usr1 i false, tick := upd s.tick i false }
      else if s.pc i = .wait then some { s with usr1 := upd s.usr1 i false, pc := upd s.pc i .task }
      else none
    else none

def run (s : St) : List Ev → Option St
  | [] => some s
  | e :: es => (step s e).bind (run · es)

/-- executes the code of its task, or will as soon as it gets the signal pending: one wait only left -/
def active (s : St) (i : Nat) : Prop :=
  (s.pc i = .task ∧ s.tick i = false) ∨ (s.usr1 i = true ∧ (s.tick i = true ↔ s.pc i = .task))

/-- executes the code of its task -/
def runs (s : St) (i : Nat) : Prop := s.pc i = .task ∧ s.tick i = false

/-- what the port relies on: SIGALRM goes to the current thread, in the code of its task; a system call changes the task; and
a thread that has given way reaches sigwait before anything else happens -/
def Nice (s : St) : Ev → Prop
  | .enter _ => True
  | .sys i n => n ≠ i ∧ ∀ j, s.pc j ≠ .pre
  | .tick r _ => r = s.cur ∧ s.pc r = .task ∧ ∀ j, s.pc j ≠ .pre
  | .tickMain _ => False
  | .wake _ => ∀ j, s.pc j ≠ .pre

def NiceRun : St → List Ev → Prop
  | _, [] => True
  | s, e :: es => Nice s e ∧ ∀ s', step s e = some s' → NiceRun s' es

/-- threads other than the current one wait at one place, without signal -/
def Inv (s : St) : Prop :=
  (∀ i, i ≠ s.cur → s.usr1 i = false ∧ ((s.tick i = true ∧ s.pc i = .task) ∨ (s.tick i = false ∧ s.pc i ≠ .task))) ∧
  ((s.usr1 s.cur = false ∧ s.tick s.cur = false ∧ s.pc s.cur = .task) ∨
   (s.usr1 s.cur = true ∧ s.tick s.cur = true ∧ s.pc s.cur = .task) ∨
   (s.usr1 s.cur = true ∧ s.tick s.cur = false ∧ s.pc s.cur = .wait))

theorem inv_one {s : St} (h : Inv s) : One (active s) s.cur := by
  obtain ⟨h1, h2⟩ := h
  intro i
  constructor
  · intro ha
    refine Decidable.byContradiction fun e => ?_
    obtain ⟨a, b⟩ := h1 i e
    unfold active at ha
    simp [a] at ha
    rcases b with b | b <;> simp_all
  · intro e; subst e
    unfold active
    rcases h2 with h | h | h <;> simp [h]

theorem inv_step {s s' : St} {e : Ev} (hi : Inv s) (hn : Nice s e) (h : step s e = some s') : Inv s' := by
  obtain ⟨h1, h2⟩ := hi
  cases e with
  | enter i =>
    simp only [step] at h
    split at h <;> simp at h
    rename_i hp
    subst h
    refine ⟨fun j hj => ?_, ?_⟩
    · obtain ⟨a, b⟩ := h1 j hj
      refine ⟨a, ?_⟩
      simp only [upd]
      by_cases e : j = i
      · subst e; rw [if_pos rfl]; right; exact ⟨hp.2, by simp⟩
      · rw [if_neg e]; exact b
    · have : s.cur ≠ i := by intro e; subst e; rcases h2 with h | h | h <;> simp_all
      simp only [upd, if_neg this]
      exact h2
  | sys i n =>
    simp only [step] at h
    split at h <;> simp at h
    rename_i hp
    subst h
    have hic : i = s.cur := by
      refine Decidable.byContradiction fun e => ?_
      obtain ⟨a, b⟩ := h1 i e
      rcases b with b | b <;> simp_all
    obtain ⟨hni, hpre⟩ := hn
    have hnc : n ≠ s.cur := fun e => hni (e.trans hic.symm)
    obtain ⟨a, b⟩ := h1 n hnc
    have hk : s.tick n = true ∨ s.pc n = .wait := by
      rcases b with b | b
      · exact Or.inl b.1
      · right; have := hpre n; cases hh : s.pc n <;> simp_all
    have hk2 : kill { s with cur := n } n = { s with cur := n, usr1 := upd s.usr1 n true } := by
      unfold kill; rw [if_pos hk]
    rw [hk2]
    refine ⟨fun j hj => ?_, ?_⟩
    · replace hj : j ≠ n := hj
      simp only [upd, if_neg hj]
      by_cases e : j = i
      · rw [if_pos e]
        subst e
        refine ⟨?_, Or.inr ⟨hp.2, by simp⟩⟩
        rcases h2 with h | h | h <;> simp_all
      · rw [if_neg e]; exact h1 j (fun e2 => e (e2.trans hic.symm))
    · right
      simp only [upd, if_neg hni, if_true]
      rcases b with b | b
      · left; exact ⟨trivial, b.1, b.2⟩
      · right; exact ⟨trivial, b.1, by rcases hk with k | k; (rw [b.1] at k; cases k); exact k⟩
  | tick r n =>
    simp only [step] at h
    split at h <;> simp at h
    rename_i hp
    subst h
    obtain ⟨hr, hpc, hpre⟩ := hn
    subst hr
    have hu : s.usr1 s.cur = false := by rcases h2 with h | h | h <;> simp_all
    have hk : upd s.tick s.cur true n = true ∨ s.pc n = .wait := by
      by_cases e : n = s.cur
      · left; simp [upd, e]
      · obtain ⟨a, b⟩ := h1 n e
        simp only [upd, if_neg e]
        rcases b with b | b
        · exact Or.inl b.1
        · right; have := hpre n; cases hh : s.pc n <;> simp_all
    have hk2 : kill { s with cur := n, tick := upd s.tick s.cur true } n =
        { s with cur := n, tick := upd s.tick s.cur true, usr1 := upd s.usr1 n true } := by
      unfold kill; rw [if_pos hk]
    rw [hk2]
    refine ⟨fun j hj => ?_, ?_⟩
    · replace hj : j ≠ n := hj
      simp only [upd, if_neg hj]
      by_cases e : j = s.cur
      · rw [if_pos e]; subst e; exact ⟨hu, Or.inl ⟨rfl, hpc⟩⟩
      · rw [if_neg e]; exact h1 j e
    · right
      simp only [upd]
      by_cases e : n = s.cur
      · left; subst e; simp [hpc]
      · simp only [if_neg e, if_true]
        obtain ⟨a, b⟩ := h1 n e
        rcases b with b | b
        · left; exact ⟨trivial, b.1, b.2⟩
        · right; refine ⟨trivial, b.1, ?_⟩
          have := hpre n; cases hh : s.pc n <;> simp_all
  | tickMain n => exact absurd hn (by simp [Nice])
  | wake i =>
    simp only [step] at h
    split at h
    · rename_i hu
      have hic : i = s.cur := by
        refine Decidable.byContradiction fun e => ?_
        obtain ⟨a, b⟩ := h1 i e
        simp [a] at hu
      subst hic
      split at h
      · simp at h; subst h
        rename_i ht
        refine ⟨fun j hj => ?_, ?_⟩
        · replace hj : j ≠ s.cur := hj
          simp only [upd, if_neg hj]; exact h1 j hj
        · left; simp only [upd, if_true]; refine ⟨trivial, trivial, ?_⟩
          rcases h2 with h | h | h <;> simp_all
      · split at h
        · simp at h; subst h
          rename_i ht hw
          refine ⟨fun j hj => ?_, ?_⟩
          · replace hj : j ≠ s.cur := hj
            simp only [upd, if_neg hj]; exact h1 j hj
          · left; simp only [upd, if_true]; exact ⟨trivial, by simpa using ht, trivial⟩
        · cases h
    · cases h

theorem inv_run : ∀ (es : List Ev) (s s' : St), Inv s → NiceRun s es → run s es = some s' → Inv s' := by
  intro es
  induction es with
  | nil => intro s s' hi _ h; simp [run] at h; exact h ▸ hi
  | cons e es ih =>
    intro s s' hi hn h
    rw [run] at h
    cases hs : step s e with
    | none => rw [hs] at h; cases h
    | some s1 =>
      rw [hs] at h
      exact ih s1 s' (inv_step hi hn.1 hs) (hn.2 s1 hs) h

theorem inv_boot (first : Nat) (slow : Nat → Bool) (h : slow first = false) : Inv (boot slow first) := by
  have hk : boot slow first = {
      pc := fun i => if slow i then Pc.pre else Pc.wait, tick := fun _ => false,
      usr1 := upd (fun _ => false) first true, main := false, cur := first } := by
    unfold boot kill; rw [if_pos (Or.inr (by simp [h]))]
  rw [hk]
  refine ⟨fun i hi => ⟨upd_other (fun _ => false) true (show i ≠ first from hi), Or.inr ⟨rfl, ?_⟩⟩, Or.inr (Or.inr ⟨by simp, rfl, by simp [h]⟩)⟩
  show (if slow i then Pc.pre else Pc.wait) ≠ Pc.task
  split <;> simp

/-- **C66, pthread, partial**: if SIGALRM is always delivered to the current task, in its own code, if no system call keeps
the task, and if a thread always reaches sigwait before anything else happens, exactly the chosen task is active. -/
theorem pthread_one_partial (slow : Nat → Bool) (first : Nat) (h : slow first = false) (es : List Ev) (s : St)
    (hn : NiceRun (boot slow first) es) (hr : run (boot slow first) es = some s) : One (active s) s.cur :=
  inv_one (inv_run es _ _ (inv_boot first slow h) hn hr)

def fast : Nat → Bool := fun _ => false

/-- satisfiable: a start, a tick to another task, a system call back, a tick that keeps the task -/
example : ∃ s, run (boot fast 1) [.wake 1, .tick 1 2, .wake 2, .sys 2 1, .enter 2, .wake 1, .tick 1 1, .wake 1] = some s ∧
    s.cur = 1 ∧ runs s 1 := ⟨_, rfl, rfl, rfl, rfl⟩
example : NiceRun (boot fast 1) [.wake 1, .tick 1 2] := by
  refine ⟨fun j => ?_, fun s' h => ?_⟩
  · simp [boot, kill, fast]
  · simp [step, boot, kill, fast] at h
    subst h
    refine ⟨⟨rfl, by simp, fun j => ?_⟩, fun _ _ => trivial⟩
    simp only [upd]; split <;> simp

/-- **C66, pthread, refuted**: a tick delivered to the main thread (which the kernel prefers) lets the new task run along
with the old one, until another tick comes. -/
theorem pthread_main_two_run (first n : Nat) (h : n ≠ first) :
    ∃ s, run (boot fast first) [.wake first, .tickMain n, .wake n] = some s ∧ runs s n ∧ runs s first := by
  have h' := Ne.symm h
  refine ⟨{ pc := upd (upd (fun _ => .wait) first .task) n .task, tick := fun _ => false,
            usr1 := upd (upd (upd (upd (fun _ => false) first true) first false) n true) n false, main := true, cur := n },
    ?_, ⟨by simp, rfl⟩, ⟨by simp [upd], rfl⟩⟩
  simp [run, step, boot, kill, fast, upd, h, h']

/-- **C63, pthread, refuted**: arch_suspend (lines 112-119) blocks SIGALRM in the thread that calls it, and in no other.  A task
in a critical section, which receives no SIGALRM itself, still sees another task run, because the main thread takes the tick;
the atomic operations, which rest on arch_suspend (lines 185-213), are not atomic then. -/
theorem pthread_critical_section (s : St) (first n : Nat) (h : n ≠ first) (hr : runs s first) (hm : s.main = false)
    (hw : s.pc n = .wait ∧ s.tick n = false) :
    ∃ s', run s [.tickMain n, .wake n] = some s' ∧ runs s' first ∧ runs s' n := by
  have h' := Ne.symm h
  refine ⟨{ s with cur := n, main := true, usr1 := upd (upd s.usr1 n true) n false, pc := upd s.pc n .task },
    ?_, ⟨(upd_other s.pc Pc.task h').trans hr.1, hr.2⟩, ⟨by simp, hw.2⟩⟩
  simp [run, step, kill, hm, hw]

/-- its hypotheses are those of the first task, after its start -/
example : ∃ s, run (boot fast 1) [.wake 1] = some s ∧ runs s 1 ∧ s.main = false ∧ s.pc 2 = .wait ∧ s.tick 2 = false :=
  ⟨_, rfl, ⟨rfl, rfl⟩, rfl, rfl, rfl⟩

/-- **C66, pthread, refuted**: a tick that chooses a thread waiting in sigwait and is delivered to that same thread: the
signal ends the wait of the handler, not that of the thread; the old task goes on running. -/
theorem pthread_waiter_wrong_task (first n : Nat) (h : n ≠ first) :
    ∃ s, run (boot fast first) [.wake first, .tick n n, .wake n] = some s ∧ s.cur = n ∧ runs s first ∧ ¬ active s n := by
  have h' := Ne.symm h
  refine ⟨{ pc := upd (fun _ => .wait) first .task, tick := upd (upd (fun _ => false) n true) n false,
            usr1 := upd (upd (upd (upd (fun _ => false) first true) first false) n true) n false, main := false, cur := n },
    ?_, rfl, ⟨by simp, by simp [upd]⟩, by simp [active, upd, h]⟩
  simp [run, step, boot, kill, fast, upd, h, h']

/-- **C66, pthread, refuted**: a system call that keeps the task (`picoRTOS_sleep(0)`) stops it: the signal it sends itself is
taken by arch_sigusr1. -/
theorem pthread_kept_task_stops (first : Nat) :
    ∃ s, run (boot fast first) [.wake first, .sys first first, .enter first] = some s ∧ s.cur = first ∧ ∀ i, ¬ active s i := by
  refine ⟨{ pc := fun _ => .wait, tick := fun _ => false, usr1 := fun _ => false, main := false, cur := first }, ?_, rfl, ?_⟩
  · simp [run, step, boot, kill, fast, upd]
    constructor <;> (funext i; by_cases e : i = first <;> simp [upd, e])
  · intro i; simp [active]

/-- **C66, pthread, refuted**: a task that is given its turn back before it has reached sigwait never gets it. -/
theorem pthread_lost_wakeup (first n : Nat) (h : n ≠ first) :
    ∃ s, run (boot fast first) [.wake first, .sys first n, .wake n, .sys n first, .enter first, .enter n] = some s ∧
      s.cur = first ∧ ∀ i, ¬ active s i := by
  have h' := Ne.symm h
  refine ⟨{ pc := fun _ => .wait, tick := fun _ => false, usr1 := fun _ => false, main := false, cur := first }, ?_, rfl, ?_⟩
  · simp [run, step, boot, kill, fast, upd, h, h']
    constructor <;> (funext i; by_cases e1 : i = first <;> by_cases e2 : i = n <;> simp_all [upd])
  · intro i; simp [active]

/-- **C66, pthread, refuted**: a first task whose thread has not reached sigwait when picoRTOS_start signals it never starts. -/
theorem pthread_never_starts (slow : Nat → Bool) (first : Nat) (h : slow first = true) (i : Nat) :
    ¬ active (boot slow first) i := by
  have hk : boot slow first = {
      pc := fun i => if slow i then Pc.pre else Pc.wait, tick := fun _ => false,
      usr1 := fun _ => false, main := false, cur := first } := by
    unfold boot kill; rw [if_neg (by simp [h])]
  rw [hk]
  simp only [active]
  cases slow i <;> simp

end Pth

end Pico.Host
