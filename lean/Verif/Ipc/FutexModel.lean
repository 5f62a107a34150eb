import Verif.Basic

/-!
# Model of ipc/picoRTOS_futex.c

One futex shared by any number of tasks; small-step semantics: every access of a task to the futex is one step, and the steps
interleave arbitrarily.  `arch_test_and_set` is one atomic step, following the contract of arch/include/picoRTOS_port.h:188-197
("0 in case of success, 1 otherwise"); it may fail spuriously (`spur`).  `picoRTOS_assert_fatal` never returns: the task is `dead`.
-/

namespace Pico.Ftx

/-- Number of tasks, CONFIG_DEADLOCK_COUNT, width in bits of `picoRTOS_atomic_t`. -/
structure Cfg where
  N : Nat
  D : Nat
  aw : Nat

/-- `picoRTOS_atomic_t` has at least one bit. -/
def Cfg.WF (c : Cfg) : Prop := 0 < c.aw

inductive Op where
  | trylock | lock | unlock
deriving DecidableEq, Repr

/-- Program counter: the access to the futex the task is about to make. -/
inductive PC where
  | idle
  | tas                   -- arch_test_and_set in picoRTOS_futex_trylock called by the user (picoRTOS_futex.c:39)
  | tasL (loop : Int)     -- the same, called by picoRTOS_futex_lock (picoRTOS_futex.c:59), with its local `loop`
  | zz (loop : Int)       -- picoRTOS_schedule() (picoRTOS_futex.c:60)
  | uRd                   -- assert *futex != 0 (picoRTOS_futex.c:79)
  | uWr                   -- *futex = 0 (picoRTOS_futex.c:80)
deriving DecidableEq, Repr

/-- What can be observed. -/
inductive Ev where
  | call (t : Nat) (o : Op)
  | attempt (t : Nat) (ok : Bool)
  | sleep (t : Nat)
  | ret (t : Nat) (o : Op) (ok : Bool)
  | stall (t : Nat)
deriving DecidableEq, Repr

/-- The futex and the tasks. -/
structure State (c : Cfg) where
  word : BitVec c.aw
  pc : Nat → PC
  dead : Nat → Bool

/-- `picoRTOS_futex_init` (picoRTOS_futex.c:23-26); no task is in the API. -/
def init (c : Cfg) : State c where
  word := 0
  pc := fun _ => .idle
  dead := fun _ => false

/-- Move task `t` to `p`. -/
def State.at {c : Cfg} (s : State c) (t : Nat) (p : PC) : State c := { s with pc := upd s.pc t p }

/-- `picoRTOS_fatal()` in task `t`. -/
def State.die {c : Cfg} (s : State c) (t : Nat) : State c := { s with dead := upd s.dead t true }

/-- First program counter of an API call; `loop = CONFIG_DEADLOCK_COUNT` (picoRTOS_futex.c:57). -/
def entry (c : Cfg) : Op → PC
  | .trylock => .tas
  | .lock => .tasL c.D
  | .unlock => .uRd

/-- One access of task `t`. -/
def access (c : Cfg) (s : State c) (t : Nat) (spur : Bool) : State c × List Ev :=
  match s.pc t with
  | .idle => (s, [])
  -- picoRTOS_futex.c:37-43
  | .tas => if s.word = 0 ∧ spur = false
      then (({ s with word := 1 } : State c).at t .idle, [.attempt t true, .ret t .trylock true])
      else (s.at t .idle, [.attempt t false, .ret t .trylock false])
  -- picoRTOS_futex.c:59-63: `loop-- != 0`, then `assert(loop != -1)`
  | .tasL l => if s.word = 0 ∧ spur = false
      then (if l ≠ -1 then (({ s with word := 1 } : State c).at t .idle, [.attempt t true, .ret t .lock true])
        else (({ s with word := 1 } : State c).die t, [.attempt t true, .stall t]))
      else (if l ≠ 0 then (s.at t (.zz (l - 1)), [.attempt t false]) else (s.die t, [.attempt t false, .stall t]))
  -- picoRTOS_futex.c:60, then 59
  | .zz l => (s.at t (.tasL l), [.sleep t])
  -- picoRTOS_futex.c:79
  | .uRd => if s.word ≠ 0 then (s.at t .uWr, []) else (s.die t, [.stall t])
  -- picoRTOS_futex.c:80
  | .uWr => (({ s with word := 0 } : State c).at t .idle, [.ret t .unlock true])

/-- What task `t` does next: call the API, or make the next access of the call it is in. -/
inductive Cmd where
  | call (o : Op)
  | go (spur : Bool)
deriving DecidableEq, Repr

/-- One step of the system: task `t` executes `a`; `none` if it cannot. -/
def step (c : Cfg) (s : State c) (t : Nat) (a : Cmd) : Option (State c × List Ev) :=
  if t < c.N ∧ s.dead t = false then
    match a with
    | .call o => if s.pc t = .idle then some (s.at t (entry c o), [.call t o]) else none
    | .go spur => if s.pc t = .idle then none else some (access c s t spur)
  else none

/-- Execution of a schedule. -/
def exec (c : Cfg) : State c → List (Nat × Cmd) → Option (State c × List Ev)
  | s, [] => some (s, [])
  | s, (t, a) :: l =>
    match step c s t a with
    | none => none
    | some (s', evs) =>
      match exec c s' l with
      | none => none
      | some (s2, evs2) => some (s2, evs ++ evs2)

/-! ## Vocabulary of the properties, on traces -/

/-- Successful returns of `picoRTOS_futex_lock` / `picoRTOS_futex_trylock` of task `t`. -/
def locks (tr : List Ev) (t : Nat) : Nat := tr.count (.ret t .lock true) + tr.count (.ret t .trylock true)

/-- Returns of `picoRTOS_futex_unlock` of task `t`. -/
def unlocks (tr : List Ev) (t : Nat) : Nat := tr.count (.ret t .unlock true)

/-- Task `t` acquired the futex more often than it released it. -/
def Holds (tr : List Ev) (t : Nat) : Prop := unlocks tr t < locks tr t

/-- Effect of an event on the API call task `t` is in. -/
def pendStep (t : Nat) (p : Option Op) : Ev → Option Op
  | .call u o => if u = t then some o else p
  | .ret u _ _ => if u = t then none else p
  | _ => p

/-- The API call task `t` is in. -/
def pending (tr : List Ev) (t : Nat) : Option Op := tr.foldl (pendStep t) none

/-- The task of an event. -/
def Ev.task : Ev → Nat
  | .call t _ | .attempt t _ | .sleep t | .ret t _ _ | .stall t => t

/-- Effect of an event on the list of events of task `t` since its last call. -/
def sinceStep (t : Nat) (p : List Ev) : Ev → List Ev
  | .call u o => if u = t then [.call u o] else p
  | e => if e.task = t then p ++ [e] else p

/-- The events of task `t` since its last API call (that call included). -/
def since (tr : List Ev) (t : Nat) : List Ev := tr.foldl (sinceStep t) []

/-- `k` failed attempts, each followed by one sleep of one tick. -/
def fails (t : Nat) : Nat → List Ev
  | 0 => []
  | k + 1 => fails t k ++ [.attempt t false, .sleep t]

/-- A possible execution of the system. -/
def Runs (c : Cfg) (tr : List Ev) (s : State c) : Prop := ∃ sched, exec c (init c) sched = some (s, tr)

/-- The discipline: a task only calls `picoRTOS_futex_unlock` on a futex it acquired and did not release yet. -/
def Disciplined (tr : List Ev) : Prop := ∀ pre t, pre ++ [.call t .unlock] <+: tr → Holds pre t

end Pico.Ftx
