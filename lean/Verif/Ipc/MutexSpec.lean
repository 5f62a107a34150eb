import Verif.Ipc.MutexModel

/-!
# Vocabulary of the mutex and condition properties

Everything is read off the trace of observable events (calls, returns, attempts, sleeps, stalls).
-/

namespace Pico.Mtx

/-- Successful returns of `picoRTOS_mutex_lock` / `picoRTOS_mutex_trylock` of task `t`. -/
def locks (tr : List Ev) (t : Nat) : Nat :=
  tr.count (.ret t .lock true) + tr.count (.ret t .trylock true)

/-- Returns of `picoRTOS_mutex_unlock` of task `t`. -/
def unlocks (tr : List Ev) (t : Nat) : Nat := tr.count (.ret t .unlock true)

/-- Nesting depth: how many times `t` took the mutex and did not give it back yet. -/
def depth (tr : List Ev) (t : Nat) : Nat := locks tr t - unlocks tr t

/-- Task `t` took the mutex more often than it gave it back. -/
def Holds (tr : List Ev) (t : Nat) : Prop := unlocks tr t < locks tr t

/-- Effect of an event on the API call task `t` is in. -/
def pendStep (t : Nat) (p : Option Op) : Ev → Option Op
  | .call u o => if u = t then some o else p
  | .ret u _ _ => if u = t then none else p
  | _ => p

/-- The API call task `t` is in. -/
def pending (tr : List Ev) (t : Nat) : Option Op := tr.foldl (pendStep t) none

/-- The task of an event. -/
def Ev.task : Ev → Nat
  | .call t _ | .attempt t _ | .sleep t | .ret t _ _ | .stall t => t

/-- Effect of an event on the list of events of task `t` since its last call. -/
def sinceStep (t : Nat) (p : List Ev) : Ev → List Ev
  | .call u o => if u = t then [.call u o] else p
  | e => if e.task = t then p ++ [e] else p

/-- The events of task `t` since its last API call (that call included). -/
def since (tr : List Ev) (t : Nat) : List Ev := tr.foldl (sinceStep t) []

/-- Task `t` is in its critical section: it took the mutex more often than it gave it back, and it is not
inside `picoRTOS_cond_wait` (which gives the mutex back while it waits). -/
def Critical (tr : List Ev) (t : Nat) : Prop := Holds tr t ∧ pending tr t ≠ some .wait

/-- `k` failed attempts, each followed by one sleep of one tick. -/
def fails (t : Nat) : Nat → List Ev
  | 0 => []
  | k + 1 => fails t k ++ [.attempt t false, .sleep t]

/-- A possible execution of the system: `tr` is the trace of some schedule from the initial state, and `s` the state it leads to. -/
def Runs (c : Cfg) (tr : List Ev) (s : State c) : Prop := ∃ sched, exec c (init c) sched = some (s, tr)

/-- A possible continuation. -/
def Goes (c : Cfg) (s : State c) (tr : List Ev) (s' : State c) : Prop := ∃ sched, exec c s sched = some (s', tr)

/-- No task nests the mutex as deep as its counter can count. -/
def Bounded (c : Cfg) (tr : List Ev) : Prop := ∀ pre t, pre <+: tr → depth pre t < 2 ^ c.sw

/-- `picoRTOS_cond_wait` is only called by a task that holds the mutex (documented precondition). -/
def WaitsHeld (tr : List Ev) : Prop := ∀ pre t, pre ++ [.call t .wait] <+: tr → Holds pre t

end Pico.Mtx
