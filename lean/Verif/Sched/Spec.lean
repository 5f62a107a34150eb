import Verif.Sched.Model

/-!
# Vocabulary of the properties of the single-core scheduler

These definitions say what the English properties mean. They do not mention the functions of the
scheduler other than `boot` (init, add tasks, start) and `run` (a history of events), and they
do not use its derived tables (`sub`, `subPrio`).
-/

namespace Pico.Sched

/-- A state the system can be in after `picoRTOS_start`: some tasks were added, the scheduler was
started and some history of events took place, nothing having stalled. -/
def Reach (c : Cfg) (s : Core c.tw) : Prop :=
  ∃ strict adds evs s0, boot c strict adds = .ok s0 ∧ run c s0 evs = .ok s

/-- Number of task slots that share the priority of `p`. -/
def sharers (c : Cfg) (s : Core c.tw) (p : Nat) : Nat :=
  ((List.range c.N).filter (fun q => (s.task q).prio = (s.task p).prio)).length

/-- Rank of `p` among the task slots that share its priority: its turn in the round-robin. -/
def turn (c : Cfg) (s : Core c.tw) (p : Nat) : Nat :=
  ((List.range p).filter (fun q => (s.task q).prio = (s.task p).prio)).length

/-- The user task `p` is eligible: it exists, is neither sleeping nor dead, and it is its turn
among the tasks that share its priority (turns advance with the tick truncated to
`picoRTOS_priority_t`). -/
def Eligible (c : Cfg) (s : Core c.tw) (p : Nat) : Prop :=
  p < c.N ∧ (s.task p).state = .ready ∧ (s.tick.toNat % 2 ^ c.pw) % sharers c s p = turn c s p

/-- Number of timer ticks in a history. -/
def ticks {tw : Nat} (evs : List (Ev tw)) : Nat :=
  evs.countP (fun e => e.call = .tick)

/-- The stack pointer handed over with an event lies in the stack of the running task. -/
def SpOk {tw : Nat} (s : Core tw) (sp : Nat) : Prop :=
  (s.task s.index).bottom ≤ sp ∧ sp < (s.task s.index).top

end Pico.Sched
