import Verif.SMP.Model

/-!
# Vocabulary of the properties of the SMP scheduler
-/

namespace Pico.SMP

/-- Every event of a history happens on an existing core. -/
def OnCores (c : Cfg) (evs : List (Ev c.tw)) : Prop := ∀ e ∈ evs, e.core < c.K

/-- A state the system can be in after `picoRTOS_start`, after any interleaving of events of the cores. -/
def Reach (c : Cfg) (s : Core c.tw) : Prop :=
  ∃ strict adds evs s0, boot c strict adds = .ok s0 ∧ OnCores c evs ∧ run c s0 evs = .ok s

/-- The task in slot `p` may run on core `i` (bit `i` of its mask). -/
def Allowed {tw : Nat} (s : Core tw) (p i : Nat) : Prop := (s.task p).mask.testBit i = true

/-- Number of task slots that share the priority of `p`. -/
def sharers (c : Cfg) (s : Core c.tw) (p : Nat) : Nat :=
  ((List.range c.N).filter (fun q => (s.task q).prio = (s.task p).prio)).length

/-- Rank of `p` among the task slots that share its priority. -/
def turn (c : Cfg) (s : Core c.tw) (p : Nat) : Nat :=
  ((List.range p).filter (fun q => (s.task q).prio = (s.task p).prio)).length

/-- It is the turn of user task `p`. -/
def HasTurn (c : Cfg) (s : Core c.tw) (p : Nat) : Prop :=
  (s.tick.toNat % 2 ^ c.pw) % sharers c s p = turn c s p

/-- The user task `p` waits for a core and could be given core `i`. -/
def Waiting (c : Cfg) (s : Core c.tw) (i p : Nat) : Prop :=
  p < c.N ∧ Allowed s p i ∧ (s.task p).state = .ready ∧ HasTurn c s p

/-- The stack pointer handed over lies in the stack of the task running on that core. -/
def SpOk {tw : Nat} (s : Core tw) (core sp : Nat) : Prop :=
  (s.task (s.index core)).bottom ≤ sp ∧ sp < (s.task (s.index core)).top

/-- Number of `picoRTOS_tick` calls in a history. -/
def tickCalls {tw : Nat} (evs : List (Ev tw)) : Nat := evs.countP (fun e => e.call = .tick)

/-- Number of system ticks in a history: events at which the value of `picoRTOS_get_tick` changed. -/
def sysTicks (c : Cfg) : Core c.tw → List (Ev c.tw) → Nat
  | _, [] => 0
  | s, e :: es =>
    match step c s e with
    | .ok (s', _) => (if s'.tick = s.tick then 0 else 1) + sysTicks c s' es
    | _ => 0

/-- The task in slot `p` runs on core `i`. -/
def RunsOn {tw : Nat} (s : Core tw) (p i : Nat) : Prop := s.index i = p

end Pico.SMP
