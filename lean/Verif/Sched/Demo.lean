import Verif.Sched.Spec

/-!
# A concrete system used to show that the hypotheses of the theorems are met

Three slots, an 8-bit pid, a 4-bit tick (so that it wraps quickly); three tasks with priorities 1, 0, 1.
-/

namespace Pico.Sched.Demo

/-- A small configuration. -/
def cfg : Cfg where
  N := 3
  tw := 4
  pw := 8
  sw := 8
  cw := 8
  D := 2
  prep := fun stack count _ _ => stack + count - 1
  idle := { fn := 0, priv := 0, stack := 0, stackCount := 16 }

theorem wf : cfg.WF := ⟨by decide, by decide⟩

/-- Descriptor of the task whose stack starts at `100 * k`. -/
def desc (k : Nat) : Desc := { fn := k, priv := 0, stack := 100 * k, stackCount := 50 }

/-- Tasks as added by the user. After the start: pid 0 is the task of priority 0 (stack 200),
pids 1 and 2 are the tasks of priority 1 (stacks 100 and 300). -/
def adds : List (Desc × Nat) := [(desc 1, 1), (desc 2, 0), (desc 3, 1)]

/-- An event with stack pointer `sp`. -/
def ev (call : Call 4) (sp : Nat) : Ev cfg.tw := { call := call, sp := sp, since := 7, cur := 0 }

/-- The state after the start (or `init` if it failed). -/
def started : Core cfg.tw :=
  match boot cfg true adds with
  | .ok s => s
  | _ => init cfg

theorem boot_started : boot cfg true adds = .ok started := rfl

/-- The state after a history (or `started` if it stalled). -/
def after (evs : List (Ev cfg.tw)) : Core cfg.tw :=
  match run cfg started evs with
  | .ok s => s
  | _ => started

theorem reach_after {evs : List (Ev cfg.tw)} (h : (match run cfg started evs with | .ok _ => true | _ => false) = true) :
    Reach cfg (after evs) := by
  unfold after
  cases hr : run cfg started evs with
  | ok s => exact ⟨true, adds, evs, started, rfl, hr⟩
  | fatal => rw [hr] at h; cases h
  | ub => rw [hr] at h; cases h

/-- one tick: pid 0 runs -/
def h1 : List (Ev cfg.tw) := [ev .tick 5]

example : (after h1).index = 0 := by decide

theorem reach_h1 : Reach cfg (after h1) := reach_after (by decide)

end Pico.Sched.Demo
