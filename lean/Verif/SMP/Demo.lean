import Verif.SMP.Spec

/-!
# A concrete SMP system used to show that the hypotheses of the theorems are met

Two cores, four slots, an 8-bit pid, a 4-bit tick; four tasks with priorities 0, 1, 2, 2; the task of priority 1 only runs
on core 0.
-/

namespace Pico.SMP.Demo

open Pico.Sched (Desc Call Out)

/-- A small configuration. -/
def cfg : Cfg where
  N := 4
  K := 2
  tw := 4
  pw := 8
  sw := 8
  cw := 8
  mw := 8
  kw := 8
  D := 2
  prep := fun stack count _ _ => stack + count + 1
  idle := fun i => { fn := 0, priv := 0, stack := 1000 + 100 * i, stackCount := 50 }

theorem wf : cfg.WF := ⟨by decide, by decide, by decide, by decide, by decide, fun s n _ _ => by simp [cfg]⟩

/-- Descriptor of the task whose stack starts at `100 * k`. -/
def desc (k : Nat) : Desc := { fn := k, priv := 0, stack := 100 * k, stackCount := 50 }

/-- Tasks as added by the user: pid 0 (any core, stack 100), pid 1 (core 0 only, stack 200), pids 2 and 3 share
priority 2 (stacks 300 and 400). -/
def adds : List Add := [⟨desc 3, 2, 3⟩, ⟨desc 2, 1, 1⟩, ⟨desc 1, 0, 3⟩, ⟨desc 4, 2, 3⟩]

/-- An event on a core. -/
def ev (core : Nat) (call : Call 4) (sp : Nat) : Ev cfg.tw := { core := core, call := call, sp := sp, since := 7, cur := 0 }

/-- The state after the start (or `init` if it failed). -/
def started : Core cfg.tw :=
  match boot cfg true adds with
  | .ok s => s
  | _ => init cfg

theorem boot_started : boot cfg true adds = .ok started := rfl

/-- The state after a history (or `started` if it stalled). -/
def after (evs : List (Ev cfg.tw)) : Core cfg.tw :=
  match run cfg started evs with
  | .ok s => s
  | _ => started

theorem run_after {evs : List (Ev cfg.tw)} (h : (match run cfg started evs with | .ok _ => true | _ => false) = true) :
    run cfg started evs = .ok (after evs) := by
  unfold after
  cases hr : run cfg started evs with
  | ok s => rfl
  | fatal => rw [hr] at h; cases h
  | ub => rw [hr] at h; cases h

theorem reach_after {evs : List (Ev cfg.tw)} (h : (match run cfg started evs with | .ok _ => true | _ => false) = true)
    (ho : OnCores cfg evs) : Reach cfg (after evs) := ⟨true, adds, evs, started, rfl, ho, run_after h⟩

/-- one tick on each core: core 1 gets pid 0, core 0 gets pid 1 -/
def h1 : List (Ev cfg.tw) := [ev 1 .tick 1105, ev 0 .tick 1005]

example : (after h1).index 1 = 0 ∧ (after h1).index 0 = 1 ∧ (after h1).tick = 0 := by decide

theorem on_h1 : OnCores cfg h1 := by intro e he; simp [h1] at he; rcases he with rfl | rfl <;> decide

theorem reach_h1 : Reach cfg (after h1) := reach_after (by decide) on_h1

end Pico.SMP.Demo
