import Verif.Ipc.QueueConcProps

/-!
# The queue under concurrency: what goes wrong (C45)

The element is accessed after the futex is released (picoRTOS_queue.h:68,86), through the index `i` that readers and writers share.
-/

namespace Pico.QueueC

deriving instance DecidableEq for Queue.Ans

open Queue (Op Ans)

variable {V : Type}

/-- The calls that returned, in order, with their answers. -/
def rets (tr : List (Ev V)) : List (Nat × Ans V) := tr.filterMap (fun e => match e with | .ret t a => some (t, a) | _ => none)

/-- The values passed to a write, in the order of the calls. -/
def offered (tr : List (Ev V)) : List V := tr.filterMap (fun e => match e with | .call _ (.write v) => some v | _ => none)

/-- No task stalled or left the array. -/
def quiet (tr : List (Ev V)) : Bool := tr.all (fun e => match e with | .stall _ => false | .oob _ => false | _ => true)

/-- Two tasks, a queue declared with 4 elements. -/
def cfg2 : Cfg := ⟨2, 10, 16, 4⟩

theorem cfg2_wf : cfg2.WF := ⟨by decide, 2, rfl⟩

/-- `k` accesses of task `t`. -/
def go (t k : Nat) : List (Nat × Cmd V) := List.replicate k (t, .go false)

theorem runs_of_exec {c : Cfg} {zero : V} {old : Nat → V} (sched : List (Nat × Cmd V)) {x : List V} {b : Bool} {y : List (Nat × Ans V)}
    (h : (exec c (init c zero old) sched).map (fun r => (offered r.2, quiet r.2, rets r.2)) = some (x, b, y)) :
    ∃ s tr, Runs c zero old tr s ∧ offered tr = x ∧ quiet tr = b ∧ rets tr = y := by
  cases he : exec c (init c zero old) sched with
  | none => rw [he] at h; cases h
  | some r => rw [he] at h; cases h; exact ⟨r.1, r.2, ⟨sched, he⟩, rfl, rfl, rfl⟩

/-- C45d: one writer and one reader. The writer is preempted between the release of the lock and the copy of the value `v`;
the reader is then given an element that nobody wrote (here the initial zero), and `v`, although its write returned 0,
is never delivered: the queue is empty afterwards. -/
theorem queue_conc_loses_value (zero v : V) (old : Nat → V) :
    ∃ s tr, Runs cfg2 zero old tr s ∧ offered tr = [v] ∧ quiet tr = true ∧
      rets tr = [(1, .read (some zero)), (0, .write true), (1, .read none)] :=
  runs_of_exec ([(0, .call (.write v))] ++ go 0 7 ++ [(1, .call .read)] ++ go 1 9 ++ go 0 2 ++ [(1, .call .read)] ++ go 1 5) (by with_unfolding_all rfl)

/-- C45e: two writers, and nobody reads meanwhile. Both writes return 0, the second writer's value is overwritten by the first writer's,
and the first element of the queue is never written. -/
theorem queue_conc_writers_clash :
    ∃ s tr, Runs cfg2 0 (fun _ => 0) tr s ∧ offered tr = [5, 6] ∧ quiet tr = true ∧
      rets tr = [(1, .write true), (0, .write true), (1, .read (some 0)), (1, .read (some 5)), (1, .read none)] :=
  runs_of_exec ([(0, .call (.write 5))] ++ go 0 7 ++ [(1, .call (.write 6))] ++ go 1 9 ++ go 0 2 ++
    [(1, .call .read)] ++ go 1 9 ++ [(1, .call .read)] ++ go 1 9 ++ [(1, .call .read)] ++ go 1 5) (by decide +kernel)

/-- C45f: one writer and one reader, the reader being preempted between the release of the lock and the copy of the element: it returns
the element the writer is writing (7) instead of the first one (5); 5 is lost and 7 is delivered twice. -/
theorem queue_conc_reader_clash :
    ∃ s tr, Runs cfg2 0 (fun _ => 0) tr s ∧ offered tr = [5, 6, 7] ∧ quiet tr = true ∧
      rets tr = [(0, .write true), (0, .write true), (0, .write true), (1, .read (some 7)), (1, .read (some 6)), (1, .read (some 7)), (1, .read none)] :=
  runs_of_exec ([(0, .call (.write 5))] ++ go 0 9 ++ [(0, .call (.write 6))] ++ go 0 9 ++ [(1, .call .read)] ++ go 1 7 ++
    [(0, .call (.write 7))] ++ go 0 9 ++ go 1 2 ++
    [(1, .call .read)] ++ go 1 9 ++ [(1, .call .read)] ++ go 1 9 ++ [(1, .call .read)] ++ go 1 5) (by decide +kernel)

/-- The hypotheses of C45a-C45c hold of the execution of C45f, where the bounds are not trivial. -/
example : ∃ s tr, Runs cfg2 (0 : Nat) (fun _ => 9) tr s ∧ reads tr = 1 ∧ writes tr = 2 ∧ writing cfg2.N tr = 1 ∧ reading cfg2.N tr = 0 :=
  ⟨_, _, ⟨[(0, .call (.write 5))] ++ go 0 9 ++ [(0, .call (.write 6))] ++ go 0 9 ++ [(1, .call .read)] ++ go 1 9 ++
    [(0, .call (.write 7))] ++ go 0 6, rfl⟩, rfl, rfl, rfl, rfl⟩

end Pico.QueueC
