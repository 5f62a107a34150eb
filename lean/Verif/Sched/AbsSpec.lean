import Verif.Sched.Model

/-!
# A specification of the single-core scheduler as a user sees it

An abstract machine that does not look like the code: tasks are known by the order in which the user added them, a sleeping task is a task
with a number of ticks left to sleep, there is no task table, no sub-priority table and no wake-up tick.  `specTrace` gives what can be
observed of a system and `implTrace` the same observations of the model of the code.  Both are equal (`scheduler_refines_spec`).

Only the types of the requests, of the configuration and of the task descriptors are shared with the model of the code.
-/

namespace Pico.Sched

/-- What is observed after each event: the stack of the running task (which tells which task it is), the system
tick, the stack pointer it resumes from, and what `picoRTOS_sleep_until` wrote to `*ref` and whether it hit the debug exception. -/
structure Obs (tw : Nat) where
  stack : Nat
  tick : BitVec tw
  sp : Nat
  ref : BitVec tw
  brk : Bool
deriving DecidableEq, Repr

namespace Abs

/-- Life of a task. `asleep k`: it becomes ready at the `k`-th following tick. -/
inductive Status where
  | ready
  | asleep (left : Nat)
  | dead
deriving DecidableEq, Repr

/-- The system seen by its user. Task `k` is the `k`-th task added; `none` is idle.
`late k` counts the consecutive late calls of `picoRTOS_sleep_until`; `ctx` is the stack pointer each task handed over when it was suspended;
`again` tells that a task postponed since the last tick. -/
structure World where
  ticks : Nat
  status : Nat → Status
  late : Nat → Nat
  ctx : Option Nat → Nat
  running : Option Nat
  again : Bool

variable (c : Cfg) (adds : List (Desc × Nat))

/-- The system tick: 0 at the first timer tick. -/
def now (w : World) : BitVec c.tw := BitVec.ofNat c.tw w.ticks - 1

/-- Priority of task `k`. -/
def prioOf (k : Nat) : Nat := match adds[k]? with | some a => a.2 | none => 0

/-- Descriptor of a task. -/
def descOf : Option Nat → Desc
  | none => c.idle
  | some k => match adds[k]? with | some a => a.1 | none => c.idle

/-- The tasks, from the most urgent: by priority, then in the order they were added. -/
def roster : List Nat :=
  (List.range c.N).flatMap (fun pr => (List.range adds.length).filter (fun k => prioOf adds k = pr))

/-- Number of tasks that share the priority of `k`. -/
def sharing (k : Nat) : Nat := ((List.range adds.length).filter (fun j => prioOf adds j = prioOf adds k)).length

/-- Rank of `k` among them. -/
def rank (k : Nat) : Nat := ((List.range k).filter (fun j => prioOf adds j = prioOf adds k)).length

/-- Task `k` may run: it is ready and it is its turn among those that share its priority. The tick is truncated to `picoRTOS_priority_t`. -/
def eligible (w : World) (k : Nat) : Bool :=
  decide (w.status k = .ready) && decide (((now c w).toNat % 2 ^ c.pw) % sharing adds k = rank adds k)

/-- The most urgent task that may run, except the first `i` of the roster. -/
def choose (w : World) (i : Nat) : Option Nat := ((roster c adds).drop i).find? (eligible c adds w)

/-- One tick less to sleep. -/
def Status.tick : Status → Status
  | .asleep (k + 2) => .asleep (k + 1)
  | .asleep _ => .ready
  | s => s

/-- `w` with the stack pointer of the running task. -/
def World.save (w : World) (sp : Nat) : World := { w with ctx := fun x => if x = w.running then sp else w.ctx x }

/-- Replace the status of task `k`. -/
def World.set (w : World) (k : Nat) (st : Status) : World := { w with status := upd w.status k st }

/-- Timer tick. -/
def World.onTick (w : World) : World :=
  let w := { w with ticks := w.ticks + 1, status := fun k => (w.status k).tick, again := false }
  { w with running := choose c adds w 0 }

/-- Task `k` gives up the processor: the next task that may run after it in the roster; if there is none, the first
one, but only if somebody postponed; otherwise idle. -/
def World.yield (w : World) (k : Nat) : World :=
  match choose c adds w ((roster c adds).idxOf k + 1) with
  | some j => { w with running := some j }
  | none => if w.again then { w with running := choose c adds w 0, again := false } else { w with running := none }

/-- The new `*ref` and the debug exception. -/
abbrev Ans (tw : Nat) := BitVec tw × Bool

/-- A call made by task `k`. -/
def World.call (w : World) (k : Nat) : Call c.tw → World × Ans c.tw
  | .tick => (w, 0, false)
  | .sleep d => (if d.toNat = 0 then w else w.set k (.asleep d.toNat), 0, false)
  | .sleepUntil ref period =>
    let elapsed := (now c w - ref).toNat
    if elapsed < period.toNat then
      ({ w.set k (.asleep (period.toNat - elapsed)) with late := upd w.late k 0 }, ref + period, false)
    else
      let n := (w.late k + 1) % 2 ^ c.sw
      let w := { w with late := upd w.late k n }
      if n > c.D then (w, now c w, true) else (w, ref, false)
  | .kill => (w.set k .dead, 0, false)
  | .postpone => ({ w with again := true }, 0, false)

/-- `picoRTOS_sleep_until(&ref, 0)`. -/
def nullPeriod {tw : Nat} : Call tw → Bool
  | .sleepUntil _ period => decide (period.toNat = 0)
  | _ => false

/-- One event. It stalls if the stack pointer is outside the stack of the running task, if idle makes a call, or for
`picoRTOS_sleep_until` with a null period. -/
def World.step (w : World) (e : Ev c.tw) : Res (World × Ans c.tw) :=
  let d := descOf c adds w.running
  if d.stack ≤ e.sp ∧ e.sp < d.stack + d.stackCount then
    let w := w.save e.sp
    match e.call, w.running with
    | .tick, _ => .ok (w.onTick c adds, 0, false)
    | _, none => .fatal
    | call, some k =>
      if nullPeriod call then .fatal
      else
        let (w, a) := w.call c k call
        .ok (w.yield c adds k, a)
  else .fatal

/-- What is observed. -/
def World.obs (w : World) (a : Ans c.tw) : Obs c.tw :=
  { stack := (descOf c adds w.running).stack, tick := now c w, sp := w.ctx w.running, ref := a.1, brk := a.2 }

/-- After the start: everybody is ready with a fresh stack, idle runs until the first tick. -/
def World.start : World where
  ticks := 0
  status := fun _ => .ready
  late := fun _ => 0
  ctx := fun x => let d := descOf c adds x; c.prep d.stack d.stackCount d.fn d.priv
  running := none
  again := false

def World.run (w : World) : List (Ev c.tw) → Res (List (Obs c.tw))
  | [] => .ok []
  | e :: es => do
    let (w, a) ← w.step c adds e
    let l ← w.run es
    pure (w.obs c adds a :: l)

end Abs

/-- SPECIFICATION: what is observed of a system of tasks `adds`, along the events `evs`. Too many tasks, or a priority out of range, stall. -/
def specTrace (c : Cfg) (adds : List (Desc × Nat)) (evs : List (Ev c.tw)) : Res (List (Obs c.tw)) :=
  if adds.length ≤ c.N ∧ ∀ a ∈ adds, a.2 < c.N then (Abs.World.start c adds).run c adds evs else .fatal

/-- The same observations on the model of the code. -/
def implRun (c : Cfg) (s : Core c.tw) : List (Ev c.tw) → Res (List (Obs c.tw))
  | [] => .ok []
  | e :: es => do
    let (s, o) ← step c s e
    let l ← implRun c s es
    pure ({ stack := (s.task s.index).bottom, tick := s.tick, sp := o.sp, ref := o.ref, brk := o.brk } :: l)

/-- `picoRTOS_init`, `picoRTOS_add_task`..., `picoRTOS_start`, then the events. -/
def implTrace (c : Cfg) (adds : List (Desc × Nat)) (evs : List (Ev c.tw)) : Res (List (Obs c.tw)) := do
  let s ← boot c false adds
  implRun c s evs

end Pico.Sched
