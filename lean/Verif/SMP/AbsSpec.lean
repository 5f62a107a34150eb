import Verif.SMP.Model

/-!
# A specification of the SMP scheduler as a user sees it

Same idea as `Verif.Sched.AbsSpec`, on several cores: tasks are known by the order in which the user added them, a sleeping task is a task with
a number of system ticks left to sleep; there is no task table, no sub-priority table, no core counter and no wake-up tick.
`smp_refines_spec` says that the observations of the model of the code are the ones of this machine.
-/

namespace Pico.SMP

open Pico.Sched (Desc Call Out)

/-- What is observed after each event: the stacks of the tasks running on the cores (which tell who they are), the system tick, the stack
pointer from which the core that handled the event resumes, the new `*ref` and the debug exception of `picoRTOS_sleep_until`. -/
structure Obs (tw : Nat) where
  stacks : List Nat
  tick : BitVec tw
  sp : Nat
  ref : BitVec tw
  brk : Bool
deriving DecidableEq, Repr

namespace Abs

/-- Life of a task. `yielded`: it gave up its core and waits for the next tick of any core. -/
inductive Status where
  | ready
  | running
  | yielded
  | asleep (left : Nat)
  | dead
deriving DecidableEq, Repr

/-- The system seen by its user. Task `k` is the `k`-th task added. `runs i` is the task running on core `i`, `none` being its idle task.
`calls` counts the `picoRTOS_tick` interrupts of all cores. -/
structure World where
  calls : Nat
  status : Nat → Status
  late : Nat → Nat
  ctx : Nat → Nat
  ctxIdle : Nat → Nat
  runs : Nat → Option Nat
  again : Bool

variable (c : Cfg) (adds : List Add)

/-- The system tick: it advances once per round of the `K` cores, and is 0 in the first round. -/
def now (w : World) : BitVec c.tw := BitVec.ofNat c.tw ((w.calls + c.K - 1) / c.K) - 1

def prioOf (k : Nat) : Nat := match adds[k]? with | some a => a.prio | none => 0

def maskOf (k : Nat) : Nat := match adds[k]? with | some a => a.mask | none => 0

/-- Descriptor of the task running on core `i`. -/
def descOf (i : Nat) : Option Nat → Desc
  | none => c.idle i
  | some k => match adds[k]? with | some a => a.desc | none => c.idle i

/-- The tasks, from the most urgent: by priority, then in the order they were added. -/
def roster : List Nat :=
  (List.range c.N).flatMap (fun pr => (List.range adds.length).filter (fun k => prioOf adds k = pr))

/-- Number of tasks that share the priority of `k`. -/
def sharing (k : Nat) : Nat := ((List.range adds.length).filter (fun j => prioOf adds j = prioOf adds k)).length

/-- Rank of `k` among them. -/
def rank (k : Nat) : Nat := ((List.range k).filter (fun j => prioOf adds j = prioOf adds k)).length

/-- Core `i` may take task `k`: the task is ready, it is allowed on that core and it is its turn. -/
def eligible (w : World) (i k : Nat) : Bool :=
  decide (w.status k = .ready) && (maskOf adds k).testBit i &&
    decide (((now c w).toNat % 2 ^ c.pw) % sharing adds k = rank adds k)

/-- The most urgent task that core `i` may take, except the first `n` of the roster. -/
def choose (w : World) (i n : Nat) : Option Nat := ((roster c adds).drop n).find? (eligible c adds w i)

/-- Core `i` takes task `j` (or idle). -/
def World.take (w : World) (i : Nat) (j : Option Nat) : World :=
  { w with
    runs := upd w.runs i j
    status := match j with | some k => upd w.status k .running | none => w.status }

/-- The task running on core `i` is suspended with stack pointer `sp`. -/
def World.save (w : World) (i sp : Nat) : World :=
  match w.runs i with
  | some k => { w with ctx := upd w.ctx k sp }
  | none => { w with ctxIdle := upd w.ctxIdle i sp }

/-- The task running on core `i` is ready again. -/
def World.release (w : World) (i : Nat) : World :=
  match w.runs i with
  | some k => { w with status := upd w.status k .ready }
  | none => w

/-- A tick of any core ends the wait of the tasks that yielded. -/
def Status.refresh : Status → Status
  | .yielded => .ready
  | s => s

/-- One system tick less to sleep. -/
def Status.count : Status → Status
  | .asleep (k + 2) => .asleep (k + 1)
  | .asleep _ => .ready
  | s => s

/-- Timer interrupt of core `i`. The first one of a round advances the system tick. -/
def World.onTick (w : World) (i : Nat) : World :=
  let w := w.release i
  let w := if w.calls % c.K = 0 then { w with status := fun k => (w.status k).count, again := false } else w
  let w := { w with calls := w.calls + 1, status := fun k => (w.status k).refresh }
  w.take i (choose c adds w i 0)

/-- Task `k` gives up core `i`. -/
def World.yield (w : World) (i k : Nat) : World :=
  match choose c adds w i ((roster c adds).idxOf k + 1) with
  | some j => w.take i (some j)
  | none =>
    if w.again then { w with again := false }.take i (choose c adds w i 0)
    else w.take i none

abbrev Ans (tw : Nat) := BitVec tw × Bool

/-- A call made by task `k`, up to giving up its core. -/
def World.call (w : World) (k : Nat) : Call c.tw → World × Ans c.tw
  | .tick => (w, 0, false)
  | .sleep d => ({ w with status := upd w.status k (if d.toNat = 0 then .yielded else .asleep d.toNat) }, 0, false)
  | .sleepUntil ref period =>
    let elapsed := (now c w - ref).toNat
    if elapsed < period.toNat then
      ({ w with status := upd w.status k (.asleep (period.toNat - elapsed)), late := upd w.late k 0 }, ref + period, false)
    else
      let n := (w.late k + 1) % 2 ^ c.sw
      ({ w with status := upd w.status k .yielded, late := upd w.late k n }, if n > c.D then (now c w, true) else (ref, false))
  | .kill => ({ w with status := upd w.status k .dead }, 0, false)
  | .postpone => ({ w with status := upd w.status k .ready, again := true }, 0, false)

/-- `picoRTOS_sleep_until(&ref, 0)`. -/
def nullPeriod {tw : Nat} : Call tw → Bool
  | .sleepUntil _ period => decide (period.toNat = 0)
  | _ => false

/-- One event, on core `e.core`. It stalls if the stack pointer is outside the stack of the running task, if idle makes a call, or
for `picoRTOS_sleep_until` with a null period. -/
def World.step (w : World) (e : Ev c.tw) : Res (World × Ans c.tw) :=
  let d := descOf c adds e.core (w.runs e.core)
  if d.stack ≤ e.sp ∧ e.sp < d.stack + d.stackCount then
    match e.call, w.runs e.core with
    | .tick, _ => .ok ((w.save e.core e.sp).onTick c adds e.core, 0, false)
    | _, none => .fatal
    | call, some k =>
      if nullPeriod call then .fatal
      else
        let (w, a) := (w.save e.core e.sp).call c k call
        .ok (w.yield c adds e.core k, a)
  else .fatal

/-- Stack pointer of the task running on core `i`. -/
def World.spOf (w : World) (i : Nat) : Nat :=
  match w.runs i with
  | some k => w.ctx k
  | none => w.ctxIdle i

/-- What is observed after an event of core `i`. -/
def World.obs (w : World) (i : Nat) (a : Ans c.tw) : Obs c.tw :=
  { stacks := (List.range c.K).map (fun j => (descOf c adds j (w.runs j)).stack), tick := now c w, sp := w.spOf i, ref := a.1, brk := a.2 }

/-- After the start: everybody is ready with a fresh stack, every core runs its idle task until its first tick. -/
def World.start : World where
  calls := 0
  status := fun _ => .ready
  late := fun _ => 0
  ctx := fun k => let d := descOf c adds 0 (some k); c.prep d.stack d.stackCount d.fn d.priv
  ctxIdle := fun i => let d := c.idle i; c.prep d.stack d.stackCount d.fn d.priv
  runs := fun _ => none
  again := false

def World.run (w : World) : List (Ev c.tw) → Res (List (Obs c.tw))
  | [] => .ok []
  | e :: es => do
    let (w, a) ← w.step c adds e
    let l ← w.run es
    pure (w.obs c adds e.core a :: l)

end Abs

/-- SPECIFICATION: what is observed of a system of tasks `adds`, along the events `evs`. Too many tasks, a priority out of range, an empty mask or
a mask with unknown cores stall. -/
def specTrace (c : Cfg) (adds : List Add) (evs : List (Ev c.tw)) : Res (List (Obs c.tw)) :=
  if adds.length ≤ c.N ∧ ∀ a ∈ adds, a.prio < c.N ∧ a.mask ≠ 0 ∧ a.mask < 2 ^ c.K then (Abs.World.start c adds).run c adds evs else .fatal

/-- The same observations on the model of the code. -/
def implRun (c : Cfg) (s : Core c.tw) : List (Ev c.tw) → Res (List (Obs c.tw))
  | [] => .ok []
  | e :: es => do
    let (s, o) ← step c s e
    let l ← implRun c s es
    pure ({ stacks := (List.range c.K).map (fun j => (s.task (s.index j)).bottom), tick := s.tick, sp := o.sp, ref := o.ref, brk := o.brk } :: l)

/-- `picoRTOS_init`, `picoRTOS_SMP_add_task`..., `picoRTOS_start`, then the events. -/
def implTrace (c : Cfg) (adds : List Add) (evs : List (Ev c.tw)) : Res (List (Obs c.tw)) := do
  let s ← boot c false adds
  implRun c s evs

end Pico.SMP
