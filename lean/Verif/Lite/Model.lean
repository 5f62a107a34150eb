import Verif.Sched.Model

/-!
# Model of the lite scheduler, scheduler/picoRTOS-lite.c

The pid of a task is its priority. Same conventions as `Verif.Sched.Model`; line numbers refer
to `scheduler/picoRTOS-lite.c`. Configuration, descriptors, requests and events are those of the full
scheduler (the cycle counter readings of an event are not used here).
-/

namespace Pico.Lite

open Pico.Sched (Cfg Desc TState Call Ev Out)

/-- `struct picoRTOS_task_core` (18-29). -/
structure Task (tw : Nat) where
  sp : Nat
  state : TState
  tick : BitVec tw
  bottom : Nat
  top : Nat
  count : Nat
  miss : Nat

/-- `struct picoRTOS_core` (42-48). -/
structure Core (tw : Nat) where
  running : Bool
  postponed : Bool
  index : Nat
  tick : BitVec tw
  task : Nat → Task tw

/-- Replace one task slot. -/
def Core.setTask {tw : Nat} (s : Core tw) (pid : Nat) (t : Task tw) : Core tw :=
  { s with task := upd s.task pid t }

/-- `task_core_init` (53-65). -/
def taskCoreInit (tw : Nat) : Task tw where
  sp := 0
  state := .empty
  tick := 0
  bottom := 0
  top := 0
  count := 0
  miss := 0

/-- Fill a slot from a descriptor: the common part of `task_idle_init` (84-90) and `picoRTOS_add_task` (131-137). -/
def fillSlot (c : Cfg) (t : Task c.tw) (d : Desc) : Task c.tw :=
  { t with
    state := .ready
    sp := c.prep d.stack d.stackCount d.fn d.priv
    bottom := d.stack
    top := d.stack + d.stackCount
    count := d.stackCount }

/-- `picoRTOS_init` (93-108) with `task_idle_init` (73-91). -/
def init (c : Cfg) : Core c.tw where
  running := false
  postponed := false
  index := c.N
  tick := -1
  task := upd (fun _ => taskCoreInit c.tw) c.N (fillSlot c (taskCoreInit c.tw) c.idle)

/-- `picoRTOS_add_task` (125-138). -/
def addTask (c : Cfg) (s : Core c.tw) (d : Desc) (prio : Nat) : Res (Core c.tw) := do
  assertFatal (prio < c.N)
  assertFatal ((s.task prio).state = .empty)
  pure (s.setTask prio (fillSlot c (s.task prio) d))

/-- A sequence of `picoRTOS_add_task` calls. -/
def addAll (c : Cfg) : Core c.tw → List (Desc × Nat) → Res (Core c.tw)
  | s, [] => .ok s
  | s, (d, p) :: r => do
    let s1 ← addTask c s d p
    addAll c s1 r

/-- Loop of `picoRTOS_get_next_available_priority` (144-146), `n` slots left from `prio`; `none` if it runs to the end. -/
def nextLoop {tw : Nat} (s : Core tw) : (n prio : Nat) → Option Nat
  | 0, _ => none
  | n + 1, prio => if (s.task prio).state = .empty then some prio else nextLoop s n (prio + 1)

/-- `picoRTOS_get_next_available_priority` (140-151): when the loop ends `prio = CONFIG_TASK_COUNT`, and the check
`prio < TASK_IDLE_PRIO` fails. -/
def getNextPrio (c : Cfg) (s : Core c.tw) : Res Nat :=
  match nextLoop s c.N 0 with
  | some p => .ok p
  | none => .fatal

/-- Loop of `picoRTOS_get_last_available_priority` (157-159), from `prio` down to 1; `none` if it runs to the end. -/
def lastLoop {tw : Nat} (s : Core tw) : (prio : Nat) → Option Nat
  | 0 => none
  | p + 1 => if (s.task (p + 1)).state = .empty then some (p + 1) else lastLoop s p

/-- `picoRTOS_get_last_available_priority` (153-164): when the loop ends `prio = 0`, the check
`prio != (picoRTOS_priority_t)-1` holds (unless that value is 0, impossible with a well-formed configuration)
and `(picoRTOS_priority_t)-1` is returned. -/
def getLastPrio (c : Cfg) (s : Core c.tw) : Res Nat :=
  match lastLoop s (c.N - 1) with
  | some p => .ok p
  | none => do
    assertFatal (decide (0 ≠ 2 ^ c.pw - 1))
    pure (2 ^ c.pw - 1)

/-- `picoRTOS_init`, the `picoRTOS_add_task` calls, `picoRTOS_start` (166-171). -/
def boot (c : Cfg) (adds : List (Desc × Nat)) : Res (Core c.tw) := do
  let s ← addAll c (init c) adds
  pure { s with running := true }

/-- `syscall_sleep` (235-242). -/
def syscallSleep {tw : Nat} (s : Core tw) (t : Task tw) (delay : BitVec tw) : Task tw :=
  if delay.toNat > 0 then { t with tick := s.tick + delay, state := .sleep } else t

/-- `syscall_sleep_until` (244-263): new task, new `sc->ref`, debug break. -/
def syscallSleepUntil (c : Cfg) (s : Core c.tw) (t : Task c.tw) (ref period : BitVec c.tw) :
    Task c.tw × BitVec c.tw × Bool :=
  let elapsed := s.tick - ref
  if elapsed.toNat < period.toNat then
    ({ t with tick := ref + period, state := .sleep, miss := 0 }, ref + period, false)
  else
    let miss := (t.miss + 1) % 2 ^ c.sw
    let t1 := { t with miss := miss }
    if miss > c.D then (t1, s.tick, true) else (t1, ref, false)

/-- `syscall_kill` (265-268). -/
def syscallKill {tw : Nat} (t : Task tw) : Task tw := { t with state := .empty }

/-- The `do … while` of `syscall_switch_context` (278-282), see `Pico.Sched.nextAvail`. -/
def nextAvail (c : Cfg) : (fuel : Nat) → Core c.tw → Res (Core c.tw)
  | 0, _ => .ub
  | fuel + 1, s => do
    let s1 := { s with index := (s.index + 1) % 2 ^ c.pw }
    assertFatal (s1.index < c.taskCount)
    if (s1.task s1.index).state = .ready then pure s1 else nextAvail c fuel s1

/-- `syscall_switch_context` (271-301). -/
def switchContext (c : Cfg) (s : Core c.tw) : Res (Core c.tw) := do
  let s1 ← nextAvail c (c.N + 2) s
  if s1.index = c.N ∧ s1.postponed = true then do
    let s1' := { s1 with postponed := false, index := 2 ^ c.pw - 1 }
    let s2 ← nextAvail c (c.N + 2) s1'
    if s2.index = c.N ∧ s2.postponed = true then Res.fatal else pure s2
  else pure s1

/-- `picoRTOS_syscall` (303-338). -/
def syscall (c : Cfg) (s : Core c.tw) (e : Ev c.tw) : Res (Core c.tw × Out c.tw) := do
  let pid := s.index
  assertFatal (decide ((s.task pid).bottom ≤ e.sp))
  assertFatal (decide (e.sp < (s.task pid).top))
  let t0 : Task c.tw := { s.task pid with sp := e.sp }
  match e.call with
  | .sleep d =>
    let s1 ← switchContext c (s.setTask pid (syscallSleep s t0 d))
    pure (s1, { sp := (s1.task s1.index).sp, ref := 0, brk := false })
  | .sleepUntil ref period =>
    let r := syscallSleepUntil c s t0 ref period
    let s1 ← switchContext c (s.setTask pid r.1)
    pure (s1, { sp := (s1.task s1.index).sp, ref := r.2.1, brk := r.2.2 })
  | .kill =>
    let s1 ← switchContext c (s.setTask pid (syscallKill t0))
    pure (s1, { sp := (s1.task s1.index).sp, ref := 0, brk := false })
  | .postpone =>
    let s1 ← switchContext c { s.setTask pid t0 with postponed := true }
    pure (s1, { sp := (s1.task s1.index).sp, ref := 0, brk := false })
  | .tick => .fatal

/-- Loop of `picoRTOS_tick` (359-371). -/
def tickLoop {tw : Nat} : (pid : Nat) → Core tw → Core tw
  | 0, s => s
  | pid + 1, s =>
    let t := s.task pid
    let t1 := if t.state = .sleep ∧ t.tick = s.tick then { t with state := .ready } else t
    let s1 := if t1.state = .ready then { s with index := pid } else s
    tickLoop pid (s1.setTask pid t1)

/-- `picoRTOS_tick` (342-377). -/
def tickFn (c : Cfg) (s : Core c.tw) (e : Ev c.tw) : Res (Core c.tw × Out c.tw) := do
  let pid := s.index
  assertFatal (decide ((s.task pid).bottom ≤ e.sp))
  assertFatal (decide (e.sp < (s.task pid).top))
  let s0 := s.setTask pid { s.task pid with sp := e.sp }
  let s1 := { s0 with tick := s0.tick + 1, postponed := false }
  let s2 := tickLoop (c.taskCount % 2 ^ c.pw) s1
  pure (s2, { sp := (s2.task s2.index).sp, ref := 0, brk := false })

/-- One event: the checks of `picoRTOS_postpone` (192-196), `picoRTOS_sleep` (198-202), `picoRTOS_sleep_until`
(204-213), `picoRTOS_kill` (215-219), then the syscall; or a tick. -/
def step (c : Cfg) (s : Core c.tw) (e : Ev c.tw) : Res (Core c.tw × Out c.tw) :=
  match e.call with
  | .tick => tickFn c s e
  | .sleepUntil _ period => do
    assertFatal (decide (period.toNat > 0))
    assertFatal s.running
    syscall c s e
  | _ => do
    assertFatal s.running
    syscall c s e

/-- A history. -/
def run (c : Cfg) : Core c.tw → List (Ev c.tw) → Res (Core c.tw)
  | s, [] => .ok s
  | s, e :: es => do
    let r ← step c s e
    run c r.1 es

/-- A state reachable after the start. -/
def Reach (c : Cfg) (s : Core c.tw) : Prop :=
  ∃ adds evs s0, boot c adds = .ok s0 ∧ run c s0 evs = .ok s

/-- The stack pointer handed over lies in the stack of the running task. -/
def SpOk {tw : Nat} (s : Core tw) (sp : Nat) : Prop :=
  (s.task s.index).bottom ≤ sp ∧ sp < (s.task s.index).top

end Pico.Lite
