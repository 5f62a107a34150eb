import Verif.Basic

/-!
# Model of the single-core scheduler, scheduler/picoRTOS.c

Every definition cites the lines of `scheduler/picoRTOS.c` it models.

Simplifications common to the file:
* tables `task[TASK_COUNT]` and `sub[TASK_COUNT]` are total functions on `Nat`; every access whose index
  is not syntactically bounded is preceded by an explicit bounds check returning `ub`;
* addresses (stack pointers and bounds) are natural numbers;
* `flags` (an `int` used as two bits) is two booleans;
* `arch_prepare_stack` is an arbitrary function of its arguments (`Cfg.prep`);
* values of the hardware cycle counter are arbitrary inputs of each event;
* `arch_init` / `arch_start_first_task` are not modelled.
-/

namespace Pico.Sched

/-- Task descriptor `struct picoRTOS_task` (picoRTOS.h:13-18), after `picoRTOS_task_init`. -/
structure Desc where
  fn : Nat
  priv : Nat
  stack : Nat
  stackCount : Nat
deriving DecidableEq, Repr

/-- Compile-time configuration: Kconfig values and widths of the integer types of
`arch/*/picoRTOS_types.h`. -/
structure Cfg where
  /-- `CONFIG_TASK_COUNT` -/
  N : Nat
  /-- width of `picoRTOS_tick_t` in bits -/
  tw : Nat
  /-- width of `picoRTOS_priority_t` and `picoRTOS_pid_t` in bits -/
  pw : Nat
  /-- width of `size_t` in bits -/
  sw : Nat
  /-- width of `picoRTOS_cycles_t` in bits -/
  cw : Nat
  /-- `CONFIG_DEADLOCK_COUNT` -/
  D : Nat
  /-- `arch_prepare_stack(stack, stack_count, fn, priv)` (arch/*/picoRTOS_port.c) -/
  prep : Nat → Nat → Nat → Nat → Nat
  /-- the idle task descriptor after `picoRTOS_task_init` on `idle_stack` (picoRTOS.c:163-169) -/
  idle : Desc

/-- `TASK_COUNT` (picoRTOS.c:47). -/
def Cfg.taskCount (c : Cfg) : Nat := c.N + 1

/-- Well-formed configuration: at least one task, and `TASK_COUNT` is representable in
`picoRTOS_pid_t`/`picoRTOS_priority_t` (the code casts `TASK_COUNT` to both, e.g. lines 99, 574, 655). -/
structure Cfg.WF (c : Cfg) : Prop where
  pos : 0 < c.N
  fits : c.N + 1 < 2 ^ c.pw

/-- `picoRTOS_task_state_t` (picoRTOS.c:12-16). -/
inductive TState where
  | empty
  | ready
  | sleep
deriving DecidableEq, Repr

/-- `struct picoRTOS_task_core` (picoRTOS.c:18-39). -/
structure Task (tw : Nat) where
  sp : Nat
  state : TState
  tick : BitVec tw
  bottom : Nat
  top : Nat
  count : Nat
  statCounter : Nat
  statLo : Nat
  statHi : Nat
  statMiss : Nat
  prio : Nat
  subPrio : Nat
  miss : Nat

/-- `struct picoRTOS_core` (picoRTOS.c:70-78); `sub i` is `sub[i].count`; `idle_stack` is not
represented. -/
structure Core (tw : Nat) where
  running : Bool
  postponed : Bool
  index : Nat
  tick : BitVec tw
  pidCount : Nat
  task : Nat → Task tw
  sub : Nat → Nat

/-- Replace the entry `pid` of the task table. -/
def Core.setTask {tw : Nat} (s : Core tw) (pid : Nat) (t : Task tw) : Core tw :=
  { s with task := upd s.task pid t }

/-- `task_core_init` (picoRTOS.c:83-103). -/
def taskCoreInit (c : Cfg) : Task c.tw where
  sp := 0
  state := .empty
  tick := 0
  bottom := 0
  top := 0
  count := 0
  statCounter := 2 ^ c.cw - 1
  statLo := 2 ^ c.cw - 1
  statHi := 0
  statMiss := 0
  prio := c.taskCount % 2 ^ c.pw
  subPrio := 0
  miss := 0

/-- `task_core_is_available` (picoRTOS.c:105-111): ready, and `(picoRTOS_priority_t)tick % count ==
sub_prio`.  The `sub` table has `TASK_COUNT` entries; modulo by 0 is undefined. -/
def isAvailable (c : Cfg) (s : Core c.tw) (t : Task c.tw) : Res Bool :=
  if t.state = .ready then
    if t.prio < c.taskCount then
      if s.sub t.prio = 0 then .ub
      else .ok (decide ((s.tick.toNat % 2 ^ c.pw) % s.sub t.prio = t.subPrio))
    else .ub
  else .ok false

/-- `task_core_quickcpy` (picoRTOS.c:113-125): the fields that are copied. -/
def quickcpy {tw : Nat} (dst src : Task tw) : Task tw :=
  { dst with
    sp := src.sp
    state := src.state
    bottom := src.bottom
    top := src.top
    count := src.count
    prio := src.prio }

/-- `task_core_quickswap(&task[i], &task[j])` (picoRTOS.c:127-135), `i ≠ j`. -/
def quickswap {tw : Nat} (s : Core tw) (i j : Nat) : Core tw :=
  let ti := s.task i
  let tj := s.task j
  (s.setTask i (quickcpy ti tj)).setTask j (quickcpy tj ti)

/-- `task_core_stat_start` (picoRTOS.c:137-140); `cur` is the counter reading. -/
def statStart (c : Cfg) (t : Task c.tw) (cur : Nat) : Task c.tw :=
  { t with statCounter := cur % 2 ^ c.cw }

/-- `task_core_stat_finish` (picoRTOS.c:142-152); `since` is the value returned by
`arch_counter(ARCH_COUNTER_SINCE, …)`. -/
def statFinish (c : Cfg) (t : Task c.tw) (since : Nat) : Task c.tw :=
  let v := since % 2 ^ c.cw
  { t with
    statCounter := v
    statLo := if v < t.statLo then v else t.statLo
    statHi := if v > t.statHi then v else t.statHi }

/-- `task_idle_init` (picoRTOS.c:161-181) on an otherwise initialised table. -/
def idleTask (c : Cfg) : Task c.tw :=
  { taskCoreInit c with
    state := .ready
    sp := c.prep c.idle.stack c.idle.stackCount c.idle.fn c.idle.priv
    bottom := c.idle.stack
    top := c.idle.stack + c.idle.stackCount
    count := c.idle.stackCount
    prio := c.N % 2 ^ c.pw }

/-- `picoRTOS_init` (picoRTOS.c:186-206). -/
def init (c : Cfg) : Core c.tw where
  running := false
  postponed := false
  index := c.N
  tick := -1
  pidCount := 0
  task := upd (fun _ => taskCoreInit c) c.N (idleTask c)
  sub := fun _ => 1

/-- `picoRTOS_add_task` (picoRTOS.c:261-284). -/
def addTask (c : Cfg) (s : Core c.tw) (d : Desc) (prio : Nat) : Res (Core c.tw) := do
  assertFatal (prio < c.N)
  let pid := s.pidCount
  assertFatal (pid < c.N)
  assertFatal ((s.task pid).state = .empty)
  let t : Task c.tw :=
    { s.task pid with
      state := .ready
      sp := c.prep d.stack d.stackCount d.fn d.priv
      bottom := d.stack
      top := d.stack + d.stackCount
      count := d.stackCount
      prio := prio }
  pure { s.setTask pid t with pidCount := (s.pidCount + 1) % 2 ^ c.pw }

/-- The search loop shared by `picoRTOS_get_next_available_priority` (picoRTOS.c:311-315) and
`picoRTOS_get_last_available_priority` (picoRTOS.c:351-355): on a match `pid` restarts from 0 and
is then incremented by the `for`, so the scan continues at pid 1; `prio` moves by `next`.
`fuel` bounds the number of iterations; running out of it is reported as `ub`. -/
def prioSearch (c : Cfg) (s : Core c.tw) (next : Nat → Nat) : (fuel : Nat) → (pid prio : Nat) → Res Nat
  | 0, _, _ => .ub
  | fuel + 1, pid, prio =>
    if pid < c.N then
      if (s.task pid).prio = prio then prioSearch c s next fuel 1 (next prio)
      else prioSearch c s next fuel (pid + 1) prio
    else .ok prio

/-- Enough iterations for every search (each of the at most N+2 matches is followed by at most N+1
non-matching steps). -/
def prioFuel (c : Cfg) : Nat := (c.N + 3) * (c.N + 3)

/-- `picoRTOS_get_next_available_priority` (picoRTOS.c:306-322). -/
def getNextPrio (c : Cfg) (s : Core c.tw) : Res Nat := do
  let prio ← prioSearch c s (fun p => (p + 1) % 2 ^ c.pw) (prioFuel c) 0 0
  assertFatal (prio < c.N)
  pure prio

/-- `picoRTOS_get_last_available_priority` (picoRTOS.c:346-362). -/
def getLastPrio (c : Cfg) (s : Core c.tw) : Res Nat := do
  let prio ← prioSearch c s (fun p => (p + (2 ^ c.pw - 1)) % 2 ^ c.pw) (prioFuel c) 0 (c.N - 1)
  assertFatal (prio < c.N)
  pure prio

/-- Inner `while` of `core_sort_tasks` (picoRTOS.c:373-376). -/
def sortInner {tw : Nat} (s : Core tw) : (j : Nat) → Core tw
  | 0 => s
  | j + 1 =>
    if (s.task j).prio > (s.task (j + 1)).prio then sortInner (quickswap s (j + 1) j) j
    else s

/-- Outer `for` of `core_sort_tasks` (picoRTOS.c:369-377), `n` iterations left, at index `i`. -/
def sortLoop {tw : Nat} : (n i : Nat) → Core tw → Core tw
  | 0, _, s => s
  | n + 1, i, s => sortLoop n (i + 1) (sortInner s i)

/-- `core_sort_tasks` (picoRTOS.c:364-378). -/
def sortTasks (c : Cfg) (s : Core c.tw) : Core c.tw := sortLoop (c.N - 1) 1 s

/-- Loop of `core_arrange_shared_priorities` (picoRTOS.c:386-396), `n` iterations left.
The write `SUB_BY_PRIO(prio).count` for `prio ≥ TASK_COUNT` (unused slots carry `TASK_COUNT`) is
outside the array. With `strict = true` it is `ub`. With `strict = false` the
write is dropped: it lands in `idle_stack[0]`, next in `struct picoRTOS_core`, which is not
represented here. -/
def arrangeLoop (c : Cfg) (strict : Bool) : (n pid subPrio : Nat) → Core c.tw → Res (Core c.tw)
  | 0, _, _, s => .ok s
  | n + 1, pid, subPrio, s =>
    let prio := (s.task pid).prio
    if prio = (s.task (pid - 1)).prio then
      let sp' := (subPrio + 1) % 2 ^ c.pw
      let s1 := s.setTask pid { s.task pid with subPrio := sp' }
      if prio < c.taskCount then
        arrangeLoop c strict n (pid + 1) sp' { s1 with sub := upd s1.sub prio ((sp' + 1) % 2 ^ c.pw) }
      else if strict then .ub
      else arrangeLoop c strict n (pid + 1) sp' s1
    else arrangeLoop c strict n (pid + 1) 0 s

/-- `picoRTOS_start` (picoRTOS.c:402-410) up to the first context switch. -/
def start (c : Cfg) (strict : Bool) (s : Core c.tw) : Res (Core c.tw) := do
  let s1 := sortTasks c s
  let s2 ← arrangeLoop c strict (c.N - 1) 1 0 s1
  pure { s2 with running := true }

/-- What a syscall gives back besides the new scheduler state: the stack pointer to resume from,
the content of `sc.ref` (`picoRTOS_sleep_until`) and whether a debug break was hit. -/
structure Out (tw : Nat) where
  sp : Nat
  ref : BitVec tw
  brk : Bool
deriving DecidableEq, Repr

/-- The requests a task (or the timer) can make. -/
inductive Call (tw : Nat) where
  /-- timer interrupt: `picoRTOS_tick` -/
  | tick
  /-- `picoRTOS_sleep(delay)` -/
  | sleep (delay : BitVec tw)
  /-- `picoRTOS_sleep_until(&ref, period)` -/
  | sleepUntil (ref period : BitVec tw)
  /-- `picoRTOS_kill()` -/
  | kill
  /-- `picoRTOS_postpone()` -/
  | postpone
deriving DecidableEq, Repr

/-- An event: the request, the stack pointer of the interrupted task, and the two readings of the
cycle counter made by the handler. -/
structure Ev (tw : Nat) where
  call : Call tw
  sp : Nat
  since : Nat
  cur : Nat
deriving DecidableEq, Repr

/-- `syscall_sleep` (picoRTOS.c:523-530). -/
def syscallSleep {tw : Nat} (s : Core tw) (t : Task tw) (delay : BitVec tw) : Task tw :=
  if delay.toNat > 0 then { t with tick := s.tick + delay, state := .sleep } else t

/-- `syscall_sleep_until` (picoRTOS.c:532-554): new task, new `sc->ref`, debug break. -/
def syscallSleepUntil (c : Cfg) (s : Core c.tw) (t : Task c.tw) (ref period : BitVec c.tw) :
    Task c.tw × BitVec c.tw × Bool :=
  let elapsed := s.tick - ref
  if elapsed.toNat < period.toNat then
    ({ t with tick := ref + period, state := .sleep, miss := 0 }, ref + period, false)
  else
    let miss := (t.miss + 1) % 2 ^ c.sw
    let t1 := { t with miss := miss, statMiss := (t.statMiss + 1) % 2 ^ c.sw }
    if miss > c.D then (t1, s.tick, true) else (t1, ref, false)

/-- `syscall_kill` (picoRTOS.c:556-559). -/
def syscallKill {tw : Nat} (t : Task tw) : Task tw := { t with state := .empty }

/-- The `do … while` of `syscall_switch_context` (picoRTOS.c:572-576): increment the index (of
`picoRTOS_pid_t`, so modulo its width), stall if it leaves the table, stop at the first available
task. `fuel` bounds the iterations, exhausting it is reported as `ub` (never happens). -/
def nextAvail (c : Cfg) : (fuel : Nat) → Core c.tw → Res (Core c.tw)
  | 0, _ => .ub
  | fuel + 1, s => do
    let s1 := { s with index := (s.index + 1) % 2 ^ c.pw }
    assertFatal (s1.index < c.taskCount)
    let a ← isAvailable c s1 (s1.task s1.index)
    if a then pure s1 else nextAvail c fuel s1

/-- `syscall_switch_context` (picoRTOS.c:561-596). The outer `while (count-- != 0)` runs at most
twice; leaving it without `break` stalls (line 592). -/
def switchContext (c : Cfg) (s : Core c.tw) (pid since cur : Nat) : Res (Core c.tw) := do
  let s0 := s.setTask pid (statFinish c (s.task pid) since)
  let s1 ← nextAvail c (c.N + 2) s0
  let s2 ←
    if s1.index = c.N ∧ s1.postponed = true then do
      let s1' := { s1 with postponed := false, index := 2 ^ c.pw - 1 }
      let s2 ← nextAvail c (c.N + 2) s1'
      if s2.index = c.N ∧ s2.postponed = true then Res.fatal else pure s2
    else pure s1
  pure (s2.setTask s2.index (statStart c (s2.task s2.index) cur))

/-- `picoRTOS_syscall` (picoRTOS.c:598-633), the request being one of the four syscalls (a
`Call.tick` is not a syscall and is refused as the `syscall < SYSCALL_COUNT` check would). -/
def syscall (c : Cfg) (s : Core c.tw) (e : Ev c.tw) : Res (Core c.tw × Out c.tw) := do
  let pid := s.index
  assertFatal (decide ((s.task pid).bottom ≤ e.sp))
  assertFatal (decide (e.sp < (s.task pid).top))
  let t0 : Task c.tw := { s.task pid with sp := e.sp }
  match e.call with
  | .sleep d =>
    let s1 ← switchContext c (s.setTask pid (syscallSleep s t0 d)) pid e.since e.cur
    pure (s1, { sp := (s1.task s1.index).sp, ref := 0, brk := false })
  | .sleepUntil ref period =>
    let r := syscallSleepUntil c s t0 ref period
    let s1 ← switchContext c (s.setTask pid r.1) pid e.since e.cur
    pure (s1, { sp := (s1.task s1.index).sp, ref := r.2.1, brk := r.2.2 })
  | .kill =>
    let s1 ← switchContext c (s.setTask pid (syscallKill t0)) pid e.since e.cur
    pure (s1, { sp := (s1.task s1.index).sp, ref := 0, brk := false })
  | .postpone =>
    let s1 ← switchContext c { s.setTask pid t0 with postponed := true } pid e.since e.cur
    pure (s1, { sp := (s1.task s1.index).sp, ref := 0, brk := false })
  | .tick => .fatal

/-- Loop of `picoRTOS_tick` (picoRTOS.c:657-672): `pid` runs from `TASK_COUNT-1` down to 0. -/
def tickLoop (c : Cfg) : (pid : Nat) → Core c.tw → Res (Core c.tw)
  | 0, s => .ok s
  | pid + 1, s => do
    let t := s.task pid
    let t1 := if t.state = .sleep ∧ t.tick = s.tick then { t with state := .ready } else t
    let a ← isAvailable c s t1
    let s1 := if a then { s with index := pid } else s
    tickLoop c pid (s1.setTask pid { t1 with statCounter := 0 })

/-- `picoRTOS_tick` (picoRTOS.c:637-681). -/
def tickFn (c : Cfg) (s : Core c.tw) (e : Ev c.tw) : Res (Core c.tw × Out c.tw) := do
  let pid := s.index
  assertFatal (decide ((s.task pid).bottom ≤ e.sp))
  assertFatal (decide (e.sp < (s.task pid).top))
  let s0 := s.setTask pid { statFinish c (s.task pid) e.since with sp := e.sp }
  let s1 := { s0 with tick := s0.tick + 1, postponed := false }
  let s2 ← tickLoop c (c.taskCount % 2 ^ c.pw) s1
  let s3 := s2.setTask s2.index (statStart c (s2.task s2.index) e.cur)
  pure (s3, { sp := (s3.task s3.index).sp, ref := 0, brk := false })

/-- One event. For API calls: the checks of `picoRTOS_sleep` (456-460), `picoRTOS_sleep_until`
(483-492), `picoRTOS_kill` (497-501), `picoRTOS_postpone` (443-447) followed by
`arch_syscall`, which calls `picoRTOS_syscall` with the caller's stack pointer. -/
def step (c : Cfg) (s : Core c.tw) (e : Ev c.tw) : Res (Core c.tw × Out c.tw) :=
  match e.call with
  | .tick => tickFn c s e
  | .sleepUntil _ period => do
    assertFatal (decide (period.toNat > 0))
    assertFatal s.running
    syscall c s e
  | _ => do
    assertFatal s.running
    syscall c s e

/-- A history: a list of events, none of which stalled. -/
def run (c : Cfg) : Core c.tw → List (Ev c.tw) → Res (Core c.tw)
  | s, [] => .ok s
  | s, e :: es => do
    let r ← step c s e
    run c r.1 es

/-- A sequence of `picoRTOS_add_task` calls. -/
def addAll (c : Cfg) : Core c.tw → List (Desc × Nat) → Res (Core c.tw)
  | s, [] => .ok s
  | s, (d, p) :: r => do
    let s1 ← addTask c s d p
    addAll c s1 r

/-- `picoRTOS_init`, the `picoRTOS_add_task` calls, `picoRTOS_start`. -/
def boot (c : Cfg) (strict : Bool) (adds : List (Desc × Nat)) : Res (Core c.tw) := do
  let s ← addAll c (init c) adds
  start c strict s

/-- `picoRTOS_self` (picoRTOS.c:506-510). -/
def self (c : Cfg) (s : Core c.tw) : Res Nat := do
  assertFatal s.running
  pure s.index

/-- `picoRTOS_get_tick` (picoRTOS.c:515-519). -/
def getTick (c : Cfg) (s : Core c.tw) : Res (BitVec c.tw) := do
  assertFatal s.running
  pure s.tick

/-- `picoRTOS_suspend` and `picoRTOS_resume` (picoRTOS.c:415-428): only the check is modelled. -/
def suspendResume (c : Cfg) (s : Core c.tw) : Res Unit := assertFatal s.running

end Pico.Sched
