import Verif.Sched.Model

/-!
# Model of the SMP scheduler, scheduler/picoRTOS-SMP.c

Line numbers refer to `scheduler/picoRTOS-SMP.c`. Same conventions as `Verif.Sched.Model`. In addition:
* `picoRTOS_syscall` and `picoRTOS_tick` run under `arch_spin_lock` from end to end, so each is one atomic event; an
  event carries the number of the core it happens on. Interleavings of cores are arbitrary lists of events;
* cache maintenance has no effect, except for the check `n > 0` of `picoRTOS_flush_dcache` /
  `picoRTOS_invalidate_dcache` (728-738) on the stack of the selected task, which is modelled;
* `arch_smp_init`, `arch_core_init` and `arch_start_first_task` are not modelled.
-/

namespace Pico.SMP

open Pico.Sched (Desc Call Out)

/-- Compile-time configuration. -/
structure Cfg where
  /-- `CONFIG_TASK_COUNT` -/
  N : Nat
  /-- `CONFIG_SMP_CORES` -/
  K : Nat
  /-- width of `picoRTOS_tick_t` -/
  tw : Nat
  /-- width of `picoRTOS_priority_t` and `picoRTOS_pid_t` -/
  pw : Nat
  /-- width of `size_t` -/
  sw : Nat
  /-- width of `picoRTOS_cycles_t` -/
  cw : Nat
  /-- width of `picoRTOS_mask_t` -/
  mw : Nat
  /-- width of `picoRTOS_core_t` -/
  kw : Nat
  /-- `CONFIG_DEADLOCK_COUNT` -/
  D : Nat
  /-- `arch_prepare_stack` -/
  prep : Nat → Nat → Nat → Nat → Nat
  /-- the idle task descriptor of each core after `picoRTOS_task_init` (193-195) -/
  idle : Nat → Desc

/-- `TASK_COUNT` (56). -/
def Cfg.taskCount (c : Cfg) : Nat := c.N + c.K

/-- Well-formed configuration: at least one task slot and one core; `TASK_COUNT` fits `picoRTOS_pid_t`, the core number fits
`picoRTOS_core_t` and masks fit `picoRTOS_mask_t`; `arch_prepare_stack` puts something on the stack. -/
structure Cfg.WF (c : Cfg) : Prop where
  pos : 0 < c.N
  cores : 0 < c.K
  fits : c.N + c.K < 2 ^ c.pw
  counter : c.K < 2 ^ c.kw
  mask : c.K < c.mw
  prep : ∀ s n f p, c.prep s n f p ≠ s + n

/-- `picoRTOS_task_state_t` (18-24). -/
inductive TState where
  | empty
  | ready
  | busy
  | done
  | sleep
deriving DecidableEq, Repr

/-- `struct picoRTOS_task_core` (26-48). -/
structure Task (tw : Nat) where
  sp : Nat
  state : TState
  tick : BitVec tw
  mask : Nat
  bottom : Nat
  top : Nat
  count : Nat
  statCounter : Nat
  statLo : Nat
  statHi : Nat
  statMiss : Nat
  prio : Nat
  subPrio : Nat
  miss : Nat

/-- `struct picoRTOS_SMP_core` (80-88). -/
structure Core (tw : Nat) where
  running : Bool
  postponed : Bool
  index : Nat → Nat
  tick : BitVec tw
  pidCount : Nat
  coreCounter : Nat
  task : Nat → Task tw
  sub : Nat → Nat

/-- Replace the entry `pid` of the task table. -/
def Core.setTask {tw : Nat} (s : Core tw) (pid : Nat) (t : Task tw) : Core tw :=
  { s with task := upd s.task pid t }

/-- Set `index[core]`. -/
def Core.setIndex {tw : Nat} (s : Core tw) (core pid : Nat) : Core tw :=
  { s with index := upd s.index core pid }

/-- `task_core_init` (101-122). -/
def taskCoreInit (c : Cfg) : Task c.tw where
  sp := 0
  state := .empty
  tick := 0
  mask := 0
  bottom := 0
  top := 0
  count := 0
  statCounter := 2 ^ c.cw - 1
  statLo := 2 ^ c.cw - 1
  statHi := 0
  statMiss := 0
  prio := c.taskCount % 2 ^ c.pw
  subPrio := 0
  miss := 0

/-- `(picoRTOS_mask_t)(1u << core)` (525, 640). -/
def coreMask (c : Cfg) (core : Nat) : Nat := 2 ^ core % 2 ^ c.mw

/-- `task_core_is_available` (124-132). -/
def isAvailable (c : Cfg) (s : Core c.tw) (t : Task c.tw) (core : Nat) : Res Bool :=
  if t.mask &&& coreMask c core ≠ 0 then
    if t.state = .ready then
      if t.prio < c.taskCount then
        if s.sub t.prio = 0 then .ub
        else .ok (decide ((s.tick.toNat % 2 ^ c.pw) % s.sub t.prio = t.subPrio))
      else .ub
    else .ok false
  else .ok false

/-- `task_core_quickcpy` (134-147): the fields that are copied. -/
def quickcpy {tw : Nat} (dst src : Task tw) : Task tw :=
  { dst with
    sp := src.sp
    state := src.state
    mask := src.mask
    bottom := src.bottom
    top := src.top
    count := src.count
    prio := src.prio }

/-- `task_core_quickswap(&task[i], &task[j])` (149-157), `i ≠ j`. -/
def quickswap {tw : Nat} (s : Core tw) (i j : Nat) : Core tw :=
  let ti := s.task i
  let tj := s.task j
  (s.setTask i (quickcpy ti tj)).setTask j (quickcpy tj ti)

/-- `task_core_stat_start` (159-162). -/
def statStart (c : Cfg) (t : Task c.tw) (cur : Nat) : Task c.tw :=
  { t with statCounter := cur % 2 ^ c.cw }

/-- `task_core_stat_finish` (164-174). -/
def statFinish (c : Cfg) (t : Task c.tw) (since : Nat) : Task c.tw :=
  let v := since % 2 ^ c.cw
  { t with
    statCounter := v
    statLo := if v < t.statLo then v else t.statLo
    statHi := if v > t.statHi then v else t.statHi }

/-- the idle task of core `i`, `task_idle_init` (183-210). -/
def idleTask (c : Cfg) (i : Nat) : Task c.tw :=
  { taskCoreInit c with
    state := .ready
    sp := c.prep (c.idle i).stack (c.idle i).stackCount (c.idle i).fn (c.idle i).priv
    mask := coreMask c i
    bottom := (c.idle i).stack
    top := (c.idle i).stack + (c.idle i).stackCount
    count := (c.idle i).stackCount
    prio := c.N % 2 ^ c.pw }

/-- `picoRTOS_init` (229-255). -/
def init (c : Cfg) : Core c.tw where
  running := false
  postponed := false
  index := fun i => c.N + i
  tick := -1
  pidCount := 0
  coreCounter := 0
  task := fun q => if c.N ≤ q ∧ q < c.N + c.K then idleTask c (q - c.N) else taskCoreInit c
  sub := fun _ => 1

/-- Arguments of `picoRTOS_SMP_add_task`. -/
structure Add where
  desc : Desc
  prio : Nat
  mask : Nat

/-- `picoRTOS_SMP_add_task` (322-350). -/
def addTask (c : Cfg) (s : Core c.tw) (a : Add) : Res (Core c.tw) := do
  assertFatal (decide (a.mask ≠ 0))
  assertFatal (decide (a.mask < 2 ^ c.K % 2 ^ c.mw))
  assertFatal (a.prio < c.N)
  let pid := s.pidCount
  assertFatal (pid < c.N)
  assertFatal (decide ((s.task pid).state = .empty))
  let t : Task c.tw :=
    { s.task pid with
      sp := c.prep a.desc.stack a.desc.stackCount a.desc.fn a.desc.priv
      state := .ready
      mask := a.mask
      bottom := a.desc.stack
      top := a.desc.stack + a.desc.stackCount
      count := a.desc.stackCount
      prio := a.prio }
  pure { s.setTask pid t with pidCount := (s.pidCount + 1) % 2 ^ c.pw }

/-- `picoRTOS_add_task` (257-264): `PICORTOS_SMP_CORE_ANY` (14) is the mask of all cores. -/
def addTaskAny (c : Cfg) (s : Core c.tw) (d : Desc) (prio : Nat) : Res (Core c.tw) := do
  assertFatal (prio < c.N)
  addTask c s { desc := d, prio := prio, mask := (2 ^ c.K - 1) % 2 ^ c.mw }

/-- Inner `while` of `core_sort_tasks` (361-364). -/
def sortInner {tw : Nat} (s : Core tw) : (j : Nat) → Core tw
  | 0 => s
  | j + 1 =>
    if (s.task j).prio > (s.task (j + 1)).prio then sortInner (quickswap s (j + 1) j) j
    else s

/-- Outer `for` of `core_sort_tasks` (357-365). -/
def sortLoop {tw : Nat} : (n i : Nat) → Core tw → Core tw
  | 0, _, s => s
  | n + 1, i, s => sortLoop n (i + 1) (sortInner s i)

/-- `core_sort_tasks` (352-366). -/
def sortTasks (c : Cfg) (s : Core c.tw) : Core c.tw := sortLoop (c.N - 1) 1 s

/-- Loop of `core_arrange_shared_priorities` (374-384). Unused slots carry priority `TASK_COUNT`, for which the write
`SUB_BY_PRIO(prio).count` is outside `sub`: `ub` with `strict = true`; with `strict = false` it is dropped (`sub` is the last
member of the structure, the write lands behind it). -/
def arrangeLoop (c : Cfg) (strict : Bool) : (n pid subPrio : Nat) → Core c.tw → Res (Core c.tw)
  | 0, _, _, s => .ok s
  | n + 1, pid, subPrio, s =>
    let prio := (s.task pid).prio
    if prio = (s.task (pid - 1)).prio then
      let sp' := (subPrio + 1) % 2 ^ c.pw
      let s1 := s.setTask pid { s.task pid with subPrio := sp' }
      if prio < c.taskCount then
        arrangeLoop c strict n (pid + 1) sp' { s1 with sub := upd s1.sub prio ((sp' + 1) % 2 ^ c.pw) }
      else if strict then .ub
      else arrangeLoop c strict n (pid + 1) sp' s1
    else arrangeLoop c strict n (pid + 1) 0 s

/-- `picoRTOS_start` (387-408) up to the first context switch of each core. -/
def start (c : Cfg) (strict : Bool) (s : Core c.tw) : Res (Core c.tw) := do
  let s1 := sortTasks c s
  let s2 ← arrangeLoop c strict (c.N - 1) 1 0 s1
  pure { s2 with running := true }

/-- An event on a core: the request, the stack pointer of the interrupted task, two readings of the cycle counter. -/
structure Ev (tw : Nat) where
  core : Nat
  call : Call tw
  sp : Nat
  since : Nat
  cur : Nat
deriving DecidableEq, Repr

/-- `syscall_sleep` (481-488). -/
def syscallSleep {tw : Nat} (s : Core tw) (t : Task tw) (delay : BitVec tw) : Task tw :=
  if delay.toNat > 0 then { t with tick := s.tick + delay, state := .sleep } else t

/-- `syscall_sleep_until` (490-512): new task, new `sc->ref`, debug break. -/
def syscallSleepUntil (c : Cfg) (s : Core c.tw) (t : Task c.tw) (ref period : BitVec c.tw) :
    Task c.tw × BitVec c.tw × Bool :=
  let elapsed := s.tick - ref
  if elapsed.toNat < period.toNat then
    ({ t with tick := ref + period, state := .sleep, miss := 0 }, ref + period, false)
  else
    let miss := (t.miss + 1) % 2 ^ c.sw
    let t1 := { t with miss := miss, statMiss := (t.statMiss + 1) % 2 ^ c.sw }
    if miss > c.D then (t1, s.tick, true) else (t1, ref, false)

/-- `syscall_kill` (514-517). -/
def syscallKill {tw : Nat} (t : Task tw) : Task tw := { t with state := .empty }

/-- The `do … while` of `syscall_switch_context` (536-540). `fuel` bounds the iterations. -/
def nextAvail (c : Cfg) (core : Nat) : (fuel : Nat) → Core c.tw → Res (Core c.tw)
  | 0, _ => .ub
  | fuel + 1, s => do
    let s1 := s.setIndex core ((s.index core + 1) % 2 ^ c.pw)
    assertFatal (s1.index core < c.taskCount)
    let a ← isAvailable c s1 (s1.task (s1.index core)) core
    if a then pure s1 else nextAvail c core fuel s1

/-- mark the current task of a core busy (553, 665) -/
def setBusy {tw : Nat} (s : Core tw) (core : Nat) : Core tw :=
  s.setTask (s.index core) { s.task (s.index core) with state := .busy }

/-- `syscall_switch_context` (519-562). -/
def switchContext (c : Cfg) (s : Core c.tw) (core pid since cur : Nat) : Res (Core c.tw) := do
  let t0 := statFinish c (s.task pid) since
  let t1 := if t0.state = .busy then { t0 with state := .done } else t0
  let s0 := s.setTask pid t1
  let s1 ← nextAvail c core (c.taskCount + 1) s0
  let s2 ←
    if s1.index core ≥ c.N ∧ s1.postponed = true then do
      let s1' := { s1 with postponed := false }.setIndex core (2 ^ c.pw - 1)
      let s2 ← nextAvail c core (c.taskCount + 1) s1'
      if s2.index core ≥ c.N ∧ s2.postponed = true then Res.fatal else pure (setBusy s2 core)
    else pure (setBusy s1 core)
  pure (s2.setTask (s2.index core) (statStart c (s2.task (s2.index core)) cur))

/-- `picoRTOS_invalidate_dcache(task->sp, stack_top - sp)` on the selected task (605, 673), then `return task->sp`. -/
def leave {tw : Nat} (s : Core tw) (core : Nat) (ref : BitVec tw) (brk : Bool) : Res (Core tw × Out tw) := do
  let t := s.task (s.index core)
  assertFatal (decide (t.sp ≠ t.top))
  pure (s, { sp := t.sp, ref := ref, brk := brk })

/-- `picoRTOS_syscall` (564-609). -/
def syscall (c : Cfg) (s : Core c.tw) (e : Ev c.tw) : Res (Core c.tw × Out c.tw) := do
  let pid := s.index e.core
  assertFatal (decide ((s.task pid).bottom ≤ e.sp))
  assertFatal (decide (e.sp < (s.task pid).top))
  let t0 : Task c.tw := { s.task pid with sp := e.sp }
  match e.call with
  | .sleep d =>
    let s1 ← switchContext c (s.setTask pid (syscallSleep s t0 d)) e.core pid e.since e.cur
    leave s1 e.core 0 false
  | .sleepUntil ref period =>
    let r := syscallSleepUntil c s t0 ref period
    let s1 ← switchContext c (s.setTask pid r.1) e.core pid e.since e.cur
    leave s1 e.core r.2.1 r.2.2
  | .kill =>
    let s1 ← switchContext c (s.setTask pid (syscallKill t0)) e.core pid e.since e.cur
    leave s1 e.core 0 false
  | .postpone =>
    let s1 ← switchContext c { s.setTask pid { t0 with state := .ready } with postponed := true } e.core pid e.since e.cur
    leave s1 e.core 0 false
  | .tick => .fatal

/-- One task in the loop of `picoRTOS_tick` (646-653). -/
def wakeTask {tw : Nat} (tick : BitVec tw) (t : Task tw) : Task tw :=
  let t1 := if t.state = .sleep ∧ t.tick = tick then { t with state := .ready } else t
  if t1.state = .done then { t1 with state := .ready } else t1

/-- Loop of `picoRTOS_tick` (642-661). -/
def tickLoop (c : Cfg) (core : Nat) : (pid : Nat) → Core c.tw → Res (Core c.tw)
  | 0, s => .ok s
  | pid + 1, s => do
    let t2 := wakeTask s.tick (s.task pid)
    let a ← isAvailable c s t2 core
    let s1 := if a then s.setIndex core pid else s
    tickLoop c core pid (s1.setTask pid { t2 with statCounter := 0 })

/-- `picoRTOS_tick` (613-677). -/
def tickFn (c : Cfg) (s : Core c.tw) (e : Ev c.tw) : Res (Core c.tw × Out c.tw) := do
  let pid := s.index e.core
  assertFatal (decide ((s.task pid).bottom ≤ e.sp))
  assertFatal (decide (e.sp < (s.task pid).top))
  let s0 := s.setTask pid (statFinish c { s.task pid with sp := e.sp, state := .ready } e.since)
  let s1 : Core c.tw :=
    if s0.coreCounter = 0 then { s0 with tick := s0.tick + 1, postponed := false } else s0
  let s1' := { s1 with coreCounter := (s1.coreCounter + 1) % 2 ^ c.kw }
  let s2 ← tickLoop c e.core (c.taskCount % 2 ^ c.pw) s1'
  let s3 := setBusy s2 e.core
  let s4 := s3.setTask (s3.index e.core) (statStart c (s3.task (s3.index e.core)) e.cur)
  let s5 := if s4.coreCounter = c.K % 2 ^ c.kw then { s4 with coreCounter := 0 } else s4
  leave s5 e.core 0 false

/-- One event: the checks of `picoRTOS_postpone` (434-438), `picoRTOS_sleep` (440-444), `picoRTOS_sleep_until` (446-455),
`picoRTOS_kill` (457-461), then the syscall; or a tick. -/
def step (c : Cfg) (s : Core c.tw) (e : Ev c.tw) : Res (Core c.tw × Out c.tw) :=
  match e.call with
  | .tick => tickFn c s e
  | .sleepUntil _ period => do
    assertFatal (decide (period.toNat > 0))
    assertFatal (decide ((s.task (s.index e.core)).state = .busy))
    syscall c s e
  | _ => do
    assertFatal (decide ((s.task (s.index e.core)).state = .busy))
    syscall c s e

/-- A history: a list of events of all cores, none of which stalled. -/
def run (c : Cfg) : Core c.tw → List (Ev c.tw) → Res (Core c.tw)
  | s, [] => .ok s
  | s, e :: es => do
    let r ← step c s e
    run c r.1 es

/-- A sequence of `picoRTOS_SMP_add_task` calls. -/
def addAll (c : Cfg) : Core c.tw → List Add → Res (Core c.tw)
  | s, [] => .ok s
  | s, a :: r => do
    let s1 ← addTask c s a
    addAll c s1 r

/-- `picoRTOS_init`, the `picoRTOS_SMP_add_task` calls, `picoRTOS_start`. -/
def boot (c : Cfg) (strict : Bool) (adds : List Add) : Res (Core c.tw) := do
  let s ← addAll c (init c) adds
  start c strict s

/-- `picoRTOS_self` (463-469) and `picoRTOS_get_tick` (471-477) called on a core. -/
def getTick (c : Cfg) (s : Core c.tw) (core : Nat) : Res (BitVec c.tw) := do
  assertFatal (decide ((s.task (s.index core)).state = .busy))
  pure s.tick

end Pico.SMP
