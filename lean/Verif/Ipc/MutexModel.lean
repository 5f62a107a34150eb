import Verif.Basic

/-!
# Model of ipc/picoRTOS_mutex.c and ipc/picoRTOS_cond.c

One mutex and one condition variable shared by `N` tasks (pids `0 … N-1`).  The semantics is
small-step: every access of a task to the shared memory is one step, and the steps of the tasks interleave
arbitrarily (pre-emption on one core, several cores on SMP).  Memory is sequentially consistent: the cache
maintenance calls (`picoRTOS_invalidate_dcache`, `picoRTOS_flush_dcache`) are not modelled.

`arch_compare_and_swap` is one atomic step, following the contract of arch/include/picoRTOS_port.h:200-213:
it returns `old` if and only if it swapped; it may fail although `*var == old` (`spur`, see for
instance arch/c2000/c28x/picoRTOS_port.c:92-109 and mach-rp2040/picoRTOS-SMP_port.c:265-281).

`picoRTOS_fatal` (scheduler/picoRTOS.c) never returns: the task is `dead`, it makes no step any more.  On a single core this stops
every task; letting the others go on is the behaviour of SMP and a superset of the behaviours of a single core.
-/

namespace Pico.Mtx

/-- CONFIG_TASK_COUNT, CONFIG_DEADLOCK_COUNT, width in bits of `picoRTOS_atomic_t` and of `size_t`. -/
structure Cfg where
  N : Nat
  D : Nat
  aw : Nat
  sw : Nat

/-- The pids and `PICORTOS_MUTEX_NOOWNER` are distinct once cast to `picoRTOS_atomic_t`; a `size_t` counts the tasks. -/
def Cfg.WF (c : Cfg) : Prop := c.N < 2 ^ c.aw - 1 ∧ c.N < 2 ^ c.sw

/-- `enum picoRTOS_cond_act` (ipc/picoRTOS_cond.h:7-11). -/
inductive CAct where
  | none | signal | broadcast
deriving DecidableEq, Repr

/-- The API calls of a task. -/
inductive Op where
  | trylock | lock | unlock | wait | signal | broadcast
deriving DecidableEq, Repr

/-- Who called `picoRTOS_mutex_trylock` (and with what value of the local `loop`):
the user; `picoRTOS_mutex_lock` called by the user; `picoRTOS_mutex_lock` called by `picoRTOS_cond_wait`. -/
inductive Lk where
  | tryTop
  | lockTop (loop : Int)
  | lockWait (loop : Int)
deriving DecidableEq, Repr

/-- Program counter of a task: the shared access it is about to make. `w` tells that `picoRTOS_mutex_unlock` was
called by `picoRTOS_cond_wait`. -/
inductive PC (sw : Nat) where
  | idle
  -- picoRTOS_mutex_trylock (picoRTOS_mutex.c:41-56)
  | cas (k : Lk)                      -- arch_compare_and_swap(&mutex->owner, nobody, pid)
  | chk (k : Lk)                      -- mutex->owner != pid
  | rd (k : Lk)                       -- read of mutex->count++
  | wr (k : Lk) (v : BitVec sw)       -- write of mutex->count++
  | zz (k : Lk)                       -- picoRTOS_schedule() in picoRTOS_mutex_lock
  -- picoRTOS_mutex_unlock (picoRTOS_mutex.c:91-103)
  | uOwner (w : Bool)                 -- assert mutex->owner == owner
  | uCount (w : Bool)                 -- assert mutex->count > 0
  | uRd (w : Bool)                    -- read of --mutex->count
  | uWr (w : Bool) (v : BitVec sw)    -- write of --mutex->count
  | uRel (w : Bool)                   -- mutex->owner = nobody
  -- picoRTOS_cond_wait (picoRTOS_cond.c:82-107)
  | cAssert                           -- assert cond->count < CONFIG_TASK_COUNT
  | cIncRd                            -- read of cond->count++
  | cIncWr (v : BitVec sw)            -- write of cond->count++
  | cAct                              -- cond->act != PICORTOS_COND_NONE
  | cZz                               -- picoRTOS_schedule() in picoRTOS_cond_wait
  | cDecRd                            -- read of --cond->count
  | cDecWr (v : BitVec sw)            -- write of --cond->count
  | cAct2                             -- cond->act == PICORTOS_COND_SIGNAL
  | cReset                            -- cond->act = PICORTOS_COND_NONE
  -- picoRTOS_cond_signal, picoRTOS_cond_broadcast (picoRTOS_cond.c:31-49)
  | sWr
  | bWr
deriving DecidableEq, Repr

/-- What can be observed: API calls and returns, the outcome of each attempt to take the mutex, the sleeps, the stalls. -/
inductive Ev where
  | call (t : Nat) (o : Op)
  | attempt (t : Nat) (ok : Bool)
  | sleep (t : Nat)
  | ret (t : Nat) (o : Op) (ok : Bool)
  | stall (t : Nat)
deriving DecidableEq, Repr

/-- `struct picoRTOS_mutex` (ipc/picoRTOS_mutex.h:8-11), `struct picoRTOS_cond` (ipc/picoRTOS_cond.h:13-16) and the tasks. -/
structure State (c : Cfg) where
  owner : BitVec c.aw
  count : BitVec c.sw
  act : CAct
  ccount : BitVec c.sw
  pc : Nat → PC c.sw
  dead : Nat → Bool

/-- `nobody` (picoRTOS_mutex.c:8): `(picoRTOS_atomic_t)-1`. -/
def nobody (c : Cfg) : BitVec c.aw := BitVec.allOnes c.aw

/-- `(picoRTOS_atomic_t)picoRTOS_self()` in task `t` (picoRTOS_mutex.c:43,93). -/
def self (c : Cfg) (t : Nat) : BitVec c.aw := BitVec.ofNat c.aw t

/-- `picoRTOS_mutex_init` (picoRTOS_mutex.c:25-30) and `picoRTOS_cond_init` (picoRTOS_cond.c:18-23); no task is in the API. -/
def init (c : Cfg) : State c where
  owner := nobody c
  count := 0
  act := .none
  ccount := 0
  pc := fun _ => .idle
  dead := fun _ => false

/-- Move task `t` to `p`. -/
def State.at {c : Cfg} (s : State c) (t : Nat) (p : PC c.sw) : State c := { s with pc := upd s.pc t p }

/-- `picoRTOS_fatal()` in task `t`. -/
def State.die {c : Cfg} (s : State c) (t : Nat) : State c := { s with dead := upd s.dead t true }

/-- What happens to task `t` when `picoRTOS_mutex_trylock` returned -EAGAIN:
picoRTOS_mutex.c:72-76 (`loop-- != 0`, then `assert(loop != -1)`). -/
def failed {c : Cfg} (s : State c) (t : Nat) : Lk → State c × List Ev
  | .tryTop => (s.at t .idle, [.attempt t false, .ret t .trylock false])
  | .lockTop l => if l ≠ 0 then (s.at t (.zz (.lockTop (l - 1))), [.attempt t false])
      else (s.die t, [.attempt t false, .stall t])
  | .lockWait l => if l ≠ 0 then (s.at t (.zz (.lockWait (l - 1))), [.attempt t false])
      else (s.die t, [.attempt t false, .stall t])

/-- What happens to task `t` when `picoRTOS_mutex_trylock` returned 0: picoRTOS_mutex.c:72-76; in `picoRTOS_cond_wait` the
loop goes on (picoRTOS_cond.c:98,91-94). -/
def succeeded {c : Cfg} (s : State c) (t : Nat) : Lk → State c × List Ev
  | .tryTop => (s.at t .idle, [.attempt t true, .ret t .trylock true])
  | .lockTop l => if l ≠ -1 then (s.at t .idle, [.attempt t true, .ret t .lock true])
      else (s.die t, [.attempt t true, .stall t])
  | .lockWait l => if l ≠ -1 then (s.at t .cAct, [.attempt t true])
      else (s.die t, [.attempt t true, .stall t])

/-- What happens to task `t` when `picoRTOS_mutex_unlock` returns; `picoRTOS_cond_wait` goes on with
`picoRTOS_schedule` (picoRTOS_cond.c:96-97). -/
def unlocked {c : Cfg} (s : State c) (t : Nat) (w : Bool) : State c × List Ev :=
  if w then (s.at t .cZz, []) else (s.at t .idle, [.ret t .unlock true])

/-- First program counter of an API call. `picoRTOS_mutex_lock` sets `loop = CONFIG_DEADLOCK_COUNT` (picoRTOS_mutex.c:70). -/
def entry (c : Cfg) : Op → PC c.sw
  | .trylock => .cas .tryTop
  | .lock => .cas (.lockTop c.D)
  | .unlock => .uOwner false
  | .wait => .cAssert
  | .signal => .sWr
  | .broadcast => .bWr

/-- One shared access of task `t`. -/
def access (c : Cfg) (s : State c) (t : Nat) (spur : Bool) : State c × List Ev :=
  match s.pc t with
  | .idle => (s, [])
  -- picoRTOS_mutex.c:48
  | .cas k => if s.owner = nobody c ∧ spur = false then (({ s with owner := self c t } : State c).at t (.rd k), [])
      else (s.at t (.chk k), [])
  -- picoRTOS_mutex.c:49-50
  | .chk k => if s.owner ≠ self c t then failed s t k else (s.at t (.rd k), [])
  -- picoRTOS_mutex.c:52
  | .rd k => (s.at t (.wr k s.count), [])
  | .wr k v => succeeded { s with count := v + 1 } t k
  -- picoRTOS_mutex.c:73, then 72
  | .zz k => (s.at t (.cas k), [.sleep t])
  -- picoRTOS_mutex.c:96
  | .uOwner w => if s.owner = self c t then (s.at t (.uCount w), []) else (s.die t, [.stall t])
  -- picoRTOS_mutex.c:97
  | .uCount w => if s.count.toNat > 0 then (s.at t (.uRd w), []) else (s.die t, [.stall t])
  -- picoRTOS_mutex.c:99
  | .uRd w => (s.at t (.uWr w s.count), [])
  | .uWr w v => if v - 1 = 0 then (({ s with count := v - 1 } : State c).at t (.uRel w), [])
      else unlocked { s with count := v - 1 } t w
  -- picoRTOS_mutex.c:100
  | .uRel w => unlocked { s with owner := nobody c } t w
  -- picoRTOS_cond.c:85
  | .cAssert => if s.ccount.toNat < c.N then (s.at t .cIncRd, []) else (s.die t, [.stall t])
  -- picoRTOS_cond.c:88
  | .cIncRd => (s.at t (.cIncWr s.ccount), [])
  | .cIncWr v => (({ s with ccount := v + 1 } : State c).at t .cAct, [])
  -- picoRTOS_cond.c:93-94, else 96
  | .cAct => if s.act ≠ .none then (s.at t .cDecRd, []) else (s.at t (.uOwner true), [])
  -- picoRTOS_cond.c:97, then 98
  | .cZz => (s.at t (.cas (.lockWait c.D)), [.sleep t])
  -- picoRTOS_cond.c:102
  | .cDecRd => (s.at t (.cDecWr s.ccount), [])
  | .cDecWr v => if v - 1 = 0 then (({ s with ccount := v - 1 } : State c).at t .cReset, [])
      else (({ s with ccount := v - 1 } : State c).at t .cAct2, [])
  -- picoRTOS_cond.c:103
  | .cAct2 => if s.act = .signal then (s.at t .cReset, []) else (s.at t .idle, [.ret t .wait true])
  -- picoRTOS_cond.c:104
  | .cReset => (({ s with act := .none } : State c).at t .idle, [.ret t .wait true])
  -- picoRTOS_cond.c:34
  | .sWr => (({ s with act := .signal } : State c).at t .idle, [.ret t .signal true])
  -- picoRTOS_cond.c:47
  | .bWr => (({ s with act := .broadcast } : State c).at t .idle, [.ret t .broadcast true])

/-- What task `t` does next: call the API, or make the next access of the call it is in
(`spur`: an `arch_compare_and_swap` made by this access fails spuriously). -/
inductive Cmd where
  | call (o : Op)
  | go (spur : Bool)
deriving DecidableEq, Repr

/-- One step of the system: task `t` executes `a`; `none` if it cannot. -/
def step (c : Cfg) (s : State c) (t : Nat) (a : Cmd) : Option (State c × List Ev) :=
  if t < c.N ∧ s.dead t = false then
    match a with
    | .call o => if s.pc t = .idle then some (s.at t (entry c o), [.call t o]) else none
    | .go spur => if s.pc t = .idle then none else some (access c s t spur)
  else none

/-- Execution of a schedule. -/
def exec (c : Cfg) : State c → List (Nat × Cmd) → Option (State c × List Ev)
  | s, [] => some (s, [])
  | s, (t, a) :: l =>
    match step c s t a with
    | none => none
    | some (s', evs) =>
      match exec c s' l with
      | none => none
      | some (s2, evs2) => some (s2, evs ++ evs2)

end Pico.Mtx
