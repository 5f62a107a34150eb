import Verif.Ipc.Count
import Verif.Ipc.QueueModel

/-!
# Model of the queue used by several tasks (ipc/picoRTOS_queue.c, picoRTOS_queue.h)

Small-step semantics: every access of a task to the shared memory is one step, and the steps of the tasks interleave
arbitrarily; `arch_test_and_set` is atomic (spurious failures: `spur`).  Simplification: `ctx->i = ctx->w` (picoRTOS_queue.c:57) is one step,
both fields being protected by the futex at that point.
-/

namespace Pico.QueueC

open Queue (Op Ans)

/-- Number of tasks, CONFIG_DEADLOCK_COUNT, width of `size_t`, number of elements. -/
structure Cfg where
  N : Nat
  D : Nat
  sw : Nat
  cnt : Nat

/-- The declared size is a power of two that fits `size_t`. -/
def Cfg.WF (c : Cfg) : Prop := c.cnt < 2 ^ c.sw ∧ ∃ k, c.cnt = 2 ^ k

/-- Program counter: the next access of the task, in the call `o`. -/
inductive PC (sw : Nat) (V : Type) where
  | idle
  | tas (o : Op V) (loop : Int)         -- arch_test_and_set in picoRTOS_futex_lock (picoRTOS_queue.c:24,47)
  | zz (o : Op V) (loop : Int)          -- picoRTOS_schedule in picoRTOS_futex_lock
  | nxt (o : Op V)                      -- next = (ctx->r + 1) & mask, next = (ctx->w + 1) & mask (lines 27, 50)
  | cmp (o : Op V) (next : BitVec sw)   -- next == ctx->w, next == ctx->r (lines 29, 52)
  | wr1 (o : Op V) (next : BitVec sw)   -- ctx->r = next, ctx->i = ctx->w (lines 34, 57)
  | wr2 (o : Op V) (next : BitVec sw)   -- ctx->i = next, ctx->w = next (lines 35, 58)
  | uRd (o : Op V) (ok : Bool)          -- picoRTOS_futex_unlock: assertion (lines 30, 38, 53, 61)
  | uWr (o : Op V) (ok : Bool)          -- picoRTOS_futex_unlock: write
  | idx (o : Op V)                      -- read of (queue)->head.i (picoRTOS_queue.h:68,86)
  | acc (o : Op V) (j : BitVec sw)      -- access to (queue)->buf[j]

/-- What can be observed; `oob`: an access outside the array. -/
inductive Ev (V : Type) where
  | call (t : Nat) (o : Op V)
  | attempt (t : Nat) (ok : Bool)
  | sleep (t : Nat)
  | ret (t : Nat) (a : Ans V)
  | stall (t : Nat)
  | oob (t : Nat)

structure State (c : Cfg) (V : Type) where
  lock : Bool
  r : BitVec c.sw
  w : BitVec c.sw
  i : BitVec c.sw
  buf : Nat → V
  pc : Nat → PC c.sw V
  dead : Nat → Bool

variable {V : Type}

/-- `ctx->mask` (picoRTOS_queue.c:12), constant after the initialisation. -/
def mask (c : Cfg) : BitVec c.sw := BitVec.ofNat c.sw c.cnt - 1

/-- After `PICORTOS_QUEUE_INIT` (picoRTOS_queue.c:6-18, picoRTOS_queue.h:51-53). -/
def init (c : Cfg) (zero : V) (old : Nat → V) : State c V where
  lock := false
  r := mask c
  w := 0
  i := 0
  buf := upd old 0 zero
  pc := fun _ => .idle
  dead := fun _ => false

/-- Move task `t` to `p`. -/
def State.at {c : Cfg} (s : State c V) (t : Nat) (p : PC c.sw V) : State c V := { s with pc := upd s.pc t p }

/-- Task `t` stops. -/
def State.die {c : Cfg} (s : State c V) (t : Nat) : State c V := { s with dead := upd s.dead t true }

/-- The answer -EAGAIN. -/
def eagain : Op V → Ans V
  | .read => .read none
  | .write _ => .write false

/-- One access of task `t`. -/
def access (c : Cfg) (s : State c V) (t : Nat) (spur : Bool) : State c V × List (Ev V) :=
  match s.pc t with
  | .idle => (s, [])
  -- picoRTOS_futex.c:59-63
  | .tas o l => if s.lock = false ∧ spur = false
      then (if l ≠ -1 then (({ s with lock := true } : State c V).at t (.nxt o), [.attempt t true])
        else (({ s with lock := true } : State c V).die t, [.attempt t true, .stall t]))
      else (if l ≠ 0 then (s.at t (.zz o (l - 1)), [.attempt t false]) else (s.die t, [.attempt t false, .stall t]))
  | .zz o l => (s.at t (.tas o l), [.sleep t])
  | .nxt .read => (s.at t (.cmp .read ((s.r + 1) &&& mask c)), [])
  | .nxt (.write v) => (s.at t (.cmp (.write v) ((s.w + 1) &&& mask c)), [])
  | .cmp .read n => if n = s.w then (s.at t (.uRd .read false), []) else (s.at t (.wr1 .read n), [])
  | .cmp (.write v) n => if n = s.r then (s.at t (.uRd (.write v) false), []) else (s.at t (.wr1 (.write v) n), [])
  | .wr1 .read n => (({ s with r := n } : State c V).at t (.wr2 .read n), [])
  | .wr1 (.write v) n => (({ s with i := s.w } : State c V).at t (.wr2 (.write v) n), [])
  | .wr2 .read n => (({ s with i := n } : State c V).at t (.uRd .read true), [])
  | .wr2 (.write v) n => (({ s with w := n } : State c V).at t (.uRd (.write v) true), [])
  -- picoRTOS_futex.c:79-80
  | .uRd o ok => if s.lock then (s.at t (.uWr o ok), []) else (s.die t, [.stall t])
  | .uWr o ok => if ok then (({ s with lock := false } : State c V).at t (.idx o), [])
      else (({ s with lock := false } : State c V).at t .idle, [.ret t (eagain o)])
  | .idx o => (s.at t (.acc o s.i), [])
  | .acc .read j => if j.toNat < c.cnt then (s.at t .idle, [.ret t (.read (some (s.buf j.toNat)))]) else (s.die t, [.oob t])
  | .acc (.write v) j => if j.toNat < c.cnt then (({ s with buf := upd s.buf j.toNat v } : State c V).at t .idle, [.ret t (.write true)])
      else (s.die t, [.oob t])

/-- What task `t` does next. -/
inductive Cmd (V : Type) where
  | call (o : Op V)
  | go (spur : Bool)

/-- Is the task outside of the API? -/
def PC.isIdle {sw : Nat} : PC sw V → Bool
  | .idle => true
  | _ => false

/-- One step of the system; `none` if it is impossible. `loop = CONFIG_DEADLOCK_COUNT` (picoRTOS_futex.c:57). -/
def step (c : Cfg) (s : State c V) (t : Nat) (a : Cmd V) : Option (State c V × List (Ev V)) :=
  if t < c.N ∧ s.dead t = false then
    match a with
    | .call o => if (s.pc t).isIdle then some (s.at t (.tas o c.D), [.call t o]) else none
    | .go spur => if (s.pc t).isIdle then none else some (access c s t spur)
  else none

/-- Execution of a schedule. -/
def exec (c : Cfg) : State c V → List (Nat × Cmd V) → Option (State c V × List (Ev V))
  | s, [] => some (s, [])
  | s, (t, a) :: l =>
    match step c s t a with
    | none => none
    | some (s', evs) =>
      match exec c s' l with
      | none => none
      | some (s2, evs2) => some (s2, evs ++ evs2)

/-! ## Vocabulary of the properties, on traces -/

/-- Number of reads that returned a value. -/
def reads (tr : List (Ev V)) : Nat := tr.countP (fun e => match e with | .ret _ (.read (some _)) => true | _ => false)

/-- Number of writes that returned 0. -/
def writes (tr : List (Ev V)) : Nat := tr.countP (fun e => match e with | .ret _ (.write true) => true | _ => false)

/-- Effect of an event on the call task `t` is in. -/
def pendStep (t : Nat) (p : Option (Op V)) : Ev V → Option (Op V)
  | .call u o => if u = t then some o else p
  | .ret u _ => if u = t then none else p
  | _ => p

/-- The call task `t` is in. -/
def pending (tr : List (Ev V)) (t : Nat) : Option (Op V) := tr.foldl (pendStep t) none

/-- Number of tasks `t < N` that are inside a read. -/
def reading (N : Nat) (tr : List (Ev V)) : Nat := (List.range N).countP (fun t => match pending tr t with | some .read => true | _ => false)

/-- Number of tasks `t < N` that are inside a write. -/
def writing (N : Nat) (tr : List (Ev V)) : Nat := (List.range N).countP (fun t => match pending tr t with | some (.write _) => true | _ => false)

/-- A possible execution of the system, the array holding `old` before the initialisation. -/
def Runs (c : Cfg) (zero : V) (old : Nat → V) (tr : List (Ev V)) (s : State c V) : Prop :=
  ∃ sched, exec c (init c zero old) sched = some (s, tr)

/-- The task of an event. -/
def Ev.task : Ev V → Nat
  | .call t _ | .attempt t _ | .sleep t | .ret t _ | .stall t | .oob t => t

end Pico.QueueC
