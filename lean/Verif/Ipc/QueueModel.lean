import Verif.Ipc.Ring

/-!
# Model of ipc/picoRTOS_queue.c and ipc/picoRTOS_queue.h, used by one task at a time

`Res.fatal` is a stall, `Res.ub` an access outside the array.  The cache maintenance calls are not modelled.  The concurrent use is
modelled in `QueueConc`.
-/

namespace Pico.Queue

/-- A queue of `cnt` elements: `struct picoRTOS_queue_head` and `buf[count]` (picoRTOS_queue.h:11-17,39-43). `lock` tells whether
the futex word is non-zero. `sw` is the width of `size_t`. -/
structure Q (sw : Nat) (V : Type) where
  lock : Bool
  mask : BitVec sw
  r : BitVec sw
  w : BitVec sw
  i : BitVec sw
  cnt : Nat
  buf : Nat → V

variable {sw : Nat} {V : Type}

/-- `PICORTOS_QUEUE_INIT` (picoRTOS_queue.h:51-53) and `picoRTOS_queue_head_init` (picoRTOS_queue.c:6-18), on an array of `cnt`
elements holding `old`. -/
def init (sw cnt : Nat) (zero : V) (old : Nat → V) : Res (Q sw V) :=
  if BitVec.ofNat sw cnt &&& (BitVec.ofNat sw cnt - 1) = 0 then
    if 0 < cnt then
      .ok { lock := false, mask := BitVec.ofNat sw cnt - 1, w := 0, r := BitVec.ofNat sw cnt - 1, i := 0, cnt := cnt, buf := upd old 0 zero }
    else .ub
  else .fatal

/-- `picoRTOS_futex_lock` (picoRTOS_futex.c:55-64) when no other task uses the queue: if the futex is taken, every attempt fails and
a deadlock is declared (C38). -/
def lock (q : Q sw V) : Res (Q sw V) := if q.lock then .fatal else .ok { q with lock := true }

/-- `picoRTOS_futex_unlock` (picoRTOS_futex.c:77-81). -/
def unlock (q : Q sw V) : Res (Q sw V) := if q.lock then .ok { q with lock := false } else .fatal

/-- `picoRTOS_queue_head_pop` (picoRTOS_queue.c:20-41); `false` is -EAGAIN. -/
def pop (q : Q sw V) : Res (Q sw V × Bool) := do
  let q ← lock q
  let next := (q.r + 1) &&& q.mask
  if next = q.w then
    let q ← unlock q
    pure (q, false)
  else
    let q := { q with r := next, i := next }
    let q ← unlock q
    pure (q, true)

/-- `picoRTOS_queue_head_push` (picoRTOS_queue.c:43-64); `false` is -EAGAIN. -/
def push (q : Q sw V) : Res (Q sw V × Bool) := do
  let q ← lock q
  let next := (q.w + 1) &&& q.mask
  if next = q.r then
    let q ← unlock q
    pure (q, false)
  else
    let q := { q with i := q.w, w := next }
    let q ← unlock q
    pure (q, true)

/-- `PICORTOS_QUEUE_READ` (picoRTOS_queue.h:66-68); `none` is -EAGAIN. -/
def read (q : Q sw V) : Res (Q sw V × Option V) := do
  let (q, ok) ← pop q
  if ok then
    if q.i.toNat < q.cnt then pure (q, some (q.buf q.i.toNat)) else .ub
  else pure (q, none)

/-- `PICORTOS_QUEUE_WRITE` (picoRTOS_queue.h:84-86); `false` is -EAGAIN. -/
def write (q : Q sw V) (v : V) : Res (Q sw V × Bool) := do
  let (q, ok) ← push q
  if ok then
    if q.i.toNat < q.cnt then pure ({ q with buf := upd q.buf q.i.toNat v }, true) else .ub
  else pure (q, false)

/-- The calls of the user. -/
inductive Op (V : Type) where
  | read
  | write (v : V)

/-- The answers. -/
inductive Ans (V : Type) where
  | read (v : Option V)
  | write (ok : Bool)
deriving DecidableEq, Repr

/-- A sequence of calls. -/
def run (q : Q sw V) : List (Op V) → Res (List (Ans V))
  | [] => .ok []
  | .read :: l => do
    let (q, v) ← read q
    let as ← run q l
    pure (.read v :: as)
  | .write v :: l => do
    let (q, ok) ← write q v
    let as ← run q l
    pure (.write ok :: as)

/-! ## Specification: a list of at most `cap` values -/

/-- First in, first out: a write is refused iff `cap` values are stored, a read iff none is. -/
def specRun (cap : Nat) (l : List V) : List (Op V) → List (Ans V)
  | [] => []
  | .read :: ops => match l with
    | [] => .read none :: specRun cap [] ops
    | v :: vs => .read (some v) :: specRun cap vs ops
  | .write v :: ops => if l.length < cap then .write true :: specRun cap (l ++ [v]) ops else .write false :: specRun cap l ops

end Pico.Queue
