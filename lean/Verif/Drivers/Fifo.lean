import Verif.Ipc.Ring

/-!
# Model of drivers/include/fifo.h

One producer and one consumer (a task and an interrupt routine, or two tasks on two cores).  Every access to the shared memory is one step
and the steps of the two sides interleave arbitrarily.  The sequences modelled are those of all the users of fifo.h:
  * producer: `if (fifo_head_is_writable(f)) { buf[f->w] = v; fifo_head_push(f); }`
    (uart-avr_irqdriven.c:56-58,237-239, uart-atsamx7x_usart_irqdriven.c:136-138,307-309, spi-avr_irqdriven.c:45-47,261-263,
    uart-8051_irqdriven.c:65-67,196-198);
  * consumer: `if (fifo_head_is_readable(f)) { fifo_head_pop(f); v = buf[f->r]; }`
    (uart-avr_irqdriven.c:76-78,288-290, uart-atsamx7x_usart_irqdriven.c:152-154,329-331, spi-avr_irqdriven.c:50-52,291-293,
    uart-8051_irqdriven.c:75-77,257-259).

Simplifications: the accesses are in program order and sequentially consistent (`r` and `w` are volatile, `buf` is not: that the compiler
keeps the store to `buf` before the store to `w` is assumed); an access to `r` or `w` is atomic (true of `fifo_head8` everywhere, of
`fifo_head` where `size_t` is a machine word).  C does not fix in which order the two operands of a comparison are read; each side reads first the
index that only it modifies, so that the other order gives the same result.
-/

namespace Pico.Fifo

/-- Width of the indexes (8 for `fifo_head8`), and the mask given at the initialisation. The array has `mask + 1` elements. -/
structure Cfg where
  sw : Nat
  m : BitVec sw

/-- The assertion of `fifo_head_init` (fifo.h:22-26). -/
def Cfg.ok (c : Cfg) : Prop := c.m &&& (c.m + 1) = 0

/-- Number of elements of the array. -/
def Cfg.size (c : Cfg) : Nat := c.m.toNat + 1

/-- Next access of the producer. -/
inductive PP (sw : Nat) (V : Type) where
  | idle
  | rdW (v : V)                      -- fifo_head_is_writable: read of w (fifo.h:28-29)
  | rdR (v : V) (next : BitVec sw)   -- fifo_head_is_writable: read of r
  | ix (v : V)                       -- index w of the element
  | st (v : V) (j : BitVec sw)       -- store to buf[j]
  | pu (v : V)                       -- fifo_head_push: read of w (fifo.h:30-31)
  | wr (v : V) (next : BitVec sw)    -- fifo_head_push: write of w

/-- Next access of the consumer. -/
inductive PC (sw : Nat) where
  | idle
  | rdR                              -- fifo_head_is_readable: read of r (fifo.h:32-33)
  | rdW (next : BitVec sw)           -- fifo_head_is_readable: read of w
  | po                               -- fifo_head_pop: read of r (fifo.h:34-35)
  | wr (next : BitVec sw)            -- fifo_head_pop: write of r
  | ix                               -- index r of the element
  | ld (j : BitVec sw)               -- load of buf[j]

/-- What can be observed; `stored v` happens when the producer is done with `v`, `oob` is an access outside the array. -/
inductive Ev (V : Type) where
  | offer (v : V)
  | stored (v : V)
  | refused (v : V)
  | ask
  | got (v : V)
  | empty
  | oob

structure State (c : Cfg) (V : Type) where
  r : BitVec c.sw
  w : BitVec c.sw
  buf : Nat → V
  p : PP c.sw V
  q : PC c.sw

variable {V : Type}

/-- After `fifo_head_init` (fifo.h:22-26), the array holding anything. -/
def init (c : Cfg) (old : Nat → V) : State c V := { r := c.m, w := 0, buf := old, p := .idle, q := .idle }

/-- One access of the producer. -/
def prod (c : Cfg) (s : State c V) : State c V × List (Ev V) :=
  match s.p with
  | .idle => (s, [])
  | .rdW v => ({ s with p := .rdR v ((s.w + 1) &&& c.m) }, [])
  | .rdR v nx => if nx ≠ s.r then ({ s with p := .ix v }, []) else ({ s with p := .idle }, [.refused v])
  | .ix v => ({ s with p := .st v s.w }, [])
  | .st v j => if j.toNat < c.size then ({ s with buf := upd s.buf j.toNat v, p := .pu v }, []) else (s, [.oob])
  | .pu v => ({ s with p := .wr v ((s.w + 1) &&& c.m) }, [])
  | .wr v nx => ({ s with w := nx, p := .idle }, [.stored v])

/-- One access of the consumer. -/
def cons (c : Cfg) (s : State c V) : State c V × List (Ev V) :=
  match s.q with
  | .idle => (s, [])
  | .rdR => ({ s with q := .rdW ((s.r + 1) &&& c.m) }, [])
  | .rdW nx => if nx ≠ s.w then ({ s with q := .po }, []) else ({ s with q := .idle }, [.empty])
  | .po => ({ s with q := .wr ((s.r + 1) &&& c.m) }, [])
  | .wr nx => ({ s with r := nx, q := .ix }, [])
  | .ix => ({ s with q := .ld s.r }, [])
  | .ld j => if j.toNat < c.size then ({ s with q := .idle }, [.got (s.buf j.toNat)]) else (s, [.oob])

/-- What happens next. -/
inductive Cmd (V : Type) where
  | push (v : V)   -- the producer offers a value
  | pop            -- the consumer asks for one
  | prod           -- access of the producer
  | cons           -- access of the consumer

/-- One step of the system; `none` if it is impossible. -/
def step (c : Cfg) (s : State c V) : Cmd V → Option (State c V × List (Ev V))
  | .push v => match s.p with | .idle => some ({ s with p := .rdW v }, [.offer v]) | _ => none
  | .pop => match s.q with | .idle => some ({ s with q := .rdR }, [.ask]) | _ => none
  | .prod => match s.p with | .idle => none | _ => some (prod c s)
  | .cons => match s.q with | .idle => none | _ => some (cons c s)

/-- Execution of a schedule. -/
def exec (c : Cfg) : State c V → List (Cmd V) → Option (State c V × List (Ev V))
  | s, [] => some (s, [])
  | s, a :: l =>
    match step c s a with
    | none => none
    | some (s', evs) =>
      match exec c s' l with
      | none => none
      | some (s2, evs2) => some (s2, evs ++ evs2)

/-- A possible execution, the array holding `old` before. -/
def Runs (c : Cfg) (old : Nat → V) (tr : List (Ev V)) (s : State c V) : Prop :=
  ∃ sched, exec c (init c old) sched = some (s, tr)

/-! ## Vocabulary of the properties -/

/-- The values stored so far, in order. -/
def stored (tr : List (Ev V)) : List V := tr.filterMap (fun e => match e with | .stored v => some v | _ => none)

/-- The values delivered so far, in order. -/
def got (tr : List (Ev V)) : List V := tr.filterMap (fun e => match e with | .got v => some v | _ => none)

end Pico.Fifo
