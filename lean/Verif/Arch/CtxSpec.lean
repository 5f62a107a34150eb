/-
Specification of "switching tasks is invisible to the tasks", independent of any port.

A port is described by what its trap code does to a machine state:
`enter k` - from the interrupted instruction of the task to the call of the C scheduler
            (`picoRTOS_tick` or `picoRTOS_syscall`), for a trap of kind `k`;
`arg`     - the task stack pointer that this call passes to C;
`ret`     - the task stack pointer that C gives back (that of the task chosen to run next);
`leave k` - from the return of C to the first instruction of that task.

Nothing is assumed of the C code except what the caller of `Sound.restores` states.
-/
namespace Pico.Ctx

structure Port (S A V Ctx Kind : Type) where
  /-- memory as the processor sees it -/
  mem : S → A → V
  /-- every register a task can observe, program counter and stack pointer included -/
  ctx : S → Ctx
  /-- what the task is owed when a trap of that kind is over: the same context, except that a system
      call instruction is not executed twice -/
  resume : Kind → Ctx → Ctx
  enter : Kind → S → S
  arg : S → A
  ret : S → A
  leave : Kind → S → S
  /-- what C must have kept of its caller for the handler of that kind to return (a return value left on the
      kernel's stack, say), when C returns in that state -/
  cok : Kind → S → Prop
  /-- `frame h a`: cell `a` belongs to the context saved at stack pointer `h` -/
  frame : A → A → Prop
  /-- device registers that the trap code itself writes (tick timer) -/
  io : A → Prop
  /-- the stack pointer set aside for the kernel while a task runs -/
  ksp : S → A
  /-- the stack pointer C code runs on -/
  csp : Kind → S → A

variable {S A V Ctx Kind τ : Type}

/-- In machine state `m`, memory holds at stack pointer `h` a saved context `c`: from any machine
state `e` in which those cells are intact and C can return, bringing `h` in - by whichever handler - gives the
processor exactly context `c`. -/
def Port.Holds (p : Port S A V Ctx Kind) (h : A) (c : Ctx) (m : S) : Prop :=
  (∀ a, p.frame h a → ¬ p.io a) ∧
  ∀ k e, p.cok k e → p.ret e = h → (∀ a, p.frame h a → p.mem e a = p.mem m a) → p.ctx (p.leave k e) = c

/-- What every port owes to the tasks.  `ok` describes the states a task may be in when it is
interrupted (alignment and the like). -/
structure Port.Sound (p : Port S A V Ctx Kind) (ok : S → Prop) : Prop where
  /-- a trap saves the context the task is owed -/
  restores : ∀ k s, ok s → (∀ a, p.frame (p.arg (p.enter k s)) a → ¬ p.io a) →
    p.Holds (p.arg (p.enter k s)) (p.resume k (p.ctx s)) (p.enter k s)
  /-- saving a context writes only the frame it announces (and the tick timer) -/
  saves_only_frame : ∀ k s a, ok s → ¬ p.frame (p.arg (p.enter k s)) a → ¬ p.io a →
    p.mem (p.enter k s) a = p.mem s a
  /-- bringing a context back writes no memory, save the tick timer -/
  leaves_memory : ∀ k e a, p.cok k e → ¬ p.io a → p.mem (p.leave k e) a = p.mem e a
  /-- C runs on the stack set aside for it, and that stack is set aside again unchanged -/
  kernel_stack : (∀ k s, ok s → p.csp k (p.enter k s) = p.ksp s) ∧ ∀ k e, p.cok k e → p.ksp (p.leave k e) = p.csp k e

/-! ### Many tasks -/

/-- A machine running many tasks.  `parked t = some (h, c)`: task `t` is suspended, the scheduler
holds stack pointer `h` for it, and `c` is (ghost) the context it must find when it runs again. -/
structure Sys (S A Ctx τ : Type) where
  cur : τ
  m : S
  parked : τ → Option (A × Ctx)

/-- the cells of the saved contexts are the same in `m'` as in `m` -/
def keeps (p : Port S A V Ctx Kind) (parked : τ → Option (A × Ctx)) (m m' : S) : Prop :=
  ∀ t h c, parked t = some (h, c) → ∀ a, p.frame h a → p.mem m' a = p.mem m a

/-- the scheduler's view once a trap of kind `k` has taken the current task out -/
def Sys.trapped [DecidableEq τ] (p : Port S A V Ctx Kind) (k : Kind) (x : Sys S A Ctx τ) :
    τ → Option (A × Ctx) :=
  fun t => if t = x.cur then some (p.arg (p.enter k x.m), p.resume k (p.ctx x.m)) else x.parked t

/-- `Switch p ok x k e n c x'`: a trap of kind `k` takes the current task of `x` to the scheduler; C
does anything at all, ending in machine state `e`, except writing into the saved contexts; it gives
back the stack pointer it holds for task `n`, to which context `c` is owed (`n` may be the current
task itself); the handler of kind `k` brings `n` in. -/
structure Switch [DecidableEq τ] (p : Port S A V Ctx Kind) (ok : S → Prop) (x : Sys S A Ctx τ)
    (k : Kind) (e : S) (n : τ) (c : Ctx) (x' : Sys S A Ctx τ) : Prop where
  fit : ok x.m
  /-- the stack of the current task is deep enough: its frame is memory, and its own -/
  deep : ∀ a, p.frame (p.arg (p.enter k x.m)) a → ¬ p.io a ∧
    ∀ t h' c', t ≠ x.cur → x.parked t = some (h', c') → ¬ p.frame h' a
  c_returns : p.cok k e
  pick : ∃ h, x.trapped p k n = some (h, c) ∧ p.ret e = h
  c_keeps : keeps p (x.trapped p k) (p.enter k x.m) e
  after : x' = { cur := n, m := p.leave k e, parked := fun t => if t = n then none else x.trapped p k t }

/-- One step: either the current task does anything at all to registers and memory except writing
into the saved contexts of the others (they are on their stacks, not on its own), or a switch. -/
inductive Sys.Step [DecidableEq τ] (p : Port S A V Ctx Kind) (ok : S → Prop) :
    Sys S A Ctx τ → Sys S A Ctx τ → Prop where
  | run (x : Sys S A Ctx τ) (m' : S) : keeps p x.parked x.m m' → Step p ok x { x with m := m' }
  | switch (x : Sys S A Ctx τ) (k : Kind) (e : S) (n : τ) (c : Ctx) (x' : Sys S A Ctx τ) :
      Switch p ok x k e n c x' → Step p ok x x'

/-- any history, from a machine in which every suspended task has a saved context -/
inductive Sys.Reach [DecidableEq τ] (p : Port S A V Ctx Kind) (ok : S → Prop) : Sys S A Ctx τ → Prop where
  | start (x : Sys S A Ctx τ) : (∀ t h c, x.parked t = some (h, c) → p.Holds h c x.m) → Reach p ok x
  | step {x x' : Sys S A Ctx τ} : Reach p ok x → Step p ok x x' → Reach p ok x'

end Pico.Ctx
