import Verif.Arch.Byte
/-
The c28x port: arch/c2000/c28x/picoRTOS_portasm.asm.

Memory is made of 16-bit words, the stack grows up and its pointer is at the next free word.  32-bit accesses go to even
addresses, the lowest bit of the address being ignored; 32-bit registers are pairs of 16-bit ones.

Interrupt entry and `iret` follow the processor's manual (SPRU430, interrupts, and asp, nasp, iret): one is added to the stack pointer, then
seven pairs are saved, at even addresses; ST1 then has interrupts masked.  The flags that the instructions of the handlers set in ST0
are not modelled (ST0 of the task is saved by the processor), nor is the clearing of a bit of IER by an interrupt (IER
of the task is saved as well).
-/
namespace Pico.C28x

open Pico.Ctx8 (upd upd_same upd_ne)

abbrev W := BitVec 16

/-- 16-bit halves of the registers; `fp n h w`: word `w` of RnL (`h = false`) or RnH -/
inductive R where
  | st0 | t | tl | al | ah | pl | ph | st1 | dp | ier | dbgstat | pcl | pch | rpcl | rpch | rbl | rbh | stfl | stfh
  | ar (n : Fin 8) | arh (n : Fin 8) | fp (n : Fin 8) (h w : Bool)
  deriving DecidableEq

open R

structure St where
  reg : R → W
  sp : W
  mem : W → W

def run : List (St → St) → St → St
  | [], s => s
  | f :: l, s => run l (f s)

/-- even address of a 32-bit access -/
def ev (x : W) : W := BitVec.ofNat 16 (x.toNat / 2 * 2)

/-! ### instructions -/

def set (d : R) (v : W) (s : St) : St := { s with reg := upd s.reg d v }
/-- `push d:l` of a pair (high word, low word) -/
def push2 (p : R × R) (s : St) : St :=
  { s with mem := upd (upd s.mem (ev s.sp) (s.reg p.2)) (ev s.sp + 1) (s.reg p.1), sp := s.sp + 2 }
/-- `pop d:l` -/
def pop2 (p : R × R) (s : St) : St :=
  { s with reg := upd (upd s.reg p.2 (s.mem (ev (s.sp - 2)))) p.1 (s.mem (ev (s.sp - 2) + 1)), sp := s.sp - 2 }
def pushes2 : List (R × R) → St → St
  | [], s => s
  | p :: l, s => pushes2 l (push2 p s)
def pops2 : List (R × R) → St → St
  | [], s => s
  | p :: l, s => pops2 l (pop2 p s)
/-- `push #v` -/
def pushv (v : W) (s : St) : St := { s with mem := upd s.mem s.sp v, sp := s.sp + 1 }

/-- the SPA bit of ST1 -/
def spa : W := 0x10
/-- `asp` -/
def asp (s : St) : St :=
  if s.sp.toNat % 2 = 1 then { s with sp := s.sp + 1, reg := upd s.reg st1 (s.reg st1 ||| spa) }
  else { s with reg := upd s.reg st1 (s.reg st1 &&& ~~~ spa) }
/-- `nasp` -/
def nasp (s : St) : St :=
  if s.reg st1 &&& spa ≠ 0 then { s with sp := s.sp - 1, reg := upd s.reg st1 (s.reg st1 &&& ~~~ spa) } else s

/-- what the processor saves, in order -/
def hw : List (R × R) := [(t, st0), (ah, al), (ph, pl), (ar 1, ar 0), (dp, st1), (dbgstat, ier), (pch, pcl)]

/-- an interrupt or `intr`: INTM and DBGM set, LOOP, EALLOW and IDLESTAT cleared -/
def trap : St → St :=
  run [fun s => { s with sp := s.sp + 1 }, pushes2 hw, fun s => set st1 ((s.reg st1 ||| 0x3) &&& ~~~ 0xe0) s]
def iret : St → St := run [pops2 hw.reverse, fun s => { s with sp := s.sp - 1 }]

/-! ### macros -/

/-- SWAP_STACK, lines 25-31; `b` is the address of `stack`, `page` its data page -/
def swap (b page : W) : St → St :=
  run [set dp page, fun s => set al (s.mem b) s, fun s => set ah s.sp s, fun s => { s with mem := upd s.mem b (s.reg ah) },
    fun s => { s with sp := s.reg al }]

/-- lines 35-44 -/
def core : List (R × R) :=
  [(dp, st1), (rpch, rpcl), (t, tl), (arh 1, arh 0), (arh 2, ar 2), (arh 3, ar 3), (arh 4, ar 4), (arh 5, ar 5), (arh 6, ar 6), (arh 7, ar 7)]

def f2 (n : Fin 8) (h : Bool) : R × R := (fp n h true, fp n h false)

/-- lines 46-63: RB, STF, then R0L, R0H, ... R7L, R7H -/
def fpu : List (R × R) :=
  [(rbh, rbl), (stfh, stfl), f2 0 false, f2 0 true, f2 1 false, f2 1 true, f2 2 false, f2 2 true, f2 3 false, f2 3 true,
   f2 4 false, f2 4 true, f2 5 false, f2 5 true, f2 6 false, f2 6 true, f2 7 false, f2 7 true]

/-- lines 75-92: R7L, R7H, ... R0L, R0H, STF, RB -/
def fpuPop : List (R × R) :=
  [f2 7 false, f2 7 true, f2 6 false, f2 6 true, f2 5 false, f2 5 true, f2 4 false, f2 4 true, f2 3 false, f2 3 true,
   f2 2 false, f2 2 true, f2 1 false, f2 1 true, f2 0 false, f2 0 true, (stfh, stfl), (rbh, rbl)]

/-- SAVE_CONTEXT_NOSWAP, lines 33-65 -/
def save (f : Bool) : St → St := run [asp, pushes2 core, if f then pushes2 fpu else id]

/-- RESTORE_CONTEXT after its SWAP_STACK, lines 74-104 -/
def unsave (f : Bool) : St → St := run [if f then pops2 fpuPop else id, pops2 core.reverse, nasp]

/-! ### handlers -/

structure Cfg where
  /-- address and data page of `stack` -/
  b : W
  page : W
  /-- with a floating-point unit -/
  f : Bool

inductive Kind where
  | tick
  | syscall
  deriving DecidableEq

/-- `movz ARn, @x` -/
def movz (n : Fin 8) (v : W) (s : St) : St := set (arh n) 0 (set (ar n) v s)

/-- TIMER2_Handler from the interrupted instruction to the call of picoRTOS_tick, lines 110-111; RealTimeOS_Handler to the call of
picoRTOS_syscall, lines 127-137 -/
def enter (c : Cfg) : Kind → St → St
  | .tick => run [trap, save c.f, swap c.b c.page, fun s => movz 4 (s.mem c.b) s]
  | .syscall => run [trap, save c.f, fun s => set (ar 6) s.sp s, fun s => movz 4 (s.reg (ar 6)) s,
      fun s => if c.f then { s with sp := s.sp - 36 } else s,
      fun s => set (arh 5) (s.mem (ev (s.sp - 8) + 1)) (set (ar 5) (s.mem (ev (s.sp - 8))) s),
      fun s => set (ar 6) (s.mem (s.sp - 34)) s, swap c.b c.page, fun s => set al (s.reg (ar 6)) s]

/-- from the return of C, lines 113-116, 139-142; also arch_start_first_task, lines 176-179 -/
def leave (c : Cfg) : St → St :=
  run [set dp c.page, fun s => { s with mem := upd s.mem c.b (s.reg (ar 4)) }, swap c.b c.page, unsave c.f, iret]

/-- words of a saved context (ARCH_INTIAL_STACK_COUNT, picoRTOS_types.h:17-22) -/
def size (c : Cfg) : Nat := if c.f then 72 else 36

/-- registers a task can observe: those of the floating-point unit if there is one -/
def vis (c : Cfg) : R → Bool
  | rbl | rbh | stfl | stfh | fp .. => c.f
  | _ => true

def ctx (c : Cfg) (s : St) : (R → W) × W := (fun r => if vis c r then s.reg r else 0, s.sp)

/-- The frame of handle `h` is the `size` words below it.  If the stack pointer of the task was odd, two of them are its own, see `c28x_below`. -/
def port (c : Cfg) : Pico.Ctx.Port St W W ((R → W) × W) Kind where
  mem := St.mem
  ctx := ctx c
  resume := fun _ x => x
  enter := enter c
  arg := fun s => s.reg (ar 4)
  ret := fun s => s.reg (ar 4)
  leave := fun _ => leave c
  cok := fun _ _ => True
  frame := fun h x => (x - (h - BitVec.ofNat 16 (size c))).toNat < size c
  io := fun x => x = c.b
  ksp := fun s => s.mem c.b
  csp := fun _ s => s.sp

/-- the task's stack is not about to run into `stack` -/
def Ok (c : Cfg) (s : St) : Prop := ¬ (c.b - s.sp).toNat < size c

/-! ### platform interrupts -/

/-- the registered function has returned, on the stack it was called on: the end of Default_Handler, lines 215-216 -/
def isrLeave (c : Cfg) : St → St := run [swap c.b c.page, unsave c.f, iret]

/-! ### starting tasks -/

def pushvs : List W → St → St
  | [], s => s
  | v :: l, s => pushvs l (pushv v s)

/-- arch_save_first_context, lines 146-171; the stack is in AR4, the function in XAR5, its argument in ACC -/
def first (c : Cfg) : St → St :=
  run [fun s => set (arh 6) (s.reg ah) (set (ar 6) (s.reg al) s), set dp c.page, fun s => { s with mem := upd s.mem c.b (s.reg (ar 4)) },
    swap c.b c.page, pushvs [0x80, 0, 0, 0, 0, 0, 0, 0, 0x8a08, 0, 0xa000, 0], push2 (arh 5, ar 5), pushv 0,
    fun s => set st1 (s.reg st1 ||| 1) s,
    fun s => set (arh 4) (s.reg (arh 6)) (set (ar 4) (s.reg (ar 6)) s),
    fun s => set (arh 5) 0 (set (ar 5) 0 s), fun s => set (arh 6) 0 (set (ar 6) 0 s),
    save c.f, swap c.b c.page, fun s => movz 4 (s.mem c.b) s]

end Pico.C28x
