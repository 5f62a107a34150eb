import Verif.Arch.Byte
/-
The 8051 port: arch/8051/picoRTOS_portasm.S.

The stack is in internal RAM (`iram`), grows up, and its pointer is at its last byte.  All the tasks use the same stack, from
`__start__stack` up; a task that does not run has the bytes of its stack, topmost first, in external RAM (`xram`).  The first
two bytes of the stack of a task are the address where it goes in external RAM.  What the scheduler knows of a task is the
end of that block.

Simplifications: the registers r0-r7 are those of bank 0 and are not seen as internal RAM; the flags set by the
instructions of the handlers are not modelled, save the carries of the address computations (taken as 16-bit additions);
the state of the interrupt priority logic is not modelled.
-/
namespace Pico.Ctx51

open Pico.Ctx8 (Byte Addr upd upd_same upd_ne hi lo cat cat_hi_lo hi_cat lo_cat)

/-- `bp` is the frame pointer of the compiler (sdcc --stack-auto, arch/8051/Makefile:5), a byte of internal RAM -/
inductive R where
  | a | b | dpl | dph | psw | r0 | r1 | r2 | r3 | r4 | r5 | r6 | r7 | pch | pcl | bp
  deriving DecidableEq

open R

structure St where
  reg : R → Byte
  sp : Byte
  iram : Byte → Byte
  xram : Addr → Byte
  /-- interrupts enabled -/
  ea : Bool

structure Cfg where
  /-- `__start__stack - 1` -/
  z : Byte
  /-- `_ISR_TABLE` -/
  table : Addr
  /-- return address of `lcall fn_priv` -/
  back : Addr
  /-- what arch_timer_ack leaves in the registers it may use -/
  ack : (R → Byte) → R → Byte

def run : List (St → St) → St → St
  | [], s => s
  | f :: l, s => run l (f s)

/-! ### instructions -/

def set (d : R) (v : Byte) (s : St) : St := { s with reg := upd s.reg d v }
/-- `mov d, r` -/
def mov (d r : R) (s : St) : St := set d (s.reg r) s
def pushv (v : Byte) (s : St) : St := { s with sp := s.sp + 1, iram := upd s.iram (s.sp + 1) v }
def push (r : R) (s : St) : St := pushv (s.reg r) s
def pop (r : R) (s : St) : St := { s with reg := upd s.reg r (s.iram s.sp), sp := s.sp - 1 }
/-- `dec sp` -/
def drop (s : St) : St := { s with sp := s.sp - 1 }
def pushes : List R → St → St
  | [], s => s
  | r :: l, s => pushes l (push r s)
def pops : List R → St → St
  | [], s => s
  | r :: l, s => pops l (pop r s)
/-- `mov d, @r` -/
def movAt (d r : R) (s : St) : St := set d (s.iram (s.reg r)) s
def dptr (s : St) : Addr := cat (s.reg dph) (s.reg dpl)
def setDptr (v : Addr) (s : St) : St := { s with reg := upd (upd s.reg dph (hi v)) dpl (lo v) }
/-- `inc dptr` -/
def incDptr (s : St) : St := setDptr (dptr s + 1) s
/-- `movx @dptr, a` -/
def movxSt (s : St) : St := { s with xram := upd s.xram (dptr s) (s.reg a) }
/-- `movx a, @dptr` -/
def movxLd (s : St) : St := set a (s.xram (dptr s)) s
/-- `clr ea`, `setb ea` -/
def setEa (v : Bool) (s : St) : St := { s with ea := v }
/-- an interrupt, or `lcall` -/
def call (s : St) : St := pushes [pcl, pch] s
/-- `ret`, `reti` -/
def ret (s : St) : St := pops [pch, pcl] s

/-! ### macros -/

/-- the registers of SAVE_CONTEXT_STEP1, lines 23-35, in that order -/
def saved : List R := [a, dpl, dph, b, r0, r1, r2, r3, r4, r5, r6, r7, psw]

/-- SAVE_CONTEXT_STEP1, lines 22-37 -/
def save1 : St → St := run [pushes saved, set psw 0]

/-- DPTR_FROM_SP, lines 40-46 -/
def dptrFromSp (z : Byte) : St → St :=
  run [set r0 (z + 1), movAt dpl r0, set r0 (z + 2), movAt dph r0, set b 0]

/-- one turn of the loop of SAVE_CONTEXT_STEP2, lines 52-56 -/
def save2Body : St → St := run [pop a, movxSt, incDptr, fun s => set a s.sp s]

/-- the loop, lines 50-57: at most 256 turns, since the stack pointer has 8 bits (`save2_eff` shows when fewer do) -/
def save2Loop (z : Byte) : Nat → St → St
  | 0, s => s
  | n + 1, s => let t := save2Body s; if t.sp = z then t else save2Loop z n t

/-- SAVE_CONTEXT_STEP2, lines 48-58 -/
def save2 (z : Byte) (s : St) : St := save2Loop z 256 (dptrFromSp z s)

/-- DEC_DPTR, lines 66-72 -/
def decDptr (s : St) : St :=
  let t := set dpl (s.reg dpl - 1) s
  let t := set a (t.reg dpl) t
  if t.reg a = 0xff then set dph (t.reg dph - 1) t else t

/-- PUSH_xxDPTR, lines 75-79 -/
def pushXDptr : St → St := run [decDptr, movxLd, push a]

/-- one turn of the loop of RESTORE_CONTEXT_STEP1, lines 90-91, to the comparisons -/
def restoreBody : St → St := run [pushXDptr, mov a r6]

/-- the loop, lines 89-94: at most 65536 turns, since dptr has 16 bits -/
def restoreLoop : Nat → St → St
  | 0, s => s
  | n + 1, s =>
    let t := restoreBody s
    if t.reg a ≠ t.reg dpl then restoreLoop n t
    else
      let t := mov a r7 t
      if t.reg a ≠ t.reg dph then restoreLoop n t else t

/-- RESTORE_CONTEXT_STEP1, lines 81-95 -/
def restore1 (z : Byte) (s : St) : St :=
  restoreLoop 65536 (run [fun s => { s with sp := z }, pushXDptr, mov r6 a, pushXDptr, mov r7 a] s)

/-- RESTORE_CONTEXT, lines 96-115 -/
def restore (z : Byte) : St → St := run [restore1 z, pops saved.reverse]

/-! ### handlers -/

inductive Kind where
  | tick
  | syscall
  deriving DecidableEq

/-- SysTick_Handler from the interrupted instruction to the call of picoRTOS_tick, lines 139-141 -/
def enterTick (c : Cfg) : St → St :=
  run [call, save1, fun s => { s with reg := c.ack s.reg }, save2 c.z]

/-- from its return, lines 143-144 -/
def leaveTick (c : Cfg) : St → St := run [restore c.z, ret]

/-- the address computation of arch_syscall, lines 239-244, ADD_DPTR of lines 126-133: dptr += sp - (start - 1) -/
def reserve (z : Byte) (s : St) : St :=
  let s := dptrFromSp z s
  let s := set r0 (s.sp - z) s
  setDptr (dptr s + cat 0 (s.reg r0)) s

/-- `mov a, @r0; push a` -/
def pushAt0 : St → St := run [movAt a r0, push a]

/-- arch_syscall from the call instruction of the task to the call of picoRTOS_syscall, lines 236-263 -/
def enterSys (c : Cfg) : St → St :=
  run [call, setEa false, save1, reserve c.z,
    fun s => set r0 (s.sp + 0xef) s, pushAt0, fun s => set r0 (s.reg r0 + 1) s, pushAt0, fun s => set r0 (s.reg r0 + 1) s, pushAt0,
    fun s => set r0 (s.reg r0 + 4) s, pushAt0]

/-- from the return of picoRTOS_syscall to the context of the caller being saved, lines 266-274 -/
def lateSave (c : Cfg) : St → St :=
  run [fun s => { s with sp := s.sp + 0xfc }, mov r5 dpl, mov r6 dph, save2 c.z, mov dpl r5, mov dph r6]

/-- the end of arch_syscall, lines 275-277; also arch_start_first_task, lines 230-232 -/
def leaveSys (c : Cfg) : St → St := run [restore c.z, setEa true, ret]

/-! ### the stack as a list -/

/-- number of bytes on the stack -/
def depth (z : Byte) (s : St) : Nat := (s.sp - z).toNat
/-- the bytes of the stack, topmost first -/
def stk (z : Byte) (s : St) : List Byte := (List.range (depth z s)).map fun i => s.iram (s.sp - BitVec.ofNat 8 i)

/-- where the stack of the running task goes: its first two bytes -/
def base (z : Byte) (s : St) : Addr := cat (s.iram (z + 2)) (s.iram (z + 1))

/-! ### the port

A context in external RAM is known by the two ends of its block (the code keeps the upper one only, the lower one is in the
block).  An address is a pair, of which the second half is not used. -/

/-- registers a task can observe -/
def vis : R → Bool
  | bp => false
  | _ => true

structure Ctx where
  reg : R → Byte
  stack : List Byte
  ea : Bool

def ctx (z : Byte) (s : St) : Ctx := ⟨fun r => if vis r then s.reg r else 0, stk z s, s.ea⟩

/-- The port, as if arch_syscall saved the context of its caller before it calls picoRTOS_syscall: the code does it after
(`lateSave`), see `mcs51_late_save`. -/
def port (c : Cfg) : Pico.Ctx.Port St (Addr × Addr) Byte Ctx Kind where
  mem := fun s x => s.xram x.1
  ctx := ctx c.z
  -- an interrupt is taken with interrupts enabled only, so that this changes nothing for a tick
  resume := fun _ x => { x with ea := true }
  enter := fun k s => match k with
    | .tick => enterTick c s
    | .syscall => run [call, setEa false, save1, save2 c.z] s
  arg := fun s => (base c.z s, dptr s)
  ret := fun s => (cat (s.xram (dptr s - 2)) (s.xram (dptr s - 1)), dptr s)
  leave := fun k => match k with | .tick => leaveTick c | .syscall => leaveSys c
  cok := fun k e => k = .tick → e.ea = true
  frame := fun h x => (x.1 - h.1).toNat < (h.2 - h.1).toNat
  io := fun _ => False
  ksp := fun _ => (0, 0)
  csp := fun _ _ => (0, 0)

/-- The stack of the task holds the address of its block, and has room for the registers. -/
structure Ok (c : Cfg) (s : St) : Prop where
  deep : 2 ≤ depth c.z s
  room : depth c.z s + 19 < 256

/-! ### platform interrupts -/

/-- address of the entry of an interrupt, lines 150-158: `mul ab` leaves the low byte of the product in `a` -/
def entry (c : Cfg) (vn : Byte) : Addr := c.table + cat 0 (vn * 5)

/-- Default_Handler to the first instruction of the function registered, lines 148-185 -/
def isrCall (c : Cfg) (vn : Byte) : St → St :=
  run [call, save1,
    setDptr (entry c vn), movxLd, mov r3 a, incDptr, movxLd, mov r4 a, incDptr,
    movxLd, mov r5 a, incDptr, movxLd, mov r6 a,
    pushv (lo c.back), pushv (hi c.back), push r3, push r4, mov dpl r5, mov dph r6, set b 0, ret]

/-- its return (to `sjmp epilogue`) and the end of Default_Handler, lines 177, 187-188 -/
def isrRet : St → St := run [ret, pops saved.reverse, ret]

/-! ### starting tasks -/

/-- MOVX_DPTRxx, lines 119-123 -/
def movxPut (v : Byte) : St → St := run [set a v, movxSt, incDptr]
def movxPutR (r : R) : St → St := run [mov a r, movxSt, incDptr]

/-- arch_save_first_context, lines 192-226 -/
def first : St → St :=
  run [drop, drop, pop r4, pop r3, drop, pop r2, pop r1,
    movxPut 0, movxPut 7, movxPut 6, movxPut 5, movxPut 4, movxPut 3, movxPut 2, movxPut 1, movxPut 0, movxPut 0,
    movxPutR r2, movxPutR r1, movxPut 65, movxPutR r4, movxPutR r3, movxPutR r6, movxPutR r5,
    fun s => { s with sp := s.sp + 7, reg := upd s.reg a (s.sp + 7) }, ret]

end Pico.Ctx51
