import Verif.Arch.Byte
/-
The STM8 port: arch/stm8/picoRTOS_portasm.S and arch_prepare_stack of arch/stm8/picoRTOS_port.c.
The stack pointer set aside for the kernel is in memory, at `_bsp` (address `b` below, most significant byte first).
The condition codes are one register; the flags that instructions of the handlers set are not modelled (the task's
are saved and restored by the processor).  C follows the calling convention of sdcc in which the first 16-bit
argument is in X, an 8-bit one in A, the rest on the stack and popped by the callee.
-/
namespace Pico.Ctx8.Stm8

inductive R where
  | a | cc | xh | xl | yh | yl | pce | pch | pcl
  deriving DecidableEq

open R

def run : List (St R → St R) → St R → St R
  | [], s => s
  | f :: l, s => run l (f s)

/-- what an interrupt or `trap` stacks, in order (picoRTOS_portasm.S:16-23) -/
def hwRegs : List R := [pcl, pch, pce, yl, yh, xl, xh, a, cc]

/-- entry of an interrupt or trap: I1:I0 = 11, no other interrupt is accepted -/
def trap (s : St R) : St R :=
  let t := pushes hwRegs s
  { t with reg := upd t.reg cc (t.reg cc ||| 0x28) }

/-- `iret` -/
def iret : St R → St R := pops hwRegs.reverse

/-- `ldw x, sp` -/
def ldwXSp (s : St R) : St R := { s with reg := upd (upd s.reg xh (hi s.sp)) xl (lo s.sp) }
/-- `ldw y, m` -/
def ldwYMem (m : Addr) (s : St R) : St R := { s with reg := upd (upd s.reg yh (s.mem m)) yl (s.mem (m + 1)) }
/-- `ldw sp, y` -/
def ldwSpY (s : St R) : St R := { s with sp := cat (s.reg yh) (s.reg yl) }
/-- `ldw m, x` -/
def ldwMemX (m : Addr) (s : St R) : St R := { s with mem := upd (upd s.mem m (s.reg xh)) (m + 1) (s.reg xl) }
/-- `ldw y, x` -/
def ldwYX (s : St R) : St R := { s with reg := upd (upd s.reg yh (s.reg xh)) yl (s.reg xl) }
/-- `addw y, #v` -/
def addwY (v : Addr) (s : St R) : St R :=
  let y := cat (s.reg yh) (s.reg yl) + v
  { s with reg := upd (upd s.reg yh (hi y)) yl (lo y) }
/-- `ld a, (y)` -/
def ldAY (s : St R) : St R := { s with reg := upd s.reg a (s.mem (cat (s.reg yh) (s.reg yl))) }
/-- `rcf` -/
def rcf (s : St R) : St R := { s with reg := upd s.reg cc (s.reg cc &&& 0xfe) }

/-- SWAP_STACK, picoRTOS_portasm.S:9-14 -/
def swap (b : Addr) : St R → St R := run [ldwXSp, ldwYMem b, ldwSpY, ldwMemX b]

inductive Kind where
  | tick
  | syscall
  deriving DecidableEq

/-- the address of the auto-wakeup unit, mach-stm8s/picoRTOS_device.h:34 -/
def awu : Addr := 0x50f0

/-- From the interrupted instruction to the call of C, before the stack argument of picoRTOS_syscall is pushed (it is
in Y).  Trap_Handler, picoRTOS_portasm.S:38-45; Awu_Handler, lines 54-58 (`ldw y, ADDR_AWU` reads the status register;
that this acknowledges the timer is not modelled). -/
def enter (b : Addr) (k : Kind) (s : St R) : St R :=
  match k with
  | .syscall => run [trap, swap b, rcf, ldwYX, addwY 12] s
  | .tick => run [trap, swap b, rcf, ldwYMem awu, ldAY] s

/-- From the return of C: picoRTOS_portasm.S:48-50, 60-62 -/
def leave (b : Addr) (_ : Kind) (e : St R) : St R := run [ldwMemX b, swap b, iret] e

/-- number of bytes of a saved context -/
def size : Nat := 9

def port (b : Addr) : Pico.Ctx.Port (St R) Addr Byte ((R → Byte) × Addr) Kind where
  mem := St.mem
  ctx := fun x => (fun r => if true = true then x.reg r else 0, x.sp)
  resume := fun _ x => x
  enter := enter b
  arg := fun x => cat (x.reg xh) (x.reg xl)
  ret := fun x => cat (x.reg xh) (x.reg xl)
  leave := leave b
  cok := fun _ _ => True
  frame := fun h x => (x - h + (-1#16)).toNat < (9#16).toNat
  io := fun x => x = b ∨ x = b + 1
  ksp := fun x => cat (x.mem b) (x.mem (b + 1))
  csp := fun _ x => x.sp

/-- the task's stack is not about to run into `_bsp` -/
def Ok (b : Addr) (s : St R) : Prop := ¬ (s.sp - b).toNat < size ∧ ¬ (s.sp - (b + 1)).toNat < size

/-! ### Interrupts -/

/-- `sll a` twice, `push a`, `push #0`, `ldw x, #_ISR_TABLE`, `addw x, (1, sp)`, `addw sp, #2`
(picoRTOS_portasm.S:67-73): the two bytes pushed stay below the stack pointer -/
def index (table : Addr) (s : St R) : St R :=
  let v := s.reg a <<< 2
  let m := upd (upd s.mem s.sp v) (s.sp - 1) 0
  let x := table + cat (m (s.sp - 1)) (m s.sp)
  { s with mem := m, reg := upd (upd (upd s.reg a v) xh (hi x)) xl (lo x) }

/-- `ldw y, x; ldw y, (y)` -/
def ldwYY (s : St R) : St R :=
  let y := cat (s.reg yh) (s.reg yl)
  { s with reg := upd (upd s.reg yh (s.mem y)) yl (s.mem (y + 1)) }
/-- `incw x; incw x; ldw x, (x)` -/
def ldwXX2 (s : St R) : St R :=
  let x := cat (s.reg xh) (s.reg xl) + 2
  { s with reg := upd (upd s.reg xh (s.mem x)) xl (s.mem (x + 1)) }

/-- `call (y)`, to the first instruction of the function: the return address `r` is pushed, low byte first -/
def callY (r : Addr) : St R → St R := run [pushvs [lo r, hi r], mv pch yh, mv pcl yl, li pce 0]

/-- Interrupt `irq`: its vector (`ld a, #irq; jp Default_Handler`, include/macros.S:37-42), Default_Handler up to the
call of the function registered (picoRTOS_portasm.S:65-83), `none` if there is none (lines 88-91: the handler stays in
a `break` loop).  `epilogue` is the return address. -/
def isrCall (b table epilogue : Addr) (irq : Byte) (s : St R) : Option (St R) :=
  let t := run [trap, li a irq, swap b, rcf, index table, ldwYX, ldwYY, ldwXX2] s
  if t.reg yh = 0 ∧ t.reg yl = 0 then none else some (callY epilogue t)

/-- the function returns (`ret`) and, if this leads to `epilogue`, the end of Default_Handler
(picoRTOS_portasm.S:84-86) -/
def isrRet (b epilogue : Addr) (e : St R) : St R :=
  let t := pops [pch, pcl] e
  if cat (t.reg pch) (t.reg pcl) = epilogue then run [swap b, iret] t else t

/-! ### Starting tasks -/

/-- arch_prepare_stack, picoRTOS_port.c:45-66: the new memory and the stack pointer returned -/
def prepare (stack : Addr) (count : Nat) (fn priv : Addr) (m : Addr → Byte) : (Addr → Byte) × Addr :=
  let sp := stack + (BitVec.ofNat 16 count - 10)
  let m := upd m sp 0
  let m := upd m (sp + 1) 0
  let m := upd m (sp + 2) (hi priv)
  let m := upd m (sp + 3) (lo priv)
  let m := upd m (sp + 4) 0
  let m := upd m (sp + 5) 0
  let m := upd m (sp + 6) 0
  let m := upd m (sp + 7) (hi fn)
  let m := upd m (sp + 8) (lo fn)
  (m, sp - 1)

/-- arch_start_first_task, picoRTOS_portasm.S:117-122 -/
def start (b : Addr) : St R → St R := run [ldwMemX b, swap b, iret]

end Pico.Ctx8.Stm8
