import Verif.Arch.Byte
/-
The AVR port: arch/avr/picoRTOS_portasm.S, the tick handlers of arch/avr/timer-tc0.c and timer-rtc.c.
Registers are bytes; `pcl pch pce` are the bytes of the program counter (pce on devices with more than 128 KiB
of flash only, `Cfg.pc3`), `gp1 gp2` the I/O registers GPIOR1 and GPIOR2.  Instruction timing, the flags and the
I/O space besides SP, SREG and GPIORn are not modelled.
-/
namespace Pico.Ctx8.Avr

inductive R where
  | g (i : Fin 32)
  | sreg | pcl | pch | pce | gp1 | gp2
  deriving DecidableEq

open R

/-- what depends on the device and on the linker -/
structure Cfg where
  /-- `__AVR_3_BYTE_PC__` -/
  pc3 : Bool
  /-- address of the entry of the tick interrupt in ISR_TABLE -/
  entry : Addr
  /-- address of the function registered there, arch_TIMER0_COMPA or arch_RTC_CNT -/
  timer : Addr
  /-- return address of the `icall` of vector_isr_handler -/
  el : Byte
  eh : Byte
  ee : Byte
  /-- RTC interrupt flags, acknowledged by arch_RTC_CNT (timer-rtc.c:22-23); none for TC0 -/
  ack : Option Addr

/-- bytes of a return address, in push order: low byte first -/
def pcRegs (c : Cfg) : List R := if c.pc3 = true then [pcl, pch, pce] else [pcl, pch]

def run : List (St R → St R) → St R → St R
  | [], s => s
  | f :: l, s => run l (f s)

def inSph (d : R) (s : St R) : St R := { s with reg := upd s.reg d (hi s.sp) }
def inSpl (d : R) (s : St R) : St R := { s with reg := upd s.reg d (lo s.sp) }
def outSph (r : R) (s : St R) : St R := { s with sp := cat (s.reg r) (lo s.sp) }
def outSpl (r : R) (s : St R) : St R := { s with sp := cat (hi s.sp) (s.reg r) }
/-- `ldd d, Y+q` -/
def lddY (d : R) (q : Addr) (s : St R) : St R :=
  { s with reg := upd s.reg d (s.mem (cat (s.reg (g 29)) (s.reg (g 28)) + q)) }
/-- global interrupt flag of SREG -/
def cli (s : St R) : St R := { s with reg := upd s.reg sreg (s.reg sreg &&& 0x7f) }
def sei (s : St R) : St R := { s with reg := upd s.reg sreg (s.reg sreg ||| 0x80) }

/-- SWAP_STACK, picoRTOS_portasm.S:10-19 -/
def swap : St R → St R := run [mv (g 23) gp2, mv (g 22) gp1, inSph (g 25), inSpl (g 24), mv gp2 (g 25), mv gp1 (g 24),
  outSph (g 23), outSpl (g 22)]

/-- SAVE_CONTEXT_IRQ_STEP1, picoRTOS_portasm.S:21-24 -/
def step1 : St R → St R := pushes [g 28, g 29]

/-- the registers pushed by SAVE_CONTEXT_IRQ_STEP2 once r0 holds SREG, picoRTOS_portasm.S:29-58 -/
def step2Regs : List R := [g 0, g 1, g 2, g 3, g 4, g 5, g 6, g 7, g 8, g 9, g 10, g 11, g 12, g 13, g 14, g 15, g 16, g 17,
  g 18, g 19, g 20, g 21, g 22, g 23, g 24, g 25, g 26, g 27, g 30, g 31]

/-- SAVE_CONTEXT_IRQ_STEP2 before SWAP_STACK, picoRTOS_portasm.S:26-58 -/
def step2 : St R → St R := run [pushes [g 0], mv (g 0) sreg, pushes step2Regs]

/-- the pops of RESTORE_CONTEXT up to `pop r0`, picoRTOS_portasm.S:69-98 -/
def restRegs : List R := [g 31, g 30, g 27, g 26, g 25, g 24, g 23, g 22, g 21, g 20, g 19, g 18, g 17, g 16, g 15, g 14,
  g 13, g 12, g 11, g 10, g 9, g 8, g 7, g 6, g 5, g 4, g 3, g 2, g 1, g 0]

/-- RESTORE_CONTEXT after SWAP_STACK, picoRTOS_portasm.S:69-103, and `reti` -/
def restore (c : Cfg) : St R → St R :=
  run [pops restRegs, mv sreg (g 0), pops ([g 0, g 29, g 28] ++ (pcRegs c).reverse), sei]

inductive Kind where
  | tick
  | syscall
  deriving DecidableEq

/-- a call pushes the return address on the current stack -/
def callE (c : Cfg) : St R → St R := pushvs (if c.pc3 = true then [c.el, c.eh, c.ee] else [c.el, c.eh])

/-- acknowledge the timer, timer-rtc.c:22-23; nothing in timer-tc0.c -/
def ackTimer (c : Cfg) (s : St R) : St R :=
  match c.ack with
  | some a => { reg := upd s.reg (g 24) 1, sp := s.sp, mem := upd s.mem a 1 }
  | none => s

/-- the two loads of a vector, picoRTOS_portasm.S:207-208 -/
def ldi (entry : Addr) (x : St R) : St R := li (g 29) (hi entry) (li (g 28) (lo entry) x)

/-- An interrupt whose entry in ISR_TABLE is at address `entry`: the hardware pushes the program counter and clears
I; vector (picoRTOS_portasm.S:206-209), then vector_isr_handler up to the first instruction of the function found
(lines 182-188). -/
def isrCall (c : Cfg) (entry : Addr) (s : St R) : St R :=
  run [pushes (pcRegs c), cli, step1, ldi entry, step2, swap,
    lddY (g 30) 0, lddY (g 31) 1, lddY (g 24) 2, lddY (g 25) 3, callE c] s

/-- From the instruction at which the task is interrupted to the call of C.
* `syscall`: `call arch_syscall` (the return address is pushed), then picoRTOS_portasm.S:149-169.
* `tick`: the tick interrupt and, if it is the function found in the table, the timer handler
  (timer-tc0.c:24-27, timer-rtc.c:22-28). -/
def enter (c : Cfg) (k : Kind) (s : St R) : St R :=
  match k with
  | .syscall => run [pushes (pcRegs c), cli, step1, step2, swap, mv (g 29) gp2, mv (g 28) gp1,
      lddY (g 21) 7, lddY (g 20) 8, lddY (g 23) 5, lddY (g 22) 6, mv (g 25) (g 29), mv (g 24) (g 28)] s
  | .tick =>
    let t := isrCall c c.entry s
    if cat (t.reg (g 31)) (t.reg (g 30)) = c.timer then run [ackTimer c, mv (g 25) gp2, mv (g 24) gp1] t else t

/-- `ret` to the caller of `icall`, then the end of vector_isr_handler; control is lost if the return address was
not that one -/
def retE (c : Cfg) (s : St R) : St R :=
  let t := pops (pcRegs c).reverse s
  if t.reg pcl = c.el ∧ t.reg pch = c.eh ∧ (c.pc3 = true → t.reg pce = c.ee) then run [swap, restore c] t else t

/-- From the return of C to the task.  `syscall`: picoRTOS_portasm.S:170-173; `tick`: timer-tc0.c:29-31
(timer-rtc.c:30-32), picoRTOS_portasm.S:189-190. -/
def leave (c : Cfg) (k : Kind) (e : St R) : St R :=
  match k with
  | .syscall => run [mv gp2 (g 25), mv gp1 (g 24), swap, restore c] e
  | .tick => run [mv gp2 (g 25), mv gp1 (g 24), retE c] e

/-- registers a task can observe: GPIOR1 and GPIOR2 belong to the port (picoRTOS_portasm.S:4-5) -/
def vis (c : Cfg) : R → Bool
  | gp1 | gp2 => false
  | pce => c.pc3
  | _ => true

/-- number of bytes of a saved context -/
def size (c : Cfg) : Nat := if c.pc3 = true then 36 else 35

/-- length of a return address -/
def pcSize (c : Cfg) : Addr := if c.pc3 = true then 3 else 2

/-- The tick and system call handlers as a `Port`.  `kst` is the kernel's stack. -/
def port (c : Cfg) (kst : Addr → Prop) : Pico.Ctx.Port (St R) Addr Byte ((R → Byte) × Addr) Kind where
  mem := St.mem
  ctx := fun x => (fun r => if vis c r = true then x.reg r else 0, x.sp)
  resume := fun _ x => (upd x.1 sreg (x.1 sreg ||| 0x80), x.2)
  enter := enter c
  arg := fun x => cat (x.reg (g 25)) (x.reg (g 24))
  ret := fun x => cat (x.reg (g 25)) (x.reg (g 24))
  leave := leave c
  cok := fun k e => k = .tick → e.mem (e.sp + pcSize c) = c.el ∧ e.mem (e.sp + pcSize c - 1) = c.eh ∧
    (c.pc3 = true → e.mem (e.sp + 1) = c.ee)
  frame := fun h a => (a - h + (-1#16)).toNat < (BitVec.ofNat 16 (size c)).toNat
  io := fun a => kst a ∨ c.ack = some a
  ksp := fun x => cat (x.reg gp2) (x.reg gp1)
  csp := fun k x => if k = .tick then x.sp + pcSize c else x.sp

/-- What a task may assume of the port: the timer handler is registered, its entry in the table is not on the
task's stack, and the kernel's stack has room for a return address. -/
structure Ok (c : Cfg) (kst : Addr → Prop) (s : St R) : Prop where
  el : s.mem c.entry = lo c.timer
  eh : s.mem (c.entry + 1) = hi c.timer
  out : ∀ i : Nat, i < 4 → ¬ (s.sp - (c.entry + BitVec.ofNat 16 i)).toNat < size c
  room : ∀ i : Nat, i < 3 → kst (cat (s.reg gp2) (s.reg gp1) - BitVec.ofNat 16 i)

end Pico.Ctx8.Avr
