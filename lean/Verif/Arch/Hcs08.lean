import Verif.Arch.Byte
/-
The HCS08 port: arch/hcs08/picoRTOS_portasm.S and the tick handlers of mach-mc9s08ptxx/timer-rtc.c, timer-mtim1.c.
`_bhx` (address `c.b`, most significant byte first) holds the address just above the stack pointer set aside.  C
follows sdcc's convention: first 16-bit argument in X:A, first 8-bit one in A, the rest on the stack, cleaned up by the
caller.  The flags set by instructions of the handlers are not modelled, save the carry of the address computation
(taken as a 16-bit addition); the task's are saved and restored by the processor.
-/
namespace Pico.Ctx8.Hcs08

inductive R where
  | a | ccr | h | x | pch | pcl
  deriving DecidableEq

open R

structure Cfg where
  /-- `_bhx` -/
  b : Addr
  /-- `_ISR_TABLE` -/
  table : Addr
  /-- the interrupt of the tick, IRQ_RTC or IRQ_MTIM1 -/
  irq : Byte
  /-- address of arch_timer_isr -/
  timer : Addr
  /-- return address of `bsr fn_priv`: the `bra epilogue` -/
  back : Addr
  /-- register in which arch_timer_isr acknowledges the timer, RTC_SC1 or MTIM1_SC, and what it writes there -/
  dev : Addr
  ack : Byte → Byte

def run : List (St R → St R) → St R → St R
  | [], s => s
  | f :: l, s => run l (f s)

/-- what an interrupt or `swi` stacks (picoRTOS_portasm.S:23-28) -/
def hwRegs : List R := [pcl, pch, x, a, ccr]

/-- entry of an interrupt or of `swi`: the I bit masks interrupts -/
def trap (s : St R) : St R :=
  let t := pushes hwRegs s
  { t with reg := upd t.reg ccr (t.reg ccr ||| 0x08) }

/-- `rti` -/
def rti : St R → St R := pops hwRegs.reverse

def hx (s : St R) : Addr := cat (s.reg h) (s.reg x)
def setHx (v : Addr) (s : St R) : St R := { s with reg := upd (upd s.reg h (hi v)) x (lo v) }
/-- `ldhx m` -/
def ldhx (m : Addr) (s : St R) : St R := { s with reg := upd (upd s.reg h (s.mem m)) x (s.mem (m + 1)) }
/-- `ldhx ,x` -/
def ldhxX (s : St R) : St R := ldhx (hx s) s
/-- `sthx m` -/
def sthx (m : Addr) (s : St R) : St R := { s with mem := upd (upd s.mem m (s.reg h)) (m + 1) (s.reg x) }
def tsx (s : St R) : St R := setHx (s.sp + 1) s
def txs (s : St R) : St R := { s with sp := hx s - 1 }
def aix (v : Addr) (s : St R) : St R := setHx (hx s + v) s
def ais (v : Addr) (s : St R) : St R := { s with sp := s.sp + v }
/-- `lda n,x` -/
def ldaX (n : Addr) (s : St R) : St R := { s with reg := upd s.reg a (s.mem (hx s + n)) }
/-- `ldx n,x` -/
def ldxX (n : Addr) (s : St R) : St R := { s with reg := upd s.reg x (s.mem (hx s + n)) }
/-- `lda n,s` -/
def ldaS (n : Addr) (s : St R) : St R := { s with reg := upd s.reg a (s.mem (s.sp + n)) }
/-- `sta n,x` -/
def staX (n : Addr) (s : St R) : St R := { s with mem := upd s.mem (hx s + n) (s.reg a) }

/-- SWAP_STACK, picoRTOS_portasm.S:9-19 -/
def swap (b : Addr) : St R → St R := run [ldhx b, push h, push x, tsx, aix 2, sthx b, pop x, pop h, txs]
/-- HX_TO_XA, lines 39-43 -/
def hxToXa : St R → St R := run [mv a x, push h, pop x]
/-- XA_TO_HX, lines 45-49 -/
def xaToHx : St R → St R := run [push x, pop h, mv x a]

/-- SAVE_CONTEXT after the hardware, lines 29-32 (the `clc` is not modelled) -/
def save (b : Addr) : St R → St R := run [push h, swap b]
/-- RESTORE_CONTEXT, lines 34-37, and `rti` -/
def restore (b : Addr) : St R → St R := run [swap b, pop h, rti]

inductive Kind where
  | tick
  | syscall
  deriving DecidableEq

/-- `lsla; lsla; add #_ISR_TABLE; tax; clra; adc #>_ISR_TABLE; psha; pulh`, lines 78-86: H:X = table + 4 * A -/
def index (table : Addr) (s : St R) : St R :=
  let v := table + cat 0 (s.reg a <<< 2)
  { reg := upd (upd (upd s.reg a (hi v)) h (hi v)) x (lo v), sp := s.sp, mem := upd s.mem s.sp (hi v) }

/-- `fn_priv`, lines 98-104, to the first instruction of the function: its address is pushed, then taken by `rts` -/
def fnPriv : St R → St R := run [ldaX 1, push a, ldaX 0, push a, ldaX 3, ldxX 2, pops [pch, pcl]]

/-- Default_Handler up to the test for null, lines 76-90 -/
def lookup (c : Cfg) (irq : Byte) (s : St R) : St R := run [trap, li a irq, save c.b, index c.table, push x, push h, ldhxX] s

/-- Interrupt `irq`: its vector (`lda #irq; jmp Default_Handler`, include/macros.S:40-45), then Default_Handler up to the
first instruction of the function registered; `none` if there is none (lines 110-114: the handler stays in a `bgnd`
loop). -/
def isrCall (c : Cfg) (irq : Byte) (s : St R) : Option (St R) :=
  let t := lookup c irq s
  if hx t = 0 then none else some (run [pop h, pop x, pushvs [lo c.back, hi c.back], fnPriv] t)

/-- acknowledge the timer: timer-rtc.c:30, timer-mtim1.c:29 -/
def ackTimer (c : Cfg) (s : St R) : St R := { s with mem := upd s.mem c.dev (c.ack (s.mem c.dev)) }

/-- From the interrupted instruction to the call of C.  `syscall`: Vswi_Handler, lines 54-65; `tick`: the tick interrupt
and, if it is the function registered, arch_timer_isr (timer-rtc.c:30-36; the frame that the compiler may give it is
not modelled). -/
def enter (c : Cfg) (k : Kind) (s : St R) : St R :=
  match k with
  | .syscall => run [trap, save c.b, push a, ldhx c.b, ldaX 9, push a, ldaX 8, push a, ldaS 3, push a, hxToXa] s
  | .tick =>
    match isrCall c c.irq s with
    | none => s
    | some t => if cat (t.reg pch) (t.reg pcl) = c.timer then run [ackTimer c, ldhx c.b, hxToXa] t else t

/-- the function returns and, if this leads to `bra epilogue`, the end of Default_Handler, lines 97, 105-107 -/
def isrRet (c : Cfg) (e : St R) : St R :=
  let t := pops [pch, pcl] e
  if cat (t.reg pch) (t.reg pcl) = c.back then restore c.b t else t

/-- From the return of C.  `syscall`: lines 66-70; `tick`: timer-rtc.c:37-40, then `rts`. -/
def leave (c : Cfg) (k : Kind) (e : St R) : St R :=
  match k with
  | .syscall => run [ais 4, xaToHx, sthx c.b, restore c.b] e
  | .tick => run [xaToHx, sthx c.b, isrRet c] e

/-- the stack pointer of C's caller, before what it pushes for C -/
def csp (k : Kind) (e : St R) : Addr := match k with | .syscall => e.sp + 4 | .tick => e.sp + 2

/-- the stack set aside for the kernel -/
def ksp (c : Cfg) (s : St R) : Addr := cat (s.mem c.b) (s.mem (c.b + 1)) - 1

/-- the `n` bytes from `p` down are the kernel's, and `_bhx` is not there -/
def Room (c : Cfg) (kst : Addr → Prop) (p : Addr) (n : Nat) : Prop :=
  (∀ y, (p - y).toNat < n → kst y) ∧ ¬ (p - c.b).toNat < n ∧ ¬ (p - (c.b + 1)).toNat < n

/-- The tick and system call handlers as a `Port`.  `kst` is the kernel's stack. -/
def port (c : Cfg) (kst : Addr → Prop) : Pico.Ctx.Port (St R) Addr Byte ((R → Byte) × Addr) Kind where
  mem := St.mem
  ctx := fun s => (fun r => if true = true then s.reg r else 0, s.sp)
  resume := fun _ s => s
  enter := enter c
  arg := fun s => cat (s.reg x) (s.reg a)
  ret := fun s => cat (s.reg x) (s.reg a)
  leave := leave c
  cok := fun k e => Room c kst (csp k e) 3 ∧
    (k = .tick → e.mem (e.sp + 2) = lo c.back ∧ e.mem (e.sp + 1) = hi c.back)
  frame := fun p y => (y - p + 2#16).toNat < (8#16).toNat
  io := fun y => kst y ∨ y = c.b ∨ y = c.b + 1 ∨ y = c.dev
  ksp := ksp c
  csp := csp

/-- address of the entry of an interrupt in the table -/
def entry (c : Cfg) (irq : Byte) : Addr := c.table + BitVec.ofNat 16 (4 * irq.toNat)

/-- The entry of the table is neither on the task's stack nor on the top of the kernel's, nor is it `_bhx`. -/
structure IsrOk (c : Cfg) (kst : Addr → Prop) (irq : Byte) (s : St R) : Prop where
  /-- the task's stack is not about to run into `_bhx` -/
  b : ¬ (s.sp - c.b).toNat < 8 ∧ ¬ (s.sp - (c.b + 1)).toNat < 8
  room : Room c kst (ksp c s) 5
  small : irq.toNat < 64
  out : ∀ i : Nat, i < 4 → let y := entry c irq + BitVec.ofNat 16 i
    ¬ (s.sp - y).toNat < 8 ∧ y ≠ c.b ∧ y ≠ c.b + 1 ∧ ¬ (ksp c s - y).toNat < 5

/-- What a task may assume of the port: arch_timer_isr is registered for the tick. -/
structure Ok (c : Cfg) (kst : Addr → Prop) (s : St R) : Prop where
  isr : IsrOk c kst c.irq s
  eh : s.mem (entry c c.irq) = hi c.timer
  el : s.mem (entry c c.irq + 1) = lo c.timer
  nz : c.timer ≠ 0
  dev : c.dev ≠ c.b ∧ c.dev ≠ c.b + 1

/-! ### Starting tasks -/

/-- arch_save_first_context(sp in X:A, fn and priv on the stack), lines 116-138 -/
def first : St R → St R := run [xaToHx, aix (-6), li a 0, staX 0, staX 1, ldaS 6, staX 2, ldaS 5, staX 3, ldaS 3, staX 4,
  ldaS 4, staX 5, hxToXa]

/-- arch_start_first_task, lines 140-146 -/
def start (c : Cfg) : St R → St R := run [xaToHx, sthx c.b, restore c.b]

end Pico.Ctx8.Hcs08
