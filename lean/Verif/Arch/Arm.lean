import Verif.Arch.WordPort
/-
Context switch of the Cortex-M ports, from arch/arm/armv6-m/picoRTOS_portasm.S (`v6`),
arch/arm/armv7-m/picoRTOS_portasm.S (`v7`), arch/arm/armv7e-m/picoRTOS_portasm.S (`v7e`, with the floating
point registers) and the tick handler of arch/arm/armv6-m/mach-rp2040/picoRTOS-SMP_portasm.S.

Half of the context is stacked by the processor itself: `hwPush` and `hwPop` model what the Architecture
Reference Manuals call PushStack and PopStack (ExceptionEntry, ExceptionReturn), without lazy floating
point stacking (FPCCR.LSPEN is cleared, arch/arm/include/macros.S:63-66).  Multiple-register instructions
are written as the sequence of their word transfers.  The exclusive monitor (`clrex`) is not part of this
model; tick, system call and platform interrupts all have the same priority (picoRTOS_port.c:41-43), so
handlers do not nest.
-/
namespace Pico.Ctx.Arm
open Pico.Ctx

/-- `psp`, `msp`: stack pointers of the tasks and of the kernel; `fx` is the xPSR as stacked; `fpca`,
`spsel` are bits of CONTROL -/
inductive R where
  | r0 | r1 | r2 | r3 | r4 | r5 | r6 | r7 | r8 | r9 | r10 | r11 | r12 | lr | pc | xpsr | psp | msp
  | fx | fpca | spsel | primask
  | s0 | s1 | s2 | s3 | s4 | s5 | s6 | s7 | s8 | s9 | s10 | s11 | s12 | s13 | s14 | s15
  | s16 | s17 | s18 | s19 | s20 | s21 | s22 | s23 | s24 | s25 | s26 | s27 | s28 | s29 | s30 | s31 | fpscr
  deriving DecidableEq

open R

inductive Var where
  | v6 | v7 | v7e
  deriving DecidableEq

/-- `tick`: SysTick; `svc`: system call; `pwm`: the tick of the rp2040 -/
inductive Kind where
  | tick | svc | pwm
  deriving DecidableEq

/-! ### The processor -/

/-- the basic frame -/
def hwBasic : List (R × W) :=
  [(r0, 0), (r1, 4), (r2, 8), (r3, 12), (r12, 16), (lr, 20), (pc, 24), (fx, 28)]
/-- what the extended frame adds (its last word, at 100, is reserved) -/
def hwFp : List (R × W) :=
  [(s0, 32), (s1, 36), (s2, 40), (s3, 44), (s4, 48), (s5, 52), (s6, 56), (s7, 60), (s8, 64), (s9, 68), (s10, 72),
   (s11, 76), (s12, 80), (s13, 84), (s14, 88), (s15, 92), (fpscr, 96)]
/-- what the processor stacks -/
def hwSaved (fp : Bool) : List (R × W) := hwBasic ++ (if fp = true then hwFp else [])
/-- size of what the processor stacks -/
def hwSize (fp : Bool) : W := if fp = true then 104 else 32

/-- EXC_RETURN: to thread mode, on the task's stack, with a basic or an extended frame -/
def excRet (fp : Bool) : W := if fp = true then 0xffffffed else 0xfffffffd

/-- exception entry from a task: `exc` is the exception number, `ra` the return address; `fa` is
CCR.STKALIGN (always set on armv6-m): the frame is put at a multiple of 8, and bit 9 of the stacked xPSR
remembers that a word was skipped -/
def hwPush (fp fa : Bool) (exc ra : W) (x : St R) : St R :=
  let p := x.reg psp - hwSize fp
  let p8 := if fa = true then p &&& ~~~4#32 else p
  let q := (x.reg xpsr &&& ~~~0x200#32) ||| (if fa = true ∧ (x.reg psp).getLsbD 2 = true then 0x200#32 else 0#32)
  let z := run (sws psp (hwSaved fp)) { x with reg := upd (upd (upd x.reg pc ra) fx q) psp p8 }
  { z with reg := upd (upd (upd z.reg lr (excRet fp)) xpsr exc) pc 0 }

/-- exception return to a task -/
def hwPop (fp fa : Bool) (x : St R) : St R :=
  let z := run (lws psp (hwSaved fp)) x
  let p := z.reg psp + hwSize fp
  { z with reg := upd (upd (upd (upd z.reg psp (if fa = true ∧ (z.reg fx).getLsbD 9 = true then p ||| 4#32 else p))
    xpsr (z.reg fx &&& ~~~0x200#32)) pc (z.reg pc &&& ~~~1#32)) fpca (if fp = true then 1 else 0) }

/-- `pop {pc}` in a handler: a value of EXC_RETURN triggers the exception return, anything else is a
fault (nothing more happens in this model) -/
def popExc (fa : Bool) (x : St R) : St R :=
  let v := x.mem (x.reg msp)
  let y : St R := { x with reg := upd x.reg msp (x.reg msp + 4) }
  if v = excRet true then hwPop true fa y else if v = excRet false then hwPop false fa y else y

/-! ### The code -/

/-- r4-r11, as stored by `stmdb` -/
def high8 : List (R × W) :=
  [(r4, 0), (r5, 4), (r6, 8), (r7, 12), (r8, 16), (r9, 20), (r10, 24), (r11, 28)]
/-- s16-s31, as stored by `vstmdb` -/
def fpHigh : List (R × W) :=
  [(s16, 0), (s17, 4), (s18, 8), (s19, 12), (s20, 16), (s21, 20), (s22, 24), (s23, 28), (s24, 32), (s25, 36),
   (s26, 40), (s27, 44), (s28, 48), (s29, 52), (s30, 56), (s31, 60)]
/-- r4-r7, as stored by `stmia` -/
def low4 : List (R × W) := [(r4, 0), (r5, 4), (r6, 8), (r7, 12)]

/-- SAVE_CONTEXT r0: armv6-m/picoRTOS_portasm.S:7-18, armv7-m:7-11, armv7e-m:7-12 -/
def save : Var → List (Op R)
  | .v6 => [.mv r0 psp, .addi r0 r0 (-16)] ++ (sws r0 low4 ++ ([.addi r0 r0 16, .mv r4 r8, .mv r5 r9, .mv r6 r10,
      .mv r7 r11, .addi r0 r0 (-32)] ++ (sws r0 low4 ++ [.addi r0 r0 16, .addi r0 r0 (-16)])))
  | .v7 => [.mv r0 psp, .addi r0 r0 (-32)] ++ sws r0 high8
  | .v7e => [.mv r0 psp, .addi r0 r0 (-32)] ++ (sws r0 high8 ++ (.addi r0 r0 (-64) :: sws r0 fpHigh))

/-- RESTORE_CONTEXT r0: armv6-m/picoRTOS_portasm.S:20-28, armv7-m:13-16, armv7e-m:14-18 -/
def restore : Var → List (Op R)
  | .v6 => lws r0 low4 ++ ([.addi r0 r0 16, .mv r8 r4, .mv r9 r5, .mv r10 r6, .mv r11 r7] ++ (lws r0 low4 ++
      [.addi r0 r0 16, .mv psp r0]))
  | .v7 => lws r0 high8 ++ [.addi r0 r0 32, .mv psp r0]
  | .v7e => lws r0 fpHigh ++ (.addi r0 r0 64 :: (lws r0 high8 ++ [.addi r0 r0 32, .mv psp r0]))

/-- `push {lr}` on the kernel's stack -/
def pushLr : List (Op R) := [.addi msp msp (-4), .sw lr msp 0]

/-- the processor has floating point registers -/
def isFp : Var → Bool
  | .v7e => true
  | _ => false

/-- does the processor stack an extended frame? -/
def fpFrame (v : Var) (x : St R) : Bool := isFp v && x.reg fpca == 1#32

/-- SysTick_Handler (armv6-m:94-96, armv7-m:76-78, armv7e-m:85-87), SVC_Handler (armv6-m:104-108,
armv7-m:86-90, armv7e-m:95-99), PwmWrap_Handler (mach-rp2040/picoRTOS-SMP_portasm.S:64-71, `intr` is the
address of PWM_INTR): up to the call of the scheduler.  `svc` is 2 bytes long. -/
def enter (v : Var) (fa : Bool) (intr : W) : Kind → St R → St R
  | .tick, x => run (pushLr ++ save v) (hwPush (fpFrame v x) fa 15 (x.reg pc) x)
  | .svc, x => run ((pushLr ++ save v) ++ (match v with
      | .v7e => [.lw r1 r0 96, .lw r2 r0 100]
      | _ => [.lw r1 r0 32, .lw r2 r0 36])) (hwPush (fpFrame v x) fa 11 (x.reg pc + 2) x)
  | .pwm, x => run ((pushLr ++ save v) ++ [.li r2 intr, .li r3 128, .sw r3 r2 0])
      (hwPush (fpFrame v x) fa 20 (x.reg pc) x)

/-- the same handlers, from the return of the scheduler (armv6-m:98-99, 110-111, armv7-m:80-81, 92-93,
armv7e-m:89-90, 101-102, mach-rp2040:74-75) -/
def leave (v : Var) (fa : Bool) (_ : Kind) (x : St R) : St R := popExc fa (run (restore v) x)

/-- what a task can see of the processor -/
def visible (v : Var) : R → Bool
  | r0 | r1 | r2 | r3 | r4 | r5 | r6 | r7 | r8 | r9 | r10 | r11 | r12 | lr | pc | xpsr | psp => true
  | msp | fx | fpca | spsel | primask => false
  | _ => isFp v

/-- size of the part of the frame that the code saves -/
def softSize : Var → W
  | .v7e => 96
  | _ => 32

/-- size of the frame -/
def size : Var → W
  | .v7e => 200
  | _ => 64

/-- the Cortex-M ports; `kst` says which words are the kernel's stack.  The C code runs one word below the
kernel's stack pointer, under the EXC_RETURN of the handler. -/
def port (v : Var) (fa : Bool) (intr : W) (kst : W → Prop) : Port (St R) W W (R → W) Kind where
  mem := St.mem
  ctx := fun x r => if visible v r = true then x.reg r else 0
  resume := fun
    | .svc, c => upd c pc (c pc + 2)
    | _, c => c
  enter := enter v fa intr
  arg := fun x => x.reg r0
  ret := fun x => x.reg r0
  leave := leave v fa
  cok := fun _ e => e.mem (e.reg msp) = excRet (isFp v)
  frame := fun h a => (a - h).toNat < (size v).toNat
  io := fun a => kst a ∨ a = intr
  ksp := fun x => x.reg msp
  csp := fun _ x => x.reg msp + 4

/-- the states a task is interrupted in: the kernel's stack pointer is in the kernel's stack, instructions
are at even addresses, bit 9 of xPSR (reserved) is 0, and on armv7e-m the floating point context is active -/
def Ok (v : Var) (kst : W → Prop) (x : St R) : Prop :=
  kst (x.reg msp - 4) ∧ (x.reg pc).getLsbD 0 = false ∧ (x.reg xpsr).getLsbD 9 = false ∧
  (v = .v7e → x.reg fpca = 1)

/-! ### Starting -/

/-- arch_save_first_context: armv6-m/picoRTOS_portasm.S:36-53, armv7-m:24-38, armv7e-m:26-42.  `r0` = top
of stack, `r1` = fn, `r2` = priv; the stack in use is the kernel's (CONTROL.SPSEL = 0 before the first
task).  The function returns by popping `lr` into `pc`. -/
def first : Var → List (Op R)
  | .v6 => [.addi msp msp (-20)] ++ (sws msp [(r4, 0), (r5, 4), (r6, 8), (r7, 12), (lr, 16)] ++
      ([.addi r0 r0 (-32), .mv r4 r2, .li r5 0, .li r6 0, .li r7 0] ++ (sws r0 low4 ++
      ([.addi r0 r0 16, .mv r4 r12, .mv r5 lr, .mv r6 r1, .li r7 0x1000000] ++ (sws r0 low4 ++
      ([.addi r0 r0 16, .addi r0 r0 (-32), .mv psp r0] ++ (save .v6 ++
      (lws msp [(r4, 0), (r5, 4), (r6, 8), (r7, 12), (pc, 16)] ++ [.addi msp msp 20]))))))))
  | .v7 => [.addi msp msp (-36)] ++ (sws msp (high8 ++ [(lr, 32)]) ++
      ([.mv r4 r2, .li r5 0, .li r6 0, .li r7 0, .mv r8 r12, .mv r9 lr, .mv r10 r1, .li r11 0x1000000,
        .addi r0 r0 (-32)] ++ (sws r0 high8 ++ ([.mv psp r0] ++ (save .v7 ++
      (lws msp (high8 ++ [(pc, 32)]) ++ [.addi msp msp 36]))))))
  | .v7e => [.addi msp msp (-36)] ++ (sws msp (high8 ++ [(lr, 32)]) ++
      ([.addi r0 r0 (-8), .addi r0 r0 (-64)] ++ (sws r0 [(s0, 0), (s1, 4), (s2, 8), (s3, 12), (s4, 16), (s5, 20),
        (s6, 24), (s7, 28), (s8, 32), (s9, 36), (s10, 40), (s11, 44), (s12, 48), (s13, 52), (s14, 56), (s15, 60)] ++
      ([.mv r4 r2, .li r5 0, .li r6 0, .li r7 0, .mv r8 r12, .mv r9 lr, .mv r10 r1, .li r11 0x1000000,
        .addi r0 r0 (-32)] ++ (sws r0 high8 ++ ([.mv psp r0] ++ (save .v7e ++
      (lws msp (high8 ++ [(pc, 32)]) ++ [.addi msp msp 36]))))))))

/-- `bx`: bit 0 of the address is the instruction set -/
def bx (r : R) (x : St R) : St R := { x with reg := upd x.reg pc (x.reg r &&& ~~~1#32) }

/-- arch_start_first_task: armv6-m/picoRTOS_portasm.S:62-82, armv7-m:46-64, armv7e-m:50-73; `csr` is the
address of SYSTICK_CSR.  Writing CONTROL selects the task's stack pointer (`spsel`) and, on armv7e-m,
activates the floating point context; `cpsie` clears PRIMASK. -/
def start (v : Var) (csr : W) (x : St R) : St R :=
  match v with
  | .v6 => bx r6 (run (restore .v6 ++ ([.li r0 2, .li spsel 1] ++ (lws psp [(r0, 0), (r1, 4), (r2, 8), (r3, 12), (r4, 16),
      (r5, 20), (r6, 24), (r7, 28)] ++ [.addi psp psp 32, .mv r12 r4, .mv lr r5, .li r1 1, .li r2 csr, .lw r3 r2 0,
      .or r1 r1 r3, .sw r1 r2 0, .li primask 0]))) x)
  | .v7 => bx r4 (run (restore .v7 ++ ([.li r0 2, .li spsel 1] ++ (lws psp [(r0, 0), (r1, 4), (r2, 8), (r3, 12), (r12, 16),
      (lr, 20)] ++ ([.addi psp psp 24] ++ (lws psp [(r4, 0), (r5, 4)] ++ [.addi psp psp 8, .li r1 1, .li r2 csr, .lw r3 r2 0,
      .or r1 r1 r3, .sw r1 r2 0, .li primask 0]))))) x)
  | .v7e => bx r4 (run (restore .v7e ++ ([.li r0 6, .li spsel 1, .li fpca 1] ++ (lws psp [(r0, 0), (r1, 4), (r2, 8), (r3, 12),
      (r12, 16), (lr, 20)] ++ ([.addi psp psp 24] ++ (lws psp [(r4, 0), (r5, 4)] ++ ([.addi psp psp 8, .mv r5 psp] ++
      (lws r5 [(s0, 0), (s1, 4), (s2, 8), (s3, 12), (s4, 16), (s5, 20), (s6, 24), (s7, 28), (s8, 32), (s9, 36), (s10, 40),
        (s11, 44), (s12, 48), (s13, 52), (s14, 56), (s15, 60)] ++ [.addi r5 r5 64, .addi r5 r5 8, .mv psp r5, .li r1 1, .li r2 csr,
      .lw r3 r2 0, .or r1 r1 r3, .sw r1 r2 0, .li primask 0]))))))) x)

/-- arch_start_first_task of the rp2040: mach-rp2040/picoRTOS-SMP_portasm.S:41-59; `csr` is the address of
PWM_CSR -/
def startPwm (csr : W) (x : St R) : St R :=
  bx r6 (run (restore .v6 ++ ([.li r0 2, .li spsel 1, .li r0 1, .li r3 csr, .sw r0 r3 0] ++ (lws psp [(r0, 0), (r1, 4), (r2, 8),
    (r3, 12), (r4, 16), (r5, 20), (r6, 24), (r7, 28)] ++ [.addi psp psp 32, .mv r12 r4, .mv lr r5, .li primask 0]))) x)

/-! ### Platform interrupts -/

/-- Default_Handler up to the call: armv6-m/picoRTOS_portasm.S:117-132, armv7-m:120-135, armv7e-m:129-144;
`table` is the address of ISR_TABLE, `irq` the interrupt (exception number 16 + irq), `next` the address
after the call.  The function is known not to be null. -/
def isrCall (v : Var) (fa : Bool) (table irq next : W) (x : St R) : St R :=
  let y := run ((pushLr ++ save v) ++ [.addi msp msp (-4), .sw r0 msp 0, .mv r0 xpsr, .addi r0 r0 (-16), .li r3 table,
    .slli r0 r0 3, .add r3 r3 r0, .lw r1 r3 0, .lw r0 r3 4]) (hwPush (fpFrame v x) fa (16 + irq) (x.reg pc) x)
  bx r1 { y with reg := upd y.reg lr next }

/-- Default_Handler from the return of the function: `pop {r0}`, RESTORE_CONTEXT, `pop {pc}`
(armv6-m/picoRTOS_portasm.S:133-135, armv7-m:136-138, armv7e-m:145-147) -/
def isrRet (v : Var) (fa : Bool) (x : St R) : St R :=
  popExc fa (run (restore v) (run [.lw r0 msp 0, .addi msp msp 4] x))

end Pico.Ctx.Arm
