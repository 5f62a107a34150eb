import Verif.Arch.WordPort
/-
Context switch of the MIPS port, from arch/mips/m51xx/picoRTOS_portasm.S, with and without the DSP
accumulators (CONFIG_M51XX_DSP), without the FPU (CONFIG_M51XX_FPU64 is not modelled).  Branch delay slots: the instruction
in the slot is listed before the branch takes effect (`jal f; mfc0 a0, ...` executes the move, then
calls); coprocessor hazards are not modelled.
-/
namespace Pico.Ctx.Mips
open Pico.Ctx

/-- `gp` is set once at start-up; `k0`, `k1` are reserved to the kernel by the ABI. -/
inductive M where
  | at | v0 | v1 | a0 | a1 | a2 | a3 | t0 | t1 | t2 | t3 | t4 | t5 | t6 | t7
  | s0 | s1 | s2 | s3 | s4 | s5 | s6 | s7 | t8 | t9 | k0 | k1 | sp | fp | ra
  | lo | hi | lo1 | hi1 | lo2 | hi2 | lo3 | hi3
  | pc | epc | cause | kscratch | cmpr | exl | ie
  deriving DecidableEq

open M

/-- exception entry: `EPC ← PC`, `Cause.ExcCode ← code`, `Status.EXL ← 1` (interrupts masked) -/
def trap (code : W) (x : St M) : St M :=
  { x with reg := upd (upd (upd (upd x.reg epc (x.reg pc)) cause (code <<< 2)) exl 1) pc 0 }

/-- `eret`: `PC ← EPC`, `Status.EXL ← 0` -/
def eret (x : St M) : St M := { x with reg := upd (upd x.reg pc (x.reg epc)) exl 0 }

inductive Kind where
  | tick | syscall

/-- SWAP_STACK, picoRTOS_portasm.S:18-22 -/
def swapStack : List (Op M) := [.mv «at» kscratch, .mv kscratch sp, .mv sp «at»]

/-- general registers stored by SAVE_CONTEXT, picoRTOS_portasm.S:96-121 - `s7` twice, `s6` never -/
def cpuSaved : List (M × W) :=
  [(v0, 0), (v1, 4), (a0, 8), (a1, 12), (a2, 16), (a3, 20), (t0, 24), (t1, 28), (t2, 32), (t3, 36),
   (t4, 40), (t5, 44), (t6, 48), (t7, 52), (s0, 56), (s1, 60), (s2, 64), (s3, 68), (s4, 72), (s5, 76),
   (s7, 80), (s7, 84), (t8, 88), (t9, 92), (fp, 96), (ra, 100)]
/-- special registers stored by SAVE_CONTEXT, picoRTOS_portasm.S:123-128 -/
def spcSaved : List (M × W) := [(lo, 104), (hi, 108), (epc, 112)]
/-- SAVE_CONTEXT_DSP, picoRTOS_portasm.S:72-83 -/
def dspSaved : List (M × W) := [(lo1, 0), (hi1, 4), (lo2, 8), (hi2, 12), (lo3, 16), (hi3, 20)]

/-- general registers loaded by RESTORE_CONTEXT, picoRTOS_portasm.S:193-218 -/
def cpuLoaded : List (M × W) :=
  [(v0, 0), (v1, 4), (a0, 8), (a1, 12), (a2, 16), (a3, 20), (t0, 24), (t1, 28), (t2, 32), (t3, 36),
   (t4, 40), (t5, 44), (t6, 48), (t7, 52), (s0, 56), (s1, 60), (s2, 64), (s3, 68), (s4, 72), (s5, 76),
   (s7, 80), (s7, 84), (t8, 88), (t9, 92), (fp, 96), (ra, 100)]
/-- special registers loaded by RESTORE_CONTEXT, picoRTOS_portasm.S:220-225 -/
def spcLoaded : List (M × W) := [(lo, 104), (hi, 108), (epc, 112)]
/-- RESTORE_CONTEXT_DSP, picoRTOS_portasm.S:175-186 -/
def dspLoaded : List (M × W) := [(lo1, 0), (hi1, 4), (lo2, 8), (hi2, 12), (lo3, 16), (hi3, 20)]

/-- SAVE_CONTEXT, picoRTOS_portasm.S:86-130 (`dsp`: CONFIG_M51XX_DSP; no FPU) -/
def save (dsp : Bool) : List (Op M) :=
  (if dsp then saveBlk «at» sp 24 [] dspSaved else []) ++ (saveBlk «at» sp 116 cpuSaved spcSaved ++ swapStack)

/-- RESTORE_CONTEXT, picoRTOS_portasm.S:190-235 -/
def restore (dsp : Bool) : List (Op M) :=
  swapStack ++ (restBlk «at» sp 116 cpuLoaded spcLoaded ++ (if dsp then restBlk «at» sp 24 [] dspLoaded else []))

/-- INCREMENT_CP0_COMPARE CP0_COMPARE, picoRTOS_portasm.S:237-243; `period` is the address of
`timer_core_period` -/
def incCompare (period : W) : List (Op M) :=
  [.mv t0 cmpr, .li t1 period, .lw t1 t1 0, .add t0 t0 t1, .mv cmpr t0]

/-- CoreTimer_Handler (251-254) and GeneralException_Handler (269-287) up to the call of C -/
def enter (dsp : Bool) : Kind → St M → St M
  | .tick, x => run (save dsp ++ [.mv a0 kscratch]) (trap 0 x)
  | .syscall, x => run (save dsp ++ [.mv «at» cause, .ext «at» «at» 2 5, .li t0 8, .bne «at» t0 6,
      .mv a0 kscratch, .lw a1 a0 8, .lw a2 a0 12, .mv «at» epc, .addi «at» «at» 4, .sw «at» a0 112]) (trap 8 x)

/-- CoreTimer_Handler (255-263) and GeneralException_Handler (291-293) after C returned.
`ack`: the C function `arch_ack_interrupt`, called between the timer update and RESTORE_CONTEXT. -/
def leave (dsp : Bool) (period : W) (ack : St M → St M) : Kind → St M → St M
  | .tick, x => eret (run (restore dsp) (ack (run (.mv kscratch v0 :: incCompare period) x)))
  | .syscall, x => eret (run (.mv kscratch v0 :: restore dsp) x)

/-- what a task can see of the processor -/
def visible (dsp : Bool) : M → Bool
  | k0 | k1 | epc | cause | kscratch | cmpr | exl | ie => false
  | lo1 | hi1 | lo2 | hi2 | lo3 | hi3 => dsp
  | _ => true

/-- size of the frame -/
def size (dsp : Bool) : W := if dsp then 140 else 116

/-- the MIPS port, tasks looking at the registers `vis` -/
def port (dsp : Bool) (vis : M → Bool) (period : W) (ack : St M → St M) (dev : W → Prop) :
    Port (St M) W W (M → W) Kind where
  mem := St.mem
  ctx := fun x r => if vis r = true then x.reg r else 0
  resume := fun
    | .tick, c => c
    | .syscall, c => upd c pc (c pc + 4)
  enter := enter dsp
  arg := fun x => x.reg a0
  ret := fun x => x.reg v0
  leave := leave dsp period ack
  cok := fun _ _ => True
  frame := fun h a => (a - h).toNat < (size dsp).toNat
  io := dev
  ksp := fun x => x.reg kscratch
  csp := fun _ x => x.reg sp

/-- what is assumed of `arch_ack_interrupt`: it returns with the stack pointer it was called with, does
not use the kernel scratch register, and writes only device registers -/
def AckOk (ack : St M → St M) (dev : W → Prop) : Prop :=
  ∀ x, (ack x).reg sp = x.reg sp ∧ (ack x).reg kscratch = x.reg kscratch ∧ (ack x).reg ie = x.reg ie ∧
    ∀ a, ¬ dev a → (ack x).mem a = x.mem a

/-- arch_save_first_context, picoRTOS_portasm.S:317-327: `a0` = top of stack, `a1` = fn, `a2` = priv -/
def first (dsp : Bool) : List (Op M) :=
  .mv kscratch a0 :: (swapStack ++ ([.mv a0 a2, .mv epc a1, .li a2 0] ++ (save dsp ++ [.mv v0 kscratch])))

/-- arch_start_first_task, picoRTOS_portasm.S:332-341 (`count`: the value read from CP0_COUNT; `jr ra`
to EPC, with `ei` in the delay slot) -/
def start (dsp : Bool) (period count : W) (x : St M) : St M :=
  let y := run ([.li t0 count, .li t1 period, .lw t1 t1 0, .add t0 t0 t1, .mv cmpr t0, .mv kscratch a0] ++
    (restore dsp ++ [.mv ra epc])) x
  { y with reg := upd (upd y.reg pc (y.reg ra)) ie 1 }

/-- Interrupt_Handler, picoRTOS_portasm.S:373-388, once `arch_get_interrupt` has returned the irq in
`v0`: fetch the table entry and `jr k0` (which does not write `ra`) -/
def isrFetch (table : W) : List (Op M) :=
  [.li fp table, .slli t0 v0 3, .add fp fp t0, .lw k0 fp 0, .lw a0 fp 4]
def isrCall (table : W) (x : St M) : St M :=
  let y := run (isrFetch table ++ [.mv k1 v0]) x
  { y with reg := upd y.reg pc (y.reg k0) }

end Pico.Ctx.Mips
