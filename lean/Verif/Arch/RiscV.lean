import Verif.Arch.Ctx
import Verif.Arch.Word
/-
Context switch of the two RISC-V ports, from their assembly:
  arch/riscv/rv32imac/picoRTOS_portasm.S  (RV32IMAC, 29-word frame)
  arch/riscv/rv32ec/picoRTOS_portasm.S    (RV32EC, 13-word frame)
and the trap entry / `mret` of the privileged architecture (machine mode only, as the ports run).
-/
namespace Pico.Ctx.RiscV
open Pico.Ctx

/-- The registers.  `x3` (gp) and `x4` (tp) are set once at start-up and never written again; they
are left out.  `mie`, `mpie`: those two bits of `mstatus`, as 0 or 1. -/
inductive V where
  | ra | sp | t0 | t1 | t2 | s0 | s1 | a0 | a1 | a2 | a3 | a4 | a5 | a6 | a7
  | s2 | s3 | s4 | s5 | s6 | s7 | s8 | s9 | s10 | s11 | t3 | t4 | t5 | t6
  | pc | mepc | mscratch | mcause | mie | mpie
  deriving DecidableEq

open V Op

/-- trap entry: `mepc ← pc`, `mcause ← cause`, `MPIE ← MIE`, `MIE ← 0` (the handler address goes to
`pc`, here 0: what matters is that the task's `pc` is gone) -/
def trap (cause : W) (x : St V) : St V :=
  { x with reg := upd (upd (upd (upd (upd x.reg mepc (x.reg pc)) mcause cause) mpie (x.reg mie)) mie 0) pc 0 }

/-- `mret`: `pc ← mepc`, `MIE ← MPIE`, `MPIE ← 1` -/
def mret (x : St V) : St V :=
  { x with reg := upd (upd (upd x.reg pc (x.reg mepc)) mie (x.reg mpie)) mpie 1 }

/-- `mcause` of a timer interrupt (top bit: interrupt); its value plays no role -/
@[irreducible] def tickCause : W := 0x80000007

/-- the two kinds of trap that may switch tasks -/
inductive Kind where
  | tick | syscall

/-- what a task can see of the processor: everything but the machine-mode registers -/
def visible : V → Bool
  | mepc | mscratch | mcause | mie | mpie => false
  | _ => true

def ctx (vis : V → Bool) (x : St V) : V → W := fun r => if vis r then x.reg r else 0

/-- after a tick, the very same context; after a system call, the instruction that follows `ecall` -/
def resume : Kind → (V → W) → V → W
  | .tick, c => c
  | .syscall, c => upd c pc (c pc + 4)

/-! ### rv32imac -/

/-- SAVE_CONTEXT stores, rv32imac/picoRTOS_portasm.S:12-39 -/
def imacSaved : List (V × W) :=
  [(ra, 0), (t0, 4), (t1, 8), (t2, 12), (s0, 16), (s1, 20), (a0, 24), (a1, 28), (a2, 32), (a3, 36),
   (a4, 40), (a5, 44), (a6, 48), (a7, 52), (s2, 56), (s3, 60), (s4, 64), (s5, 68), (s6, 72), (s7, 76),
   (s8, 80), (s9, 84), (s10, 88), (s11, 92), (t3, 96), (t4, 100), (t5, 104), (t6, 108)]

/-- RESTORE_CONTEXT loads, rv32imac/picoRTOS_portasm.S:54-81 -/
def imacLoaded : List (V × W) :=
  [(ra, 0), (t0, 4), (t1, 8), (t2, 12), (s0, 16), (s1, 20), (a0, 24), (a1, 28), (a2, 32), (a3, 36),
   (a4, 40), (a5, 44), (a6, 48), (a7, 52), (s2, 56), (s3, 60), (s4, 64), (s5, 68), (s6, 72), (s7, 76),
   (s8, 80), (s9, 84), (s10, 88), (s11, 92), (t3, 96), (t4, 100), (t5, 104), (t6, 108)]

/-- SAVE_CONTEXT, rv32imac/picoRTOS_portasm.S:9-45 -/
def imacSave : List (Op V) :=
  .addi sp sp (-116) :: (sws sp imacSaved ++ [.mv t0 mepc, .sw t0 sp 112, .swap sp mscratch])

/-- RESTORE_CONTEXT, rv32imac/picoRTOS_portasm.S:47-83 -/
def imacRestore : List (Op V) :=
  .swap sp mscratch :: .lw t0 sp 112 :: .mv mepc t0 :: (lws sp imacLoaded ++ [.addi sp sp 116])

/-- INCREASE_MTIMECMP src, rv32imac/picoRTOS_portasm.S:85-100.  `period`, `mtimecmp`: addresses of
`timer_core_period` and of the comparator; `src`: address the 64-bit time is taken from. -/
def increaseMtimecmp (period mtimecmp src : W) : List (Op V) :=
  [.li t0 period, .lw t0 t0 0, .li t1 src, .lw t2 t1 0, .lw t3 t1 4, .add t2 t0 t2,
   .bltu t0 t2 1, .addi t3 t3 1,
   .li t0 (-1), .li t1 mtimecmp, .sw t0 t1 0, .sw t3 t1 4, .sw t2 t1 0]

/-- handlers up to the call of C: MachineTimerInterrupt_Handler (106-110) and
GeneralException_Handler (121-136) -/
def imacEnter : Kind → St V → St V
  | .tick, x => run (imacSave ++ [.mv a0 mscratch]) (trap tickCause x)
  | .syscall, x => run (imacSave ++ [.mv t0 mcause, .andi t0 t0 0x7ff, .li t1 0xb, .bne t0 t1 7,
      .mv a0 mscratch, .lw a1 a0 24, .lw a2 a0 28,
      .lw t0 a0 112, .addi t0 t0 4, .sw t0 a0 112]) (trap 0xb x)

/-- handlers after C returned: MachineTimerInterrupt_Handler (111-116) and GeneralException_Handler
(138-140) -/
def imacLeave (period mtimecmp : W) : Kind → St V → St V
  | .tick, x => mret (run (.mv mscratch a0 :: (increaseMtimecmp period mtimecmp mtimecmp ++ imacRestore)) x)
  | .syscall, x => mret (run (.mv mscratch a0 :: imacRestore) x)

/-- the rv32imac port -/
def imac (period mtimecmp : W) : Port (St V) W W (V → W) Kind where
  mem := St.mem
  ctx := ctx visible
  resume := resume
  enter := imacEnter
  arg := fun x => x.reg a0
  ret := fun x => x.reg a0
  leave := imacLeave period mtimecmp
  cok := fun _ _ => True
  frame := fun h a => (a - h).toNat < 116
  io := fun a => a = mtimecmp ∨ a = mtimecmp + 4
  ksp := fun x => x.reg mscratch
  csp := fun _ x => x.reg sp

/-! ### rv32ec -/

/-- SAVE_CONTEXT stores, rv32ec/picoRTOS_portasm.S:12-23 -/
def ecSaved : List (V × W) :=
  [(ra, 0), (t0, 4), (t1, 8), (t2, 12), (s0, 16), (s1, 20), (a0, 24), (a1, 28), (a2, 32), (a3, 36),
   (a4, 40), (a5, 44)]
/-- RESTORE_CONTEXT loads, rv32ec/picoRTOS_portasm.S:38-49 -/
def ecLoaded : List (V × W) :=
  [(ra, 0), (t0, 4), (t1, 8), (t2, 12), (s0, 16), (s1, 20), (a0, 24), (a1, 28), (a2, 32), (a3, 36),
   (a4, 40), (a5, 44)]
/-- SAVE_CONTEXT, rv32ec/picoRTOS_portasm.S:9-29 -/
def ecSave : List (Op V) :=
  .addi sp sp (-52) :: (sws sp ecSaved ++ [.mv t0 mepc, .sw t0 sp 48, .swap sp mscratch])
/-- RESTORE_CONTEXT, rv32ec/picoRTOS_portasm.S:31-51 -/
def ecRestore : List (Op V) :=
  .swap sp mscratch :: .lw t0 sp 48 :: .mv mepc t0 :: (lws sp ecLoaded ++ [.addi sp sp 52])

/-- registers of RV32E: x0-x15 only -/
def ecVisible : V → Bool
  | ra | sp | t0 | t1 | t2 | s0 | s1 | a0 | a1 | a2 | a3 | a4 | a5 | pc => true
  | _ => false

/-- the SysTick status register, mach-ch32v003/picoRTOS_device.h:57 -/
@[irreducible] def stkSr : W := 0xe000f004

/-- SysTick_Handler (56-61; ARCH_ACK_SYSTICK of mach-ch32v003/picoRTOS_device.h:56-59 inlined) and
EXC_Handler (70-86) up to the call of C -/
def ecEnter : Kind → St V → St V
  | .tick, x => run (ecSave ++ [.li a0 stkSr, .sz a0 0, .mv a0 mscratch]) (trap tickCause x)
  | .syscall, x => run (ecSave ++ [.mv t0 mcause, .andi t0 t0 0x7ff, .li t1 0xb, .bne t0 t1 7,
      .mv a0 mscratch, .lw a1 a0 24, .lw a2 a0 28,
      .lw t0 a0 48, .addi t0 t0 4, .sw t0 a0 48]) (trap 0xb x)

/-- SysTick_Handler (62-65) and EXC_Handler (88-90) after C returned -/
def ecLeave : Kind → St V → St V
  | _, x => mret (run (.mv mscratch a0 :: ecRestore) x)

/-- the rv32ec port -/
def ec : Port (St V) W W (V → W) Kind where
  mem := St.mem
  ctx := ctx ecVisible
  resume := resume
  enter := ecEnter
  arg := fun x => x.reg a0
  ret := fun x => x.reg a0
  leave := ecLeave
  cok := fun _ _ => True
  frame := fun h a => (a - h).toNat < 52
  io := fun a => a = stkSr
  ksp := fun x => x.reg mscratch
  csp := fun _ x => x.reg sp

/-! ### First context, first task, platform interrupts -/

/-- arch_save_first_context before its SAVE_CONTEXT, rv32imac/picoRTOS_portasm.S:150-158 and
rv32ec/picoRTOS_portasm.S:99-107: `a0` = top of the task's stack, `a1` = entry point, `a2` = priv -/
def firstSetup : List (Op V) :=
  [.mv mscratch a0, .swap sp mscratch, .mv a0 a2, .mv mepc a1, .li a1 0, .li a2 0]

/-- arch_save_first_context, rv32imac/picoRTOS_portasm.S:150-161 -/
def imacFirst : List (Op V) := firstSetup ++ (imacSave ++ [.mv a0 mscratch])
/-- arch_save_first_context, rv32ec/picoRTOS_portasm.S:99-110 -/
def ecFirst : List (Op V) := firstSetup ++ (ecSave ++ [.mv a0 mscratch])

/-- arch_start_first_task, rv32imac/picoRTOS_portasm.S:166-175 -/
def imacStart (period mtimecmp mtime : W) (x : St V) : St V :=
  mret (run (.mv mscratch a0 :: (increaseMtimecmp period mtimecmp mtime ++
    (imacRestore ++ [.li t0 0x80, .li mpie 1]))) x)
/-- arch_start_first_task, rv32ec/picoRTOS_portasm.S:115-122 -/
def ecStart (x : St V) : St V :=
  mret (run (.mv mscratch a0 :: (ecRestore ++ [.li t0 0x80, .li mpie 1])) x)

/-- PlatformDefined_Handler from SAVE_CONTEXT to the test of the function pointer,
rv32imac/picoRTOS_portasm.S:204-218, rv32ec/picoRTOS_portasm.S:134-148 -/
def isrFetch (table : W) : List (Op V) :=
  [.li t0 table, .li t1 0xfff, .mv t2 mcause, .and t1 t1 t2, .addi t1 t1 (-16), .slli t1 t1 2,
   .add t0 t0 t1, .lw t2 t0 0, .lw a0 t0 4]

/-- PlatformDefined_Handler up to and including `jr t2` (rv32imac 220, rv32ec 150), for interrupt
cause `cause`.  `jr` does not write `ra`. -/
def imacIsr (table cause : W) (s : St V) : St V :=
  let y := run (imacSave ++ isrFetch table) (trap cause s)
  { y with reg := upd y.reg pc (y.reg t2) }
/-- the same, rv32ec -/
def ecIsr (table cause : W) (s : St V) : St V :=
  let y := run (ecSave ++ isrFetch table) (trap cause s)
  { y with reg := upd y.reg pc (y.reg t2) }

/-! ### Effect of the macros -/

/-- SAVE_CONTEXT for a frame layout: `T` the stores, `n` the size, `o` the offset of `mepc` -/
def saveM (T : List (V × W)) (n o : W) : List (Op V) :=
  .addi sp sp (-n) :: (sws sp T ++ [.mv t0 mepc, .sw t0 sp o, .swap sp mscratch])

/-- what SAVE_CONTEXT does, for any frame layout -/
theorem save_eff (T : List (V × W)) (n o : W) (x : St V) :
    let y := run (saveM T n o) x
    (∀ k, run (saveM T n o ++ k) x = run k y) ∧
      y.reg sp = x.reg mscratch ∧ y.reg mscratch = x.reg sp - n ∧
      (∀ r, r ≠ sp → r ≠ mscratch → r ≠ t0 → y.reg r = x.reg r) ∧
      ∀ a, y.mem a = if a - (x.reg sp - n) = o then x.reg mepc else
        match lastReg T (a - (x.reg sp - n)) with
        | some r => if r = sp then x.reg sp - n else x.reg r
        | none => x.mem a := by
  have hsub : x.reg sp + -n = x.reg sp - n := by grind
  refine ⟨fun k => ?_, ?_⟩
  · exact run_append _ _ _ (by simp [saveM, sws, Op.isBr])
  · simp only [saveM]
    rw [run_cons _ _ _ rfl, run_sws, run_cons _ _ _ rfl, run_cons _ _ _ rfl, run_cons _ _ _ rfl, run_nil]
    simp only [exec, sws_reg, upd, sws_mem, hsub]
    refine ⟨by simp, by simp, ?_, ?_⟩
    · intro r h1 h2 h3
      simp [h1, h2, h3]
    · intro a
      have e : (a = x.reg sp - n + o) ↔ (a - (x.reg sp - n) = o) := by constructor <;> (intro h; grind)
      simp only [reduceCtorEq, if_false, if_true]
      by_cases h : a - (x.reg sp - n) = o
      · rw [if_pos (e.mpr h), if_pos h]
      · rw [if_neg (fun h' => h (e.mp h')), if_neg h]
        cases lastReg T (a - (x.reg sp - n)) <;> rfl

/-- RESTORE_CONTEXT for a frame layout -/
def restoreM (L : List (V × W)) (n o : W) : List (Op V) :=
  .swap sp mscratch :: .lw t0 sp o :: .mv mepc t0 :: (lws sp L ++ [.addi sp sp n])

/-- what RESTORE_CONTEXT does, for any frame layout -/
theorem restore_eff (T : List (V × W)) (n o : W) (x : St V) (hT : lastOff T sp = none)
    (hT2 : lastOff T mepc = none) :
    let y := run (.swap sp mscratch :: .lw t0 sp o :: .mv mepc t0 :: (lws sp T ++ [.addi sp sp n])) x
    y.mem = x.mem ∧ y.reg sp = x.reg mscratch + n ∧ y.reg mepc = x.mem (x.reg mscratch + o) ∧
    (lastOff T mscratch = none → y.reg mscratch = x.reg sp) ∧
    ∀ r, r ≠ sp → r ≠ mepc → r ≠ mscratch → r ≠ t0 ∨ lastOff T t0 ≠ none →
      y.reg r = match lastOff T r with
        | some k => x.mem (x.reg mscratch + k)
        | none => x.reg r := by
  simp only []
  rw [run_cons _ _ _ rfl, run_cons _ _ _ rfl, run_cons _ _ _ rfl, run_lws, run_cons _ _ _ rfl, run_nil]
  simp only [exec]
  refine ⟨by simp [lws_mem], ?_, ?_, ?_, ?_⟩
  · simp [upd, lws_reg _ _ _ hT, hT]
  · simp [upd, lws_reg _ _ _ hT, hT2]
  · intro h
    simp [upd, lws_reg _ _ _ hT, h]
  · intro r h1 h2 h3 h4
    simp only [upd, if_neg h1, lws_reg _ _ _ hT]
    cases hr : lastOff T r with
    | some k => simp
    | none =>
      have : r ≠ t0 := by
        rcases h4 with h | h
        · exact h
        · intro e; subst e; exact h hr
      simp [h1, h2, h3, this]

/-- INCREASE_MTIMECMP touches four scratch registers and the comparator, nothing else -/
theorem increase_eff (period mtimecmp src : W) (k : List (Op V)) (x : St V) :
    ∃ y : St V, run (increaseMtimecmp period mtimecmp src ++ k) x = run k y ∧
      (∀ r, r ≠ t0 → r ≠ t1 → r ≠ t2 → r ≠ t3 → y.reg r = x.reg r) ∧
      (∀ a, a ≠ mtimecmp → a ≠ mtimecmp + 4 → y.mem a = x.mem a) ∧
      y.mem mtimecmp = x.mem period + x.mem src ∧
      y.mem (mtimecmp + 4) = if (x.mem period).toNat < (x.mem period + x.mem src).toNat
        then x.mem (src + 4) else x.mem (src + 4) + 1 := by
  have hne : mtimecmp + 4#32 ≠ mtimecmp := by grind
  refine ⟨run (increaseMtimecmp period mtimecmp src) x, ?_, ?_⟩
  · by_cases h : (x.mem period).toNat < (x.mem period + x.mem src).toNat <;>
      simp [run, increaseMtimecmp, runFrom, skips, exec, upd, h, -BitVec.toNat_add]
  · by_cases h : (x.mem period).toNat < (x.mem period + x.mem src).toNat <;>
    · refine ⟨fun r h1 h2 h3 h4 => by simp [run, increaseMtimecmp, runFrom, skips, exec, upd, h, -BitVec.toNat_add, h1, h2, h3, h4],
        fun a h1 h2 => ?_, ?_, ?_⟩
      · have h2' : a ≠ mtimecmp + 4#32 := h2
        simp [run, increaseMtimecmp, runFrom, skips, exec, upd, h, -BitVec.toNat_add, h1, h2']
      · simp [run, increaseMtimecmp, runFrom, skips, exec, upd, h, -BitVec.toNat_add]
      · simp [run, increaseMtimecmp, runFrom, skips, exec, upd, h, -BitVec.toNat_add, hne]

end Pico.Ctx.RiscV
