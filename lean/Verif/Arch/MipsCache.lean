import Verif.Arch.MipsProps
/-
The cache instructions of the MIPS port, arch/mips/m51xx/picoRTOS_portasm.S:300-312, and what follows them.

The file is assembled with `.set noreorder` (line 3), so the instruction after `jr ra` is executed before
the return; the two functions have nothing after `jr ra` (`.align 2` inserts nothing between 4-byte
instructions), so the slot is the first instruction of the next function of the file:

    arch_hit_invalidate_d:    cache Hit_Invalidate_D, 0(a0)     jr ra
    arch_hit_writeback_inv_d: cache Hit_Writeback_Inv_D, 0(a0)  jr ra
    arch_save_first_context:  mtc0 a0, CP0_KSCRATCH0            ...

The `cache` instructions themselves change no register.
-/
namespace Pico.Ctx.Mips
open Pico.Ctx M

/-- arch_hit_invalidate_d, picoRTOS_portasm.S:303-305: the slot is another `cache` instruction -/
def hitInvalidate (x : St M) : St M := { x with reg := upd x.reg pc (x.reg ra) }

/-- arch_hit_writeback_inv_d, picoRTOS_portasm.S:310-312, with `mtc0 a0, CP0_KSCRATCH0` (line 319) in the slot -/
def hitWriteback (x : St M) : St M :=
  let y := run [.mv kscratch a0] x
  { y with reg := upd y.reg pc (y.reg ra) }

/-- Invalidating is harmless to the registers. -/
theorem invalidate_keeps (x : St M) (r : M) (hr : r ≠ pc) : (hitInvalidate x).reg r = x.reg r :=
  upd_ne _ _ hr

/-- Flushing a line replaces the stack pointer set aside for the kernel by the address of the line... -/
theorem writeback_ksp (x : St M) :
    (hitWriteback x).reg kscratch = x.reg a0 ∧ ∀ r, r ≠ pc → r ≠ kscratch → (hitWriteback x).reg r = x.reg r := by
  have h : (run [Op.mv kscratch a0] x) = { x with reg := upd x.reg kscratch (x.reg a0) } := by
    rw [run_cons _ _ _ rfl, run_nil]; rfl
  unfold hitWriteback
  rw [h]
  refine ⟨?_, fun r h1 h2 => ?_⟩
  · show upd (upd x.reg kscratch (x.reg a0)) pc (upd x.reg kscratch (x.reg a0) ra) kscratch = _
    rw [upd_ne (a := pc) (x := kscratch) _ _ (by decide), upd_same]
  · show upd (upd x.reg kscratch (x.reg a0)) pc (upd x.reg kscratch (x.reg a0) ra) r = _
    rw [upd_ne _ _ h1, upd_ne _ _ h2]

/-- ... so that at the next tick or system call, of whatever state the task is then in, the scheduler runs with its
stack at the flushed object (and below it), overwriting what is there: picoRTOS_flush_dcache, hence
picoRTOS_mutex_lock and the rest of the IPC, breaks the kernel's stack on this port. -/
theorem flush_breaks_kernel_stack (dsp : Bool) (period : W) (ack : St M → St M) (dev : W → Prop)
    (vis : M → Bool) (x t : St M) (k : Kind) (ht : t.reg kscratch = (hitWriteback x).reg kscratch) :
    (port dsp vis period ack dev).csp k ((port dsp vis period ack dev).enter k t) = x.reg a0 := by
  show (enter dsp k t).reg sp = x.reg a0
  rw [(enter_eff dsp k t).2.1, ht, (writeback_ksp x).1]

/-- a state that meets the hypothesis: the task goes on with the registers as the call left them -/
example (x : St M) : ∃ t : St M, t.reg kscratch = (hitWriteback x).reg kscratch ∧ t.reg sp = x.reg sp :=
  ⟨hitWriteback x, rfl, (writeback_ksp x).2 _ (by decide) (by decide)⟩

end Pico.Ctx.Mips
