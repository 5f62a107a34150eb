import Verif.Arch.WordPort
/-
Context switch of the PowerPC ports, from arch/powerpc/e200z4/picoRTOS_portasm.S and
arch/powerpc/e200z7/picoRTOS_portasm.S (the macros are the same text in both; line numbers are those of
e200z4 unless z7 is written).  The multiple-register instructions of the VLE set are written as the
sequence of their word transfers.
-/
namespace Pico.Ctx.Ppc
open Pico.Ctx

/-- `r2` and `r13` (small data areas) are set once at start-up and never change; `res` is the reservation
made by `lharx`; `sprg` is SPRG0. -/
inductive R where
  | r0 | r1 | r3 | r4 | r5 | r6 | r7 | r8 | r9 | r10 | r11 | r12
  | r14 | r15 | r16 | r17 | r18 | r19 | r20 | r21 | r22 | r23 | r24 | r25 | r26 | r27 | r28 | r29 | r30 | r31
  | cr | lr | ctr | xer | srr0 | srr1 | sprg | pc | msr | res
  deriving DecidableEq

open R

/-- interrupts that lead to the scheduler: `se_sc`, the decrementer (e200z7), the timer through the
interrupt controller -/
inductive Kind where
  | sc | dec | ext

/-- interrupt entry: `SRR0` is the address of the next instruction (`se_sc` is 2 bytes long), `SRR1` the
MSR, and MSR[EE] is cleared.  With HID0[ICR] (`icr`, CLEAR_RESERVATIONS_ON_EXT_INTERRUPT,
include/macros.S:85-89) external interrupts, but not the others, clear the reservation. -/
def trap (icr : Bool) (k : Kind) (x : St R) : St R :=
  let y : St R := { x with reg := upd (upd (upd x.reg srr0
      (match k with | .sc => x.reg pc + 2 | _ => x.reg pc)) srr1 (x.reg msr)) msr (x.reg msr &&& ~~~0x8000#32) }
  match k with
  | .ext => if icr then { y with reg := upd y.reg res 0 } else y
  | _ => y

/-- `se_rfi` -/
def rfi (x : St R) : St R := { x with reg := upd (upd x.reg pc (x.reg srr0)) msr (x.reg srr1) }

/-- SWAP_STACK rS, picoRTOS_portasm.S:13-17 -/
def swapStack (s : R) : List (Op R) := [.mv s r1, .mv r1 sprg, .mv sprg s]

/-- e_stmvsrrw 0, e_stmvsprw 8, e_stmvgprw 24, e_stmw r14, 68: picoRTOS_portasm.S:21-24 -/
def saved : List (R × W) :=
  [(srr0, 0), (srr1, 4), (cr, 8), (lr, 12), (ctr, 16), (xer, 20),
   (r0, 24), (r3, 28), (r4, 32), (r5, 36), (r6, 40), (r7, 44), (r8, 48), (r9, 52), (r10, 56), (r11, 60), (r12, 64),
   (r14, 68), (r15, 72), (r16, 76), (r17, 80), (r18, 84), (r19, 88), (r20, 92), (r21, 96), (r22, 100), (r23, 104),
   (r24, 108), (r25, 112), (r26, 116), (r27, 120), (r28, 124), (r29, 128), (r30, 132), (r31, 136)]

/-- e_lmvsrrw 0, e_lmvsprw 8, e_lmvgprw 24, e_lmw r14, 68: picoRTOS_portasm.S:31-34 -/
def loaded : List (R × W) :=
  [(srr0, 0), (srr1, 4), (cr, 8), (lr, 12), (ctr, 16), (xer, 20),
   (r0, 24), (r3, 28), (r4, 32), (r5, 36), (r6, 40), (r7, 44), (r8, 48), (r9, 52), (r10, 56), (r11, 60), (r12, 64),
   (r14, 68), (r15, 72), (r16, 76), (r17, 80), (r18, 84), (r19, 88), (r20, 92), (r21, 96), (r22, 100), (r23, 104),
   (r24, 108), (r25, 112), (r26, 116), (r27, 120), (r28, 124), (r29, 128), (r30, 132), (r31, 136)]

/-- SAVE_CONTEXT, picoRTOS_portasm.S:19-26 -/
def save : List (Op R) := saveBlk pc r1 140 saved [] ++ swapStack r0

/-- `sthcx. r1, 0, r1`, picoRTOS_portasm.S:30: the reservation goes; the halfword is stored if there was
one.  The architecture leaves it undefined whether the store is performed when the reservation is for
another address: `lax` says that it is.  (Not `lax`: it is not, and no reservation is ever made inside a
saved context.) -/
def sthcx (lax : Bool) (x : St R) : St R :=
  { reg := upd (upd x.reg res 0) cr (x.reg cr &&& 0x0fffffff#32),
    mem := if lax = true ∧ x.reg res = 1#32
      then upd x.mem (x.reg r1) ((x.reg r1 <<< 16) ||| (x.mem (x.reg r1) &&& 0xffff#32)) else x.mem }

/-- RESTORE_CONTEXT, picoRTOS_portasm.S:28-37 -/
def restore (lax : Bool) (x : St R) : St R :=
  run (restBlk pc r1 140 loaded []) (sthcx lax (run (swapStack r0) x))

/-- C code called by the handler around the scheduler proper (`arch_get_interrupt` and the entry of the
timer's handler before, the acknowledge of the timer after): it returns with the stack pointer it was
called with, does not use SPRG0, and writes only device registers -/
def COk (f : St R → St R) (dev : W → Prop) : Prop :=
  ∀ x, (f x).reg r1 = x.reg r1 ∧ (f x).reg sprg = x.reg sprg ∧ ∀ a, ¬ dev a → (f x).mem a = x.mem a

/-- SystemCall_Handler (43-47), Decrementer_Handler (z7:61-63), ExternalInput_Handler (133-150) with the
timer's handler (mach-mpc574x/timer-pit.c:42-48): up to the call of the scheduler -/
def enter (icr : Bool) (pre : St R → St R) : Kind → St R → St R
  | .sc, x => run (save ++ [.mv r3 sprg, .lw r4 r3 28, .lw r5 r3 32]) (trap icr .sc x)
  | .dec, x => run (save ++ [.mv r3 sprg]) (trap icr .dec x)
  | .ext, x => run [.mv r3 sprg] (pre (run save (trap icr .ext x)))

/-- SystemCall_Handler (49-51), Decrementer_Handler (z7:65-73), timer's handler and
ExternalInput_Handler (timer-pit.c:50-57, 151-157): from the return of the scheduler.  `post`: the
acknowledge of the timer and of the interrupt controller. -/
def leave (lax : Bool) (post : St R → St R) : Kind → St R → St R
  | .sc, x => rfi (restore lax (run [.mv sprg r3] x))
  | _, x => rfi (restore lax (post (run [.mv sprg r3] x)))

/-- what a task can see of the processor -/
def visible : R → Bool
  | srr0 | srr1 | sprg | res => false
  | _ => true

/-- the PowerPC ports -/
def port (icr lax : Bool) (pre post : St R → St R) (dev : W → Prop) : Port (St R) W W (R → W) Kind where
  mem := St.mem
  ctx := fun x r => if visible r = true then x.reg r else 0
  resume := fun
    | .sc, c => upd c pc (c pc + 2)
    | _, c => c
  enter := enter icr pre
  arg := fun x => x.reg r3
  ret := fun x => x.reg r3
  leave := leave lax post
  cok := fun _ _ => True
  frame := fun h a => (a - h).toNat < (140 : W).toNat
  io := dev
  ksp := fun x => x.reg sprg
  csp := fun _ x => x.reg r1

/-- arch_save_first_context, picoRTOS_portasm.S:56-75: `r3` = top of stack, `r4` = fn, `r5` = priv -/
def first : List (Op R) :=
  [.sw r30 r1 (-8), .sw r31 r1 (-4), .mv sprg r3] ++ swapStack r3 ++
  [.addi r1 r1 (-140), .mv r30 r4, .li r31 0x2029000, .mv r3 msr, .or r31 r31 r3, .sw r30 r1 0, .sw r31 r1 4,
   .sw r5 r1 28] ++ swapStack r3 ++ [.lw r30 r1 (-8), .lw r31 r1 (-4)]

/-- arch_start_first_task, picoRTOS_portasm.S:80-83 (e200z7 also starts the time base, z7:113-117) -/
def start (lax : Bool) (x : St R) : St R := rfi (restore lax (run [.mv sprg r3] x))

/-- ExternalInput_Handler, picoRTOS_portasm.S:136-149, from the return of `arch_get_interrupt` (`r3` =
INTC_IACKR) to the branch; `privs` is the address of ISR_TABLE_priv; `blrl` swaps the branch target and
the return address `next` -/
def isrCall (privs next : W) (x : St R) : St R :=
  let y := run [.lw r4 r3 0, .mv lr r4, .andi r4 r3 0xffe, .li r3 privs, .add r3 r4 r3, .lw r3 r3 0] x
  { y with reg := upd (upd y.reg pc (y.reg lr)) lr next }

end Pico.Ctx.Ppc
