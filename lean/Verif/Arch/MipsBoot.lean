import Verif.Arch.MipsProps
/-
MIPS port: first context of a task, start of the first task, system call arguments, the tick timer,
platform interrupts.
-/
namespace Pico.Ctx.Mips
open Pico.Ctx M

/-- registers a C function must preserve (O32), the stack pointer and return address included -/
def calleeSaved : M → Bool
  | s0 | s1 | s2 | s3 | s4 | s5 | s6 | s7 | sp | fp | ra => true
  | _ => false

theorem firstSetup_eff (s : St M) :
    let x := run (.mv kscratch a0 :: (swapStack ++ [.mv a0 a2, .mv epc a1, .li a2 0])) s
    x.mem = s.mem ∧ x.reg sp = s.reg a0 ∧ x.reg kscratch = s.reg sp ∧ x.reg epc = s.reg a1 ∧ x.reg a0 = s.reg a2 ∧
    ∀ r, calleeSaved r = true → r ≠ sp → x.reg r = s.reg r := by
  simp only [swapStack, List.cons_append, List.nil_append]
  rw [run_cons _ _ _ rfl, run_cons _ _ _ rfl, run_cons _ _ _ rfl, run_cons _ _ _ rfl, run_cons _ _ _ rfl,
    run_cons _ _ _ rfl, run_cons _ _ _ rfl, run_nil]
  simp only [exec]
  refine ⟨trivial, ?_, ?_, ?_, ?_, fun r hr hs => ?_⟩
  · simp [upd]
  · simp [upd]
  · simp [upd]
  · simp [upd]
  · cases r <;> first | exact absurd hr (by decide) | exact absurd rfl hs | simp [upd]

theorem first_split (dsp : Bool) (s : St M) :
    run (first dsp) s = run [.mv v0 kscratch] (run (save dsp)
      (run (.mv kscratch a0 :: (swapStack ++ [.mv a0 a2, .mv epc a1, .li a2 0])) s)) := by
  have e : first dsp = (.mv kscratch a0 :: (swapStack ++ [.mv a0 a2, .mv epc a1, .li a2 0])) ++
      (save dsp ++ [.mv v0 kscratch]) := by simp [first]
  rw [e, run_append _ _ _ (by decide), run_append _ _ _ (save_straight dsp)]

theorem first_cells (dsp : Bool) (s : St M) :
    let y := run (first dsp) s
    y.reg v0 = s.reg a0 - size dsp ∧
    (∀ r, calleeSaved r = true → y.reg r = s.reg r) ∧
    (∀ a, ¬ (a - (s.reg a0 - size dsp)).toNat < (size dsp).toNat → y.mem a = s.mem a) ∧
    y.mem (s.reg a0 - size dsp + 112) = s.reg a1 ∧ y.mem (s.reg a0 - size dsp + 8) = s.reg a2 := by
  simp only []
  rw [first_split]
  obtain ⟨p1, p2, p3, p4, p5, p6⟩ := firstSetup_eff s
  generalize run (.mv kscratch a0 :: (swapStack ++ [.mv a0 a2, .mv epc a1, .li a2 0])) s = x at *
  obtain ⟨h1, h2, h3, h4, h5, h6⟩ := save_eff dsp x
  have h4' := h4 a0 (by cases dsp <;> decide) (by decide) (by decide)
  clear h4
  generalize run (save dsp) x = y at *
  have hrun : run [Op.mv v0 kscratch] y = { y with reg := upd y.reg v0 (y.reg kscratch) } := rfl
  rw [hrun]
  simp only []
  rw [p2] at h2 h4' h5 h6
  refine ⟨?_, ?_, ?_, ?_, ?_⟩
  · rw [upd_same, h2]
  · intro r hr
    rw [upd_ne _ _ (by rintro rfl; exact absurd hr (by decide))]
    by_cases hs : r = sp
    · rw [hs, h1, p3]
    · rw [h3 r hs (by rintro rfl; exact absurd hr (by decide)) (by rintro rfl; exact absurd hr (by decide))]
      exact p6 r hr hs
  · intro a ha
    rw [h6 a ha, p1]
  · rw [h5, p4]
  · rw [show (8 : W) = off a0 by rfl, h4', p5]

/-- **MIPS: arch_save_first_context.** Called as C calls it (`a0` = top of the stack, `a1` = `fn`,
`a2` = `priv`), it returns a stack pointer `size` lower, writes nothing but the frame, keeps the
registers C relies on, and what it leaves there is a saved context that enters `fn` with argument
`priv` and the stack pointer at the top of the task's stack. -/
theorem mips_first (dsp : Bool) (period : W) (ack : St M → St M) (dev : W → Prop) (hack : AckOk ack dev) (s : St M)
    (hio : ∀ a, (a - (s.reg a0 - size dsp)).toNat < (size dsp).toNat → ¬ dev a) :
    let y := run (first dsp) s
    y.reg v0 = s.reg a0 - size dsp ∧ (∀ r, calleeSaved r = true → y.reg r = s.reg r) ∧
    (∀ a, ¬ (a - (s.reg a0 - size dsp)).toNat < (size dsp).toNat → y.mem a = s.mem a) ∧
    ∃ c, (port dsp (kept dsp) period ack dev).Holds (y.reg v0) c y ∧
      c pc = s.reg a1 ∧ c a0 = s.reg a2 ∧ c sp = s.reg a0 := by
  obtain ⟨h1, h2, h3, h4, h5⟩ := first_cells dsp s
  refine ⟨h1, h2, h3, ?_⟩
  have h1' : (run (first dsp) s).reg v0 = s.reg a0 - size dsp := h1
  rw [h1']
  generalize run (first dsp) s = y at *
  refine ⟨fun r => if kept dsp r = true then
    (if r = sp then s.reg a0 else y.mem (s.reg a0 - size dsp + off r)) else 0, ?_, ?_, ?_, ?_⟩
  · refine (frameEff dsp period ack dev hack).holds _ _ _ hio ?_ ?_ ?_
    · simp only [if_pos (show kept dsp sp = true by cases dsp <;> rfl), if_true]; grind
    · intro r hv hr
      simp only [if_pos hv, if_neg hr]
    · intro r hv
      simp [hv]
  · simp only [if_pos (show kept dsp pc = true by cases dsp <;> rfl), reduceCtorEq, if_false]; exact h4
  · simp only [if_pos (show kept dsp a0 = true by cases dsp <;> rfl), reduceCtorEq, if_false]; exact h5
  · simp only [if_pos (show kept dsp sp = true by cases dsp <;> rfl), if_true]

/-! ### arch_start_first_task -/

theorem start_eff (dsp : Bool) (period count : W) (e : St M) :
    let y := start dsp period count e
    y.mem = e.mem ∧ y.reg pc = e.mem (e.reg a0 + 112) ∧ y.reg a0 = e.mem (e.reg a0 + 8) ∧
    y.reg sp = e.reg a0 + size dsp ∧ y.reg ie = 1 ∧ y.reg kscratch = e.reg sp := by
  simp only [start]
  rw [run_append _ _ _ rfl, run_append _ _ _ (by cases dsp <;> decide)]
  have hx : let x := run [.li t0 count, .li t1 period, .lw t1 t1 0, .add t0 t0 t1, .mv cmpr t0, .mv kscratch a0] e
      x.mem = e.mem ∧ x.reg kscratch = e.reg a0 ∧ x.reg sp = e.reg sp := by
    simp only []
    rw [run_cons _ _ _ rfl, run_cons _ _ _ rfl, run_cons _ _ _ rfl, run_cons _ _ _ rfl, run_cons _ _ _ rfl,
      run_cons _ _ _ rfl, run_nil]
    simp [exec, upd]
  simp only [] at hx
  obtain ⟨x1, x2, x3⟩ := hx
  generalize run [.li t0 count, .li t1 period, .lw t1 t1 0, .add t0 t0 t1, .mv cmpr t0, .mv kscratch a0] e = x at *
  obtain ⟨r1, r2, r3, r4, r5, -, -⟩ := restore_eff dsp x
  have r5' := r5 a0 (by cases dsp <;> decide) (by decide) (by decide)
  clear r5
  generalize run (restore dsp) x = z at *
  rw [run_cons _ _ _ rfl, run_nil]
  simp only [exec, upd, reduceCtorEq, if_false, if_true]
  refine ⟨by rw [r1, x1], by rw [r4, x1, x2], ?_, by rw [r2, x2], trivial, by rw [r3, x3]⟩
  rw [r5', x1, x2]; rfl

/-- **MIPS: arch_start_first_task** (in state `e`), given the context prepared by arch_save_first_context
(in state `s`), enters the function of the task with its argument and its whole stack, interrupts
enabled, and the current stack set aside for the kernel. -/
theorem mips_start (dsp : Bool) (period count : W) (s e : St M)
    (ha : e.reg a0 = (run (first dsp) s).reg v0)
    (hm : ∀ a, (a - e.reg a0).toNat < (size dsp).toNat → e.mem a = (run (first dsp) s).mem a) :
    let y := start dsp period count e
    y.reg pc = s.reg a1 ∧ y.reg a0 = s.reg a2 ∧ y.reg sp = s.reg a0 ∧ y.reg ie = 1 ∧
    y.reg kscratch = e.reg sp := by
  obtain ⟨h1, -, -, h4, h5⟩ := first_cells dsp s
  have h1' : (run (first dsp) s).reg v0 = s.reg a0 - size dsp := h1
  rw [h1'] at ha
  obtain ⟨-, y1, y2, y3, y4, y5⟩ := start_eff dsp period count e
  have in' : ∀ o : W, o.toNat < (size dsp).toNat → (e.reg a0 + o - e.reg a0).toNat < (size dsp).toNat := fun o ho => by
    rwa [show e.reg a0 + o - e.reg a0 = o by grind]
  refine ⟨?_, ?_, ?_, y4, y5⟩
  · exact y1.trans ((hm _ (in' _ (by cases dsp <;> decide))).trans (by rw [ha]; exact h4))
  · exact y2.trans ((hm _ (in' _ (by cases dsp <;> decide))).trans (by rw [ha]; exact h5))
  · exact y3.trans (by rw [ha]; grind)

/-! ### System call arguments, interrupt enable, tick timer -/

/-- **The scheduler receives the arguments of the system call.** -/
theorem mips_syscall_args (dsp : Bool) (s : St M) : let y := enter dsp .syscall s
    y.reg a0 = s.reg sp - size dsp ∧ y.reg a1 = s.reg a0 ∧ y.reg a2 = s.reg a1 :=
  ⟨(enter_eff dsp .syscall s).1, (enter_eff dsp .syscall s).2.2.2.2.2.2 rfl⟩

/-- **Interrupts are masked (EXL) while the scheduler runs, and unmasked on return to a task**; the
interrupt enable itself is that of the running kernel, it is not part of the context. -/
theorem mips_interrupt_enable (dsp : Bool) (period : W) (ack : St M → St M) (dev : W → Prop) (hack : AckOk ack dev)
    (k k' : Kind) (s e : St M) :
    (enter dsp k s).reg exl = 1 ∧ (leave dsp period ack k' e).reg exl = 0 ∧
    (leave dsp period ack k' e).reg ie = e.reg ie := by
  obtain ⟨z, hz, -, -, z4, -⟩ := before_restore dsp period ack dev hack k' e
  refine ⟨(enter_eff dsp k s).2.2.1, ?_, ?_⟩
  · rw [hz, (eret_reg _).2.2.1]
  · rw [hz, (eret_reg _).2.2.2 _ (by decide) (by decide), (restore_eff dsp z).2.2.2.2.2.2, z4]

/-- **The next tick is one period after the last one**, modulo the 32 bits of the timer: what the tick
handler leaves in the comparator before it calls `arch_ack_interrupt`. -/
theorem mips_tick_period (period : W) (e : St M) :
    (run (.mv kscratch v0 :: incCompare period) e).reg cmpr = e.reg cmpr + e.mem period := by
  simp only [incCompare]
  rw [run_cons _ _ _ rfl, run_cons _ _ _ rfl, run_cons _ _ _ rfl, run_cons _ _ _ rfl, run_cons _ _ _ rfl,
    run_cons _ _ _ rfl, run_nil]
  simp [exec, upd]

/-- the first tick is one period after the counter value read when the first task is started -/
theorem mips_first_tick (period count : W) (e : St M) :
    (run [.li t0 count, .li t1 period, .lw t1 t1 0, .add t0 t0 t1, .mv cmpr t0, .mv kscratch a0] e).reg cmpr =
      count + e.mem period := by
  rw [run_cons _ _ _ rfl, run_cons _ _ _ rfl, run_cons _ _ _ rfl, run_cons _ _ _ rfl, run_cons _ _ _ rfl,
    run_cons _ _ _ rfl, run_nil]
  simp [exec, upd]

/-! ### Platform interrupts -/

/-- the function and argument registered for `irq`, 8 bytes per entry (interrupt table of
intc-pic32mz.c) -/
def registered (table : W) (m : W → W) (irq : W) : W × W := (m (table + 8 * irq), m (table + 8 * irq + 4))

/-- **The handler branches to the function registered for the interrupt, with its argument - but does
not set the return address**: `jr k0` leaves in `ra` the return address of the call just made to
`arch_get_interrupt`, so when the function returns it comes back to the code that fetches the table
entry, not to the acknowledge and the return from exception. -/
theorem mips_isr (table : W) (x : St M) : let y := isrCall table x
    (y.reg pc, y.reg a0) = registered table x.mem (x.reg v0) ∧ y.reg ra = x.reg ra ∧ y.reg k1 = x.reg v0 ∧
    y.mem = x.mem := by
  have h : x.reg v0 <<< 3 = 8 * x.reg v0 := by
    apply BitVec.eq_of_toNat_eq
    rw [BitVec.toNat_shiftLeft, BitVec.toNat_mul, Nat.shiftLeft_eq, show (8 : W).toNat = 8 from rfl]
    omega
  simp only [isrCall, isrFetch, List.cons_append, List.nil_append]
  rw [run_cons _ _ _ rfl, run_cons _ _ _ rfl, run_cons _ _ _ rfl, run_cons _ _ _ rfl, run_cons _ _ _ rfl,
    run_cons _ _ _ rfl, run_nil]
  simp [exec, upd, registered, h]

/-! ### The hypotheses are met -/

/-- a task interrupted with its stack at 0x400 -/
def demo : St M where
  reg := fun
    | sp => 0x400 | kscratch => 0x1000 | pc => 0x80 | ra => 0x44 | a0 => 3 | a1 => 7 | t0 => 9 | s6 => 11 | ie => 1
    | _ => 5
  mem := fun a => a

/-- an acknowledge that writes one device register, and clobbers what C may -/
def ackDemo (x : St M) : St M := { reg := upd (upd x.reg t0 1) v0 2, mem := upd x.mem 0xbf810000 1 }

/-- frames at 0x374 and 0x774 are apart, and apart from the device -/
theorem demo_apart (a : W) (h : (a - 0x774#32).toNat < 140) :
    ¬ a = 0xbf810000 ∧ ¬ (a - 0x374#32).toNat < 140 := by
  refine ⟨by rintro e; subst e; revert h; decide, ?_⟩
  rw [BitVec.toNat_sub] at h ⊢
  simp only [BitVec.toNat_ofNat] at h ⊢
  omega

theorem ackDemo_ok : AckOk ackDemo (fun a => a = 0xbf810000) :=
  fun _ => ⟨rfl, rfl, rfl, fun _ ha => upd_ne _ _ ha⟩

/-- **A switch between two tasks**: one interrupted by the tick, the other making a system call; the
scheduler gives the first one back. -/
example (p : Port (St M) W W (M → W) Kind) (hp : p = port true (kept true) 0x2000 ackDemo (fun a => a = 0xbf810000)) :
    ∃ x x' : Sys (St M) W (M → W) Bool, ∃ e, Sys.Reach p (fun _ => True) x ∧
    Switch p (fun _ => True) x .syscall e true (p.ctx demo) x' ∧ p.ctx x'.m = p.ctx demo := by
  subst hp
  have e1 : (port true (kept true) 0x2000 ackDemo (fun a => a = 0xbf810000)).arg (enter true .tick demo) = 0x374 :=
    (enter_eff true .tick demo).1
  let m : St M := { reg := upd demo.reg sp 0x800, mem := (enter true .tick demo).mem }
  let e : St M := { reg := upd (enter true .syscall m).reg v0 0x374, mem := (enter true .syscall m).mem }
  have e2 : (port true (kept true) 0x2000 ackDemo (fun a => a = 0xbf810000)).arg (enter true .syscall m) = 0x774 :=
    (enter_eff true .syscall m).1.trans (by show upd demo.reg sp 0x800 sp - 140 = 0x774; rw [upd_same]; rfl)
  obtain ⟨x, x', -, h1, h2, -, h4⟩ := switch_possible (mips_sound_partial true 0x2000 ackDemo _ ackDemo_ok)
    .tick .syscall demo m e trivial trivial
    (by
      intro a h
      have h0 : (a - (port true (kept true) 0x2000 ackDemo (fun a => a = 0xbf810000)).arg (enter true .tick demo)).toNat
        < (size true).toNat := h
      rw [e1] at h0
      have h' : (a - 0x374#32).toNat < 140 := h0
      intro e
      have e' : a = 0xbf810000 := e
      subst e'; revert h'; decide)
    (fun a _ => rfl)
    (by
      intro a h
      have h0 : (a - (port true (kept true) 0x2000 ackDemo (fun a => a = 0xbf810000)).arg (enter true .syscall m)).toNat
        < (size true).toNat := h
      rw [e2] at h0
      have hd := demo_apart a h0
      refine ⟨hd.1, ?_⟩
      show ¬ (a - (port true (kept true) 0x2000 ackDemo (fun a => a = 0xbf810000)).arg (enter true .tick demo)).toNat
        < (size true).toNat
      rw [e1]; exact hd.2)
    trivial
    (Eq.trans (show upd (enter true .syscall m).reg v0 0x374 v0 = 0x374 by rw [upd_same]) e1.symm)
    (fun a => rfl)
  exact ⟨x, x', e, h1, h2, h4⟩

end Pico.Ctx.Mips
