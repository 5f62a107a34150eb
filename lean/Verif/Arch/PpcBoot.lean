import Verif.Arch.PpcProps
/-
PowerPC ports: the reservation and RESTORE_CONTEXT, first context of a task, start of the first task,
system call arguments, platform interrupts.
-/
namespace Pico.Ctx.Ppc
open Pico.Ctx R

/-! ### The reservation -/

/-- **RESTORE_CONTEXT overwrites the program counter of the task it brings in, if a reservation is
pending** on a core that performs a conditional store whatever the address of the reservation: the
halfword stored by `sthcx. r1, 0, r1` is the upper half of the saved SRR0, loaded just after. -/
theorem ppc_reservation_lost (post : St R → St R) (e : St R) (h : e.reg res = 1) :
    (leave true post .sc e).reg pc = (e.reg r3 <<< 16) ||| (e.mem (e.reg r3) &&& 0xffff#32) := by
  have hrun : run [Op.mv sprg r3] e = { e with reg := upd e.reg sprg (e.reg r3) } := rfl
  simp only [leave, hrun]
  rw [(rfi_reg _).2.1]
  have q4 := (restore_eff true { e with reg := upd e.reg sprg (e.reg r3) }).2.2.2 srr0 0 rfl
  rw [q4]
  clear q4
  obtain ⟨w1, w2, -, w4⟩ := swap_eff { e with reg := upd e.reg sprg (e.reg r3) }
  have w4' := w4 res (by decide) (by decide) (by decide)
  clear w4
  generalize run (swapStack r0) { e with reg := upd e.reg sprg (e.reg r3) } = w at *
  simp only [] at w1 w2 w4'
  rw [upd_same] at w2
  rw [upd_ne _ _ (by decide), h] at w4'
  simp only [sthcx, w4', upd_same]
  simp only [BitVec.ofNat_eq_ofNat, and_self, if_true, BitVec.add_zero]
  rw [w2, w1, upd_same]

/-- entering by a system call or the decrementer keeps the reservation of the interrupted task -/
theorem ppc_reservation_kept (icr : Bool) (pre : St R → St R) (s : St R) :
    (enter icr pre .dec s).reg res = s.reg res := by
  have e : enter icr pre .dec s = run [.mv r3 sprg] (run save (trap icr .dec s)) := run_append _ _ _ save_straight
  rw [e]
  have h := (save_eff (trap icr .dec s)).2.2.1 res (by decide) (by decide) (by decide) (by decide)
  generalize run save (trap icr .dec s) = y at *
  have hrun : run [Op.mv r3 sprg] y = { y with reg := upd y.reg r3 (y.reg sprg) } := rfl
  rw [hrun]
  simp only []
  rw [upd_ne _ _ (by decide), h]
  simp [trap, upd]

/-- with CLEAR_RESERVATIONS_ON_EXT_INTERRUPT an external interrupt clears it -/
theorem ppc_reservation_cleared (s : St R) : (run save (trap true .ext s)).reg res = 0 := by
  rw [(save_eff _).2.2.1 res (by decide) (by decide) (by decide) (by decide)]
  simp [trap, upd]

/-- **So on such a core switching tasks is not invisible.** -/
theorem ppc_not_sound (icr : Bool) (pre post : St R → St R) (dev : W → Prop) (hpre : COk pre dev)
    (hdev : ∀ a, ¬ dev a) : ¬ (port icr true pre post dev).Sound (fun _ => True) := by
  intro H
  let s : St R := { reg := fun r => if r = r1 then 144 else 0, mem := fun _ => 0 }
  have h := (H.restores .dec s trivial fun a _ => hdev a).2 .sc
  obtain ⟨e1, -, e3, -⟩ := enter_eff icr pre dev hpre .dec s
  have hs1 : s.reg r1 = 144 := by
    show (if r1 = r1 then (144 : W) else 0) = 144
    rw [if_pos rfl]
  have hsp : s.reg pc = 0 := by
    show (if pc = r1 then (144 : W) else 0) = 0
    rw [if_neg (by decide)]
  have e3' := e3 pc rfl (by decide) (hdev _)
  rw [if_pos rfl] at e3'
  simp only [] at e3'
  rw [hs1] at e1 e3'
  rw [hsp, show off pc = 0 by rfl, show (144 : W) - 140 + 0 = 4 by decide] at e3'
  rw [show (144 : W) - 140 = 4 by decide] at e1
  clear_value s
  have harg : (port icr true pre post dev).arg ((port icr true pre post dev).enter .dec s) = 4 := e1
  obtain ⟨e, m1, m2, m3⟩ : ∃ e : St R, e.reg r3 = 4 ∧ e.reg res = 1 ∧ e.mem = (enter icr pre .dec s).mem :=
    ⟨⟨upd (upd (enter icr pre .dec s).reg r3 4) res 1, (enter icr pre .dec s).mem⟩,
      by simp only []; rw [upd_ne _ _ (by decide), upd_same], by simp only []; rw [upd_same], rfl⟩
  have hc := h e trivial (by rw [harg]; exact m1) fun a _ => congrFun m3 a
  have hc1 : (if visible pc = true then (leave true post .sc e).reg pc else 0) =
    (if visible pc = true then s.reg pc else 0) := congrFun hc pc
  rw [if_pos (show visible pc = true from rfl), if_pos (show visible pc = true from rfl),
    ppc_reservation_lost post e m2, hsp, m1, m3, e3'] at hc1
  exact absurd hc1 (by decide)

/-! ### arch_save_first_context -/

/-- registers a C function must preserve (the EABI), stack pointer and return address included -/
def calleeSaved : R → Bool
  | r1 | r14 | r15 | r16 | r17 | r18 | r19 | r20 | r21 | r22 | r23 | r24 | r25 | r26 | r27 | r28 | r29 | r30 | r31 | lr => true
  | _ => false

theorem firstA_eff (s : St R) :
    let x := run ([.sw r30 r1 (-8), .sw r31 r1 (-4), .mv sprg r3] ++ swapStack r3) s
    x.mem = upd (upd s.mem (s.reg r1 + -8) (s.reg r30)) (s.reg r1 + -4) (s.reg r31) ∧
    x.reg r1 = s.reg r3 ∧ x.reg sprg = s.reg r1 ∧
    ∀ r, r ≠ r1 → r ≠ sprg → r ≠ r3 → x.reg r = s.reg r := by
  simp only [swapStack, List.cons_append, List.nil_append]
  rw [run_cons _ _ _ rfl, run_cons _ _ _ rfl, run_cons _ _ _ rfl, run_cons _ _ _ rfl, run_cons _ _ _ rfl,
    run_cons _ _ _ rfl, run_nil]
  simp only [exec]
  refine ⟨trivial, by simp [upd], by simp [upd], fun r h1 h2 h3 => by simp [upd, h1, h2, h3]⟩

theorem firstB_eff (x : St R) :
    let y := run [.addi r1 r1 (-140), .mv r30 r4, .li r31 0x2029000, .mv r3 msr, .or r31 r31 r3, .sw r30 r1 0,
      .sw r31 r1 4, .sw r5 r1 28] x
    y.mem = upd (upd (upd x.mem (x.reg r1 - 140) (x.reg r4)) (x.reg r1 - 140 + 4) (0x2029000 ||| x.reg msr))
      (x.reg r1 - 140 + 28) (x.reg r5) ∧
    y.reg r1 = x.reg r1 - 140 ∧ y.reg sprg = x.reg sprg ∧
    ∀ r, r ≠ r1 → r ≠ r30 → r ≠ r31 → r ≠ r3 → y.reg r = x.reg r := by
  have hsub : x.reg r1 + -140#32 = x.reg r1 - 140#32 := by grind
  simp only []
  rw [run_cons _ _ _ rfl, run_cons _ _ _ rfl, run_cons _ _ _ rfl, run_cons _ _ _ rfl, run_cons _ _ _ rfl,
    run_cons _ _ _ rfl, run_cons _ _ _ rfl, run_cons _ _ _ rfl, run_nil]
  simp only [exec]
  refine ⟨?_, ?_, by simp [upd], fun r h1 h2 h3 h4 => by simp [upd, h1, h2, h3, h4]⟩
  · simp only [upd, reduceCtorEq, if_false, if_true, BitVec.ofNat_eq_ofNat, hsub, BitVec.add_zero]
  · simp only [upd, reduceCtorEq, if_false, if_true, BitVec.ofNat_eq_ofNat, hsub]

theorem firstC_eff (y : St R) :
    let z := run (swapStack r3 ++ [.lw r30 r1 (-8), .lw r31 r1 (-4)]) y
    z.mem = y.mem ∧ z.reg r3 = y.reg r1 ∧ z.reg r1 = y.reg sprg ∧
    z.reg r30 = y.mem (y.reg sprg + -8) ∧ z.reg r31 = y.mem (y.reg sprg + -4) ∧
    ∀ r, r ≠ r1 → r ≠ r30 → r ≠ r31 → r ≠ r3 → r ≠ sprg → z.reg r = y.reg r := by
  simp only [swapStack, List.cons_append, List.nil_append]
  rw [run_cons _ _ _ rfl, run_cons _ _ _ rfl, run_cons _ _ _ rfl, run_cons _ _ _ rfl, run_cons _ _ _ rfl, run_nil]
  simp only [exec]
  refine ⟨trivial, by simp [upd], by simp [upd], by simp [upd], by simp [upd],
    fun r h1 h2 h3 h4 h5 => by simp [upd, h1, h2, h3, h4, h5]⟩

theorem first_split (s : St R) : run first s =
    run (swapStack r3 ++ [.lw r30 r1 (-8), .lw r31 r1 (-4)])
      (run [.addi r1 r1 (-140), .mv r30 r4, .li r31 0x2029000, .mv r3 msr, .or r31 r31 r3, .sw r30 r1 0,
        .sw r31 r1 4, .sw r5 r1 28] (run ([.sw r30 r1 (-8), .sw r31 r1 (-4), .mv sprg r3] ++ swapStack r3) s)) := by
  have e : first = ([.sw r30 r1 (-8), .sw r31 r1 (-4), .mv sprg r3] ++ swapStack r3) ++
      ([.addi r1 r1 (-140), .mv r30 r4, .li r31 0x2029000, .mv r3 msr, .or r31 r31 r3, .sw r30 r1 0,
        .sw r31 r1 4, .sw r5 r1 28] ++ (swapStack r3 ++ [.lw r30 r1 (-8), .lw r31 r1 (-4)])) := by simp [first]
  rw [e, run_append _ _ _ (by decide), run_append _ _ _ (by decide)]

/-- arch_save_first_context, register by register and cell by cell; the two words below the caller's stack
pointer that it uses are apart from the frame -/
theorem first_eff (s : St R)
    (h8 : ¬ (s.reg r1 + -8 - (s.reg r3 - 140)).toNat < 140) (h4 : ¬ (s.reg r1 + -4 - (s.reg r3 - 140)).toNat < 140) :
    let y := run first s
    y.reg r3 = s.reg r3 - 140 ∧ (∀ r, calleeSaved r = true → y.reg r = s.reg r) ∧
    (∀ a, ¬ (a - (s.reg r3 - 140)).toNat < 140 → a ≠ s.reg r1 + -8 → a ≠ s.reg r1 + -4 → y.mem a = s.mem a) ∧
    y.mem (s.reg r3 - 140) = s.reg r4 ∧ y.mem (s.reg r3 - 140 + 4) = 0x2029000 ||| s.reg msr ∧
    y.mem (s.reg r3 - 140 + 28) = s.reg r5 := by
  simp only []
  rw [first_split]
  obtain ⟨a1, a2, a3, a4⟩ := firstA_eff s
  generalize run ([.sw r30 r1 (-8), .sw r31 r1 (-4), .mv sprg r3] ++ swapStack r3) s = x at *
  obtain ⟨b1, b2, b3, b4⟩ := firstB_eff x
  generalize run [.addi r1 r1 (-140), .mv r30 r4, .li r31 0x2029000, .mv r3 msr, .or r31 r31 r3, .sw r30 r1 0,
      .sw r31 r1 4, .sw r5 r1 28] x = y at *
  obtain ⟨c1, c2, c3, c4, c5, c6⟩ := firstC_eff y
  generalize run (swapStack r3 ++ [.lw r30 r1 (-8), .lw r31 r1 (-4)]) y = z at *
  rw [a2] at b1 b2
  rw [b3, a3] at c3 c4 c5
  rw [a4 r4 (by decide) (by decide) (by decide), a4 r5 (by decide) (by decide) (by decide),
    a4 msr (by decide) (by decide) (by decide)] at b1
  have in' : ∀ o : W, o.toNat < 140 → ∀ a, ¬ (a - (s.reg r3 - 140)).toNat < 140 → a ≠ s.reg r3 - 140 + o := by
    rintro o ho a ha rfl
    rw [show s.reg r3 - 140 + o - (s.reg r3 - 140) = o by grind] at ha
    exact ha ho
  have in0 : ∀ a, ¬ (a - (s.reg r3 - 140)).toNat < 140 → a ≠ s.reg r3 - 140 := fun a ha h =>
    in' 0 (by decide) a ha (by rw [h]; grind)
  have hm : ∀ a, ¬ (a - (s.reg r3 - 140)).toNat < 140 → y.mem a = x.mem a := fun a ha => by
    rw [b1, upd_ne _ _ (in' 28 (by decide) a ha), upd_ne _ _ (in' 4 (by decide) a ha), upd_ne _ _ (in0 a ha)]
  have n48 : s.reg r1 + -8 ≠ s.reg r1 + -4 := by intro h; grind
  refine ⟨by rw [c2, b2], ?_, ?_, ?_, ?_, ?_⟩
  · intro r hr
    by_cases hr1 : r = r1
    · rw [hr1, c3]
    by_cases hr30 : r = r30
    · rw [hr30, c4, hm _ h8, a1, upd_ne _ _ n48, upd_same]
    by_cases hr31 : r = r31
    · rw [hr31, c5, hm _ h4, a1, upd_same]
    have hr3 : r ≠ r3 := by rintro rfl; exact absurd hr (by decide)
    have hrs : r ≠ sprg := by rintro rfl; exact absurd hr (by decide)
    rw [c6 r hr1 hr30 hr31 hr3 hrs, b4 r hr1 hr30 hr31 hr3, a4 r hr1 hrs hr3]
  · intro a ha n8 n4
    rw [c1, hm a ha, a1, upd_ne _ _ n4, upd_ne _ _ n8]
  · rw [c1, b1, upd_ne _ _ (by intro h; grind), upd_ne _ _ (by intro h; grind), upd_same]
  · rw [c1, b1, upd_ne _ _ (by intro h; grind), upd_same]
  · rw [c1, b1, upd_same]

/-- **arch_save_first_context.** Called as C calls it (`r3` = top of the stack, `r4` = `fn`, `r5` =
`priv`), it returns a stack pointer 35 words lower, writes nothing but those words and two words of
scratch below the caller's own stack pointer, keeps the registers C relies on, and leaves there a saved
context that enters `fn` with argument `priv`, the stack pointer at the top of the task's stack, and
interrupts enabled. -/
theorem ppc_first (icr : Bool) (pre post : St R → St R) (dev : W → Prop) (hpre : COk pre dev) (hpost : COk post dev)
    (s : St R) (h8 : ¬ (s.reg r1 + -8 - (s.reg r3 - 140)).toNat < 140)
    (h4 : ¬ (s.reg r1 + -4 - (s.reg r3 - 140)).toNat < 140)
    (hio : ∀ a, (a - (s.reg r3 - 140)).toNat < 140 → ¬ dev a) :
    let y := run first s
    y.reg r3 = s.reg r3 - 140 ∧ (∀ r, calleeSaved r = true → y.reg r = s.reg r) ∧
    (∀ a, ¬ (a - (s.reg r3 - 140)).toNat < 140 → a ≠ s.reg r1 + -8 → a ≠ s.reg r1 + -4 → y.mem a = s.mem a) ∧
    ∃ c, (port icr false pre post dev).Holds (y.reg r3) c y ∧
      c pc = s.reg r4 ∧ c r3 = s.reg r5 ∧ c r1 = s.reg r3 ∧ (c msr).getLsbD 15 = true := by
  obtain ⟨f1, f2, f3, f4, f5, f6⟩ := first_eff s h8 h4
  refine ⟨f1, f2, f3, ?_⟩
  have f1' : (run first s).reg r3 = s.reg r3 - 140 := f1
  rw [f1']
  generalize run first s = y at *
  refine ⟨fun r => if visible r = true then
    (if r = r1 then s.reg r3 else y.mem (s.reg r3 - 140 + off r)) else 0, ?_, ?_, ?_, ?_, ?_⟩
  · refine (frameEff icr pre post dev hpre hpost).holds _ _ _ hio ?_ ?_ ?_
    · simp only [if_pos (show visible r1 = true from rfl), if_true]; grind
    · intro r hv hr
      simp only [if_pos hv, if_neg hr]
    · intro r hv
      simp [hv]
  · simp only [if_pos (show visible pc = true from rfl), reduceCtorEq, if_false]
    rw [show off pc = 0 by rfl, show s.reg r3 - 140 + 0 = s.reg r3 - 140 by grind]; exact f4
  · simp only [if_pos (show visible r3 = true from rfl), reduceCtorEq, if_false]
    rw [show off r3 = 28 by rfl]; exact f6
  · simp only [if_pos (show visible r1 = true from rfl), if_true]
  · simp only [if_pos (show visible msr = true from rfl), reduceCtorEq, if_false]
    rw [show off msr = 4 by rfl]
    have f5' : y.mem (s.reg r3 - 140 + 4) = 0x2029000#32 ||| s.reg msr := f5
    rw [f5', BitVec.getLsbD_or, show (0x2029000#32).getLsbD 15 = true by decide, Bool.true_or]

/-- **arch_start_first_task** (in state `e`, no reservation outstanding), given the context prepared by
arch_save_first_context (in state `s`), enters the function of the task with its argument and its whole
stack, interrupts enabled, and the current stack set aside for the kernel. -/
theorem ppc_start (lax : Bool) (s e : St R) (h8 : ¬ (s.reg r1 + -8 - (s.reg r3 - 140)).toNat < 140)
    (h4 : ¬ (s.reg r1 + -4 - (s.reg r3 - 140)).toNat < 140) (hres : e.reg res = 0)
    (ha : e.reg r3 = (run first s).reg r3)
    (hm : ∀ a, (a - e.reg r3).toNat < 140 → e.mem a = (run first s).mem a) :
    let y := start lax e
    y.reg pc = s.reg r4 ∧ y.reg r3 = s.reg r5 ∧ y.reg r1 = s.reg r3 ∧ (y.reg msr).getLsbD 15 = true ∧
    y.reg sprg = e.reg r1 := by
  obtain ⟨f1, -, -, f4, f5, f6⟩ := first_eff s h8 h4
  have f1' : (run first s).reg r3 = s.reg r3 - 140 := f1
  rw [f1'] at ha
  have hrun : run [Op.mv sprg r3] e = { e with reg := upd e.reg sprg (e.reg r3) } := rfl
  obtain ⟨q1, q2, q3, q4⟩ := restore_eff lax { e with reg := upd e.reg sprg (e.reg r3) }
  have hz : ∀ o : W, o.toNat < 140 → (sthcx lax (run (swapStack r0) { e with reg := upd e.reg sprg (e.reg r3) })).mem
      (e.reg r3 + o) = (run first s).mem (s.reg r3 - 140 + o) := by
    intro o ho
    obtain ⟨w1, w2, -, w4⟩ := swap_eff { e with reg := upd e.reg sprg (e.reg r3) }
    have w4' := w4 res (by decide) (by decide) (by decide)
    clear w4
    generalize run (swapStack r0) { e with reg := upd e.reg sprg (e.reg r3) } = w at *
    simp only [] at w1 w4'
    rw [upd_ne _ _ (by decide), hres] at w4'
    have hmem : (sthcx lax w).mem = w.mem := by
      simp only [sthcx, w4']
      rw [if_neg (by rintro ⟨-, h⟩; exact absurd h (by decide))]
    rw [hmem, w1, hm _ (by rwa [show e.reg r3 + o - e.reg r3 = o by grind]), ha]
  simp only [] at q2 q3 q4
  rw [upd_same] at q2
  rw [upd_ne _ _ (by decide)] at q3
  have q4' : ∀ r o, lastOff loaded r = some o → o.toNat < 140 →
      (restore lax { e with reg := upd e.reg sprg (e.reg r3) }).reg r = (run first s).mem (s.reg r3 - 140 + o) := by
    intro r o hl ho
    rw [q4 r o hl, upd_same]; exact hz o ho
  simp only [start, hrun]
  generalize restore lax { e with reg := upd e.reg sprg (e.reg r3) } = z at *
  obtain ⟨-, g2, g3, g4⟩ := rfi_reg z
  refine ⟨?_, ?_, ?_, ?_, ?_⟩
  · rw [g2, q4' srr0 0 rfl (by decide), show s.reg r3 - 140 + 0 = s.reg r3 - 140 by grind]; exact f4
  · rw [g4 _ (by decide) (by decide), q4' r3 28 rfl (by decide)]; exact f6
  · rw [g4 _ (by decide) (by decide), q2, ha]; grind
  · have f5' : (run first s).mem (s.reg r3 - 140 + 4) = 0x2029000#32 ||| s.reg msr := f5
    rw [g3, q4' srr1 4 rfl (by decide), f5', BitVec.getLsbD_or, show (0x2029000#32).getLsbD 15 = true by decide,
      Bool.true_or]
  · rw [g4 _ (by decide) (by decide), q3]

/-! ### System call arguments -/

/-- **The scheduler receives the arguments of the system call**, interrupts masked (MSR[EE] = 0). -/
theorem ppc_syscall_args (icr : Bool) (pre : St R → St R) (dev : W → Prop) (hpre : COk pre dev) (s : St R) :
    let y := enter icr pre .sc s
    y.reg r3 = s.reg r1 - 140 ∧ y.reg r4 = s.reg r3 ∧ y.reg r5 = s.reg r4 ∧ (y.reg msr).getLsbD 15 = false := by
  obtain ⟨h1, -, -, -, h5, h6⟩ := enter_eff icr pre dev hpre .sc s
  refine ⟨h1, (h5 rfl).1, (h5 rfl).2, ?_⟩
  have h6' := h6 (fun h => nomatch h)
  rw [h6', BitVec.getLsbD_and, show (~~~0x8000#32).getLsbD 15 = false by decide, Bool.and_false]

/-! ### Platform interrupts -/

/-- the vector register of the interrupt controller: base of the table (4 kB aligned) + 4 * irq -/
theorem ackr (base irq : W) (hb : base &&& 0xfff#32 = 0) (hi : irq.toNat < 1024) :
    (base + 4 * irq) &&& 0xffe#32 = 4 * irq := by
  have hb' : base.toNat % 4096 = 0 := by
    have := congrArg BitVec.toNat hb
    rw [BitVec.toNat_and, show (0xfff#32).toNat = 2 ^ 12 - 1 from rfl, Nat.and_two_pow_sub_one_eq_mod] at this
    simpa using this
  have e4 : (4 * irq).toNat = 4 * irq.toNat := by
    rw [BitVec.toNat_mul, show (4 : W).toNat = 4 from rfl]; omega
  have ea : (base + 4 * irq).toNat = base.toNat + 4 * irq.toNat := by
    rw [BitVec.toNat_add, e4]
    have := base.isLt
    omega
  apply BitVec.eq_of_toNat_eq
  rw [BitVec.toNat_and, ea, e4, show (0xffe#32).toNat = 4094 from rfl]
  have h1 : (base.toNat + 4 * irq.toNat) &&& 4094 = ((base.toNat + 4 * irq.toNat) % 4096) &&& 4094 := by
    apply Nat.eq_of_testBit_eq
    intro i
    rw [Nat.testBit_and, Nat.testBit_and, show 4096 = 2 ^ 12 from rfl, Nat.testBit_mod_two_pow]
    by_cases h : i < 12
    · simp [h]
    · rw [Nat.testBit_lt_two_pow (x := 4094) (Nat.lt_of_lt_of_le (by decide) (Nat.pow_le_pow_right (by decide) (Nat.le_of_not_lt h)))]
      simp
  have h2 : (base.toNat + 4 * irq.toNat) % 4096 = 4 * irq.toNat := by omega
  rw [h1, h2]
  apply Nat.eq_of_testBit_eq
  intro i
  rw [Nat.testBit_and]
  rcases Nat.lt_or_ge i 12 with h | h
  · rcases Nat.eq_zero_or_pos i with h0 | h0
    · subst h0
      rw [Nat.testBit_zero, Nat.testBit_zero]
      have : 4 * irq.toNat % 2 = 0 := by omega
      simp [this]
    · have : (4094 : Nat).testBit i = true := by
        have hi2 : i = 1 ∨ i = 2 ∨ i = 3 ∨ i = 4 ∨ i = 5 ∨ i = 6 ∨ i = 7 ∨ i = 8 ∨ i = 9 ∨ i = 10 ∨ i = 11 := by omega
        rcases hi2 with h | h | h | h | h | h | h | h | h | h | h <;> subst h <;> decide
      rw [this, Bool.and_true]
  · have : (4 * irq.toNat).testBit i = false :=
      Nat.testBit_lt_two_pow (Nat.lt_of_lt_of_le (show 4 * irq.toNat < 2 ^ 12 by omega) (Nat.pow_le_pow_right (by decide) h))
    rw [this, Bool.false_and]

/-- **A platform interrupt runs the function registered for it, with its argument**, and that function
will return to the acknowledge of the interrupt: `table` is the vector table, `privs` the table of
arguments, `irq` the interrupt, reported by the controller as `table + 4 * irq`. -/
theorem ppc_isr (table privs next irq : W) (x : St R) (hb : table &&& 0xfff#32 = 0) (hi : irq.toNat < 1024)
    (h3 : x.reg r3 = table + 4 * irq) : let y := isrCall privs next x
    y.reg pc = x.mem (table + 4 * irq) ∧ y.reg r3 = x.mem (privs + 4 * irq) ∧ y.reg lr = next ∧
    y.reg r1 = x.reg r1 ∧ y.reg sprg = x.reg sprg ∧ y.mem = x.mem := by
  have hk := ackr table irq hb hi
  have h3' : x.reg r3 = table + 4#32 * irq := h3
  have hk' : (table + 4#32 * irq) &&& 4094#32 = 4#32 * irq := hk
  simp only [isrCall]
  rw [run_cons _ _ _ rfl, run_cons _ _ _ rfl, run_cons _ _ _ rfl, run_cons _ _ _ rfl, run_cons _ _ _ rfl,
    run_cons _ _ _ rfl, run_nil]
  simp only [exec, upd, reduceCtorEq, if_false, if_true, BitVec.ofNat_eq_ofNat, h3', BitVec.add_zero, hk']
  refine ⟨trivial, ?_, trivial, trivial, trivial, trivial⟩
  rw [BitVec.add_comm]

/-- **... then the interrupted task is resumed where it was**: whatever the function does, as long as it
leaves the stack pointer, SPRG0 and the saved context alone. -/
theorem ppc_isr_resumes (icr lax : Bool) (f : St R → St R) (s : St R)
    (h1 : (f (run save (trap icr .ext s))).reg r1 = (run save (trap icr .ext s)).reg r1)
    (h2 : (f (run save (trap icr .ext s))).reg sprg = (run save (trap icr .ext s)).reg sprg)
    (h3 : ∀ a, (a - (s.reg r1 - 140)).toNat < 140 →
      (f (run save (trap icr .ext s))).mem a = (run save (trap icr .ext s)).mem a)
    (h4 : (f (run save (trap icr .ext s))).reg res = 0) :
    let y := rfi (restore lax (f (run save (trap icr .ext s))))
    (∀ r, visible r = true → y.reg r = s.reg r) ∧ y.reg sprg = s.reg sprg := by
  obtain ⟨t1, t2, -, t4, t5⟩ := trapped_eff icr .ext s
  generalize run save (trap icr .ext s) = w at *
  generalize f w = e at *
  obtain ⟨q1, q2, q3, q4⟩ := restore_eff lax e
  have hz : ∀ o : W, o.toNat < 140 → (sthcx lax (run (swapStack r0) e)).mem (e.reg sprg + o) = w.mem (s.reg r1 - 140 + o) := by
    intro o ho
    obtain ⟨w1, w2, -, w4⟩ := swap_eff e
    have w4' := w4 res (by decide) (by decide) (by decide)
    rw [h4] at w4'
    clear w4
    generalize run (swapStack r0) e = v at *
    have hmem : (sthcx lax v).mem = v.mem := by
      simp only [sthcx, w4']
      rw [if_neg (by rintro ⟨-, h⟩; exact absurd h (by decide))]
    rw [hmem, w1, h2, t2]
    exact h3 _ (by rwa [show s.reg r1 - 140 + o - (s.reg r1 - 140) = o by grind])
  have q4' : ∀ r o, lastOff loaded r = some o → o.toNat < 140 → (restore lax e).reg r = w.mem (s.reg r1 - 140 + o) := by
    intro r o hl ho
    rw [q4 r o hl]; exact hz o ho
  clear q4 hz
  generalize restore lax e = z at *
  obtain ⟨-, g2, g3, g4⟩ := rfi_reg z
  refine ⟨fun r hv => ?_, ?_⟩
  · by_cases hr1 : r = r1
    · subst hr1
      rw [g4 _ (by decide) (by decide), q2, h2, t2]; grind
    have hc := t4 r hv hr1
    by_cases hp : r = pc
    · subst hp
      rw [if_pos rfl] at hc
      rw [g2, q4' srr0 0 rfl (by decide)]; exact hc
    rw [if_neg hp] at hc
    by_cases hm : r = msr
    · subst hm
      rw [g3, q4' srr1 4 rfl (by decide)]; exact hc
    · have hl : lastOff loaded r = some (off r) := by
        cases r <;> first | exact absurd hv (by decide) | exact absurd rfl hr1 | exact absurd rfl hp |
          exact absurd rfl hm | rfl
      rw [g4 r hp hm, q4' r _ hl ?_, hc]
      revert hv; cases r <;> first | exact absurd rfl hr1 | decide
  · rw [g4 _ (by decide) (by decide), q3, h1, t1]

/-! ### The hypotheses are met -/

/-- a task interrupted with its stack at 0x400 -/
def demo : St R where
  reg := fun
    | r1 => 0x400 | sprg => 0x1000 | pc => 0x80 | lr => 0x44 | r3 => 3 | r4 => 7 | r14 => 9 | msr => 0x8000 | res => 0
    | _ => 5
  mem := fun a => a

example : COk (fun x => { reg := upd x.reg r4 1, mem := upd x.mem 0xfff00000 1 }) (fun a => a = 0xfff00000) :=
  fun _ => ⟨rfl, rfl, fun _ ha => upd_ne _ _ ha⟩

example : ¬ ((0x1000 : W) + -8 - (0x400 - 140)).toNat < 140 ∧ ¬ ((0x1000 : W) + -4 - (0x400 - 140)).toNat < 140 := by
  decide

/-- **A switch between two tasks**: one interrupted by the decrementer, the other making a system call -/
example : ∃ x x' : Sys (St R) W (R → W) Bool, ∃ e,
    Sys.Reach (port false false id id (fun _ => False)) (fun _ => True) x ∧
    Switch (port false false id id (fun _ => False)) (fun _ => True) x .sc e true
      ((port false false id id (fun _ => False)).ctx demo) x' ∧
    (port false false id id (fun _ => False)).ctx x'.m = (port false false id id (fun _ => False)).ctx demo := by
  have hid : COk id (fun _ => False) := fun _ => ⟨rfl, rfl, fun _ _ => rfl⟩
  have e1 : (enter false id .dec demo).reg r3 = 0x374 := (enter_eff false id _ hid .dec demo).1
  let m : St R := { reg := upd demo.reg r1 0x800, mem := (enter false id .dec demo).mem }
  let e : St R := { reg := upd (enter false id .sc m).reg r3 0x374, mem := (enter false id .sc m).mem }
  have e2 : (enter false id .sc m).reg r3 = 0x774 :=
    (enter_eff false id _ hid .sc m).1.trans (by show upd demo.reg r1 0x800 r1 - 140 = 0x774; rw [upd_same]; rfl)
  obtain ⟨x, x', -, h1, h2, -, h4⟩ := switch_possible (ppc_sound false id id _ hid hid) .dec .sc demo m e trivial trivial
    (fun _ _ h => h) (fun a _ => rfl)
    (by
      intro a h
      refine ⟨id, ?_⟩
      have h0 : (a - (enter false id .sc m).reg r3).toNat < 140 := h
      show ¬ (a - (enter false id .dec demo).reg r3).toNat < 140
      rw [e2, BitVec.toNat_sub] at h0
      rw [e1, BitVec.toNat_sub]
      simp only [BitVec.toNat_ofNat, BitVec.ofNat_eq_ofNat] at h0 ⊢
      omega)
    trivial
    (Eq.trans (show upd (enter false id .sc m).reg r3 0x374 r3 = 0x374 by rw [upd_same]) e1.symm)
    (fun a => rfl)
  exact ⟨x, x', e, h1, h2, h4⟩

end Pico.Ctx.Ppc
