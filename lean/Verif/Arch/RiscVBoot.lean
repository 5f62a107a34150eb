import Verif.Arch.RiscVProps
/-
RISC-V ports: first context of a task, start of the first task, the tick timer, platform interrupts.
-/
namespace Pico.Ctx.RiscV
open Pico.Ctx V Op

/-! ### arch_save_first_context -/

/-- registers a C function must preserve (the psABI), the stack pointer included -/
def calleeSaved : V → Bool
  | ra | sp | s0 | s1 | s2 | s3 | s4 | s5 | s6 | s7 | s8 | s9 | s10 | s11 => true
  | _ => false

theorem firstSetup_eff (k : List (Op V)) (s : St V) :
    run (firstSetup ++ k) s = run k (run firstSetup s) ∧
    (run firstSetup s).mem = s.mem ∧ (run firstSetup s).reg sp = s.reg a0 ∧
    (run firstSetup s).reg mscratch = s.reg sp ∧ (run firstSetup s).reg mepc = s.reg a1 ∧
    (run firstSetup s).reg a0 = s.reg a2 ∧
    ∀ r, calleeSaved r = true → r ≠ sp → (run firstSetup s).reg r = s.reg r := by
  refine ⟨run_append _ _ _ (by decide), ?_⟩
  simp only [firstSetup]
  rw [run_cons _ _ _ rfl, run_cons _ _ _ rfl, run_cons _ _ _ rfl, run_cons _ _ _ rfl, run_cons _ _ _ rfl,
    run_cons _ _ _ rfl, run_nil]
  simp only [exec]
  refine ⟨trivial, ?_, ?_, ?_, ?_, fun r hr hs => ?_⟩
  · simp [upd]
  · simp [upd]
  · simp [upd]
  · simp [upd]
  · cases r <;> first | exact absurd hr (by decide) | exact absurd rfl hs | simp [upd]

/-- the first context, for any layout: `fn` will be entered with `priv` as its argument and the
whole stack free -/
theorem first_eff (vis : V → Bool) (T : List (V × W)) (n o : W) (s : St V)
    (hsp : vis sp = true) (hpc : vis pc = true) (hA0 : vis a0 = true)
    (hT : ∀ p ∈ T, p.2.toNat < n.toNat) (ho : o.toNat < n.toNat) :
    let y := run (firstSetup ++ (saveM T n o ++ [.mv a0 mscratch])) s
    y.reg a0 = s.reg a0 - n ∧
    (∀ r, calleeSaved r = true → y.reg r = s.reg r) ∧
    (∀ a, ¬ (a - (s.reg a0 - n)).toNat < n.toNat → y.mem a = s.mem a) ∧
    ∃ c, framed vis T n o (s.reg a0 - n) c y.mem ∧ c pc = s.reg a1 ∧ c a0 = s.reg a2 ∧ c sp = s.reg a0 := by
  obtain ⟨p0, p1, p2, p3, p4, p5, p6⟩ := firstSetup_eff (saveM T n o ++ [.mv a0 mscratch]) s
  simp only []
  rw [p0]
  clear p0
  generalize run firstSetup s = x at *
  obtain ⟨h0, h1, h2, h3, h4⟩ := save_eff T n o x
  rw [h0]
  clear h0
  generalize run (saveM T n o) x = y at *
  have hrun : run [Op.mv a0 mscratch] y = { y with reg := upd y.reg a0 (y.reg mscratch) } := rfl
  rw [hrun]
  simp only []
  rw [p2] at h2 h4
  refine ⟨?_, ?_, ?_, ?_⟩
  · rw [upd_same, h2]
  · intro r hr
    rw [upd_ne _ _ (by rintro rfl; exact absurd hr (by decide))]
    by_cases hs : r = sp
    · rw [hs, h1, p3]
    · rw [h3 r hs (by rintro rfl; exact absurd hr (by decide)) (by rintro rfl; exact absurd hr (by decide))]
      exact p6 r hr hs
  · intro a ha
    rw [h4, if_neg (by intro e; rw [e] at ha; exact ha ho), lastReg_none hT ha]
    exact congrFun p1 a
  · refine ⟨fun r => if vis r = true then (if r = pc then s.reg a1 else if r = sp then s.reg a0 else x.reg r)
      else 0, ⟨?_, ?_, ?_, ?_⟩, ?_, ?_, ?_⟩
    · simp only [if_pos hsp, reduceCtorEq, if_false, if_true]; grind
    · rw [h4, if_pos (by grind), p4]; simp only [if_pos hpc, if_true]
    · intro k r hk hv hr hp hne
      rw [h4, show s.reg a0 - n + k - (s.reg a0 - n) = k by grind, if_neg hne, hk]
      simp only [if_neg hr, if_neg hp, if_pos hv]
    · intro r hv; simp [hv]
    · simp only [if_pos hpc, if_true]
    · simp only [if_pos hA0, reduceCtorEq, if_false, p5]
    · simp only [if_pos hsp, reduceCtorEq, if_false, if_true]

/-- **rv32imac: arch_save_first_context.** Called as C calls it (`a0` = top of the stack, `a1` = `fn`,
`a2` = `priv`), it returns a stack pointer 29 words lower, writes nothing but those 29 words, keeps the
registers C relies on, and what it leaves there is a saved context that enters `fn` with argument
`priv` and the stack pointer at the top of the task's stack. -/
theorem imac_first (s : St V) (period mtimecmp : W)
    (hio : ∀ a, (a - (s.reg a0 - 116)).toNat < 116 → ¬ (a = mtimecmp ∨ a = mtimecmp + 4)) :
    let y := run imacFirst s
    y.reg a0 = s.reg a0 - 116 ∧ (∀ r, calleeSaved r = true → y.reg r = s.reg r) ∧
    (∀ a, ¬ (a - (s.reg a0 - 116)).toNat < 116 → y.mem a = s.mem a) ∧
    ∃ c, (imac period mtimecmp).Holds (y.reg a0) c y ∧
      c pc = s.reg a1 ∧ c a0 = s.reg a2 ∧ c sp = s.reg a0 := by
  obtain ⟨h1, h2, h3, c, h4, h5⟩ := first_eff visible imacSaved 116 112 s rfl rfl rfl (by decide) (by decide)
  rw [n116] at h3
  refine ⟨h1, h2, h3, c, ?_, h5⟩
  have e : (run imacFirst s).reg a0 = s.reg a0 - 116 := h1
  rw [e]
  exact imac_holds period mtimecmp _ c _ h4 hio

/-- **rv32ec: arch_save_first_context.** -/
theorem ec_first (s : St V) (hio : ∀ a, (a - (s.reg a0 - 52)).toNat < 52 → ¬ a = stkSr) :
    let y := run ecFirst s
    y.reg a0 = s.reg a0 - 52 ∧ (∀ r, calleeSaved r = true → y.reg r = s.reg r) ∧
    (∀ a, ¬ (a - (s.reg a0 - 52)).toNat < 52 → y.mem a = s.mem a) ∧
    ∃ c, ec.Holds (y.reg a0) c y ∧ c pc = s.reg a1 ∧ c a0 = s.reg a2 ∧ c sp = s.reg a0 := by
  obtain ⟨h1, h2, h3, c, h4, h5⟩ := first_eff ecVisible ecSaved 52 48 s rfl rfl rfl (by decide) (by decide)
  rw [n52] at h3
  refine ⟨h1, h2, h3, c, ?_, h5⟩
  have e : (run ecFirst s).reg a0 = s.reg a0 - 52 := h1
  rw [e]
  exact ec_holds _ c _ h4 hio

/-! ### arch_start_first_task -/

theorem restoreM_start (L : List (V × W)) (n o : W) (z : St V) (hL : lastOff L sp = none)
    (hL2 : lastOff L mepc = none) (hL3 : lastOff L mscratch = none) (ka : W) (hA : lastOff L a0 = some ka)
    (ht : lastOff L t0 ≠ none) :
    let y := mret (run (restoreM L n o ++ [.li t0 0x80, .li mpie 1]) z)
    y.reg pc = z.mem (z.reg mscratch + o) ∧ y.reg a0 = z.mem (z.reg mscratch + ka) ∧
    y.reg sp = z.reg mscratch + n ∧ y.reg mie = 1 ∧ y.reg mscratch = z.reg sp := by
  simp only []
  rw [run_append _ _ _ (by simp [restoreM, lws, Op.isBr])]
  obtain ⟨g1, g2, g3, g4, g5⟩ := restore_eff L n o z hL hL2
  have g5' := g5 a0 (by decide) (by decide) (by decide) (Or.inr ht)
  rw [hA] at g5'
  have g4' := g4 hL3
  rw [show (.swap sp mscratch :: .lw t0 sp o :: .mv mepc t0 :: (lws sp L ++ [.addi sp sp n])) = restoreM L n o from rfl]
    at g1 g2 g3 g4' g5'
  clear g4 g5
  generalize run (restoreM L n o) z = w at *
  rw [run_cons _ _ _ rfl, run_cons _ _ _ rfl, run_nil]
  simp only [mret, exec, upd, reduceCtorEq, if_false, if_true]
  exact ⟨g3, g5', g2, trivial, g4'⟩

theorem imac_start_aux (period mtimecmp mtime : W) (e m : St V) (fn priv top : W)
    (hio : ∀ a, (a - e.reg a0).toNat < 116 → ¬ (a = mtimecmp ∨ a = mtimecmp + 4))
    (hf : ∃ c, framed visible imacSaved 116 112 (e.reg a0) c m.mem ∧ c pc = fn ∧ c a0 = priv ∧ c sp = top)
    (hm : ∀ a, (a - e.reg a0).toNat < 116 → e.mem a = m.mem a) :
    let y := imacStart period mtimecmp mtime e
    y.reg pc = fn ∧ y.reg a0 = priv ∧ y.reg sp = top ∧ y.reg mie = 1 ∧ y.reg mscratch = e.reg sp := by
  obtain ⟨c, ⟨c1, c2, c3, -⟩, rfl, rfl, rfl⟩ := hf
  have in' : ∀ o : W, o.toNat < 116 → (e.reg a0 + o - e.reg a0).toNat < 116 := fun o ho => by
    rwa [show e.reg a0 + o - e.reg a0 = o by grind]
  simp only [imacStart]
  rw [run_cons _ _ _ rfl]
  obtain ⟨z, hz, z1, z2, -, -⟩ := increase_eff period mtimecmp mtime
    (imacRestore ++ [.li t0 0x80, .li mpie 1]) (exec (.mv mscratch a0) e)
  rw [hz]
  have hms : z.reg mscratch = e.reg a0 := by
    rw [z1 _ (by decide) (by decide) (by decide) (by decide)]; simp [exec, upd]
  have hsp : z.reg sp = e.reg sp := by
    rw [z1 _ (by decide) (by decide) (by decide) (by decide)]; simp [exec, upd]
  have hmem : ∀ o : W, o.toNat < 116 → z.mem (e.reg a0 + o) = m.mem (e.reg a0 + o) := fun o ho => by
    have hn := hio _ (in' o ho)
    rw [z2 _ (fun h => hn (Or.inl h)) (fun h => hn (Or.inr h))]
    exact hm _ (in' o ho)
  obtain ⟨y1, y2, y3, y4, y5⟩ := restoreM_start imacLoaded 116 112 z (by decide) (by decide) (by decide)
    24 (by decide) (by decide)
  rw [hms] at y1 y2 y3
  rw [hsp] at y5
  refine ⟨?_, ?_, ?_, y4, y5⟩
  · exact y1.trans ((hmem _ (by decide)).trans c2)
  · exact y2.trans ((hmem _ (by decide)).trans (c3 24 a0 (by decide) rfl (by decide) (by decide) (by decide)))
  · exact y3.trans c1.symm

theorem ec_start_aux (e m : St V) (fn priv top : W)
    (hf : ∃ c, framed ecVisible ecSaved 52 48 (e.reg a0) c m.mem ∧ c pc = fn ∧ c a0 = priv ∧ c sp = top)
    (hm : ∀ a, (a - e.reg a0).toNat < 52 → e.mem a = m.mem a) :
    let y := ecStart e
    y.reg pc = fn ∧ y.reg a0 = priv ∧ y.reg sp = top ∧ y.reg mie = 1 ∧ y.reg mscratch = e.reg sp := by
  obtain ⟨c, ⟨c1, c2, c3, -⟩, rfl, rfl, rfl⟩ := hf
  have in' : ∀ o : W, o.toNat < 52 → e.mem (e.reg a0 + o) = m.mem (e.reg a0 + o) := fun o ho =>
    hm _ (by rwa [show e.reg a0 + o - e.reg a0 = o by grind])
  simp only [ecStart]
  rw [run_cons _ _ _ rfl]
  have hms : (exec (.mv mscratch a0) e).reg mscratch = e.reg a0 := by simp [exec, upd]
  have hsp : (exec (.mv mscratch a0) e).reg sp = e.reg sp := by simp [exec, upd]
  obtain ⟨y1, y2, y3, y4, y5⟩ := restoreM_start ecLoaded 52 48 (exec (.mv mscratch a0) e) (by decide) (by decide)
    (by decide) 24 (by decide) (by decide)
  rw [hms] at y1 y2 y3
  rw [hsp] at y5
  refine ⟨?_, ?_, ?_, y4, y5⟩
  · exact y1.trans ((in' _ (by decide)).trans c2)
  · exact y2.trans ((in' _ (by decide)).trans (c3 24 a0 (by decide) rfl (by decide) (by decide) (by decide)))
  · exact y3.trans c1.symm

/-- **rv32imac: arch_start_first_task** (in state `e`) given the context prepared by
arch_save_first_context (in state `s`) enters the function of the task, with its argument and its
whole stack, interrupts enabled, and the current stack set aside for the kernel. -/
theorem imac_start (period mtimecmp mtime : W) (s e : St V)
    (ha : e.reg a0 = (run imacFirst s).reg a0)
    (hm : ∀ a, (a - e.reg a0).toNat < 116 → e.mem a = (run imacFirst s).mem a)
    (hio : ∀ a, (a - e.reg a0).toNat < 116 → ¬ (a = mtimecmp ∨ a = mtimecmp + 4)) :
    let y := imacStart period mtimecmp mtime e
    y.reg pc = s.reg a1 ∧ y.reg a0 = s.reg a2 ∧ y.reg sp = s.reg a0 ∧ y.reg mie = 1 ∧
    y.reg mscratch = e.reg sp := by
  obtain ⟨h1, -, -, c, h4, h5⟩ := first_eff visible imacSaved 116 112 s rfl rfl rfl (by decide) (by decide)
  have e1 : (run imacFirst s).reg a0 = s.reg a0 - 116 := h1
  refine imac_start_aux period mtimecmp mtime e (run imacFirst s) _ _ _ hio ⟨c, ?_, h5⟩ hm
  rw [ha, e1]; exact h4

/-- **rv32ec: arch_start_first_task.** -/
theorem ec_start (s e : St V)
    (ha : e.reg a0 = (run ecFirst s).reg a0)
    (hm : ∀ a, (a - e.reg a0).toNat < 52 → e.mem a = (run ecFirst s).mem a) :
    let y := ecStart e
    y.reg pc = s.reg a1 ∧ y.reg a0 = s.reg a2 ∧ y.reg sp = s.reg a0 ∧ y.reg mie = 1 ∧
    y.reg mscratch = e.reg sp := by
  obtain ⟨h1, -, -, c, h4, h5⟩ := first_eff ecVisible ecSaved 52 48 s rfl rfl rfl (by decide) (by decide)
  have e1 : (run ecFirst s).reg a0 = s.reg a0 - 52 := h1
  refine ec_start_aux e (run ecFirst s) _ _ _ ⟨c, ?_, h5⟩ hm
  rw [ha, e1]; exact h4

/-! ### System call arguments, interrupt enable -/

/-- **The scheduler receives the arguments of the system call**: `picoRTOS_syscall(sp, syscall, priv)`
is called with the task's stack pointer, and the two arguments `arch_syscall` was called with. -/
theorem imac_syscall_args (s : St V) : let y := imacEnter .syscall s
    y.reg a0 = s.reg sp - 116 ∧ y.reg a1 = s.reg a0 ∧ y.reg a2 = s.reg a1 :=
  ⟨(imac_enter .syscall s).1, (imac_enter .syscall s).2.2.2.2.2.2 rfl⟩
theorem ec_syscall_args (s : St V) : let y := ecEnter .syscall s
    y.reg a0 = s.reg sp - 52 ∧ y.reg a1 = s.reg a0 ∧ y.reg a2 = s.reg a1 :=
  ⟨(ec_enter .syscall s).1, (ec_enter .syscall s).2.2.2.2.2.2 rfl⟩

/-- **Interrupts are masked while the scheduler runs, and the interrupt enable comes back as the
scheduler left it in MPIE**: C code that does not touch MPIE gives the task taken in the interrupt
enable of the task taken out (it is not part of the saved context). -/
theorem imac_interrupt_enable (period mtimecmp : W) (k k' : Kind) (s e : St V)
    (h : e.reg mpie = (imacEnter k s).reg mpie) :
    (imacEnter k s).reg mie = 0 ∧ (imacLeave period mtimecmp k' e).reg mie = s.reg mie :=
  ⟨(imac_enter k s).2.2.2.1, by rw [(imac_leave period mtimecmp k' e).2.2.1, h, (imac_enter k s).2.2.1]⟩
theorem ec_interrupt_enable (k k' : Kind) (s e : St V) (h : e.reg mpie = (ecEnter k s).reg mpie) :
    (ecEnter k s).reg mie = 0 ∧ (ecLeave k' e).reg mie = s.reg mie :=
  ⟨(ec_enter k s).2.2.2.1, by rw [(ec_leave k' e).2.2.1, h, (ec_enter k s).2.2.1]⟩

/-! ### The tick timer (rv32imac) -/

/-- a 64-bit value made of two words at `a` -/
def at64 (m : W → W) (a : W) : Nat := (m a).toNat + 2 ^ 32 * (m (a + 4)).toNat

theorem tick_words (period mtimecmp : W) (e : St V) :
    (imacLeave period mtimecmp .tick e).mem mtimecmp = e.mem period + e.mem mtimecmp ∧
    (imacLeave period mtimecmp .tick e).mem (mtimecmp + 4) =
      if (e.mem period).toNat < (e.mem period + e.mem mtimecmp).toNat then e.mem (mtimecmp + 4)
      else e.mem (mtimecmp + 4) + 1 := by
  simp only [imacLeave]
  rw [run_cons _ _ _ rfl]
  obtain ⟨z, hz, -, -, z3, z4⟩ := increase_eff period mtimecmp mtimecmp imacRestore (exec (.mv mscratch a0) e)
  rw [hz]
  have g1 := (restore_eff imacLoaded 116 112 z (by decide) (by decide)).1
  have g1' : (mret (run imacRestore z)).mem = z.mem := g1
  rw [g1', z3, z4]
  exact ⟨rfl, rfl⟩

/-- **The next tick is one period after the last one** (modulo the 64 bits of the timer), unless the
low word of the comparator is 0.  Partial: `tick_period_wrong` is that case. -/
theorem tick_period_partial (period mtimecmp : W) (e : St V) (h0 : e.mem mtimecmp ≠ 0) :
    at64 (imacLeave period mtimecmp .tick e).mem mtimecmp % 2 ^ 64 =
      (at64 e.mem mtimecmp + (e.mem period).toNat) % 2 ^ 64 := by
  obtain ⟨h1, h2⟩ := tick_words period mtimecmp e
  have hz : (e.mem mtimecmp).toNat ≠ 0 := fun h => h0 (BitVec.eq_of_toNat_eq (by rw [h]; rfl))
  simp only [at64, h1, h2, BitVec.toNat_add]
  have b1 := (e.mem mtimecmp).isLt
  have b2 := (e.mem period).isLt
  have b3 := (e.mem (mtimecmp + 4)).isLt
  split
  · omega
  · rw [BitVec.toNat_add, show (1 : W).toNat = 1 from rfl]; omega

/-- **Not so when the low word of the comparator is 0**: the carry is propagated although there is
none, and the next tick is 2^32 timer counts late (`bltu t0, t2` should be `bgeu t2, t0`). -/
theorem tick_period_wrong (period mtimecmp : W) (e : St V) (h0 : e.mem mtimecmp = 0) :
    at64 (imacLeave period mtimecmp .tick e).mem mtimecmp % 2 ^ 64 =
      (at64 e.mem mtimecmp + (e.mem period).toNat + 2 ^ 32) % 2 ^ 64 := by
  obtain ⟨h1, h2⟩ := tick_words period mtimecmp e
  have hz : (e.mem mtimecmp).toNat = 0 := by rw [h0]; rfl
  simp only [at64, h1, h2, BitVec.toNat_add, hz, Nat.add_zero]
  have b2 := (e.mem period).isLt
  rw [if_neg (by omega), BitVec.toNat_add, show (1 : W).toNat = 1 from rfl]
  omega

/-! ### Platform interrupts -/

/-- the function `picoRTOS_register_interrupt(irq, fn, priv)` registered: the table entries are 8 bytes
(intc-eclic.c:18-27, intc-pfic.c:46-56) -/
def registered (table : W) (m : W → W) (irq : W) : W × W := (m (table + 8 * irq), m (table + 8 * irq + 4))

theorem mask_irq (irq : W) (h : irq.toNat < 4096 - 16) :
    ((0xfff#32 &&& (irq + 16#32)) + (-16#32)) <<< 2 = 4#32 * irq := by
  have h1 : 0xfff#32 &&& (irq + 16#32) = irq + 16#32 := by
    apply BitVec.eq_of_toNat_eq
    have e : (irq + 16#32).toNat = irq.toNat + 16 := by
      rw [BitVec.toNat_add, show (16#32).toNat = 16 from rfl]; omega
    rw [BitVec.toNat_and, e, show (0xfff#32).toNat = 2 ^ 12 - 1 from rfl, Nat.and_comm,
      Nat.and_two_pow_sub_one_eq_mod]
    omega
  rw [h1, show irq + 16#32 + -16#32 = irq by grind]
  apply BitVec.eq_of_toNat_eq
  rw [BitVec.toNat_shiftLeft, BitVec.toNat_mul, Nat.shiftLeft_eq, show (4#32).toNat = 4 from rfl]
  omega

theorem isrFetch_eff (table : W) (y : St V) (irq : W) (h : irq.toNat < 4096 - 16)
    (hc : y.reg mcause = irq + 16) :
    (run (isrFetch table) y).reg t2 = y.mem (table + 4 * irq) ∧
    (run (isrFetch table) y).reg a0 = y.mem (table + 4 * irq + 4) ∧
    (run (isrFetch table) y).reg ra = y.reg ra ∧ (run (isrFetch table) y).reg sp = y.reg sp := by
  have hm := mask_irq irq h
  have hc' : y.reg mcause = irq + 16#32 := hc
  simp only [isrFetch]
  rw [run_cons _ _ _ rfl, run_cons _ _ _ rfl, run_cons _ _ _ rfl, run_cons _ _ _ rfl, run_cons _ _ _ rfl,
    run_cons _ _ _ rfl, run_cons _ _ _ rfl, run_cons _ _ _ rfl, run_cons _ _ _ rfl, run_nil]
  simp only [exec]
  simp only [upd, reduceCtorEq, if_false, if_true, hc', BitVec.ofNat_eq_ofNat, hm, BitVec.add_zero]
  exact ⟨trivial, trivial, trivial, trivial⟩

/-- **Platform interrupts**: what the handler of platform interrupt `irq` (cause `irq + 16`) branches to
and with which argument; the return address is still that of the interrupted task. -/
theorem isr_eff (T : List (V × W)) (n o table irq : W) (s : St V) (hirq : irq.toNat < 4096 - 16)
    (hT : ∀ p ∈ T, p.2.toNat < n.toNat) (ho : o.toNat < n.toNat)
    (h1 : ¬ (table + 4 * irq - (s.reg sp - n)).toNat < n.toNat)
    (h2 : ¬ (table + 4 * irq + 4 - (s.reg sp - n)).toNat < n.toNat) :
    let y := run (saveM T n o ++ isrFetch table) (trap (irq + 16) s)
    y.reg t2 = s.mem (table + 4 * irq) ∧ y.reg a0 = s.mem (table + 4 * irq + 4) ∧
    y.reg ra = s.reg ra ∧ y.reg sp = s.reg mscratch := by
  obtain ⟨h0, e1, e2, e3, e4⟩ := save_eff T n o (trap (irq + 16) s)
  have tsp : (trap (irq + 16) s).reg sp = s.reg sp := by simp [trap, upd]
  have tms : (trap (irq + 16) s).reg mscratch = s.reg mscratch := by simp [trap, upd]
  have tra : (trap (irq + 16) s).reg ra = s.reg ra := by simp [trap, upd]
  have tmc : (trap (irq + 16) s).reg mcause = irq + 16 := by simp [trap, upd]
  have hout : ∀ a, ¬ (a - (s.reg sp - n)).toNat < n.toNat →
      (run (saveM T n o) (trap (irq + 16) s)).mem a = s.mem a := by
    intro a ha
    rw [e4, tsp, if_neg (by intro e; rw [e] at ha; exact ha ho), lastReg_none hT ha]; rfl
  simp only []
  rw [h0]
  obtain ⟨f1, f2, f3, f4⟩ := isrFetch_eff table (run (saveM T n o) (trap (irq + 16) s)) irq hirq
    (by rw [e3 _ (by decide) (by decide) (by decide), tmc])
  rw [f1, f2, f3, f4, hout _ h1, hout _ h2, e3 _ (by decide) (by decide) (by decide), tra, e1, tms]
  exact ⟨rfl, rfl, rfl, rfl⟩

/-- the two cells the handler reads are outside the frame it just saved -/
def tableApart (table irq h n : W) : Prop :=
  ¬ (table + 4 * irq - h).toNat < n.toNat ∧ ¬ (table + 4 * irq + 4 - h).toNat < n.toNat

theorem imacIsr_regs (table cause : W) (s : St V) :
    (imacIsr table cause s).reg pc = (run (saveM imacSaved 116 112 ++ isrFetch table) (trap cause s)).reg t2 ∧
    ∀ r, r ≠ pc → (imacIsr table cause s).reg r = (run (saveM imacSaved 116 112 ++ isrFetch table) (trap cause s)).reg r := by
  simp only [imacIsr, show imacSave = saveM imacSaved 116 112 from rfl]
  exact ⟨upd_same _ _ _, fun r h => upd_ne _ _ h⟩

theorem ecIsr_regs (table cause : W) (s : St V) :
    (ecIsr table cause s).reg pc = (run (saveM ecSaved 52 48 ++ isrFetch table) (trap cause s)).reg t2 ∧
    ∀ r, r ≠ pc → (ecIsr table cause s).reg r = (run (saveM ecSaved 52 48 ++ isrFetch table) (trap cause s)).reg r := by
  simp only [ecIsr, show ecSave = saveM ecSaved 52 48 from rfl]
  exact ⟨upd_same _ _ _, fun r h => upd_ne _ _ h⟩

/-- **Only interrupt 0 reaches the function registered for it.** Partial: see `imac_isr_wrong`. -/
theorem imac_isr_partial (table : W) (s : St V) (ha : tableApart table 0 (s.reg sp - 116) 116) :
    let y := imacIsr table (0 + 16) s
    (y.reg pc, y.reg a0) = registered table s.mem 0 := by
  obtain ⟨h1, h2, -, -⟩ := isr_eff imacSaved 116 112 table 0 s (by decide) (by decide) (by decide) ha.1 ha.2
  have e1 : (imacIsr table (0 + 16) s).reg pc = s.mem (table + 4 * 0) := (imacIsr_regs table _ s).1.trans h1
  have e2 : (imacIsr table (0 + 16) s).reg a0 = s.mem (table + 4 * 0 + 4) := ((imacIsr_regs table _ s).2 a0 (by decide)).trans h2
  simp only [registered, e1, e2]
  rfl
theorem ec_isr_partial (table : W) (s : St V) (ha : tableApart table 0 (s.reg sp - 52) 52) :
    let y := ecIsr table (0 + 16) s
    (y.reg pc, y.reg a0) = registered table s.mem 0 := by
  obtain ⟨h1, h2, -, -⟩ := isr_eff ecSaved 52 48 table 0 s (by decide) (by decide) (by decide) ha.1 ha.2
  have e1 : (ecIsr table (0 + 16) s).reg pc = s.mem (table + 4 * 0) := (ecIsr_regs table _ s).1.trans h1
  have e2 : (ecIsr table (0 + 16) s).reg a0 = s.mem (table + 4 * 0 + 4) := ((ecIsr_regs table _ s).2 a0 (by decide)).trans h2
  simp only [registered, e1, e2]
  rfl

/-- **Interrupt `2i` runs the function registered for interrupt `i`** (the index is scaled by 4, the
entries are 8 bytes). -/
theorem imac_isr_wrong (table i : W) (s : St V) (hi : i.toNat < 2040)
    (ha : tableApart table (2 * i) (s.reg sp - 116) 116) :
    let y := imacIsr table (2 * i + 16) s
    (y.reg pc, y.reg a0) = registered table s.mem i := by
  have hb : (2 * i).toNat < 4096 - 16 := by
    rw [BitVec.toNat_mul, show (2 : W).toNat = 2 from rfl]; omega
  obtain ⟨h1, h2, -, -⟩ := isr_eff imacSaved 116 112 table (2 * i) s hb (by decide) (by decide) ha.1 ha.2
  have e0 : (4 : W) * (2 * i) = 8 * i := by grind
  rw [e0] at h1 h2
  have e1 : (imacIsr table (2 * i + 16) s).reg pc = s.mem (table + 8 * i) := (imacIsr_regs table _ s).1.trans h1
  have e2 : (imacIsr table (2 * i + 16) s).reg a0 = s.mem (table + 8 * i + 4) := ((imacIsr_regs table _ s).2 a0 (by decide)).trans h2
  simp only [registered, e1, e2]
theorem ec_isr_wrong (table i : W) (s : St V) (hi : i.toNat < 2040)
    (ha : tableApart table (2 * i) (s.reg sp - 52) 52) :
    let y := ecIsr table (2 * i + 16) s
    (y.reg pc, y.reg a0) = registered table s.mem i := by
  have hb : (2 * i).toNat < 4096 - 16 := by
    rw [BitVec.toNat_mul, show (2 : W).toNat = 2 from rfl]; omega
  obtain ⟨h1, h2, -, -⟩ := isr_eff ecSaved 52 48 table (2 * i) s hb (by decide) (by decide) ha.1 ha.2
  have e0 : (4 : W) * (2 * i) = 8 * i := by grind
  rw [e0] at h1 h2
  have e1 : (ecIsr table (2 * i + 16) s).reg pc = s.mem (table + 8 * i) := (ecIsr_regs table _ s).1.trans h1
  have e2 : (ecIsr table (2 * i + 16) s).reg a0 = s.mem (table + 8 * i + 4) := ((ecIsr_regs table _ s).2 a0 (by decide)).trans h2
  simp only [registered, e1, e2]

/-- **The interrupt handler of a platform interrupt returns to the wrong place**: the branch to the
registered function does not set the return address, so when that function returns (to `ra`) control
goes to the return address the interrupted task had in `ra` - on the kernel's stack, and the
interrupted instruction is never resumed.  For every interrupt and every task. -/
theorem imac_isr_return (table irq : W) (s : St V) (hirq : irq.toNat < 4096 - 16)
    (ha : tableApart table irq (s.reg sp - 116) 116) :
    let y := imacIsr table (irq + 16) s
    y.reg ra = s.reg ra ∧ y.reg sp = s.reg mscratch := by
  obtain ⟨-, -, h3, h4⟩ := isr_eff imacSaved 116 112 table irq s hirq (by decide) (by decide) ha.1 ha.2
  exact ⟨((imacIsr_regs table _ s).2 ra (by decide)).trans h3, ((imacIsr_regs table _ s).2 sp (by decide)).trans h4⟩
theorem ec_isr_return (table irq : W) (s : St V) (hirq : irq.toNat < 4096 - 16)
    (ha : tableApart table irq (s.reg sp - 52) 52) :
    let y := ecIsr table (irq + 16) s
    y.reg ra = s.reg ra ∧ y.reg sp = s.reg mscratch := by
  obtain ⟨-, -, h3, h4⟩ := isr_eff ecSaved 52 48 table irq s hirq (by decide) (by decide) ha.1 ha.2
  exact ⟨((ecIsr_regs table _ s).2 ra (by decide)).trans h3, ((ecIsr_regs table _ s).2 sp (by decide)).trans h4⟩

/-! ### The hypotheses are met -/

/-- a task interrupted with all registers different, its stack at 0x20000400 -/
def demo : St V where
  reg := fun
    | sp => 0x400 | mscratch => 0x1000 | pc => 0x80 | ra => 0x44 | a0 => 3 | a1 => 7 | t0 => 9 | s6 => 11 | mie => 1
    | _ => 5
  mem := fun a => a

/-- the frame of `demo` avoids the comparator, so `restores` applies to it -/
example : ∀ a, (imac 0x2000 0x3000).frame ((imac 0x2000 0x3000).arg ((imac 0x2000 0x3000).enter .tick demo)) a →
    ¬ (imac 0x2000 0x3000).io a := by
  intro a h
  have e : (imac 0x2000 0x3000).arg ((imac 0x2000 0x3000).enter .tick demo) = 0x400 - 116 := (imac_enter .tick demo).1
  rw [e] at h
  have h' : (a - 0x38c#32).toNat < 116 := h
  rintro (e | e) <;> (subst e; revert h'; decide)

/-- frames at 0x38c and 0x78c are apart, and apart from the comparator -/
theorem demo_apart (a : W) (h : (a - 0x78c#32).toNat < 116) :
    ¬ (a = 0x3000 ∨ a = 0x3000 + 4) ∧ ¬ (a - 0x38c#32).toNat < 116 := by
  refine ⟨by rintro (e | e) <;> (subst e; revert h; decide), ?_⟩
  rw [BitVec.toNat_sub] at h ⊢
  simp only [BitVec.toNat_ofNat] at h ⊢
  omega

/-- **A switch between two tasks**: one interrupted by the tick, the other making a system call; the
scheduler gives the first one back. -/
example : ∃ x x' : Sys (St V) W (V → W) Bool, ∃ e, Sys.Reach (imac 0x2000 0x3000) (fun _ => True) x ∧
    Switch (imac 0x2000 0x3000) (fun _ => True) x .syscall e true ((imac 0x2000 0x3000).ctx demo) x' ∧
    (imac 0x2000 0x3000).ctx x'.m = (imac 0x2000 0x3000).ctx demo := by
  have e1 : (imac 0x2000 0x3000).arg ((imac 0x2000 0x3000).enter .tick demo) = 0x38c := (imac_enter .tick demo).1
  let m : St V := { reg := upd demo.reg sp 0x800, mem := (imacEnter .tick demo).mem }
  let e : St V := { reg := upd (imacEnter .syscall m).reg a0 0x38c, mem := (imacEnter .syscall m).mem }
  have e2 : (imac 0x2000 0x3000).arg ((imac 0x2000 0x3000).enter .syscall m) = 0x78c :=
    (imac_enter .syscall m).1.trans (by show upd demo.reg sp 0x800 sp - 116 = 0x78c; rw [upd_same]; rfl)
  obtain ⟨x, x', -, h1, h2, -, h4⟩ := switch_possible (imac_sound 0x2000 0x3000) .tick .syscall demo m e trivial trivial
    (by
      rw [e1]
      intro a h
      have h' : (a - 0x38c#32).toNat < 116 := h
      rintro (e | e) <;> (subst e; revert h'; decide))
    (fun a _ => rfl)
    (by rw [e1, e2]; exact fun a h => demo_apart a h)
    trivial
    (by rw [e1]; show upd (imacEnter .syscall m).reg a0 0x38c a0 = 0x38c; rw [upd_same])
    (fun a => rfl)
  exact ⟨x, x', e, h1, h2, h4⟩

example : tableApart 0x3000 5 (demo.reg sp - 116) 116 := by unfold tableApart; decide

end Pico.Ctx.RiscV
