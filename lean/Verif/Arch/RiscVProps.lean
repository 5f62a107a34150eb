import Verif.Arch.RiscV
/-
Properties of the context switch of the RISC-V ports.
-/
namespace Pico.Ctx.RiscV
open Pico.Ctx V Op

/-- a frame stored with layout `T` is read back by layout `L`: every visible register comes from the
cell it was stored into -/
def matchesLayout (vis : V → Bool) (T L : List (V × W)) (n : Nat) (o : W) : Prop :=
  (∀ r, vis r = true → r ≠ sp → r ≠ pc →
    ∃ k, lastOff L r = some k ∧ k ≠ o ∧ k.toNat < n ∧ lastReg T k = some r) ∧
  lastOff L sp = none ∧ lastOff L mepc = none ∧ lastOff L mscratch = none ∧ lastOff L mpie = none ∧
  lastOff L t0 ≠ none ∧ (∀ p ∈ T, p.2.toNat < n) ∧ o.toNat < n

theorem imac_layout : matchesLayout visible imacSaved imacLoaded 116 112 := by
  refine ⟨?_, by decide, by decide, by decide, by decide, by decide, by decide, by decide⟩
  intro r hv h1 h2
  cases r <;> first | exact absurd rfl h1 | exact absurd rfl h2 | exact absurd hv (by decide) |
    exact ⟨_, rfl, by decide, by decide, by decide⟩

theorem ec_layout : matchesLayout ecVisible ecSaved ecLoaded 52 48 := by
  refine ⟨?_, by decide, by decide, by decide, by decide, by decide, by decide, by decide⟩
  intro r hv h1 h2
  cases r <;> first | exact absurd rfl h1 | exact absurd rfl h2 | exact absurd hv (by decide) |
    exact ⟨_, rfl, by decide, by decide, by decide⟩

/-- a complete saved context of layout `T` at `h`, owed context `c` -/
def framed (vis : V → Bool) (T : List (V × W)) (n o : W) (h : W) (c : V → W) (m : W → W) : Prop :=
  c sp = h + n ∧ m (h + o) = c pc ∧
  (∀ k r, lastReg T k = some r → vis r = true → r ≠ sp → r ≠ pc → k ≠ o → m (h + k) = c r) ∧
  ∀ r, vis r = false → c r = 0

theorem imac_leave (period mtimecmp : W) (k : Kind) (e : St V) :
    let y := imacLeave period mtimecmp k e
    (∀ a, ¬ (a = mtimecmp ∨ a = mtimecmp + 4) → y.mem a = e.mem a) ∧
    y.reg mscratch = e.reg sp ∧ y.reg mie = e.reg mpie ∧ y.reg sp = e.reg a0 + 116 ∧
    (¬ (e.reg a0 + 112 = mtimecmp ∨ e.reg a0 + 112 = mtimecmp + 4) → y.reg pc = e.mem (e.reg a0 + 112)) ∧
    ∀ r k, lastOff imacLoaded r = some k → visible r = true → r ≠ sp → r ≠ pc →
      ¬ (e.reg a0 + k = mtimecmp ∨ e.reg a0 + k = mtimecmp + 4) → y.reg r = e.mem (e.reg a0 + k) := by
  have key : ∀ z : St V, z.reg mscratch = e.reg a0 → z.reg sp = e.reg sp → z.reg mpie = e.reg mpie →
      (∀ a, ¬ (a = mtimecmp ∨ a = mtimecmp + 4) → z.mem a = e.mem a) →
      let y := mret (run imacRestore z)
      (∀ a, ¬ (a = mtimecmp ∨ a = mtimecmp + 4) → y.mem a = e.mem a) ∧
      y.reg mscratch = e.reg sp ∧ y.reg mie = e.reg mpie ∧ y.reg sp = e.reg a0 + 116 ∧
      (¬ (e.reg a0 + 112 = mtimecmp ∨ e.reg a0 + 112 = mtimecmp + 4) → y.reg pc = e.mem (e.reg a0 + 112)) ∧
      ∀ r k, lastOff imacLoaded r = some k → visible r = true → r ≠ sp → r ≠ pc →
        ¬ (e.reg a0 + k = mtimecmp ∨ e.reg a0 + k = mtimecmp + 4) → y.reg r = e.mem (e.reg a0 + k) := by
    intro z h1 h2 h3 h4
    obtain ⟨g1, g2, g3, g4, g5⟩ := restore_eff imacLoaded 116 112 z (by decide) (by decide)
    simp only [mret, imacRestore, upd]
    refine ⟨fun a ha => ?_, ?_, ?_, ?_, fun ha => ?_, fun r k hk hv hr hp ha => ?_⟩
    · rw [g1]; exact h4 a ha
    · simp only [reduceCtorEq, if_false]; rw [g4 (by decide), h2]
    · simp only [reduceCtorEq, if_false, if_true]
      rw [g5 mpie (by decide) (by decide) (by decide) (Or.inr (by decide)),
        show lastOff imacLoaded mpie = none by decide]
      exact h3
    · simp only [reduceCtorEq, if_false]; rw [g2, h1]
    · simp only [reduceCtorEq, if_false, if_true]; rw [g3, h1]; exact h4 _ ha
    · have n1 : r ≠ mpie := by rintro rfl; exact absurd hv (by decide)
      have n2 : r ≠ mie := by rintro rfl; exact absurd hv (by decide)
      have n3 : r ≠ mepc := by rintro rfl; exact absurd hv (by decide)
      have n4 : r ≠ mscratch := by rintro rfl; exact absurd hv (by decide)
      rw [if_neg n1, if_neg n2, if_neg hp, g5 r hr n3 n4 (Or.inr (by decide)), hk, h1]
      exact h4 _ ha
  cases k with
  | tick =>
    simp only [imacLeave]
    rw [run_cons _ _ _ rfl]
    obtain ⟨z, hz, z1, z2, -, -⟩ := increase_eff period mtimecmp mtimecmp imacRestore (exec (.mv mscratch a0) e)
    rw [hz]
    refine key z ?_ ?_ ?_ fun a ha => ?_
    · rw [z1 _ (by decide) (by decide) (by decide) (by decide)]; simp [exec, upd]
    · rw [z1 _ (by decide) (by decide) (by decide) (by decide)]; simp [exec, upd]
    · rw [z1 _ (by decide) (by decide) (by decide) (by decide)]; simp [exec, upd]
    · rw [z2 a (fun h => ha (Or.inl h)) (fun h => ha (Or.inr h))]; rfl
  | syscall =>
    simp only [imacLeave]
    rw [run_cons _ _ _ rfl]
    exact key _ (by simp [exec, upd]) (by simp [exec, upd]) (by simp [exec, upd]) fun _ _ => rfl

/-- a framed context is held -/
theorem imac_holds (period mtimecmp : W) (h : W) (c : V → W) (m : St V)
    (hf : framed visible imacSaved 116 112 h c m.mem)
    (hio : ∀ a, (a - h).toNat < 116 → ¬ (a = mtimecmp ∨ a = mtimecmp + 4)) :
    (imac period mtimecmp).Holds h c m := by
  refine ⟨hio, fun k e _ hr hm => ?_⟩
  have hr' : e.reg a0 = h := hr
  have hm' : ∀ o : W, o.toNat < 116 → e.mem (h + o) = m.mem (h + o) := fun o ho =>
    hm (h + o) (by show (h + o - h).toNat < 116; rwa [show h + o - h = o by grind])
  have hio' : ∀ o : W, o.toNat < 116 → ¬ (h + o = mtimecmp ∨ h + o = mtimecmp + 4) := fun o ho =>
    hio (h + o) (by rwa [show h + o - h = o by grind])
  obtain ⟨-, -, -, l4, l5, l6⟩ := imac_leave period mtimecmp k e
  obtain ⟨c1, c2, c3, c4⟩ := hf
  rw [hr'] at l4 l5 l6
  funext r
  show ctx visible (imacLeave period mtimecmp k e) r = c r
  simp only [ctx]
  by_cases hv : visible r = true
  · rw [if_pos hv]
    by_cases h1 : r = sp
    · rw [h1, l4, c1]
    by_cases h2 : r = pc
    · rw [h2, l5 (hio' _ (by decide)), hm' _ (by decide), c2]
    obtain ⟨o, ho, hne, hlt, hT⟩ := imac_layout.1 r hv h1 h2
    rw [l6 r o ho hv h1 h2 (hio' _ hlt), hm' _ hlt, c3 o r hT hv h1 h2 hne]
  · rw [if_neg hv]
    exact (c4 r (by simpa using hv)).symm

/-- trap entry followed by SAVE_CONTEXT -/
theorem saved (vis : V → Bool) (T : List (V × W)) (n o cause : W) (s : St V)
    (hvis : ∀ r, vis r = true → visible r = true) (hsp : vis sp = true) (hpc : vis pc = true)
    (hT : ∀ p ∈ T, p.2.toNat < n.toNat) (ho : o.toNat < n.toNat) :
    let y := run (saveM T n o) (trap cause s)
    (∀ k, run (saveM T n o ++ k) (trap cause s) = run k y) ∧
    y.reg sp = s.reg mscratch ∧ y.reg mscratch = s.reg sp - n ∧ y.reg mpie = s.reg mie ∧
    y.reg mie = 0 ∧ y.reg mcause = cause ∧
    framed vis T n o (s.reg sp - n) (ctx vis s) y.mem ∧
    ∀ a, ¬ (a - (s.reg sp - n)).toNat < n.toNat → y.mem a = s.mem a := by
  obtain ⟨h0, h1, h2, h3, h4⟩ := save_eff T n o (trap cause s)
  have tsp : (trap cause s).reg sp = s.reg sp := by simp [trap, upd]
  have tms : (trap cause s).reg mscratch = s.reg mscratch := by simp [trap, upd]
  rw [tsp] at h2 h4
  rw [tms] at h1
  refine ⟨h0, h1, h2, ?_, ?_, ?_, ⟨?_, ?_, ?_, ?_⟩, ?_⟩
  · rw [h3 _ (by decide) (by decide) (by decide)]; simp [trap, upd]
  · rw [h3 _ (by decide) (by decide) (by decide)]; simp [trap, upd]
  · rw [h3 _ (by decide) (by decide) (by decide)]; simp [trap, upd]
  · simp only [ctx, if_pos hsp]; grind
  · rw [h4, if_pos (by grind)]; simp [trap, upd, ctx, hpc]
  · intro k r hk hv hr hp hne
    rw [h4, show s.reg sp - n + k - (s.reg sp - n) = k by grind, if_neg hne, hk]
    simp only [if_neg hr, ctx, if_pos hv]
    have := hvis r hv
    cases r <;> first | exact absurd rfl hr | exact absurd rfl hp | exact absurd this (by decide) | simp [trap, upd]
  · intro r hv; simp [ctx, hv]
  · intro a ha
    rw [h4, if_neg (by intro e; rw [e] at ha; exact ha ho), lastReg_none hT ha]
    rfl

/-- the code of the exception handlers between SAVE_CONTEXT and the call of `picoRTOS_syscall` -/
def fish (o : W) : List (Op V) :=
  [.mv t0 mcause, .andi t0 t0 0x7ff, .li t1 0xb, .bne t0 t1 7,
   .mv a0 mscratch, .lw a1 a0 24, .lw a2 a0 28, .lw t0 a0 o, .addi t0 t0 4, .sw t0 a0 o]

theorem fish_eff (o : W) (y : St V) (h v0 v1 p : W) (hc : y.reg mcause = 11#32)
    (h2 : y.reg mscratch = h) (e1 : y.mem (h + 24#32) = v0) (e2 : y.mem (h + 28#32) = v1)
    (f2 : y.mem (h + o) = p) :
    run (fish o) y =
      { reg := upd (upd (upd (upd (upd y.reg t1 0xb) a0 h) a1 v0) a2 v1) t0 (p + 4),
        mem := upd y.mem (h + o) (p + 4) } := by
  have hne : (11#32 &&& 2047#32) = 11#32 := by decide
  simp [fish, run, runFrom, skips, exec, upd_same, upd_ne, hc, h2, hne, e1, e2, f2]
  funext r
  cases r <;> simp [upd]

/-- the state in which C is called -/
theorem fished (vis : V → Bool) (T : List (V × W)) (n o : W) (s y : St V)
    (hpc : vis pc = true) (hA0 : vis a0 = true) (hA1 : vis a1 = true)
    (hT0 : lastReg T 24 = some a0) (hT1 : lastReg T 28 = some a1) (ho24 : (24 : W) ≠ o) (ho28 : (28 : W) ≠ o)
    (ho : o.toNat < n.toNat)
    (h1 : y.reg sp = s.reg mscratch) (h2 : y.reg mscratch = s.reg sp - n) (h3 : y.reg mpie = s.reg mie)
    (h4 : y.reg mie = 0) (hc : y.reg mcause = 11#32)
    (h5 : framed vis T n o (s.reg sp - n) (ctx vis s) y.mem)
    (h6 : ∀ a, ¬ (a - (s.reg sp - n)).toNat < n.toNat → y.mem a = s.mem a) :
    let y := run (fish o) y
    y.reg a0 = s.reg sp - n ∧ y.reg sp = s.reg mscratch ∧ y.reg mpie = s.reg mie ∧ y.reg mie = 0 ∧
    framed vis T n o (s.reg sp - n) (resume .syscall (ctx vis s)) y.mem ∧
    (∀ a, ¬ (a - (s.reg sp - n)).toNat < n.toNat → y.mem a = s.mem a) ∧
    (y.reg a1 = s.reg a0 ∧ y.reg a2 = s.reg a1) := by
  obtain ⟨f1, f2, f3, f4⟩ := h5
  have e1 := f3 24 a0 hT0 hA0 (by decide) (by decide) ho24
  have e2 := f3 28 a1 hT1 hA1 (by decide) (by decide) ho28
  simp only [ctx, if_pos hA0] at e1
  simp only [ctx, if_pos hA1] at e2
  have f2' := f2
  simp only [ctx, if_pos hpc] at f2'
  generalize hh : s.reg sp - n = h at *
  rw [fish_eff o y h (s.reg a0) (s.reg a1) (s.reg pc) hc h2 e1 e2 f2']
  simp only []
  have r1 : ∀ r, r ≠ t0 → r ≠ a2 → r ≠ a1 → r ≠ a0 → r ≠ t1 →
      upd (upd (upd (upd (upd y.reg t1 0xb) a0 h) a1 (s.reg a0)) a2 (s.reg a1)) t0 (s.reg pc + 4) r = y.reg r := by
    intro r i1 i2 i3 i4 i5
    rw [upd_ne _ _ i1, upd_ne _ _ i2, upd_ne _ _ i3, upd_ne _ _ i4, upd_ne _ _ i5]
  refine ⟨?_, ?_, ?_, ?_, ⟨?_, ?_, ?_, ?_⟩, ?_, ?_, ?_⟩
  · rw [upd_ne _ _ (by decide), upd_ne _ _ (by decide), upd_ne _ _ (by decide), upd_same]
  · rw [r1 _ (by decide) (by decide) (by decide) (by decide) (by decide), h1]
  · rw [r1 _ (by decide) (by decide) (by decide) (by decide) (by decide), h3]
  · rw [r1 _ (by decide) (by decide) (by decide) (by decide) (by decide), h4]
  · rw [resume, upd_ne _ _ (by decide)]; exact f1
  · rw [upd_same, resume, upd_same]; simp only [ctx, if_pos hpc]
  · intro k r hk hv hr hp hne
    rw [upd_ne _ _ (by grind), resume, upd_ne _ _ hp]
    exact f3 k r hk hv hr hp hne
  · intro r hv
    rw [resume, upd_ne _ _ (by rintro rfl; rw [hpc] at hv; exact absurd hv (by decide))]
    exact f4 r hv
  · intro a ha
    rw [upd_ne]
    · exact h6 a ha
    · intro e
      rw [e] at ha
      exact ha (by rw [show h + o - h = o by grind]; exact ho)
  · rw [upd_ne _ _ (by decide), upd_ne _ _ (by decide), upd_same]
  · rw [upd_ne _ _ (by decide), upd_same]

theorem n116 : (116 : W).toNat = 116 := rfl
theorem n52 : (52 : W).toNat = 52 := rfl

/-- the state in which C is called, rv32imac -/
theorem imac_enter (k : Kind) (s : St V) :
    (imacEnter k s).reg a0 = s.reg sp - 116 ∧ (imacEnter k s).reg sp = s.reg mscratch ∧
    (imacEnter k s).reg mpie = s.reg mie ∧ (imacEnter k s).reg mie = 0 ∧
    framed visible imacSaved 116 112 (s.reg sp - 116) (resume k (ctx visible s)) (imacEnter k s).mem ∧
    (∀ a, ¬ (a - (s.reg sp - 116)).toNat < 116 → (imacEnter k s).mem a = s.mem a) ∧
    (k = .syscall → (imacEnter k s).reg a1 = s.reg a0 ∧ (imacEnter k s).reg a2 = s.reg a1) := by
  cases k with
  | tick =>
    obtain ⟨h0, h1, h2, h3, h4, -, h5, h6⟩ := saved visible imacSaved 116 112 tickCause s (fun _ h => h) rfl rfl
      (by decide) (by decide)
    have e : imacEnter .tick s = run [.mv a0 mscratch] (run (saveM imacSaved 116 112) (trap tickCause s)) := h0 _
    rw [e]
    clear e h0
    revert h1 h2 h3 h4 h5 h6
    generalize run (saveM imacSaved 116 112) (trap tickCause s) = y
    intro h1 h2 h3 h4 h5 h6
    have hrun : run [Op.mv a0 mscratch] y = { y with reg := upd y.reg a0 (y.reg mscratch) } := rfl
    rw [hrun]
    rw [n116] at h6
    simp only [resume]
    rw [upd_same, upd_ne _ _ (by decide), upd_ne _ _ (by decide), upd_ne _ _ (by decide)]
    exact ⟨h2, h1, h3, h4, h5, h6, fun h => nomatch h⟩
  | syscall =>
    obtain ⟨h0, h1, h2, h3, h4, hc, h5, h6⟩ := saved visible imacSaved 116 112 0xb s (fun _ h => h) rfl rfl
      (by decide) (by decide)
    have e : imacEnter .syscall s = run (fish 112) (run (saveM imacSaved 116 112) (trap 0xb s)) := h0 _
    have := fished visible imacSaved 116 112 s _ rfl rfl rfl (by decide) (by decide) (by decide) (by decide)
      (by decide) h1 h2 h3 h4 hc h5 h6
    rw [← e, n116] at this
    exact ⟨this.1, this.2.1, this.2.2.1, this.2.2.2.1, this.2.2.2.2.1, this.2.2.2.2.2.1, fun _ => this.2.2.2.2.2.2⟩

/-- **rv32imac: switching tasks is invisible.** -/
theorem imac_sound (period mtimecmp : W) : (imac period mtimecmp).Sound (fun _ => True) where
  restores := fun k s _ hio => by
    obtain ⟨h1, -, -, -, h5, -⟩ := imac_enter k s
    have e : (imac period mtimecmp).arg ((imac period mtimecmp).enter k s) = s.reg sp - 116 := h1
    rw [e] at hio ⊢
    exact imac_holds period mtimecmp _ _ _ h5 hio
  saves_only_frame := fun k s a _ hf _ => by
    obtain ⟨h1, -, -, -, -, h6, -⟩ := imac_enter k s
    have e : (imac period mtimecmp).arg ((imac period mtimecmp).enter k s) = s.reg sp - 116 := h1
    rw [e] at hf
    exact h6 a hf
  leaves_memory := fun k e a _ ha => (imac_leave period mtimecmp k e).1 a ha
  kernel_stack := ⟨fun k s _ => (imac_enter k s).2.1, fun k e _ => (imac_leave period mtimecmp k e).2.1⟩

/-! ### rv32ec -/

theorem ec_leave (k : Kind) (e : St V) :
    (ecLeave k e).mem = e.mem ∧
    (ecLeave k e).reg mscratch = e.reg sp ∧ (ecLeave k e).reg mie = e.reg mpie ∧
    (ecLeave k e).reg sp = e.reg a0 + 52 ∧
    (ecLeave k e).reg pc = e.mem (e.reg a0 + 48) ∧
    ∀ r k', lastOff ecLoaded r = some k' → ecVisible r = true → r ≠ sp → r ≠ pc →
      (ecLeave k e).reg r = e.mem (e.reg a0 + k') := by
  simp only [ecLeave]
  rw [run_cons _ _ _ rfl]
  have h1 : (exec (.mv mscratch a0) e).reg mscratch = e.reg a0 := by simp [exec, upd]
  have h2 : (exec (.mv mscratch a0) e).reg sp = e.reg sp := by simp [exec, upd]
  have h3 : (exec (.mv mscratch a0) e).reg mpie = e.reg mpie := by simp [exec, upd]
  have h4 : (exec (.mv mscratch a0) e).mem = e.mem := rfl
  generalize exec (.mv mscratch a0) e = z at *
  obtain ⟨g1, g2, g3, g4, g5⟩ := restore_eff ecLoaded 52 48 z (by decide) (by decide)
  simp only [mret, ecRestore, upd]
  refine ⟨?_, ?_, ?_, ?_, ?_, fun r k hk hv hr hp => ?_⟩
  · rw [g1]; exact h4
  · simp only [reduceCtorEq, if_false]; rw [g4 (by decide), h2]
  · simp only [reduceCtorEq, if_false, if_true]
    rw [g5 mpie (by decide) (by decide) (by decide) (Or.inr (by decide)),
      show lastOff ecLoaded mpie = none by decide]
    exact h3
  · simp only [reduceCtorEq, if_false]; rw [g2, h1]
  · simp only [reduceCtorEq, if_false, if_true]; rw [g3, h1, h4]
  · have n1 : r ≠ mpie := by rintro rfl; exact absurd hv (by decide)
    have n2 : r ≠ mie := by rintro rfl; exact absurd hv (by decide)
    have n3 : r ≠ mepc := by rintro rfl; exact absurd hv (by decide)
    have n4 : r ≠ mscratch := by rintro rfl; exact absurd hv (by decide)
    rw [if_neg n1, if_neg n2, if_neg hp, g5 r hr n3 n4 (Or.inr (by decide)), hk, h1, h4]

theorem ec_holds (h : W) (c : V → W) (m : St V) (hf : framed ecVisible ecSaved 52 48 h c m.mem)
    (hio : ∀ a, (a - h).toNat < 52 → ¬ a = stkSr) : ec.Holds h c m := by
  refine ⟨hio, fun k e _ hr hm => ?_⟩
  have hr' : e.reg a0 = h := hr
  have hm' : ∀ o : W, o.toNat < 52 → e.mem (h + o) = m.mem (h + o) := fun o ho =>
    hm (h + o) (by show (h + o - h).toNat < 52; rwa [show h + o - h = o by grind])
  obtain ⟨-, -, -, l4, l5, l6⟩ := ec_leave k e
  obtain ⟨c1, c2, c3, c4⟩ := hf
  rw [hr'] at l4 l5 l6
  funext r
  show ctx ecVisible (ecLeave k e) r = c r
  simp only [ctx]
  by_cases hv : ecVisible r = true
  · rw [if_pos hv]
    by_cases h1 : r = sp
    · rw [h1, l4, c1]
    by_cases h2 : r = pc
    · rw [h2, l5, hm' _ (by decide), c2]
    obtain ⟨o, ho, hne, hlt, hT⟩ := ec_layout.1 r hv h1 h2
    rw [l6 r o ho hv h1 h2, hm' _ hlt, c3 o r hT hv h1 h2 hne]
  · rw [if_neg hv]
    exact (c4 r (by simpa using hv)).symm

theorem ecVisible_visible (r : V) (h : ecVisible r = true) : visible r = true := by
  cases r <;> first | rfl | exact absurd h (by decide)

/-- ARCH_ACK_SYSTICK, then the argument of `picoRTOS_tick` -/
theorem ack_eff (A : W) (y : St V) : run [Op.li a0 A, .sz a0 0, .mv a0 mscratch] y =
    { reg := upd y.reg a0 (y.reg mscratch), mem := upd y.mem A 0 } := by
  rw [run_cons _ _ _ rfl, run_cons _ _ _ rfl, run_cons _ _ _ rfl, run_nil]
  simp only [exec, upd_same]
  rw [upd_ne _ _ (by decide), show A + (0 : W) = A from BitVec.add_zero A]
  congr 1
  funext r
  simp only [upd]
  split <;> rfl

/-- the state in which C is called, rv32ec -/
theorem ec_enter (k : Kind) (s : St V) :
    (ecEnter k s).reg a0 = s.reg sp - 52 ∧ (ecEnter k s).reg sp = s.reg mscratch ∧
    (ecEnter k s).reg mpie = s.reg mie ∧ (ecEnter k s).reg mie = 0 ∧
    ((∀ a, (a - (s.reg sp - 52)).toNat < 52 → a ≠ stkSr) →
      framed ecVisible ecSaved 52 48 (s.reg sp - 52) (resume k (ctx ecVisible s)) (ecEnter k s).mem) ∧
    (∀ a, ¬ (a - (s.reg sp - 52)).toNat < 52 → a ≠ stkSr → (ecEnter k s).mem a = s.mem a) ∧
    (k = .syscall → (ecEnter k s).reg a1 = s.reg a0 ∧ (ecEnter k s).reg a2 = s.reg a1) := by
  cases k with
  | tick =>
    obtain ⟨h0, h1, h2, h3, h4, -, h5, h6⟩ := saved ecVisible ecSaved 52 48 tickCause s ecVisible_visible rfl rfl
      (by decide) (by decide)
    have e : ecEnter .tick s = run [.li a0 stkSr, .sz a0 0, .mv a0 mscratch]
      (run (saveM ecSaved 52 48) (trap tickCause s)) := h0 _
    rw [e]
    clear e h0
    revert h1 h2 h3 h4 h5 h6
    generalize run (saveM ecSaved 52 48) (trap tickCause s) = y
    intro h1 h2 h3 h4 h5 h6
    generalize stkSr = A at *
    have hrun := ack_eff A y
    rw [hrun]
    rw [n52] at h6
    simp only [resume]
    rw [upd_same, upd_ne _ _ (by decide), upd_ne _ _ (by decide), upd_ne _ _ (by decide)]
    refine ⟨h2, h1, h3, h4, fun hA => ?_, fun a ha hA => ?_, fun h => nomatch h⟩
    · obtain ⟨f1, f2, f3, f4⟩ := h5
      have hne : ∀ o : W, o.toNat < 52 → s.reg sp - 52 + o ≠ A := fun o ho =>
        hA _ (by rwa [show s.reg sp - 52 + o - (s.reg sp - 52) = o by grind])
      refine ⟨f1, ?_, fun k r hk hv hr hp hn => ?_, f4⟩
      · rw [upd_ne _ _ (hne _ (by decide))]; exact f2
      · rw [upd_ne _ _ (hne _ ?_)]
        · exact f3 k r hk hv hr hp hn
        · apply Decidable.byContradiction
          intro hc
          rw [lastReg_none ec_layout.2.2.2.2.2.2.1 hc] at hk
          exact nomatch hk
    · rw [upd_ne _ _ hA]; exact h6 a ha
  | syscall =>
    obtain ⟨h0, h1, h2, h3, h4, hc, h5, h6⟩ := saved ecVisible ecSaved 52 48 0xb s ecVisible_visible rfl rfl
      (by decide) (by decide)
    have e : ecEnter .syscall s = run (fish 48) (run (saveM ecSaved 52 48) (trap 0xb s)) := h0 _
    have := fished ecVisible ecSaved 52 48 s _ rfl rfl rfl (by decide) (by decide) (by decide) (by decide)
      (by decide) h1 h2 h3 h4 hc h5 h6
    rw [← e, n52] at this
    exact ⟨this.1, this.2.1, this.2.2.1, this.2.2.2.1, fun _ => this.2.2.2.2.1,
      fun a ha _ => this.2.2.2.2.2.1 a ha, fun _ => this.2.2.2.2.2.2⟩

/-- **rv32ec: switching tasks is invisible.** -/
theorem ec_sound : ec.Sound (fun _ => True) where
  restores := fun k s _ hio => by
    obtain ⟨h1, -, -, -, h5, -⟩ := ec_enter k s
    have e : ec.arg (ec.enter k s) = s.reg sp - 52 := h1
    rw [e] at hio ⊢
    exact ec_holds _ _ _ (h5 hio) hio
  saves_only_frame := fun k s a _ hf hio => by
    obtain ⟨h1, -, -, -, -, h6, -⟩ := ec_enter k s
    have e : ec.arg (ec.enter k s) = s.reg sp - 52 := h1
    rw [e] at hf
    exact h6 a hf hio
  leaves_memory := fun k e a _ _ => congrFun (ec_leave k e).1 a
  kernel_stack := ⟨fun k s _ => (ec_enter k s).2.1, fun k e _ => (ec_leave k e).2.1⟩

end Pico.Ctx.RiscV
