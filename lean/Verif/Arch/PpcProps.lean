import Verif.Arch.Ppc
/-
Properties of the context switch of the PowerPC ports.
-/
namespace Pico.Ctx.Ppc
open Pico.Ctx R

/-- where each register is in the frame -/
def off : R → W
  | pc => 0
  | msr => 4
  | r => (lastOff saved r).getD 0

theorem swap_eff (x : St R) :
    (run (swapStack r0) x).mem = x.mem ∧ (run (swapStack r0) x).reg r1 = x.reg sprg ∧
    (run (swapStack r0) x).reg sprg = x.reg r1 ∧
    ∀ r, r ≠ r1 → r ≠ sprg → r ≠ r0 → (run (swapStack r0) x).reg r = x.reg r := by
  simp only [swapStack]
  rw [run_cons _ _ _ rfl, run_cons _ _ _ rfl, run_cons _ _ _ rfl, run_nil]
  simp only [exec]
  refine ⟨trivial, by simp [upd], by simp [upd], fun r h1 h2 h3 => by simp [upd, h1, h2, h3]⟩

theorem save_straight : save.all (fun i => !i.isBr) = true := by decide

/-- SAVE_CONTEXT -/
theorem save_eff (x : St R) :
    (run save x).reg r1 = x.reg sprg ∧ (run save x).reg sprg = x.reg r1 - 140 ∧
    (∀ r, r ≠ r1 → r ≠ sprg → r ≠ r0 → r ≠ pc → (run save x).reg r = x.reg r) ∧
    ∀ a, (run save x).mem a = match lastReg saved (a - (x.reg r1 - 140)) with
      | some r => x.reg r
      | none => x.mem a := by
  have e : run save x = run (swapStack r0) (run (saveBlk pc r1 140 saved []) x) :=
    run_append _ _ _ (saveBlk_straight _ _ _ _ _)
  rw [e]
  obtain ⟨b1, b2, b3⟩ := saveBlk_eff pc r1 140 saved [] x (by decide) (by decide)
  rw [List.append_nil] at b3
  generalize run (saveBlk pc r1 140 saved []) x = w at *
  obtain ⟨w1, w2, w3, w4⟩ := swap_eff w
  refine ⟨?_, ?_, ?_, ?_⟩
  · rw [w2, b2 _ (by decide) (by decide)]
  · rw [w3, b1]
  · intro r h1 h2 h3 h4
    rw [w4 r h1 h2 h3, b2 r h1 h4]
  · intro a
    rw [w1, b3]
    cases lastReg saved (a - (x.reg r1 - 140)) <;> rfl

/-- RESTORE_CONTEXT, once the memory it loads from is known -/
theorem restore_eff (lax : Bool) (x : St R) :
    (restore lax x).mem = (sthcx lax (run (swapStack r0) x)).mem ∧
    (restore lax x).reg r1 = x.reg sprg + 140 ∧ (restore lax x).reg sprg = x.reg r1 ∧
    ∀ r o, lastOff loaded r = some o →
      (restore lax x).reg r = (sthcx lax (run (swapStack r0) x)).mem (x.reg sprg + o) := by
  obtain ⟨w1, w2, w3, w4⟩ := swap_eff x
  simp only [restore]
  have s1 : (sthcx lax (run (swapStack r0) x)).reg r1 = x.reg sprg := by
    simp only [sthcx]
    rw [upd_ne _ _ (by decide), upd_ne _ _ (by decide), w2]
  have s2 : (sthcx lax (run (swapStack r0) x)).reg sprg = x.reg r1 := by
    simp only [sthcx]
    rw [upd_ne _ _ (by decide), upd_ne _ _ (by decide), w3]
  generalize sthcx lax (run (swapStack r0) x) = z at *
  obtain ⟨b1, b2, b3⟩ := restBlk_eff pc r1 140 loaded [] z (by decide) (by decide) (by decide)
  rw [List.append_nil] at b3
  generalize run (restBlk pc r1 140 loaded []) z = y at *
  refine ⟨b1, by rw [b2, s1], ?_, ?_⟩
  · exact (b3 sprg (by decide) (by decide)).trans s2
  · intro r o ho
    have h1 : r ≠ r1 := by rintro rfl; exact nomatch ho
    have h2 : r ≠ pc := by rintro rfl; exact nomatch ho
    rw [b3 r h1 h2, ho]
    simp only []; rw [s1]

/-! ### Entering -/

theorem trap_reg (icr : Bool) (k : Kind) (s : St R) : (trap icr k s).mem = s.mem ∧
    (trap icr k s).reg srr0 = (match k with | .sc => s.reg pc + 2 | _ => s.reg pc) ∧
    (trap icr k s).reg srr1 = s.reg msr ∧ (trap icr k s).reg msr = s.reg msr &&& ~~~0x8000#32 ∧
    ∀ r, r ≠ srr0 → r ≠ srr1 → r ≠ msr → r ≠ res → (trap icr k s).reg r = s.reg r := by
  cases k <;> cases icr <;> refine ⟨rfl, ?_, ?_, ?_, fun r h1 h2 h3 h4 => ?_⟩ <;>
    simp only [trap, Bool.false_eq_true, if_false, if_true, upd, reduceCtorEq, *]

/-- trap entry followed by SAVE_CONTEXT -/
theorem trapped_eff (icr : Bool) (k : Kind) (s : St R) :
    (run save (trap icr k s)).reg r1 = s.reg sprg ∧ (run save (trap icr k s)).reg sprg = s.reg r1 - 140 ∧
    (run save (trap icr k s)).reg msr = s.reg msr &&& ~~~0x8000#32 ∧
    (∀ r, visible r = true → r ≠ r1 → (run save (trap icr k s)).mem (s.reg r1 - 140 + off r) =
      if r = pc then (match k with | .sc => s.reg pc + 2 | _ => s.reg pc) else s.reg r) ∧
    ∀ a, ¬ (a - (s.reg r1 - 140)).toNat < 140 → (run save (trap icr k s)).mem a = s.mem a := by
  obtain ⟨t1, t2, t3, t4, t5⟩ := trap_reg icr k s
  obtain ⟨e1, e2, e3, e4⟩ := save_eff (trap icr k s)
  rw [t5 r1 (by decide) (by decide) (by decide) (by decide)] at e2 e4
  rw [t5 sprg (by decide) (by decide) (by decide) (by decide)] at e1
  refine ⟨e1, e2, ?_, ?_, ?_⟩
  · rw [e3 _ (by decide) (by decide) (by decide) (by decide), t4]
  · intro r hv h1
    rw [e4, show s.reg r1 - 140 + off r - (s.reg r1 - 140) = off r by grind]
    by_cases hp : r = pc
    · subst hp
      rw [if_pos rfl]; exact t2
    · rw [if_neg hp]
      by_cases hm : r = msr
      · subst hm; exact t3
      · have hl : lastReg saved (off r) = some r := by
          cases r <;> first | exact absurd hv (by decide) | exact absurd rfl h1 | exact absurd rfl hp |
            exact absurd rfl hm | rfl
        rw [hl]
        refine t5 r ?_ ?_ hm ?_ <;> (rintro rfl; exact absurd hv (by decide))
  · intro a ha
    rw [e4, lastReg_none (by decide) ha, t1]

/-- the state in which C is called -/
theorem enter_eff (icr : Bool) (pre : St R → St R) (dev : W → Prop) (hpre : COk pre dev) (k : Kind) (s : St R) :
    (enter icr pre k s).reg r3 = s.reg r1 - 140 ∧ (enter icr pre k s).reg r1 = s.reg sprg ∧
    (∀ r, visible r = true → r ≠ r1 → ¬ dev (s.reg r1 - 140 + off r) →
      (enter icr pre k s).mem (s.reg r1 - 140 + off r) =
      if r = pc then (match k with | .sc => s.reg pc + 2 | _ => s.reg pc) else s.reg r) ∧
    (∀ a, ¬ (a - (s.reg r1 - 140)).toNat < 140 → ¬ dev a → (enter icr pre k s).mem a = s.mem a) ∧
    (k = .sc → (enter icr pre k s).reg r4 = s.reg r3 ∧ (enter icr pre k s).reg r5 = s.reg r4) ∧
    (k ≠ .ext → (enter icr pre k s).reg msr = s.reg msr &&& ~~~0x8000#32) := by
  obtain ⟨e1, e2, e3, e4, e5⟩ := trapped_eff icr k s
  cases k with
  | sc =>
    have e : enter icr pre .sc s = run [.mv r3 sprg, .lw r4 r3 28, .lw r5 r3 32] (run save (trap icr .sc s)) :=
      run_append _ _ _ save_straight
    rw [e]
    have g3 := e4 r3 rfl (by decide)
    have g4 := e4 r4 rfl (by decide)
    rw [show off r3 = 28 by rfl, if_neg (by decide)] at g3
    rw [show off r4 = 32 by rfl, if_neg (by decide)] at g4
    generalize run save (trap icr .sc s) = y at *
    have hrun : run [Op.mv r3 sprg, .lw r4 r3 28, .lw r5 r3 32] y =
        { y with reg := upd (upd (upd y.reg r3 (y.reg sprg)) r4 (y.mem (y.reg sprg + 28))) r5 (y.mem (y.reg sprg + 32)) } := by
      rw [run_cons _ _ _ rfl, run_cons _ _ _ rfl, run_cons _ _ _ rfl, run_nil]
      simp only [exec, upd_same, upd_ne _ _ (show r3 ≠ r4 by decide)]
    rw [hrun]
    simp only []
    refine ⟨?_, ?_, fun r hv h1 _ => e4 r hv h1, fun a ha _ => e5 a ha, fun _ => ⟨?_, ?_⟩, fun _ => ?_⟩
    · rw [upd_ne _ _ (by decide), upd_ne _ _ (by decide), upd_same, e2]
    · rw [upd_ne _ _ (by decide), upd_ne _ _ (by decide), upd_ne _ _ (by decide), e1]
    · rw [upd_ne _ _ (by decide), upd_same, e2]; exact g3
    · rw [upd_same, e2]; exact g4
    · rw [upd_ne _ _ (by decide), upd_ne _ _ (by decide), upd_ne _ _ (by decide), e3]
  | dec =>
    have e : enter icr pre .dec s = run [.mv r3 sprg] (run save (trap icr .dec s)) := run_append _ _ _ save_straight
    rw [e]
    generalize run save (trap icr .dec s) = y at *
    have hrun : run [Op.mv r3 sprg] y = { y with reg := upd y.reg r3 (y.reg sprg) } := rfl
    rw [hrun]
    simp only []
    refine ⟨?_, ?_, fun r hv h1 _ => e4 r hv h1, fun a ha _ => e5 a ha, (fun h => nomatch h), fun _ => ?_⟩
    · rw [upd_same, e2]
    · rw [upd_ne _ _ (by decide), e1]
    · rw [upd_ne _ _ (by decide), e3]
  | ext =>
    simp only [enter]
    generalize run save (trap icr .ext s) = y at *
    obtain ⟨c1, c2, c3⟩ := hpre y
    generalize pre y = z at *
    have hrun : run [Op.mv r3 sprg] z = { z with reg := upd z.reg r3 (z.reg sprg) } := rfl
    rw [hrun]
    simp only []
    refine ⟨?_, ?_, fun r hv h1 hd => (c3 _ hd).trans (e4 r hv h1), fun a ha hd => (c3 a hd).trans (e5 a ha),
      (fun h => nomatch h), fun h => absurd rfl h⟩
    · rw [upd_same, c2, e2]
    · rw [upd_ne _ _ (by decide), c1, e1]

/-! ### Leaving -/

theorem rfi_reg (x : St R) : (rfi x).mem = x.mem ∧ (rfi x).reg pc = x.reg srr0 ∧ (rfi x).reg msr = x.reg srr1 ∧
    ∀ r, r ≠ pc → r ≠ msr → (rfi x).reg r = x.reg r :=
  ⟨rfl, by simp [rfi, upd], by simp [rfi, upd], fun r h1 h2 => by simp [rfi, upd, h1, h2]⟩

/-- the state from which RESTORE_CONTEXT starts -/
theorem before_restore (lax : Bool) (post : St R → St R) (dev : W → Prop) (hpost : COk post dev) (k : Kind) (e : St R) :
    ∃ z, leave lax post k e = rfi (restore lax z) ∧ z.reg sprg = e.reg r3 ∧ z.reg r1 = e.reg r1 ∧
      ∀ a, ¬ dev a → z.mem a = e.mem a := by
  have hrun : run [Op.mv sprg r3] e = { e with reg := upd e.reg sprg (e.reg r3) } := rfl
  have aux : (∃ z, rfi (restore lax (post (run [.mv sprg r3] e))) = rfi (restore lax z) ∧ z.reg sprg = e.reg r3 ∧
      z.reg r1 = e.reg r1 ∧ ∀ a, ¬ dev a → z.mem a = e.mem a) := by
    refine ⟨_, rfl, ?_⟩
    rw [hrun]
    obtain ⟨c1, c2, c3⟩ := hpost { e with reg := upd e.reg sprg (e.reg r3) }
    refine ⟨?_, ?_, c3⟩
    · rw [c2]; simp only []; rw [upd_same]
    · rw [c1]; simp only []; rw [upd_ne _ _ (by decide)]
  cases k with
  | sc =>
    refine ⟨_, rfl, ?_⟩
    rw [hrun]
    refine ⟨?_, ?_, fun a _ => rfl⟩
    · simp only []; rw [upd_same]
    · simp only []; rw [upd_ne _ _ (by decide)]
  | dec => exact aux
  | ext => exact aux

theorem sthcx_strict (x : St R) : (sthcx false x).mem = x.mem := by simp [sthcx]

/-- **The PowerPC ports**: register by register, the effect of a frame-based port. -/
theorem frameEff (icr : Bool) (pre post : St R → St R) (dev : W → Prop) (hpre : COk pre dev) (hpost : COk post dev) :
    FrameEff (port icr false pre post dev) (fun _ => True) 140 visible r1 off where
  mem := rfl
  ctx := rfl
  frame := rfl
  off_lt := fun r hk h1 => by
    revert hk; cases r <;> first | exact absurd rfl h1 | decide
  resume_sp := fun k c => by
    cases k <;> first | rfl | (show upd c pc (c pc + 2) r1 = c r1; rw [upd_ne _ _ (by decide)])
  resume_hidden := fun k c r hv hc => by
    cases k with
    | sc =>
      show upd c pc (c pc + 2) r = 0
      rw [upd_ne _ _ (by rintro rfl; exact absurd hv (by decide)), hc]
    | dec => exact hc
    | ext => exact hc
  vis_sp := rfl
  enter_arg := fun k s _ => (enter_eff icr pre dev hpre k s).1
  enter_cell := fun k s r _ hv hr hio => by
    have hlt : (off r).toNat < (140 : W).toNat := by
      revert hv; cases r <;> first | exact absurd rfl hr | decide
    have h := (enter_eff icr pre dev hpre k s).2.2.1 r hv hr (hio _ (by
      rwa [show s.reg r1 - 140 + off r - (s.reg r1 - 140) = off r by grind]))
    refine Eq.trans h ?_
    cases k with
    | sc =>
      show _ = upd (fun r => if visible r = true then s.reg r else 0) pc
        ((if visible pc = true then s.reg pc else 0) + 2) r
      by_cases hp : r = pc
      · subst hp; rw [if_pos rfl, upd_same, if_pos (show visible pc = true from rfl)]
      · rw [if_neg hp, upd_ne _ _ hp, if_pos hv]
    | dec =>
      show _ = if visible r = true then s.reg r else 0
      rw [if_pos hv]
      split
      · next h => rw [h]
      · rfl
    | ext =>
      show _ = if visible r = true then s.reg r else 0
      rw [if_pos hv]
      split
      · next h => rw [h]
      · rfl
  enter_out := fun k s a _ ha hd => (enter_eff icr pre dev hpre k s).2.2.2.1 a ha hd
  enter_csp := fun k s => (enter_eff icr pre dev hpre k s).2.1
  leave_sp := fun k e _ => by
    obtain ⟨z, hz, z1, z2, z3⟩ := before_restore false post dev hpost k e
    show (leave false post k e).reg r1 = e.reg r3 + 140
    rw [hz, (rfi_reg _).2.2.2 _ (by decide) (by decide), (restore_eff false z).2.1, z1]
  leave_reg := fun k e r _ hv hr hio => by
    obtain ⟨z, hz, z1, z2, z3⟩ := before_restore false post dev hpost k e
    obtain ⟨q1, q2, q3, q4⟩ := restore_eff false z
    have hmem : ∀ o : W, o.toNat < 140 → (sthcx false (run (swapStack r0) z)).mem (z.reg sprg + o) = e.mem (e.reg r3 + o) := by
      intro o ho
      rw [sthcx_strict, (swap_eff z).1, z1]
      exact z3 _ (hio _ (by
        show (e.reg r3 + o - e.reg r3).toNat < 140
        rwa [show e.reg r3 + o - e.reg r3 = o by grind]))
    show (leave false post k e).reg r = e.mem (e.reg r3 + off r)
    rw [hz]
    by_cases hp : r = pc
    · subst hp
      rw [(rfi_reg _).2.1, q4 srr0 0 rfl]; exact hmem 0 (by decide)
    · by_cases hm : r = msr
      · subst hm
        rw [(rfi_reg _).2.2.1, q4 srr1 4 rfl]; exact hmem 4 (by decide)
      · have hl : lastOff loaded r = some (off r) := by
          cases r <;> first | exact absurd hv (by decide) | exact absurd rfl hr | exact absurd rfl hp |
            exact absurd rfl hm | rfl
        rw [(rfi_reg _).2.2.2 r hp hm, q4 r _ hl]
        refine hmem _ ?_
        revert hv; cases r <;> first | exact absurd rfl hr | decide
  leave_mem := fun k e a _ ha => by
    obtain ⟨z, hz, z1, z2, z3⟩ := before_restore false post dev hpost k e
    rw [show (port icr false pre post dev).leave k e = leave false post k e from rfl, hz,
      (rfi_reg _).1, (restore_eff false z).1, sthcx_strict, (swap_eff z).1]
    exact z3 a ha
  leave_ksp := fun k e _ => by
    obtain ⟨z, hz, z1, z2, z3⟩ := before_restore false post dev hpost k e
    show (leave false post k e).reg sprg = e.reg r1
    rw [hz, (rfi_reg _).2.2.2 _ (by decide) (by decide), (restore_eff false z).2.2.1, z2]

/-- **e200z4, e200z7: switching tasks is invisible**, on a core that compares the address of a
conditional store with that of the reservation. -/
theorem ppc_sound (icr : Bool) (pre post : St R → St R) (dev : W → Prop) (hpre : COk pre dev) (hpost : COk post dev) :
    (port icr false pre post dev).Sound (fun _ => True) := (frameEff icr pre post dev hpre hpost).sound

end Pico.Ctx.Ppc
