import Verif.Arch.Arm
/-
Properties of the context switch of the Cortex-M ports.
-/
namespace Pico.Ctx.Arm
open Pico.Ctx R

/-! ### Layout of the frame -/

/-- offsets moved by `k` -/
def shift (k : W) (l : List (R × W)) : List (R × W) := l.map fun p => (p.1, p.2 + k)

theorem lastReg_shift (k : W) (l : List (R × W)) (o : W) : lastReg (shift k l) o = lastReg l (o - k) := by
  induction l with
  | nil => rfl
  | cons p l ih =>
    simp only [shift, List.map_cons] at ih ⊢
    simp only [lastReg, ih]
    have : (o = p.2 + k) = (o - k = p.2) := by
      apply propext; constructor <;> intro h
      · rw [h]; grind
      · rw [← h]; grind
    simp only [this]

theorem lastOff_shift (k : W) (l : List (R × W)) (r : R) : lastOff (shift k l) r = (lastOff l r).map (· + k) := by
  induction l with
  | nil => rfl
  | cons p l ih =>
    simp only [shift, List.map_cons] at ih ⊢
    simp only [lastOff, ih]
    cases lastOff l r with
    | some o => rfl
    | none =>
      simp only [Option.map_none]
      split <;> rfl

/-- what SAVE_CONTEXT stores, from the stack pointer it computes -/
def soft : Var → List (R × W)
  | .v6 => [(r8, 0), (r9, 4), (r10, 8), (r11, 12), (r4, 16), (r5, 20), (r6, 24), (r7, 28)]
  | .v7 => high8
  | .v7e => shift 64 high8 ++ fpHigh

/-- the code of SAVE_CONTEXT destroys these -/
def clobbered : Var → R → Bool
  | _, r0 => true
  | .v6, r4 | .v6, r5 | .v6, r6 | .v6, r7 => true
  | _, _ => false

theorem save_straight (v : Var) : (save v).all (fun i => !i.isBr) = true := by cases v <;> decide

theorem lastReg_mem {l : List (R × W)} {o : W} {r : R} (hl : lastReg l o = some r) : ∃ p ∈ l, p.1 = r := by
  induction l with
  | nil => exact nomatch hl
  | cons q l ih =>
    simp only [lastReg] at hl
    cases h2 : lastReg l o with
    | some r' =>
      rw [h2] at hl
      obtain ⟨p, hp, hp'⟩ := ih (by rw [h2]; exact hl)
      exact ⟨p, List.mem_cons_of_mem _ hp, hp'⟩
    | none =>
      rw [h2] at hl
      simp only [] at hl
      split at hl
      · exact ⟨q, List.mem_cons_self, Option.some.inj hl⟩
      · exact nomatch hl

/-- stores of registers whose values are known -/
theorem sws_mem' (b : R) (l : List (R × W)) (x : St R) (f : R → W) (base : W) (hb : x.reg b = base)
    (hf : ∀ p ∈ l, x.reg p.1 = f p.1) (a : W) :
    (run (sws b l) x).mem a = match lastReg l (a - base) with
      | some r => f r
      | none => x.mem a := by
  rw [sws_mem, hb]
  cases hl : lastReg l (a - base) with
  | none => rfl
  | some r =>
    obtain ⟨p, hp, rfl⟩ := lastReg_mem hl
    exact hf p hp

/-- SAVE_CONTEXT -/
theorem save_eff (v : Var) (x : St R) :
    (run (save v) x).reg r0 = x.reg psp - softSize v ∧
    (∀ r, clobbered v r = false → (run (save v) x).reg r = x.reg r) ∧
    ∀ a, (run (save v) x).mem a = match lastReg (soft v) (a - (x.reg psp - softSize v)) with
      | some r => x.reg r
      | none => x.mem a := by
  have hd : ∀ (k : W), ∃ y, run [.mv r0 psp, .addi r0 r0 (-k)] x = y ∧ y.reg r0 = x.reg psp - k ∧
      (∀ r, r ≠ r0 → y.reg r = x.reg r) ∧ y.mem = x.mem := by
    intro k
    refine ⟨_, rfl, ?_, ?_, rfl⟩
    · rw [run_cons _ _ _ rfl, run_cons _ _ _ rfl, run_nil]
      simp only [exec, upd_same]; grind
    · intro r hr
      rw [run_cons _ _ _ rfl, run_cons _ _ _ rfl, run_nil]
      simp only [exec, upd_ne _ _ hr]
  cases v with
  | v7 =>
    have e : run (save .v7) x = run (sws r0 high8) (run [.mv r0 psp, .addi r0 r0 (-32)] x) := run_append _ _ _ (by decide)
    rw [e]
    obtain ⟨y, hy, y0, y1, y2⟩ := hd 32
    rw [hy]
    refine ⟨by rw [sws_reg]; exact y0, fun r hr => ?_, fun a => ?_⟩
    · rw [sws_reg, y1 r (by rintro rfl; exact nomatch hr)]
    · rw [sws_mem' r0 high8 y x.reg _ y0 (fun p hp => y1 _ (by revert hp; revert p; decide)), y2]
      rfl
  | v7e =>
    have e : run (save .v7e) x = run (.addi r0 r0 (-64) :: sws r0 fpHigh)
        (run (sws r0 high8) (run [.mv r0 psp, .addi r0 r0 (-32)] x)) := by
      simp only [save]
      rw [run_append _ _ _ (by decide), run_sws]
    rw [e]
    obtain ⟨y, hy, y0, y1, y2⟩ := hd 32
    rw [hy, run_cons _ _ _ rfl]
    have z1 := sws_mem' r0 high8 y x.reg _ y0 (fun p hp => y1 _ (by revert hp; revert p; decide))
    have z2 := sws_reg r0 high8 y
    generalize run (sws r0 high8) y = z at *
    obtain ⟨w, hw, w0, w1, w2⟩ : ∃ w, exec (.addi r0 r0 (-64)) z = w ∧ w.reg r0 = x.reg psp - 96 ∧
        (∀ r, r ≠ r0 → w.reg r = x.reg r) ∧ w.mem = z.mem := by
      refine ⟨_, rfl, ?_, fun r hr => ?_, rfl⟩
      · simp only [exec, upd_same]; rw [z2, y0]; grind
      · simp only [exec, upd_ne _ _ hr]; rw [z2, y1 r hr]
    rw [hw]
    refine ⟨by rw [sws_reg]; exact w0, fun r hr => ?_, fun a => ?_⟩
    · rw [sws_reg, w1 r (by rintro rfl; exact nomatch hr)]
    · rw [sws_mem' r0 fpHigh w x.reg _ w0 (fun p hp => w1 _ (by revert hp; revert p; decide)), w2, z1, y2]
      show _ = match lastReg (shift 64 high8 ++ fpHigh) (a - (x.reg psp - 96)) with | some r => x.reg r | none => x.mem a
      rw [lastReg_append, lastReg_shift, show a - (x.reg psp - 96) - 64 = a - (x.reg psp - 32) by grind]
      cases lastReg fpHigh (a - (x.reg psp - 96)) with
      | some r => rfl
      | none => cases lastReg high8 (a - (x.reg psp - 32)) <;> rfl
  | v6 =>
    have e : run (save .v6) x = run [.addi r0 r0 16, .addi r0 r0 (-16)] (run (sws r0 low4)
        (run [.addi r0 r0 16, .mv r4 r8, .mv r5 r9, .mv r6 r10, .mv r7 r11, .addi r0 r0 (-32)] (run (sws r0 low4)
        (run [.mv r0 psp, .addi r0 r0 (-16)] x)))) := by
      simp only [save]
      rw [run_append _ _ _ (by decide), run_sws, run_append _ _ _ (by decide), run_sws]
    rw [e]
    obtain ⟨y, hy, y0, y1, y2⟩ := hd 16
    rw [hy]
    have z1 := sws_mem' r0 low4 y x.reg _ y0 (fun p hp => y1 _ (by revert hp; revert p; decide))
    have z2 := sws_reg r0 low4 y
    generalize run (sws r0 low4) y = z at *
    obtain ⟨w, hw, w0, w4, w5, w6, w7, w1, w2⟩ : ∃ w, run [.addi r0 r0 16, .mv r4 r8, .mv r5 r9, .mv r6 r10, .mv r7 r11, .addi r0 r0 (-32)] z = w ∧
        w.reg r0 = x.reg psp - 32 ∧ w.reg r4 = x.reg r8 ∧ w.reg r5 = x.reg r9 ∧ w.reg r6 = x.reg r10 ∧ w.reg r7 = x.reg r11 ∧
        (∀ r, clobbered .v6 r = false → w.reg r = x.reg r) ∧ w.mem = z.mem := by
      refine ⟨_, rfl, ?_⟩
      rw [run_cons _ _ _ rfl, run_cons _ _ _ rfl, run_cons _ _ _ rfl, run_cons _ _ _ rfl, run_cons _ _ _ rfl,
        run_cons _ _ _ rfl, run_nil]
      simp only [exec]
      refine ⟨?_, ?_, ?_, ?_, ?_, fun r hr => ?_, trivial⟩
      · simp only [upd, reduceCtorEq, if_true, if_false]; rw [z2, y0]; grind
      · simp only [upd, reduceCtorEq, if_true, if_false]; rw [z2, y1 _ (by decide)]
      · simp only [upd, reduceCtorEq, if_true, if_false]; rw [z2, y1 _ (by decide)]
      · simp only [upd, reduceCtorEq, if_true, if_false]; rw [z2, y1 _ (by decide)]
      · simp only [upd, reduceCtorEq, if_true, if_false]; rw [z2, y1 _ (by decide)]
      · have n0 : r ≠ r0 := by rintro rfl; exact nomatch hr
        have n4 : r ≠ r4 := by rintro rfl; exact nomatch hr
        have n5 : r ≠ r5 := by rintro rfl; exact nomatch hr
        have n6 : r ≠ r6 := by rintro rfl; exact nomatch hr
        have n7 : r ≠ r7 := by rintro rfl; exact nomatch hr
        simp only [upd, n0, n4, n5, n6, n7, if_false]; rw [z2, y1 _ n0]
    rw [hw]
    have v1 := sws_mem' r0 low4 w (fun r => match r with | r4 => x.reg r8 | r5 => x.reg r9 | r6 => x.reg r10 | _ => x.reg r11)
      _ w0 (by
        intro p hp
        simp only [low4, List.mem_cons, List.mem_nil_iff, or_false] at hp
        rcases hp with rfl | rfl | rfl | rfl
        · exact w4
        · exact w5
        · exact w6
        · exact w7)
    have v2 := sws_reg r0 low4 w
    generalize run (sws r0 low4) w = u at *
    rw [run_cons _ _ _ rfl, run_cons _ _ _ rfl, run_nil]
    simp only [exec]
    refine ⟨?_, fun r hr => ?_, fun a => ?_⟩
    · rw [upd_same, upd_same, v2, w0]; show x.reg psp - 32#32 + 16#32 + -16#32 = x.reg psp - 32#32; grind
    · have n0 : r ≠ r0 := by rintro rfl; exact nomatch hr
      rw [upd_ne _ _ n0, upd_ne _ _ n0, v2, w1 r hr]
    · rw [v1, w2, z1, y2]
      show _ = match lastReg (soft .v6) (a - (x.reg psp - 32)) with | some r => x.reg r | none => x.mem a
      have hs : soft .v6 = [(r8, 0), (r9, 4), (r10, 8), (r11, 12)] ++ shift 16 low4 := by decide
      rw [hs, lastReg_append, lastReg_shift, show a - (x.reg psp - 32) - 16 = a - (x.reg psp - 16) by grind]
      rw [show a - (x.reg psp - 16) = a - (x.reg psp - 32) - 16 by grind]
      generalize a - (x.reg psp - 32) = o
      by_cases o0 : o = 0
      · subst o0; rfl
      by_cases o4 : o = 4
      · subst o4; rfl
      by_cases o8 : o = 8
      · subst o8; rfl
      by_cases o12 : o = 12
      · subst o12; rfl
      have h1 : lastReg low4 o = none := by
        simp only [low4, lastReg, if_neg o0, if_neg o4, if_neg o8, if_neg o12]
      have h2 : lastReg [(r8, 0), (r9, 4), (r10, 8), (r11, 12)] o = none := by
        simp only [lastReg, if_neg o0, if_neg o4, if_neg o8, if_neg o12]
      rw [h1, h2]
      cases lastReg low4 (o - 16) <;> rfl

/-- RESTORE_CONTEXT -/
theorem restore_eff (v : Var) (x : St R) :
    (run (restore v) x).mem = x.mem ∧ (run (restore v) x).reg psp = x.reg r0 + softSize v ∧
    ∀ r, r ≠ r0 → r ≠ psp → (run (restore v) x).reg r = match lastOff (soft v) r with
      | some o => x.mem (x.reg r0 + o)
      | none => x.reg r := by
  have hd : ∀ (k : W) (z : St R), ∃ y, run [.addi r0 r0 k, .mv psp r0] z = y ∧ y.reg psp = z.reg r0 + k ∧
      (∀ r, r ≠ r0 → r ≠ psp → y.reg r = z.reg r) ∧ y.mem = z.mem := by
    intro k z
    refine ⟨_, rfl, ?_, ?_, rfl⟩
    · rw [run_cons _ _ _ rfl, run_cons _ _ _ rfl, run_nil]
      simp only [exec, upd_same]
    · intro r hr hp
      rw [run_cons _ _ _ rfl, run_cons _ _ _ rfl, run_nil]
      simp only [exec, upd_ne _ _ hr, upd_ne _ _ hp]
  cases v with
  | v7 =>
    have e : run (restore .v7) x = run [.addi r0 r0 32, .mv psp r0] (run (lws r0 high8) x) := run_lws _ _ _ _
    rw [e]
    have z1 := lws_mem r0 high8 x
    have z2 := lws_reg r0 high8 x (by decide)
    generalize run (lws r0 high8) x = z at *
    obtain ⟨y, hy, y0, y1, y2⟩ := hd 32 z
    rw [hy]
    refine ⟨by rw [y2, z1], ?_, fun r hr hp => ?_⟩
    · rw [y0, z2 r0]; rfl
    · rw [y1 r hr hp, z2 r]; rfl
  | v7e =>
    have e : run (restore .v7e) x = run [.addi r0 r0 32, .mv psp r0] (run (lws r0 high8)
        (exec (.addi r0 r0 64) (run (lws r0 fpHigh) x))) := by
      simp only [restore]
      rw [run_lws, run_cons _ _ _ rfl, run_lws]
    rw [e]
    have w1 := lws_mem r0 fpHigh x
    have w2 := lws_reg r0 fpHigh x (by decide)
    generalize run (lws r0 fpHigh) x = w at *
    obtain ⟨u, hu, u0, u1, u2⟩ : ∃ u, exec (.addi r0 r0 64) w = u ∧ u.reg r0 = x.reg r0 + 64 ∧
        (∀ r, r ≠ r0 → u.reg r = w.reg r) ∧ u.mem = x.mem := by
      refine ⟨_, rfl, ?_, fun r hr => ?_, w1⟩
      · simp only [exec, upd_same]; rw [w2 r0]; rfl
      · simp only [exec, upd_ne _ _ hr]
    rw [hu]
    have z1 := lws_mem r0 high8 u
    have z2 := lws_reg r0 high8 u (by decide)
    generalize run (lws r0 high8) u = z at *
    obtain ⟨y, hy, y0, y1, y2⟩ := hd 32 z
    rw [hy]
    refine ⟨by rw [y2, z1, u2], ?_, fun r hr hp => ?_⟩
    · rw [y0, z2 r0, show lastOff high8 r0 = none by decide]
      simp only []
      rw [u0]; show x.reg r0 + 64#32 + 32#32 = x.reg r0 + 96#32; grind
    · rw [y1 r hr hp, z2 r, u1 r hr, w2 r, u0, u2]
      show _ = match lastOff (shift 64 high8 ++ fpHigh) r with | some o => x.mem (x.reg r0 + o) | none => x.reg r
      rw [lastOff_append, lastOff_shift]
      cases h1 : lastOff high8 r with
      | none => cases lastOff fpHigh r <;> rfl
      | some o =>
        have h2 : lastOff fpHigh r = none := by
          revert h1; cases r <;> first | (intro _; rfl) | (intro h; exact absurd (show (none : Option W) = some o from h) (by simp))
        rw [h2]
        simp only [Option.map_some]
        rw [show x.reg r0 + 64 + o = x.reg r0 + (o + 64) by grind]
  | v6 =>
    have e : run (restore .v6) x = run [.addi r0 r0 16, .mv psp r0] (run (lws r0 low4)
        (run [.addi r0 r0 16, .mv r8 r4, .mv r9 r5, .mv r10 r6, .mv r11 r7] (run (lws r0 low4) x))) := by
      simp only [restore]
      rw [run_lws, run_append _ _ _ (by decide), run_lws]
    rw [e]
    have w1 := lws_mem r0 low4 x
    have w2 := lws_reg r0 low4 x (by decide)
    generalize run (lws r0 low4) x = w at *
    obtain ⟨u, hu, u0, u8, u9, u10, u11, u1, u2⟩ : ∃ u, run [.addi r0 r0 16, .mv r8 r4, .mv r9 r5, .mv r10 r6, .mv r11 r7] w = u ∧
        u.reg r0 = x.reg r0 + 16 ∧ u.reg r8 = w.reg r4 ∧ u.reg r9 = w.reg r5 ∧ u.reg r10 = w.reg r6 ∧ u.reg r11 = w.reg r7 ∧
        (∀ r, r ≠ r0 → r ≠ r8 → r ≠ r9 → r ≠ r10 → r ≠ r11 → u.reg r = w.reg r) ∧ u.mem = x.mem := by
      refine ⟨_, rfl, ?_⟩
      rw [run_cons _ _ _ rfl, run_cons _ _ _ rfl, run_cons _ _ _ rfl, run_cons _ _ _ rfl, run_cons _ _ _ rfl, run_nil]
      simp only [exec]
      refine ⟨?_, ?_, ?_, ?_, ?_, fun r n0 n8 n9 n10 n11 => ?_, w1⟩
      · simp only [upd, reduceCtorEq, if_true, if_false]; rw [w2 r0]; rfl
      · simp only [upd, reduceCtorEq, if_true, if_false]
      · simp only [upd, reduceCtorEq, if_true, if_false]
      · simp only [upd, reduceCtorEq, if_true, if_false]
      · simp only [upd, reduceCtorEq, if_true, if_false]
      · simp only [upd, n0, n8, n9, n10, n11, if_false]
    rw [hu]
    have z1 := lws_mem r0 low4 u
    have z2 := lws_reg r0 low4 u (by decide)
    generalize run (lws r0 low4) u = z at *
    obtain ⟨y, hy, y0, y1, y2⟩ := hd 16 z
    rw [hy]
    refine ⟨by rw [y2, z1, u2], ?_, fun r hr hp => ?_⟩
    · rw [y0, z2 r0, show lastOff low4 r0 = none by decide]
      simp only []
      rw [u0]; show x.reg r0 + 16#32 + 16#32 = x.reg r0 + 32#32; grind
    · rw [y1 r hr hp, z2 r, u0, u2]
      by_cases n8 : r = r8
      · subst n8
        rw [show lastOff low4 r8 = none by decide, show lastOff (soft .v6) r8 = some 0 by decide]
        simp only []
        rw [u8, w2 r4]; rfl
      by_cases n9 : r = r9
      · subst n9
        rw [show lastOff low4 r9 = none by decide, show lastOff (soft .v6) r9 = some 4 by decide]
        simp only []
        rw [u9, w2 r5]; rfl
      by_cases n10 : r = r10
      · subst n10
        rw [show lastOff low4 r10 = none by decide, show lastOff (soft .v6) r10 = some 8 by decide]
        simp only []
        rw [u10, w2 r6]; rfl
      by_cases n11 : r = r11
      · subst n11
        rw [show lastOff low4 r11 = none by decide, show lastOff (soft .v6) r11 = some 12 by decide]
        simp only []
        rw [u11, w2 r7]; rfl
      rw [u1 r hr n8 n9 n10 n11, w2 r]
      have hs : soft .v6 = [(r8, 0), (r9, 4), (r10, 8), (r11, 12)] ++ shift 16 low4 := by decide
      have h0 : lastOff [(r8, (0 : W)), (r9, 4), (r10, 8), (r11, 12)] r = none := by
        simp only [lastOff, if_neg n8, if_neg n9, if_neg n10, if_neg n11]
      rw [hs, lastOff_append, lastOff_shift, h0]
      cases lastOff low4 r with
      | none => rfl
      | some o =>
        simp only [Option.map_some]
        rw [show x.reg r0 + 16 + o = x.reg r0 + (o + 16) by grind]

/-! ### The processor's half -/

/-- where the processor puts its frame -/
def hwBase (v : Var) (fa : Bool) (x : St R) : W :=
  if fa = true then (x.reg psp - hwSize (isFp v)) &&& ~~~4#32 else x.reg psp - hwSize (isFp v)

/-- the xPSR it stacks -/
def stacked (fa : Bool) (x : St R) : W :=
  (x.reg xpsr &&& ~~~0x200#32) ||| (if fa = true ∧ (x.reg psp).getLsbD 2 = true then 0x200#32 else 0#32)

theorem hwPush_eff (v : Var) (fa : Bool) (exc ra : W) (x : St R) :
    let y := hwPush (isFp v) fa exc ra x
    y.reg psp = hwBase v fa x ∧ y.reg lr = excRet (isFp v) ∧
    (∀ r, r ≠ psp → r ≠ lr → r ≠ xpsr → r ≠ pc → r ≠ fx → y.reg r = x.reg r) ∧
    ∀ a, y.mem a = match lastReg (hwSaved (isFp v)) (a - hwBase v fa x) with
      | some r => (if r = pc then ra else if r = fx then stacked fa x else x.reg r)
      | none => x.mem a := by
  simp only [hwPush]
  rw [show (if fa = true then (x.reg psp - hwSize (isFp v)) &&& ~~~4#32 else x.reg psp - hwSize (isFp v)) = hwBase v fa x
    from rfl, show ((x.reg xpsr &&& ~~~0x200#32) ||| (if fa = true ∧ (x.reg psp).getLsbD 2 = true then 0x200#32 else 0#32)) =
      stacked fa x from rfl]
  generalize hwBase v fa x = b
  generalize stacked fa x = q
  obtain ⟨z, hz, z1, z2, z3, z4, z5⟩ : ∃ z : St R, { x with reg := upd (upd (upd x.reg pc ra) fx q) psp b } = z ∧ z.mem = x.mem ∧
      z.reg pc = ra ∧ z.reg fx = q ∧ z.reg psp = b ∧ ∀ r, r ≠ pc → r ≠ fx → r ≠ psp → z.reg r = x.reg r :=
    ⟨_, rfl, rfl, by simp [upd], by simp [upd], by simp [upd], fun r h1 h2 h3 => by simp [upd, h1, h2, h3]⟩
  rw [hz]
  have w1 := sws_reg psp (hwSaved (isFp v)) z
  have w2 := sws_mem' psp (hwSaved (isFp v)) z (fun r => if r = pc then ra else if r = fx then q else x.reg r) b z4 (by
    intro p hp
    have hn : p.1 ≠ psp := by
      revert hp; revert p; cases v <;> decide
    by_cases h1 : p.1 = pc
    · rw [h1, if_pos rfl, z2]
    by_cases h2 : p.1 = fx
    · rw [h2, if_neg (by decide), if_pos rfl, z3]
    rw [if_neg h1, if_neg h2, z5 _ h1 h2 hn])
  generalize run (sws psp (hwSaved (isFp v))) z = w at *
  refine ⟨?_, ?_, fun r h1 h2 h3 h4 h5 => ?_, fun a => ?_⟩
  · rw [upd_ne _ _ (by decide), upd_ne _ _ (by decide), upd_ne _ _ (by decide), w1, z4]
  · rw [upd_ne _ _ (by decide), upd_ne _ _ (by decide), upd_same]
  · rw [upd_ne _ _ h4, upd_ne _ _ h3, upd_ne _ _ h2, w1, z5 r h4 h5 h1]
  · rw [w2, z1]

theorem hwPop_eff (v : Var) (fa : Bool) (x : St R) :
    let y := hwPop (isFp v) fa x
    y.mem = x.mem ∧
    y.reg psp = (if fa = true ∧ (x.mem (x.reg psp + 28)).getLsbD 9 = true then (x.reg psp + hwSize (isFp v)) ||| 4#32
      else x.reg psp + hwSize (isFp v)) ∧
    y.reg xpsr = x.mem (x.reg psp + 28) &&& ~~~0x200#32 ∧ y.reg pc = x.mem (x.reg psp + 24) &&& ~~~1#32 ∧
    y.reg fpca = (if isFp v = true then 1 else 0) ∧
    ∀ r, r ≠ psp → r ≠ xpsr → r ≠ pc → r ≠ fpca → y.reg r = match lastOff (hwSaved (isFp v)) r with
      | some o => x.mem (x.reg psp + o)
      | none => x.reg r := by
  simp only [hwPop]
  have w1 := lws_mem psp (hwSaved (isFp v)) x
  have w2 := lws_reg psp (hwSaved (isFp v)) x (by cases v <;> decide)
  generalize run (lws psp (hwSaved (isFp v))) x = w at *
  have wp : w.reg psp = x.reg psp := by
    rw [w2, show lastOff (hwSaved (isFp v)) psp = none by cases v <;> decide]
  have wf : w.reg fx = x.mem (x.reg psp + 28) := by
    rw [w2, show lastOff (hwSaved (isFp v)) fx = some 28 by cases v <;> decide]
  have wc : w.reg pc = x.mem (x.reg psp + 24) := by
    rw [w2, show lastOff (hwSaved (isFp v)) pc = some 24 by cases v <;> decide]
  refine ⟨w1, ?_, ?_, ?_, ?_, fun r h1 h2 h3 h4 => ?_⟩
  · rw [upd_ne _ _ (by decide), upd_ne _ _ (by decide), upd_ne _ _ (by decide), upd_same, wp, wf]
  · rw [upd_ne _ _ (by decide), upd_ne _ _ (by decide), upd_same, wf]
  · rw [upd_ne _ _ (by decide), upd_same, wc]
  · rw [upd_same]
  · rw [upd_ne _ _ h4, upd_ne _ _ h3, upd_ne _ _ h2, upd_ne _ _ h1, w2]
    cases lastOff (hwSaved (isFp v)) r <;> rfl

/-! ### Alignment -/

theorem bit2 (w : W) : w.getLsbD 2 = decide (w.toNat / 4 % 2 = 1) := by
  rw [BitVec.getLsbD, Nat.testBit_eq_decide_div_mod_eq]

theorem and_not4 (w : W) : w &&& ~~~4#32 = if w.getLsbD 2 = true then w - 4#32 else w := by
  have h4 : ∀ i, (4#32 : W).getLsbD i = decide (i = 2) := by
    intro i
    rw [show (4#32 : W) = BitVec.twoPow 32 2 by decide, BitVec.getLsbD_twoPow]
    by_cases h : i = 2
    · subst h; rfl
    · have : ¬ 2 = i := fun e => h e.symm
      simp [h, this]
  have key : (w &&& ~~~4#32) + (w &&& 4#32) = w := by
    rw [BitVec.add_eq_or_of_and_eq_zero]
    · apply BitVec.eq_of_getLsbD_eq
      intro i hi
      simp only [BitVec.getLsbD_or, BitVec.getLsbD_and, BitVec.getLsbD_not, hi, decide_true, Bool.true_and]
      cases w.getLsbD i <;> cases (4#32 : W).getLsbD i <;> rfl
    · apply BitVec.eq_of_getLsbD_eq
      intro i hi
      simp only [BitVec.getLsbD_and, BitVec.getLsbD_not, hi, decide_true, Bool.true_and]
      cases w.getLsbD i <;> cases (4#32 : W).getLsbD i <;> simp
  have h1 : w &&& 4#32 = if w.getLsbD 2 = true then 4#32 else 0#32 := by
    apply BitVec.eq_of_getLsbD_eq
    intro i hi
    rw [BitVec.getLsbD_and, h4]
    by_cases h : i = 2
    · subst h
      split
      · next h => rw [h]; rfl
      · next h => rw [Bool.not_eq_true] at h; rw [h]; rfl
    · split
      · rw [h4]; simp [h]
      · simp [h]
  rw [h1] at key
  split at key <;> split <;> first | grind | contradiction

theorem or4 (w : W) (h : w.getLsbD 2 = false) : w ||| 4#32 = w + 4#32 := by
  rw [BitVec.add_eq_or_of_and_eq_zero]
  apply BitVec.eq_of_getLsbD_eq
  intro i hi
  rw [BitVec.getLsbD_and, show (4#32 : W) = BitVec.twoPow 32 2 by decide, BitVec.getLsbD_twoPow]
  by_cases h' : i = 2
  · subst h'; rw [h]; simp
  · have : ¬ 2 = i := fun e => h' e.symm
    simp [this]

/-- the stack pointer comes back where it was, whatever the alignment -/
theorem align_back (v : Var) (fa : Bool) (x : St R) (h9 : (x.reg xpsr).getLsbD 9 = false) :
    (if fa = true ∧ (stacked fa x).getLsbD 9 = true then (hwBase v fa x + hwSize (isFp v)) ||| 4#32
      else hwBase v fa x + hwSize (isFp v)) = x.reg psp ∧ stacked fa x &&& ~~~0x200#32 = x.reg xpsr := by
  have hm : ∀ i, (0x200#32 : W).getLsbD i = decide (i = 9) := by
    intro i
    rw [show (0x200#32 : W) = BitVec.twoPow 32 9 by decide, BitVec.getLsbD_twoPow]
    by_cases h : i = 9
    · subst h; rfl
    · have : ¬ 9 = i := fun e => h e.symm
      simp [h, this]
  have hb9 : (stacked fa x).getLsbD 9 = (fa && (x.reg psp).getLsbD 2) := by
    simp only [stacked, BitVec.getLsbD_or, BitVec.getLsbD_and, BitVec.getLsbD_not, hm]
    cases fa <;> cases (x.reg psp).getLsbD 2 <;> simp
  refine ⟨?_, ?_⟩
  · rw [hb9]
    cases fa with
    | false =>
      simp only [hwBase, Bool.false_eq_true, false_and, if_false]; grind
    | true =>
      simp only [hwBase, Bool.true_and, true_and, if_true]
      rw [and_not4]
      obtain ⟨n, hn, hn8⟩ : ∃ n, hwSize (isFp v) = n ∧ n.toNat % 8 = 0 := ⟨_, rfl, by cases v <;> decide⟩
      rw [hn]
      have hs : (x.reg psp - n).getLsbD 2 = (x.reg psp).getLsbD 2 := by
        rw [bit2, bit2, BitVec.toNat_sub]
        congr 1
        have := n.isLt
        apply propext
        constructor <;> intro h <;> omega
      rw [hs]
      cases h2 : (x.reg psp).getLsbD 2 with
      | false => simp only [Bool.false_eq_true, if_false]; grind
      | true =>
        simp only [if_true]
        rw [show x.reg psp - n - 4#32 + n = x.reg psp - 4#32 by grind, or4]
        · grind
        · rw [bit2] at h2 ⊢
          have h2' := of_decide_eq_true h2
          rw [decide_eq_false_iff_not, BitVec.toNat_sub, show (4#32 : W).toNat = 4 from rfl]
          have := (x.reg psp).isLt
          omega
  · apply BitVec.eq_of_getLsbD_eq
    intro i hi
    have hc : (if fa = true ∧ (x.reg psp).getLsbD 2 = true then 0x200#32 else 0#32).getLsbD i = true → i = 9 := by
      split
      · intro h; rw [hm] at h; exact of_decide_eq_true h
      · intro h; simp at h
    simp only [stacked, BitVec.getLsbD_or, BitVec.getLsbD_and, BitVec.getLsbD_not, hm, hi, decide_true, Bool.true_and]
    by_cases h : i = 9
    · subst h; rw [h9]; simp
    · rw [show (if fa = true ∧ (x.reg psp).getLsbD 2 = true then 0x200#32 else 0#32).getLsbD i = false by
        cases h' : (if fa = true ∧ (x.reg psp).getLsbD 2 = true then 0x200#32 else 0#32).getLsbD i
        · rfl
        · exact absurd (hc h') h]
      simp [h]

/-! ### Entering -/

/-- the frame starts here -/
def base (v : Var) (fa : Bool) (s : St R) : W := hwBase v fa s - softSize v

/-- return address -/
def retAddr (k : Kind) (s : St R) : W :=
  match k with
  | .svc => s.reg pc + 2
  | _ => s.reg pc

/-- memory when C is called -/
def cells (v : Var) (fa : Bool) (k : Kind) (s : St R) (a : W) : W :=
  match lastReg (soft v) (a - base v fa s) with
  | some r => s.reg r
  | none => match lastReg (hwSaved (isFp v)) (a - hwBase v fa s) with
    | some r => (if r = pc then retAddr k s else if r = fx then stacked fa s else s.reg r)
    | none => s.mem a

theorem soft_apart (v : Var) : ∀ p ∈ soft v, p.1 ≠ psp ∧ p.1 ≠ lr ∧ p.1 ≠ xpsr ∧ p.1 ≠ pc ∧ p.1 ≠ fx ∧ p.1 ≠ msp := by
  cases v <;> decide

/-- exception entry, `push {lr}` and SAVE_CONTEXT -/
theorem entered (v : Var) (fa : Bool) (k : Kind) (exc : W) (s : St R) :
    let y := run (pushLr ++ save v) (hwPush (isFp v) fa exc (retAddr k s) s)
    y.reg r0 = base v fa s ∧ y.reg msp = s.reg msp - 4 ∧
    (∀ a, a ≠ s.reg msp - 4 → y.mem a = cells v fa k s a) ∧
    (lastReg (soft v) (s.reg msp - 4 - base v fa s) = none → y.mem (s.reg msp - 4) = excRet (isFp v)) := by
  obtain ⟨p1, p2, p3, p4⟩ := hwPush_eff v fa exc (retAddr k s) s
  simp only []
  rw [run_append _ _ _ (by decide)]
  generalize hwPush (isFp v) fa exc (retAddr k s) s = y at *
  obtain ⟨z, hz, z1, z2, z3⟩ : ∃ z, run pushLr y = z ∧ z.reg msp = s.reg msp - 4 ∧ (∀ r, r ≠ msp → z.reg r = y.reg r) ∧
      z.mem = upd y.mem (s.reg msp - 4) (excRet (isFp v)) := by
    refine ⟨_, rfl, ?_, ?_, ?_⟩ <;> simp only [pushLr] <;>
      rw [run_cons _ _ _ rfl, run_cons _ _ _ rfl, run_nil] <;> simp only [exec]
    · rw [upd_same, p3 _ (by decide) (by decide) (by decide) (by decide) (by decide)]; grind
    · intro r hr; rw [upd_ne _ _ hr]
    · rw [upd_same, p3 _ (by decide) (by decide) (by decide) (by decide) (by decide), upd_ne _ _ (by decide), p2,
        show s.reg msp + -4 + 0 = s.reg msp - 4 by grind]
  rw [hz]
  obtain ⟨w1, w2, w3⟩ := save_eff v z
  generalize run (save v) z = w at *
  rw [z2 psp (by decide), p1, show hwBase v fa s - softSize v = base v fa s from rfl] at w1 w3
  have hr : ∀ r, (∃ p ∈ soft v, p.1 = r) → z.reg r = s.reg r := by
    rintro r ⟨p, hp, rfl⟩
    obtain ⟨n1, n2, n3, n4, n5, n6⟩ := soft_apart v p hp
    rw [z2 _ n6, p3 _ n1 n2 n3 n4 n5]
  refine ⟨w1, ?_, fun a ha => ?_, fun hn => ?_⟩
  · rw [w2 msp (by cases v <;> rfl), z1]
  · rw [w3]
    simp only [cells]
    cases hl : lastReg (soft v) (a - base v fa s) with
    | some r => exact hr r (lastReg_mem hl)
    | none =>
      simp only []
      rw [z3, upd_ne _ _ ha, p4]
  · rw [w3, hn]
    simp only []
    rw [z3, upd_same]

/-- the state in which C is called -/
theorem enter_eff (v : Var) (fa : Bool) (intr : W) (k : Kind) (s : St R) (hf : v = .v7e → s.reg fpca = 1) :
    let y := enter v fa intr k s
    y.reg r0 = base v fa s ∧ y.reg msp = s.reg msp - 4 ∧
    (∀ a, a ≠ s.reg msp - 4 → a ≠ intr → y.mem a = cells v fa k s a) ∧
    (lastReg (soft v) (s.reg msp - 4 - base v fa s) = none → s.reg msp - 4 ≠ intr →
      y.mem (s.reg msp - 4) = excRet (isFp v)) ∧
    (k = .svc → y.reg r1 = (run (pushLr ++ save v) (hwPush (isFp v) fa 11 (retAddr .svc s) s)).mem (hwBase v fa s) ∧
      y.reg r2 = (run (pushLr ++ save v) (hwPush (isFp v) fa 11 (retAddr .svc s) s)).mem (hwBase v fa s + 4)) := by
  have hfp : fpFrame v s = isFp v := by
    cases v with
    | v7e => show (true && s.reg fpca == 1#32) = true; rw [hf rfl]; rfl
    | _ => rfl
  have hst : (pushLr ++ save v).all (fun i => !i.isBr) = true := by cases v <;> decide
  cases k with
  | tick =>
    obtain ⟨h1, h2, h3, h4⟩ := entered v fa .tick 15 s
    have e : enter v fa intr .tick s = run (pushLr ++ save v) (hwPush (isFp v) fa 15 (retAddr .tick s) s) := by
      simp only [enter, hfp, retAddr]
    rw [e]
    exact ⟨h1, h2, fun a ha _ => h3 a ha, fun h _ => h4 h, (fun h => nomatch h)⟩
  | svc =>
    obtain ⟨h1, h2, h3, h4⟩ := entered v fa .svc 11 s
    have e : enter v fa intr .svc s = run (match v with
      | .v7e => [.lw r1 r0 96, .lw r2 r0 100]
      | _ => [.lw r1 r0 32, .lw r2 r0 36]) (run (pushLr ++ save v) (hwPush (isFp v) fa 11 (retAddr .svc s) s)) := by
      simp only [enter, hfp, retAddr]
      exact run_append _ _ _ hst
    rw [e]
    generalize run (pushLr ++ save v) (hwPush (isFp v) fa 11 (retAddr .svc s) s) = y at *
    obtain ⟨z, hz, z1, z2, z3, z4⟩ : ∃ z, run (match v with
      | .v7e => [.lw r1 r0 96, .lw r2 r0 100]
      | _ => [.lw r1 r0 32, .lw r2 r0 36]) y = z ∧ z.mem = y.mem ∧ (∀ r, r ≠ r1 → r ≠ r2 → z.reg r = y.reg r) ∧
        z.reg r1 = y.mem (hwBase v fa s) ∧ z.reg r2 = y.mem (hwBase v fa s + 4) := by
      have h0 : hwBase v fa s = y.reg r0 + softSize v := by
        rw [show y.reg r0 = base v fa s from h1]; simp only [base]; grind
      rw [h0]
      have h04 : y.reg r0 + softSize v + 4 = y.reg r0 + (softSize v + 4) := by grind
      rw [h04]
      cases v <;> refine ⟨_, rfl, ?_, ?_, ?_, ?_⟩ <;> simp only [] <;>
        rw [run_cons _ _ _ rfl, run_cons _ _ _ rfl, run_nil] <;> simp only [exec] <;>
        first
        | trivial
        | (intro r n1 n2; rw [upd_ne _ _ n2, upd_ne _ _ n1])
        | (rw [upd_ne _ _ (by decide), upd_same]; rfl)
        | (rw [upd_same, upd_ne _ _ (by decide)]; rfl)
    rw [hz]
    refine ⟨by rw [z2 _ (by decide) (by decide)]; exact h1, by rw [z2 _ (by decide) (by decide)]; exact h2,
      fun a ha _ => by rw [z1]; exact h3 a ha, fun h _ => by rw [z1]; exact h4 h, fun _ => ⟨z3, z4⟩⟩
  | pwm =>
    obtain ⟨h1, h2, h3, h4⟩ := entered v fa .pwm 20 s
    have e : enter v fa intr .pwm s = run [.li r2 intr, .li r3 128, .sw r3 r2 0]
        (run (pushLr ++ save v) (hwPush (isFp v) fa 20 (retAddr .pwm s) s)) := by
      simp only [enter, hfp, retAddr]
      exact run_append _ _ _ hst
    rw [e]
    generalize run (pushLr ++ save v) (hwPush (isFp v) fa 20 (retAddr .pwm s) s) = y at *
    obtain ⟨z, hz, z1, z2⟩ : ∃ z, run [.li r2 intr, .li r3 128, .sw r3 r2 0] y = z ∧ z.mem = upd y.mem intr 128 ∧
        ∀ r, r ≠ r2 → r ≠ r3 → z.reg r = y.reg r := by
      refine ⟨_, rfl, ?_, ?_⟩ <;>
        rw [run_cons _ _ _ rfl, run_cons _ _ _ rfl, run_cons _ _ _ rfl, run_nil] <;> simp only [exec]
      · rw [upd_same, upd_ne _ _ (by decide), upd_same, show intr + 0 = intr by grind]
      · intro r n1 n2
        rw [upd_ne _ _ n2, upd_ne _ _ n1]
    rw [hz]
    refine ⟨by rw [z2 _ (by decide) (by decide)]; exact h1, by rw [z2 _ (by decide) (by decide)]; exact h2,
      fun a ha hi => by rw [z1, upd_ne _ _ hi]; exact h3 a ha, fun h hi => by rw [z1, upd_ne _ _ hi]; exact h4 h,
      (fun h => nomatch h)⟩

/-! ### Leaving -/

theorem leave_eff (v : Var) (fa : Bool) (k : Kind) (e : St R) (hc : e.mem (e.reg msp) = excRet (isFp v)) :
    let y := leave v fa k e
    y.mem = e.mem ∧ y.reg msp = e.reg msp + 4 ∧
    y.reg psp = (if fa = true ∧ (e.mem (e.reg r0 + softSize v + 28)).getLsbD 9 = true
      then (e.reg r0 + softSize v + hwSize (isFp v)) ||| 4#32 else e.reg r0 + softSize v + hwSize (isFp v)) ∧
    y.reg xpsr = e.mem (e.reg r0 + softSize v + 28) &&& ~~~0x200#32 ∧
    y.reg pc = e.mem (e.reg r0 + softSize v + 24) &&& ~~~1#32 ∧
    y.reg fpca = (if isFp v = true then 1 else 0) ∧
    ∀ r, r ≠ msp → r ≠ psp → r ≠ xpsr → r ≠ pc → r ≠ fpca → y.reg r = match lastOff (hwSaved (isFp v)) r with
      | some o => e.mem (e.reg r0 + softSize v + o)
      | none => match lastOff (soft v) r with
        | some o => e.mem (e.reg r0 + o)
        | none => e.reg r := by
  simp only [leave]
  obtain ⟨z1, z2, z3⟩ := restore_eff v e
  generalize run (restore v) e = z at *
  have zm : z.reg msp = e.reg msp := by
    rw [z3 _ (by decide) (by decide), show lastOff (soft v) msp = none by cases v <;> decide]
  have hp : popExc fa z = hwPop (isFp v) fa { z with reg := upd z.reg msp (z.reg msp + 4) } := by
    simp only [popExc]
    rw [z1, zm, hc]
    cases v with
    | v7e => exact if_pos rfl
    | _ => rw [if_neg (by decide)]; exact if_pos rfl
  rw [hp]
  obtain ⟨w, hw, w1, w2, w3⟩ : ∃ w : St R, { z with reg := upd z.reg msp (z.reg msp + 4) } = w ∧ w.mem = e.mem ∧
      w.reg msp = e.reg msp + 4 ∧ ∀ r, r ≠ msp → w.reg r = z.reg r :=
    ⟨_, rfl, z1, by simp only []; rw [upd_same, zm], fun r hr => by simp only []; rw [upd_ne _ _ hr]⟩
  rw [hw]
  obtain ⟨g1, g2, g3, g4, g5, g6⟩ := hwPop_eff v fa w
  have hpsp : w.reg psp = e.reg r0 + softSize v := by rw [w3 _ (by decide), z2]
  rw [hpsp, w1] at g2 g3 g4
  simp only [hpsp, w1] at g6
  refine ⟨by rw [g1, w1], ?_, g2, g3, g4, g5, fun r n1 n2 n3 n4 n5 => ?_⟩
  · rw [g6 _ (by decide) (by decide) (by decide) (by decide), show lastOff (hwSaved (isFp v)) msp = none by cases v <;> decide]
    exact w2
  · rw [g6 r n2 n3 n4 n5]
    by_cases n6 : r = r0
    · rw [n6, show lastOff (hwSaved (isFp v)) r0 = some 0 by cases v <;> decide]
    · rw [w3 r n1, z3 r n6 n2]

/-- what the frame holds -/
theorem cells_soft (v : Var) (fa : Bool) (k : Kind) (s : St R) (r : R) (o : W) (h : lastReg (soft v) o = some r) :
    cells v fa k s (base v fa s + o) = s.reg r := by
  simp only [cells]
  rw [show base v fa s + o - base v fa s = o by grind, h]

theorem cells_hw (v : Var) (fa : Bool) (k : Kind) (s : St R) (r : R) (o : W) (h : lastReg (hwSaved (isFp v)) o = some r)
    (hn : lastReg (soft v) (softSize v + o) = none) :
    cells v fa k s (base v fa s + softSize v + o) =
      (if r = pc then retAddr k s else if r = fx then stacked fa s else s.reg r) := by
  simp only [cells]
  rw [show base v fa s + softSize v + o - base v fa s = softSize v + o by grind, hn]
  simp only []
  rw [show base v fa s + softSize v + o - hwBase v fa s = o by simp only [base]; grind, h]

theorem lastOff_mem {l : List (R × W)} {o : W} {r : R} (hl : lastOff l r = some o) : (r, o) ∈ l := by
  induction l with
  | nil => exact nomatch hl
  | cons q l ih =>
    simp only [lastOff] at hl
    cases h2 : lastOff l r with
    | some r' =>
      rw [h2] at hl
      exact List.mem_cons_of_mem _ (ih (by rw [h2]; exact hl))
    | none =>
      rw [h2] at hl
      simp only [] at hl
      split at hl
      · next h =>
        rw [h, ← Option.some.inj hl]; exact List.mem_cons_self
      · exact nomatch hl

theorem hw_lt (v : Var) (r : R) (o : W) (h : lastOff (hwSaved (isFp v)) r = some o) : o.toNat < (hwSize (isFp v)).toNat := by
  have := lastOff_mem h
  have key : ∀ p ∈ hwSaved (isFp v), p.2.toNat < (hwSize (isFp v)).toNat := by cases v <;> decide
  exact key _ this

theorem soft_lt (v : Var) (r : R) (o : W) (h : lastOff (soft v) r = some o) : o.toNat < (softSize v).toNat := by
  have := lastOff_mem h
  have key : ∀ p ∈ soft v, p.2.toNat < (softSize v).toNat := by cases v <;> decide
  exact key _ this

/-- nothing a task can see is forgotten -/
theorem all_saved (v : Var) (r : R) (hv : visible v r = true) (h1 : r ≠ psp) (h2 : r ≠ xpsr) (h3 : r ≠ pc)
    (hl : lastOff (hwSaved (isFp v)) r = none) : ∃ o, lastOff (soft v) r = some o ∧ o.toNat < (size v).toNat := by
  have : ∃ o, lastOff (soft v) r = some o := by
    cases v <;> cases r <;> first | exact ⟨_, rfl⟩ | exact absurd hv (by decide) | exact absurd hl (by decide) | exact absurd rfl h1 | exact absurd rfl h2 |
      exact absurd rfl h3
  obtain ⟨o, ho⟩ := this
  refine ⟨o, ho, Nat.lt_trans (soft_lt v r o ho) ?_⟩
  cases v <;> decide

/-- a context whose cells are in memory is held -/
theorem arm_holds (v : Var) (fa : Bool) (intr : W) (kst : W → Prop) (h : W) (c : R → W) (m : St R)
    (hio : ∀ a, (a - h).toNat < (size v).toNat → ¬ (kst a ∨ a = intr))
    (hsp : c psp = (if fa = true ∧ (m.mem (h + softSize v + 28)).getLsbD 9 = true
      then (h + softSize v + hwSize (isFp v)) ||| 4#32 else h + softSize v + hwSize (isFp v)))
    (hx : c xpsr = m.mem (h + softSize v + 28) &&& ~~~0x200#32)
    (hpc : c pc = m.mem (h + softSize v + 24) &&& ~~~1#32)
    (hhw : ∀ r o, lastOff (hwSaved (isFp v)) r = some o → r ≠ pc → r ≠ fx → c r = m.mem (h + softSize v + o))
    (hso : ∀ r o, lastOff (soft v) r = some o → c r = m.mem (h + o))
    (hh : ∀ r, visible v r = false → c r = 0) : (port v fa intr kst).Holds h c m := by
  refine ⟨hio, fun k e hc hr hm => ?_⟩
  have hr' : e.reg r0 = h := hr
  have hm' : ∀ o : W, o.toNat < (size v).toNat → e.mem (h + o) = m.mem (h + o) := fun o ho =>
    hm (h + o) (by show (h + o - h).toNat < (size v).toNat; rwa [show h + o - h = o by grind])
  have hm2 : ∀ o : W, o.toNat < (hwSize (isFp v)).toNat → e.mem (h + softSize v + o) = m.mem (h + softSize v + o) := by
    intro o ho
    rw [show h + softSize v + o = h + (softSize v + o) by grind]
    refine hm' _ ?_
    revert ho
    cases v <;> intro ho <;> (rw [BitVec.toNat_add]; simp only [softSize, size, hwSize, isFp] at ho ⊢; simp at ho ⊢; omega)
  obtain ⟨l1, l2, l3, l4, l5, l6, l7⟩ := leave_eff v fa k e hc
  rw [hr'] at l3 l4 l5 l7
  funext r
  show (if visible v r = true then (leave v fa k e).reg r else 0) = c r
  generalize leave v fa k e = y at *
  by_cases hv : visible v r = true
  · rw [if_pos hv]
    have s28 := hm2 28 (by cases v <;> decide)
    by_cases h1 : r = psp
    · rw [h1, l3, s28, hsp]
    by_cases h2 : r = xpsr
    · rw [h2, l4, s28, hx]
    by_cases h3 : r = pc
    · rw [h3, l5, hm2 24 (by cases v <;> decide), hpc]
    have n1 : r ≠ msp := by rintro rfl; exact nomatch hv
    have n2 : r ≠ fpca := by rintro rfl; exact nomatch hv
    have n3 : r ≠ fx := by rintro rfl; exact nomatch hv
    rw [l7 r n1 h1 h2 h3 n2]
    cases hl : lastOff (hwSaved (isFp v)) r with
    | some o =>
      simp only []
      rw [hhw r o hl h3 n3]
      exact hm2 o (hw_lt v r o hl)
    | none =>
      obtain ⟨o, ho, hlt⟩ := all_saved v r hv h1 h2 h3 hl
      simp only [ho]
      rw [hso r o ho]
      exact hm' o hlt
  · rw [if_neg hv, hh r (by simpa using hv)]

theorem and_not1 (w : W) (h : w.getLsbD 0 = false) : w &&& ~~~1#32 = w := by
  apply BitVec.eq_of_getLsbD_eq
  intro i hi
  have h1 : (1#32 : W).getLsbD i = decide (i = 0) := by
    rw [show (1#32 : W) = BitVec.twoPow 32 0 by decide, BitVec.getLsbD_twoPow]
    by_cases h : i = 0
    · subst h; rfl
    · have : ¬ 0 = i := fun e => h e.symm
      simp [h, this]
  rw [BitVec.getLsbD_and, BitVec.getLsbD_not, h1]
  by_cases h' : i = 0
  · subst h'; rw [h]; simp
  · simp [h', hi]

theorem even_add2 (w : W) (h : w.getLsbD 0 = false) : (w + 2).getLsbD 0 = false := by
  rw [BitVec.getLsbD, Nat.testBit_zero] at h ⊢
  have h' := of_decide_eq_false h
  rw [decide_eq_false_iff_not, BitVec.toNat_add, show (2 : W).toNat = 2 from rfl]
  have := w.isLt
  omega

theorem soft_none (v : Var) (o : W) (ho : o.toNat < (hwSize (isFp v)).toNat) : lastReg (soft v) (softSize v + o) = none := by
  have key : ∀ p ∈ soft v, p.2.toNat < (softSize v).toNat := by cases v <;> decide
  refine lastReg_none key ?_
  revert ho
  cases v <;> intro ho <;> (rw [BitVec.toNat_add]; simp only [softSize, hwSize, isFp] at ho ⊢; simp at ho ⊢; omega)

/-- memory laid out as exception entry and SAVE_CONTEXT leave it holds the context of the task -/
theorem cells_hold (v : Var) (fa : Bool) (intr : W) (kst : W → Prop) (k : Kind) (s m : St R) (o2 : (s.reg pc).getLsbD 0 = false)
    (o3 : (s.reg xpsr).getLsbD 9 = false)
    (hio' : ∀ a, (a - base v fa s).toNat < (size v).toNat → ¬ (kst a ∨ a = intr))
    (e3' : ∀ o : W, o.toNat < (size v).toNat → m.mem (base v fa s + o) = cells v fa k s (base v fa s + o)) :
    (port v fa intr kst).Holds (base v fa s) ((port v fa intr kst).resume k ((port v fa intr kst).ctx s)) m := by
  have e4 : ∀ o : W, o.toNat < (hwSize (isFp v)).toNat → m.mem (base v fa s + softSize v + o) =
      cells v fa k s (base v fa s + softSize v + o) := by
    intro o ho
    rw [show base v fa s + softSize v + o = base v fa s + (softSize v + o) by grind]
    refine e3' _ ?_
    revert ho
    cases v <;> intro ho <;> (rw [BitVec.toNat_add]; simp only [softSize, size, hwSize, isFp] at ho ⊢; simp at ho ⊢; omega)
  have hb : base v fa s + softSize v = hwBase v fa s := by simp only [base]; grind
  have lt28 : (28 : W).toNat < (hwSize (isFp v)).toNat := by cases v <;> decide
  have lt24 : (24 : W).toNat < (hwSize (isFp v)).toNat := by cases v <;> decide
  have c28 : m.mem (base v fa s + softSize v + 28) = stacked fa s := by
    rw [e4 _ lt28, cells_hw v fa k s fx 28 (by cases v <;> decide) (soft_none v 28 lt28), if_neg (by decide), if_pos rfl]
  have c24 : m.mem (base v fa s + softSize v + 24) = retAddr k s := by
    rw [e4 _ lt24, cells_hw v fa k s pc 24 (by cases v <;> decide) (soft_none v 24 lt24), if_pos rfl]
  obtain ⟨a1, a2⟩ := align_back v fa s o3
  have hres : ∀ r, r ≠ pc → (port v fa intr kst).resume k ((port v fa intr kst).ctx s) r =
      if visible v r = true then s.reg r else 0 := by
    intro r hr
    cases k with
    | svc => exact upd_ne _ _ hr
    | _ => rfl
  refine arm_holds v fa intr kst _ _ _ hio' ?_ ?_ ?_ ?_ ?_ ?_
  · rw [hres _ (by decide), if_pos (by cases v <;> rfl)]
    show s.reg psp = if fa = true ∧ (m.mem (base v fa s + softSize v + 28)).getLsbD 9 = true then _ else _
    rw [c28, hb]; exact a1.symm
  · rw [hres _ (by decide), if_pos (by cases v <;> rfl)]
    show s.reg xpsr = m.mem (base v fa s + softSize v + 28) &&& ~~~0x200#32
    rw [c28]; exact a2.symm
  · show _ = m.mem (base v fa s + softSize v + 24) &&& ~~~1#32
    rw [c24]
    cases k with
    | svc =>
      show upd (fun r => if visible v r = true then s.reg r else 0) pc ((if visible v pc = true then s.reg pc else 0) + 2) pc = (s.reg pc + 2) &&& ~~~1#32
      rw [upd_same, if_pos (by cases v <;> rfl), and_not1 _ (even_add2 _ o2)]
    | _ =>
      show (if visible v pc = true then s.reg pc else 0) = s.reg pc &&& ~~~1#32
      rw [if_pos (by cases v <;> rfl), and_not1 _ o2]
  · intro r o hl hp hx
    have hv : visible v r = true := by
      have := lastOff_mem hl
      have key : ∀ p ∈ hwSaved (isFp v), p.1 ≠ fx → visible v p.1 = true := by cases v <;> decide
      exact key _ this hx
    have hlr : lastReg (hwSaved (isFp v)) o = some r := by
      have := lastOff_mem hl
      have key : ∀ p ∈ hwSaved (isFp v), lastReg (hwSaved (isFp v)) p.2 = some p.1 := by cases v <;> decide
      exact key _ this
    rw [hres r hp, if_pos hv]
    show _ = m.mem (base v fa s + softSize v + o)
    rw [e4 o (hw_lt v r o hl), cells_hw v fa k s r o hlr (soft_none v o (hw_lt v r o hl)), if_neg hp, if_neg hx]
  · intro r o hl
    have hm := lastOff_mem hl
    have hv : visible v r = true := by
      have key : ∀ p ∈ soft v, visible v p.1 = true := by cases v <;> decide
      exact key _ hm
    have hp : r ≠ pc := (soft_apart v _ hm).2.2.2.1
    have hlr : lastReg (soft v) o = some r := by
      have key : ∀ p ∈ soft v, lastReg (soft v) p.2 = some p.1 := by cases v <;> decide
      exact key _ hm
    rw [hres r hp, if_pos hv]
    show _ = m.mem (base v fa s + o)
    rw [e3' o (Nat.lt_trans (soft_lt v r o hl) (by cases v <;> decide)), cells_soft v fa k s r o hlr]
  · intro r hv
    have hp : r ≠ pc := by rintro rfl; revert hv; cases v <;> decide
    rw [hres r hp]; simp [hv]

/-- **Cortex-M: switching tasks is invisible.** -/
theorem arm_sound (v : Var) (fa : Bool) (intr : W) (kst : W → Prop) : (port v fa intr kst).Sound (Ok v kst) where
  restores := fun k s hok hio => by
    obtain ⟨o1, o2, o3, o4⟩ := hok
    obtain ⟨e1, e2, e3, -⟩ := enter_eff v fa intr k s o4
    have ea : (port v fa intr kst).arg ((port v fa intr kst).enter k s) = base v fa s := e1
    rw [ea] at hio ⊢
    refine cells_hold v fa intr kst k s _ o2 o3 hio fun o ho => ?_
    have hn : ¬ (kst (base v fa s + o) ∨ base v fa s + o = intr) :=
      hio (base v fa s + o) (by show (base v fa s + o - base v fa s).toNat < (size v).toNat; rwa [show base v fa s + o - base v fa s = o by grind])
    exact e3 _ (fun h => hn (Or.inl (h ▸ o1))) (fun h => hn (Or.inr h))
  saves_only_frame := fun k s a hok hf hio => by
    obtain ⟨o1, o2, o3, o4⟩ := hok
    obtain ⟨e1, e2, e3, -⟩ := enter_eff v fa intr k s o4
    have ea : (port v fa intr kst).arg ((port v fa intr kst).enter k s) = base v fa s := e1
    rw [ea] at hf
    have hf' : ¬ (a - base v fa s).toNat < (size v).toNat := hf
    have hio' : ¬ (kst a ∨ a = intr) := hio
    show (enter v fa intr k s).mem a = s.mem a
    rw [e3 a (fun h => hio' (Or.inl (h ▸ o1))) (fun h => hio' (Or.inr h))]
    simp only [cells]
    have k1 : ∀ p ∈ soft v, p.2.toNat < (size v).toNat := by cases v <;> decide
    rw [lastReg_none k1 hf']
    simp only []
    have k2 : ∀ p ∈ hwSaved (isFp v), p.2.toNat < (hwSize (isFp v)).toNat := by cases v <;> decide
    rw [lastReg_none k2]
    rw [show a - hwBase v fa s = (a - base v fa s) - softSize v by simp only [base]; grind]
    intro h
    apply hf'
    generalize a - base v fa s = o at *
    have := o.isLt
    revert h
    cases v <;> intro h <;> (rw [BitVec.toNat_sub] at h; simp only [softSize, size, hwSize, isFp] at h ⊢; simp at h ⊢; omega)
  leaves_memory := fun k e a hc _ => congrFun (leave_eff v fa k e hc).1 a
  kernel_stack := ⟨fun k s hok => by
    show (enter v fa intr k s).reg msp + 4 = s.reg msp
    rw [(enter_eff v fa intr k s hok.2.2.2).2.1]; grind, fun k e hc => (leave_eff v fa k e hc).2.1⟩

/-- when C is called, what it must keep for the handler to return is there -/
theorem arm_enter_cok (v : Var) (fa : Bool) (intr : W) (kst : W → Prop) (k : Kind) (s : St R) (hok : Ok v kst s)
    (hio : ∀ a, (a - base v fa s).toNat < (size v).toNat → ¬ (kst a ∨ a = intr)) (hi : ¬ kst intr) :
    (port v fa intr kst).cok k ((port v fa intr kst).enter k s) := by
  obtain ⟨o1, o2, o3, o4⟩ := hok
  obtain ⟨-, e2, -, e4, -⟩ := enter_eff v fa intr k s o4
  show (enter v fa intr k s).mem ((enter v fa intr k s).reg msp) = excRet (isFp v)
  rw [e2]
  refine e4 ?_ (fun h => hi (h ▸ o1))
  have k1 : ∀ p ∈ soft v, p.2.toNat < (size v).toNat := by cases v <;> decide
  exact lastReg_none k1 fun h => hio _ h (Or.inl o1)

/-- the task brought in is again in a state that can be interrupted -/
theorem arm_leave_ok (v : Var) (fa : Bool) (intr : W) (kst : W → Prop) (k : Kind) (e : St R)
    (hc : (port v fa intr kst).cok k e) (hk : kst (e.reg msp)) : Ok v kst (leave v fa k e) := by
  obtain ⟨-, l2, -, l4, l5, l6, -⟩ := leave_eff v fa k e hc
  refine ⟨?_, ?_, ?_, ?_⟩
  · rw [l2, show e.reg msp + 4 - 4 = e.reg msp by grind]; exact hk
  · rw [l5, BitVec.getLsbD_and, show (~~~1#32 : W).getLsbD 0 = false by decide, Bool.and_false]
  · rw [l4, BitVec.getLsbD_and, show (~~~0x200#32 : W).getLsbD 9 = false by decide, Bool.and_false]
  · rintro rfl
    rw [l6]; rfl

/-- **The scheduler receives the arguments of the system call**, and the stack pointer under which the
context of the caller was saved. -/
theorem arm_syscall_args (v : Var) (fa : Bool) (intr : W) (kst : W → Prop) (s : St R) (hok : Ok v kst s)
    (hio : ∀ a, (a - base v fa s).toNat < (size v).toNat → ¬ (kst a ∨ a = intr)) :
    let y := enter v fa intr .svc s
    y.reg r0 = base v fa s ∧ y.reg r1 = s.reg r0 ∧ y.reg r2 = s.reg r1 := by
  obtain ⟨o1, o2, o3, o4⟩ := hok
  obtain ⟨e1, -, -, -, e5⟩ := enter_eff v fa intr .svc s o4
  obtain ⟨-, -, h3, -⟩ := entered v fa .svc 11 s
  have hlt : ∀ o : W, o.toNat < (hwSize (isFp v)).toNat → (softSize v + o).toNat < (size v).toNat := by
    intro o ho
    revert ho
    cases v <;> intro ho <;> (rw [BitVec.toNat_add]; simp only [softSize, size, hwSize, isFp] at ho ⊢; simp at ho ⊢; omega)
  have hk : ∀ o : W, o.toNat < (hwSize (isFp v)).toNat → base v fa s + softSize v + o ≠ s.reg msp - 4 := by
    intro o ho h
    refine hio (base v fa s + softSize v + o) ?_ (Or.inl (h ▸ o1))
    rw [show base v fa s + softSize v + o - base v fa s = softSize v + o by grind]
    exact hlt o ho
  have hb : hwBase v fa s = base v fa s + softSize v := by simp only [base]; grind
  have l0 : (0 : W).toNat < (hwSize (isFp v)).toNat := by cases v <;> decide
  have l4 : (4 : W).toNat < (hwSize (isFp v)).toNat := by cases v <;> decide
  refine ⟨e1, ?_, ?_⟩
  · rw [(e5 rfl).1, show hwBase v fa s = base v fa s + softSize v + 0 by rw [hb]; grind, h3 _ (hk 0 l0),
      cells_hw v fa .svc s r0 0 (by cases v <;> decide) (soft_none v 0 l0), if_neg (by decide), if_neg (by decide)]
  · rw [(e5 rfl).2, hb, h3 _ (hk 4 l4),
      cells_hw v fa .svc s r1 4 (by cases v <;> decide) (soft_none v 4 l4), if_neg (by decide), if_neg (by decide)]

end Pico.Ctx.Arm
