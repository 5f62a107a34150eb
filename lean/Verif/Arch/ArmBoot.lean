import Verif.Arch.ArmProps
/-
Starting tasks and platform interrupts on the Cortex-M ports.
-/
namespace Pico.Ctx.Arm
open Pico.Ctx R

/-- the registers pushed by arch_save_first_context -/
def pushed : Var → List (R × W)
  | .v6 => [(r4, 0), (r5, 4), (r6, 8), (r7, 12), (lr, 16)]
  | _ => high8 ++ [(lr, 32)]
/-- the registers popped by arch_save_first_context -/
def popped : Var → List (R × W)
  | .v6 => [(r4, 0), (r5, 4), (r6, 8), (r7, 12), (pc, 16)]
  | _ => high8 ++ [(pc, 32)]
/-- bytes pushed -/
def pushN : Var → W
  | .v6 => 20
  | _ => 36

/-- arch_save_first_context before SAVE_CONTEXT -/
def pre : Var → List (Op R)
  | .v6 => [.addi msp msp (-20)] ++ (sws msp [(r4, 0), (r5, 4), (r6, 8), (r7, 12), (lr, 16)] ++
      ([.addi r0 r0 (-32), .mv r4 r2, .li r5 0, .li r6 0, .li r7 0] ++ (sws r0 low4 ++
      ([.addi r0 r0 16, .mv r4 r12, .mv r5 lr, .mv r6 r1, .li r7 0x1000000] ++ (sws r0 low4 ++
      [.addi r0 r0 16, .addi r0 r0 (-32), .mv psp r0])))))
  | .v7 => [.addi msp msp (-36)] ++ (sws msp (high8 ++ [(lr, 32)]) ++
      ([.mv r4 r2, .li r5 0, .li r6 0, .li r7 0, .mv r8 r12, .mv r9 lr, .mv r10 r1, .li r11 0x1000000,
        .addi r0 r0 (-32)] ++ (sws r0 high8 ++ [.mv psp r0])))
  | .v7e => [.addi msp msp (-36)] ++ (sws msp (high8 ++ [(lr, 32)]) ++
      ([.addi r0 r0 (-8), .addi r0 r0 (-64)] ++ (sws r0 [(s0, 0), (s1, 4), (s2, 8), (s3, 12), (s4, 16), (s5, 20),
        (s6, 24), (s7, 28), (s8, 32), (s9, 36), (s10, 40), (s11, 44), (s12, 48), (s13, 52), (s14, 56), (s15, 60)] ++
      ([.mv r4 r2, .li r5 0, .li r6 0, .li r7 0, .mv r8 r12, .mv r9 lr, .mv r10 r1, .li r11 0x1000000,
        .addi r0 r0 (-32)] ++ (sws r0 high8 ++ [.mv psp r0])))))

theorem first_split (v : Var) :
    first v = pre v ++ (save v ++ (lws msp (popped v) ++ [.addi msp msp (pushN v)])) := by
  cases v <;> rfl

/-- not touched by arch_save_first_context before it restores -/
def untouched : Var → R → Bool
  | .v6, r8 | .v6, r9 | .v6, r10 | .v6, r11 => true
  | _, s16 | _, s17 | _, s18 | _, s19 | _, s20 | _, s21 | _, s22 | _, s23 | _, s24 | _, s25 | _, s26 | _, s27
  | _, s28 | _, s29 | _, s30 | _, s31 => true
  | _, _ => false

theorem pushA (v : Var) (s : St R) :
    ∃ y, run ([.addi msp msp (-(pushN v))] ++ sws msp (pushed v)) s = y ∧ y.reg msp = s.reg msp - pushN v ∧
      (∀ r, r ≠ msp → y.reg r = s.reg r) ∧
      ∀ a, y.mem a = match lastReg (pushed v) (a - (s.reg msp - pushN v)) with
        | some r => s.reg r
        | none => s.mem a := by
  refine ⟨_, rfl, ?_⟩
  rw [run_append _ _ _ (by cases v <;> decide)]
  obtain ⟨z, hz, z1, z2, z3⟩ : ∃ z, run [.addi msp msp (-(pushN v))] s = z ∧ z.reg msp = s.reg msp - pushN v ∧
      (∀ r, r ≠ msp → z.reg r = s.reg r) ∧ z.mem = s.mem := by
    refine ⟨_, rfl, ?_, fun r hr => ?_, rfl⟩ <;> rw [run_cons _ _ _ rfl, run_nil] <;> simp only [exec]
    · rw [upd_same]; grind
    · rw [upd_ne _ _ hr]
  rw [hz]
  refine ⟨by rw [sws_reg, z1], fun r hr => by rw [sws_reg, z2 r hr], fun a => ?_⟩
  rw [sws_mem' msp (pushed v) z s.reg _ z1 (fun p hp => z2 _ (by revert hp; revert p; cases v <;> decide)), z3]
  cases lastReg (pushed v) (a - (s.reg msp - pushN v)) <;> rfl

/-- values put in the registers for the processor's part of the first frame -/
def firstHw (s : St R) : R → W
  | r4 => s.reg r2
  | r8 => s.reg r12
  | r9 => s.reg lr
  | r10 => s.reg r1
  | r11 => 0x1000000#32
  | _ => 0#32

theorem fill7 (s y : St R) (hy : ∀ r, r ≠ msp → r ≠ r0 → y.reg r = s.reg r) :
    ∃ z, run [.mv r4 r2, .li r5 0, .li r6 0, .li r7 0, .mv r8 r12, .mv r9 lr, .mv r10 r1, .li r11 0x1000000#32,
        .addi r0 r0 (-32)] y = z ∧ z.mem = y.mem ∧ z.reg r0 = y.reg r0 - 32 ∧ z.reg msp = y.reg msp ∧
      (∀ p ∈ high8, z.reg p.1 = firstHw s p.1) ∧
      ∀ r, untouched .v7 r = true → z.reg r = s.reg r := by
  refine ⟨_, rfl, ?_⟩
  rw [run_cons _ _ _ rfl, run_cons _ _ _ rfl, run_cons _ _ _ rfl, run_cons _ _ _ rfl, run_cons _ _ _ rfl,
    run_cons _ _ _ rfl, run_cons _ _ _ rfl, run_cons _ _ _ rfl, run_cons _ _ _ rfl, run_nil]
  simp only [exec]
  refine ⟨trivial, ?_, ?_, ?_, ?_⟩
  · simp only [upd, reduceCtorEq, if_true, if_false]; grind
  · simp only [upd, reduceCtorEq, if_true, if_false]
  · intro p hp
    simp only [high8, List.mem_cons, List.mem_nil_iff, or_false] at hp
    rcases hp with rfl | rfl | rfl | rfl | rfl | rfl | rfl | rfl <;>
      simp only [upd, reduceCtorEq, if_true, if_false, firstHw] <;>
      first | rfl | exact hy _ (by decide) (by decide)
  · intro r hr
    have : r ≠ msp ∧ r ≠ r0 ∧ r ≠ r4 ∧ r ≠ r5 ∧ r ≠ r6 ∧ r ≠ r7 ∧ r ≠ r8 ∧ r ≠ r9 ∧ r ≠ r10 ∧ r ≠ r11 := by
      revert hr; cases r <;> decide
    obtain ⟨n1, n0, n4, n5, n6, n7, n8, n9, n10, n11⟩ := this
    simp only [upd, n0, n4, n5, n6, n7, n8, n9, n10, n11, if_false]
    exact hy r n1 n0

/-- s0-s15 as stored by arch_save_first_context -/
def fpLow : List (R × W) := [(s0, 0), (s1, 4), (s2, 8), (s3, 12), (s4, 16), (s5, 20),
        (s6, 24), (s7, 28), (s8, 32), (s9, 36), (s10, 40), (s11, 44), (s12, 48), (s13, 52), (s14, 56), (s15, 60)]

theorem pre_eff (v : Var) (s : St R) :
    let y := run (pre v) s
    y.reg r0 = s.reg r0 - hwSize (isFp v) ∧ y.reg psp = s.reg r0 - hwSize (isFp v) ∧ y.reg msp = s.reg msp - pushN v ∧
    (∀ r, untouched v r = true → y.reg r = s.reg r) ∧
    ∃ g : W → Option W, (∀ o : W, ¬ o.toNat < (hwSize (isFp v)).toNat → g o = none) ∧
      g 0 = some (s.reg r2) ∧ g 24 = some (s.reg r1) ∧ g 28 = some 0x1000000#32 ∧ (v = .v7e → g 96 = none) ∧
      ∀ a, y.mem a = match g (a - (s.reg r0 - hwSize (isFp v))) with
        | some w => w
        | none => match lastReg (pushed v) (a - (s.reg msp - pushN v)) with
          | some r => s.reg r
          | none => s.mem a := by
  cases v with
  | v7 =>
    obtain ⟨y, hy, y1, y2, y3⟩ := pushA .v7 s
    obtain ⟨z, hz, z1, z2, z3, z4, z5⟩ := fill7 s y (fun r h _ => y2 r h)
    have e : run (pre .v7) s = run [.mv psp r0] (run (sws r0 high8) z) := by
      have : pre .v7 = ([.addi msp msp (-(pushN .v7))] ++ sws msp (pushed .v7)) ++
        ([.mv r4 r2, .li r5 0, .li r6 0, .li r7 0, .mv r8 r12, .mv r9 lr, .mv r10 r1, .li r11 0x1000000#32,
        .addi r0 r0 (-32)] ++ (sws r0 high8 ++ [.mv psp r0])) := rfl
      rw [this, run_append _ _ _ (by decide), hy, run_append _ _ _ (by decide), hz, run_sws]
    have w1 := sws_mem' r0 high8 z (firstHw s) _ rfl z4
    have w2 := sws_reg r0 high8 z
    generalize run (sws r0 high8) z = w at *
    simp only []
    rw [e, run_cons _ _ _ rfl, run_nil]
    simp only [exec]
    rw [z2, y2 r0 (by decide)] at w1
    have hw0 : w.reg r0 = s.reg r0 - hwSize (isFp .v7) := by rw [w2, z2, y2 r0 (by decide)]; rfl
    refine ⟨?_, ?_, ?_, ?_, fun o => (lastReg high8 o).map (firstHw s), ?_, rfl, rfl, rfl, (fun h => nomatch h), ?_⟩
    · rw [upd_ne _ _ (by decide), hw0]
    · rw [upd_same, hw0]
    · rw [upd_ne _ _ (by decide), w2, z3, y1]
    · intro r hr
      have : r ≠ psp := by rintro rfl; exact nomatch hr
      rw [upd_ne _ _ this, w2, z5 r hr]
    · intro o ho
      have k1 : ∀ p ∈ high8, p.2.toNat < (hwSize (isFp .v7)).toNat := by decide
      simp only []
      rw [lastReg_none k1 ho]; rfl
    · intro a
      rw [w1, z1, y3]
      show _ = match (lastReg high8 (a - (s.reg r0 - 32))).map (firstHw s) with | some w => w | none => _
      cases lastReg high8 (a - (s.reg r0 - 32)) with
      | some r => rfl
      | none =>
        simp only [Option.map_none]
  | v7e =>
    obtain ⟨y, hy, y1, y2, y3⟩ := pushA .v7e s
    obtain ⟨q, hq, q1, q2, q3⟩ : ∃ q, run [.addi r0 r0 (-8), .addi r0 r0 (-64)] y = q ∧ q.mem = y.mem ∧
        q.reg r0 = s.reg r0 - 72 ∧ ∀ r, r ≠ r0 → q.reg r = y.reg r := by
      refine ⟨_, rfl, rfl, ?_, fun r hr => ?_⟩ <;> rw [run_cons _ _ _ rfl, run_cons _ _ _ rfl, run_nil] <;> simp only [exec]
      · rw [upd_same, upd_same, y2 r0 (by decide)]; grind
      · rw [upd_ne _ _ hr, upd_ne _ _ hr]
    have u1 := sws_mem' r0 fpLow q s.reg _ q2 (fun p hp => by
      have : p.1 ≠ r0 ∧ p.1 ≠ msp := by revert hp; revert p; decide
      rw [q3 _ this.1, y2 _ this.2])
    have u2 := sws_reg r0 fpLow q
    obtain ⟨u, hu⟩ : ∃ u, run (sws r0 fpLow) q = u := ⟨_, rfl⟩
    rw [hu] at u1 u2
    obtain ⟨z, hz, z1, z2, z3, z4, z5⟩ := fill7 s u (fun r h h0 => by rw [u2, q3 r h0, y2 r h])
    have e : run (pre .v7e) s = run [.mv psp r0] (run (sws r0 high8) z) := by
      have : pre .v7e = ([.addi msp msp (-(pushN .v7e))] ++ sws msp (pushed .v7e)) ++
        ([.addi r0 r0 (-8), .addi r0 r0 (-64)] ++ (sws r0 fpLow ++
        ([.mv r4 r2, .li r5 0, .li r6 0, .li r7 0, .mv r8 r12, .mv r9 lr, .mv r10 r1, .li r11 0x1000000#32,
        .addi r0 r0 (-32)] ++ (sws r0 high8 ++ [.mv psp r0])))) := rfl
      rw [this, run_append _ _ _ (by decide), hy, run_append _ _ _ (by decide), hq, run_sws, hu,
        run_append _ _ _ (by decide), hz, run_sws]
    have w1 := sws_mem' r0 high8 z (firstHw s) _ rfl z4
    have w2 := sws_reg r0 high8 z
    generalize run (sws r0 high8) z = w at *
    simp only []
    rw [e, run_cons _ _ _ rfl, run_nil]
    simp only [exec]
    have hu0 : u.reg r0 - 32 = s.reg r0 - 104 := by rw [u2, q2]; grind
    rw [z2, hu0] at w1
    have hw0 : w.reg r0 = s.reg r0 - hwSize (isFp .v7e) := by rw [w2, z2, hu0]; rfl
    refine ⟨?_, ?_, ?_, ?_, fun o => match lastReg high8 o with
      | some r => some (firstHw s r)
      | none => (lastReg fpLow (o - 32)).map s.reg, ?_, rfl, rfl, rfl, fun _ => rfl, ?_⟩
    · rw [upd_ne _ _ (by decide), hw0]
    · rw [upd_same, hw0]
    · rw [upd_ne _ _ (by decide), w2, z3, u2, q3 _ (by decide), y1]
    · intro r hr
      have : r ≠ psp := by rintro rfl; exact nomatch hr
      rw [upd_ne _ _ this, w2, z5 r (by revert hr; cases r <;> decide)]
    · intro o ho
      have ho' : ¬ o.toNat < 104 := ho
      have k1 : ∀ p ∈ high8, p.2.toNat < 104 := by decide
      have k2 : ∀ p ∈ fpLow, p.2.toNat < 72 := by decide
      simp only []
      rw [lastReg_none k1 ho', lastReg_none k2]
      · rfl
      · rw [BitVec.toNat_sub, show (32 : W).toNat = 32 from rfl]
        have := o.isLt
        omega
    · intro a
      rw [w1, z1, u1, q1, y3]
      show _ = match (match lastReg high8 (a - (s.reg r0 - 104)) with
        | some r => some (firstHw s r)
        | none => (lastReg fpLow (a - (s.reg r0 - 104) - 32)).map s.reg) with | some w => w | none => _
      rw [show a - (s.reg r0 - 104) - 32 = a - (s.reg r0 - 72) by grind]
      cases lastReg high8 (a - (s.reg r0 - 104)) with
      | some r => rfl
      | none =>
        simp only []
        cases lastReg fpLow (a - (s.reg r0 - 72)) with
        | some r => rfl
        | none => simp only [Option.map_none]
  | v6 =>
    obtain ⟨y, hy, y1, y2, y3⟩ := pushA .v6 s
    obtain ⟨q, hq, q1, q2, q3, q4, q5, q6, q7⟩ : ∃ q, run [.addi r0 r0 (-32), .mv r4 r2, .li r5 0, .li r6 0, .li r7 0] y = q ∧ q.mem = y.mem ∧
        q.reg r0 = s.reg r0 - 32 ∧ q.reg r4 = s.reg r2 ∧ q.reg r5 = 0 ∧ q.reg r6 = 0 ∧ q.reg r7 = 0 ∧
        ∀ r, r ≠ r0 → r ≠ r4 → r ≠ r5 → r ≠ r6 → r ≠ r7 → q.reg r = y.reg r := by
      refine ⟨_, rfl, rfl, ?_, ?_, ?_, ?_, ?_, fun r n0 n4 n5 n6 n7 => ?_⟩ <;>
        rw [run_cons _ _ _ rfl, run_cons _ _ _ rfl, run_cons _ _ _ rfl, run_cons _ _ _ rfl, run_cons _ _ _ rfl, run_nil] <;>
        simp only [exec]
      · simp only [upd, reduceCtorEq, if_true, if_false]; rw [y2 r0 (by decide)]; grind
      · simp only [upd, reduceCtorEq, if_true, if_false]; rw [y2 r2 (by decide)]
      · simp only [upd, reduceCtorEq, if_true, if_false]
      · simp only [upd, reduceCtorEq, if_true, if_false]
      · simp only [upd, reduceCtorEq, if_true, if_false]
      · simp only [upd, n0, n4, n5, n6, n7, if_false]
    have u1 := sws_mem' r0 low4 q (fun r => if r = r4 then s.reg r2 else 0) _ q2 (fun p hp => by
      simp only [low4, List.mem_cons, List.mem_nil_iff, or_false] at hp
      rcases hp with rfl | rfl | rfl | rfl
      · exact q3
      · exact q4
      · exact q5
      · exact q6)
    have u2 := sws_reg r0 low4 q
    obtain ⟨u, hu⟩ : ∃ u, run (sws r0 low4) q = u := ⟨_, rfl⟩
    rw [hu] at u1 u2
    obtain ⟨t, ht, t1, t2, t3, t4, t5, t6, t7⟩ : ∃ t, run [.addi r0 r0 16, .mv r4 r12, .mv r5 lr, .mv r6 r1, .li r7 0x1000000#32] u = t ∧ t.mem = u.mem ∧
        t.reg r0 = s.reg r0 - 16 ∧ t.reg r4 = s.reg r12 ∧ t.reg r5 = s.reg lr ∧ t.reg r6 = s.reg r1 ∧ t.reg r7 = 0x1000000#32 ∧
        ∀ r, r ≠ r0 → r ≠ r4 → r ≠ r5 → r ≠ r6 → r ≠ r7 → t.reg r = y.reg r := by
      refine ⟨_, rfl, rfl, ?_, ?_, ?_, ?_, ?_, fun r n0 n4 n5 n6 n7 => ?_⟩ <;>
        rw [run_cons _ _ _ rfl, run_cons _ _ _ rfl, run_cons _ _ _ rfl, run_cons _ _ _ rfl, run_cons _ _ _ rfl, run_nil] <;>
        simp only [exec]
      · simp only [upd, reduceCtorEq, if_true, if_false]; rw [u2, q2]; grind
      · simp only [upd, reduceCtorEq, if_true, if_false]
        rw [u2, q7 _ (by decide) (by decide) (by decide) (by decide) (by decide), y2 _ (by decide)]
      · simp only [upd, reduceCtorEq, if_true, if_false]
        rw [u2, q7 _ (by decide) (by decide) (by decide) (by decide) (by decide), y2 _ (by decide)]
      · simp only [upd, reduceCtorEq, if_true, if_false]
        rw [u2, q7 _ (by decide) (by decide) (by decide) (by decide) (by decide), y2 _ (by decide)]
      · simp only [upd, reduceCtorEq, if_true, if_false]
      · simp only [upd, n0, n4, n5, n6, n7, if_false]
        rw [u2, q7 r n0 n4 n5 n6 n7]
    have v1 := sws_mem' r0 low4 t (fun r => if r = r4 then s.reg r12 else if r = r5 then s.reg lr else
      if r = r6 then s.reg r1 else 0x1000000#32) _ t2 (fun p hp => by
      simp only [low4, List.mem_cons, List.mem_nil_iff, or_false] at hp
      rcases hp with rfl | rfl | rfl | rfl
      · exact t3
      · exact t4
      · exact t5
      · exact t6)
    have v2 := sws_reg r0 low4 t
    have e : run (pre .v6) s = run [.addi r0 r0 16, .addi r0 r0 (-32), .mv psp r0] (run (sws r0 low4) t) := by
      have : pre .v6 = ([.addi msp msp (-(pushN .v6))] ++ sws msp (pushed .v6)) ++
        ([.addi r0 r0 (-32), .mv r4 r2, .li r5 0, .li r6 0, .li r7 0] ++ (sws r0 low4 ++
        ([.addi r0 r0 16, .mv r4 r12, .mv r5 lr, .mv r6 r1, .li r7 0x1000000#32] ++ (sws r0 low4 ++
        [.addi r0 r0 16, .addi r0 r0 (-32), .mv psp r0])))) := rfl
      rw [this, run_append _ _ _ (by decide), hy, run_append _ _ _ (by decide), hq, run_sws, hu,
        run_append _ _ _ (by decide), ht, run_sws]
    generalize run (sws r0 low4) t = w at *
    simp only []
    have hw0 : w.reg r0 + 16 + -32 = s.reg r0 - hwSize (isFp .v6) := by
      rw [v2, t2]; show s.reg r0 - 16#32 + 16#32 + -32#32 = s.reg r0 - 32#32; grind
    rw [e, run_cons _ _ _ rfl, run_cons _ _ _ rfl, run_cons _ _ _ rfl, run_nil]
    simp only [exec]
    refine ⟨?_, ?_, ?_, ?_, fun o => match lastReg low4 (o - 16) with
      | some r => some (if r = r4 then s.reg r12 else if r = r5 then s.reg lr else if r = r6 then s.reg r1 else 0x1000000#32)
      | none => (lastReg low4 o).map (fun r => if r = r4 then s.reg r2 else 0), ?_, rfl, rfl, rfl, (fun h => nomatch h), ?_⟩
    · rw [upd_ne _ _ (by decide), upd_same, upd_same, hw0]
    · rw [upd_same, upd_same, upd_same, hw0]
    · rw [upd_ne _ _ (by decide), upd_ne _ _ (by decide), upd_ne _ _ (by decide), v2,
        t7 _ (by decide) (by decide) (by decide) (by decide) (by decide), y1]
    · intro r hr
      have : r ≠ psp ∧ r ≠ r0 ∧ r ≠ r4 ∧ r ≠ r5 ∧ r ≠ r6 ∧ r ≠ r7 ∧ r ≠ msp := by revert hr; cases r <;> decide
      obtain ⟨np, n0, n4, n5, n6, n7, nm⟩ := this
      rw [upd_ne _ _ np, upd_ne _ _ n0, upd_ne _ _ n0, v2, t7 r n0 n4 n5 n6 n7, y2 r nm]
    · intro o ho
      have ho' : ¬ o.toNat < 32 := ho
      have k1 : ∀ p ∈ low4, p.2.toNat < 16 := by decide
      simp only []
      rw [lastReg_none k1, lastReg_none k1]
      · rfl
      · omega
      · rw [BitVec.toNat_sub, show (16 : W).toNat = 16 from rfl]
        have := o.isLt
        omega
    · intro a
      rw [v1, t1, u1, q1, y3]
      show _ = match (match lastReg low4 (a - (s.reg r0 - 32) - 16) with
        | some r => some (if r = r4 then s.reg r12 else if r = r5 then s.reg lr else if r = r6 then s.reg r1 else 0x1000000#32)
        | none => (lastReg low4 (a - (s.reg r0 - 32))).map (fun r => if r = r4 then s.reg r2 else 0)) with | some w => w | none => _
      rw [show a - (s.reg r0 - 32) - 16 = a - (s.reg r0 - 16) by grind]
      cases lastReg low4 (a - (s.reg r0 - 16)) with
      | some r => rfl
      | none =>
        simp only []
        cases lastReg low4 (a - (s.reg r0 - 32)) with
        | some r => rfl
        | none => simp only [Option.map_none]

theorem size_eq (v : Var) : size v = softSize v + hwSize (isFp v) := by cases v <;> rfl

/-- registers a C function must preserve -/
def calleeSaved (v : Var) : R → Bool
  | msp | r4 | r5 | r6 | r7 | r8 | r9 | r10 | r11 => true
  | s16 | s17 | s18 | s19 | s20 | s21 | s22 | s23 | s24 | s25 | s26 | s27 | s28 | s29 | s30 | s31 => isFp v
  | _ => false

/-- arch_save_first_context, register by register and cell by cell; the words it pushes on the kernel's
stack are apart from the frame -/
theorem first_eff (v : Var) (s : St R)
    (hap : ∀ o : W, o.toNat < (pushN v).toNat → ¬ (s.reg msp - pushN v + o - (s.reg r0 - size v)).toNat < (size v).toNat) :
    let y := run (first v) s
    y.reg r0 = s.reg r0 - size v ∧ y.reg pc = s.reg lr ∧ (∀ r, calleeSaved v r = true → y.reg r = s.reg r) ∧
    (∀ a, ¬ (a - (s.reg r0 - size v)).toNat < (size v).toNat → ¬ (a - (s.reg msp - pushN v)).toNat < (pushN v).toNat →
      y.mem a = s.mem a) ∧
    y.mem (s.reg r0 - size v + softSize v) = s.reg r2 ∧
    y.mem (s.reg r0 - size v + softSize v + 24) = s.reg r1 ∧
    y.mem (s.reg r0 - size v + softSize v + 28) = 0x1000000#32 ∧
    (v = .v7e → (¬ (s.reg r0 - 8 - (s.reg msp - 36)).toNat < 36) → y.mem (s.reg r0 - size v + softSize v + 96) = s.mem (s.reg r0 - 8)) := by
  simp only []
  rw [first_split, run_append _ _ _ (by cases v <;> decide), run_append _ _ _ (save_straight v), run_lws]
  obtain ⟨a1, a2, a3, a4, g, g1, g2, g3, g4, g6, g5⟩ := pre_eff v s
  generalize run (pre v) s = y at *
  obtain ⟨b1, b2, b3⟩ := save_eff v y
  rw [a2, show s.reg r0 - hwSize (isFp v) - softSize v = s.reg r0 - size v by rw [size_eq]; grind] at b1 b3
  have b4 : (run (save v) y).reg msp = s.reg msp - pushN v := by rw [b2 _ (by cases v <;> rfl), a3]
  generalize run (save v) y = w at *
  have c1 := lws_mem msp (popped v) w
  have c2 := lws_reg msp (popped v) w (by cases v <;> decide)
  generalize run (lws msp (popped v)) w = z at *
  rw [run_cons _ _ _ rfl, run_nil]
  simp only [exec]
  have k1 : ∀ p ∈ soft v, p.2.toNat < (softSize v).toNat := by cases v <;> decide
  have hlt : (softSize v).toNat < (size v).toNat := by cases v <;> decide
  have hout : ∀ a, ¬ (a - (s.reg r0 - size v)).toNat < (size v).toNat → w.mem a =
      match lastReg (pushed v) (a - (s.reg msp - pushN v)) with
        | some r => s.reg r
        | none => s.mem a := by
    intro a ha
    rw [b3, lastReg_none k1 (fun h => ha (Nat.lt_trans h hlt))]
    simp only []
    rw [g5, g1]
    rw [show a - (s.reg r0 - hwSize (isFp v)) = (a - (s.reg r0 - size v)) - softSize v by rw [size_eq]; grind]
    intro h
    apply ha
    generalize a - (s.reg r0 - size v) = o at *
    have := o.isLt
    revert h
    cases v <;> intro h <;> (rw [BitVec.toNat_sub] at h; simp only [softSize, size, hwSize, isFp] at h ⊢; simp at h ⊢; omega)
  have hin : ∀ o x, o.toNat < (hwSize (isFp v)).toNat → g o = some x → w.mem (s.reg r0 - size v + softSize v + o) = x := by
    intro o x ho hg
    rw [b3, show s.reg r0 - size v + softSize v + o - (s.reg r0 - size v) = softSize v + o by grind, soft_none v o ho]
    simp only []
    rw [g5, show s.reg r0 - size v + softSize v + o - (s.reg r0 - hwSize (isFp v)) = o by rw [size_eq]; grind, hg]
  have hpop : ∀ r o, (r, o) ∈ pushed v → w.mem (s.reg msp - pushN v + o) = s.reg r := by
    intro r o hm
    have k2 : ∀ p ∈ pushed v, p.2.toNat < (pushN v).toNat := by cases v <;> decide
    have k3 : ∀ p ∈ pushed v, lastReg (pushed v) p.2 = some p.1 := by cases v <;> decide
    rw [hout _ (hap o (k2 _ hm)), show s.reg msp - pushN v + o - (s.reg msp - pushN v) = o by grind, k3 _ hm]
  refine ⟨?_, ?_, fun r hr => ?_, fun a ha hp => ?_, ?_, ?_, ?_, ?_⟩
  · rw [upd_ne _ _ (by decide), c2, show lastOff (popped v) r0 = none by cases v <;> decide]
    exact b1
  · rw [upd_ne _ _ (by decide), c2]
    have : ∃ o, lastOff (popped v) pc = some o ∧ (lr, o) ∈ pushed v := by
      cases v
      · exact ⟨16, by decide, by decide⟩
      · exact ⟨32, by decide, by decide⟩
      · exact ⟨32, by decide, by decide⟩
    obtain ⟨o, ho, hm⟩ := this
    rw [ho]
    simp only []
    rw [b4, hpop _ _ hm]
  · by_cases hm : r = msp
    · subst hm
      rw [upd_same, c2, show lastOff (popped v) msp = none by cases v <;> decide]
      simp only []
      rw [b4]; grind
    rw [upd_ne _ _ hm, c2]
    cases hl : lastOff (popped v) r with
    | some o =>
      simp only []
      have : (r, o) ∈ pushed v := by
        have hm := lastOff_mem hl
        have key : ∀ p ∈ popped v, p.1 ≠ pc → p ∈ pushed v := by cases v <;> decide
        refine key _ hm ?_
        rintro rfl
        exact nomatch hr
      rw [b4, hpop _ _ this]
    | none =>
      have hu : untouched v r = true ∧ clobbered v r = false := by
        revert hr hl
        cases v <;> cases r <;> first | exact absurd rfl hm | decide
      simp only []
      rw [b2 r hu.2, a4 r hu.1]
  · rw [c1, hout a ha]
    have k2 : ∀ p ∈ pushed v, p.2.toNat < (pushN v).toNat := by cases v <;> decide
    rw [lastReg_none k2 hp]
  · rw [c1]
    have := hin 0 _ (by cases v <;> decide) g2
    rwa [show s.reg r0 - size v + softSize v + 0 = s.reg r0 - size v + softSize v by grind] at this
  · rw [c1]; exact hin 24 _ (by cases v <;> decide) g3
  · rw [c1]; exact hin 28 _ (by cases v <;> decide) g4
  · rintro rfl hp
    rw [c1, b3, show s.reg r0 - size .v7e + softSize .v7e + 96 - (s.reg r0 - size .v7e) = softSize .v7e + 96 by grind,
      soft_none .v7e 96 (by decide)]
    simp only []
    have he : s.reg r0 - size .v7e + softSize .v7e + 96 = s.reg r0 - 8 := by
      show s.reg r0 - 200#32 + 96#32 + 96#32 = s.reg r0 - 8#32; grind
    rw [g5, show s.reg r0 - size .v7e + softSize .v7e + 96 - (s.reg r0 - hwSize (isFp .v7e)) = 96 by rw [size_eq]; grind, g6 rfl, he]
    simp only []
    have k2 : ∀ p ∈ pushed .v7e, p.2.toNat < 36 := by decide
    rw [show pushN .v7e = 36 from rfl, lastReg_none k2 hp]

/-- **arch_save_first_context.** Called as C calls it (`r0` = top of the stack, `r1` = `fn`, `r2` =
`priv`), it returns to its caller a stack pointer one frame lower, writes nothing but that frame and what it
pushes, keeps the registers C relies on, and leaves there a saved context that enters `fn` with argument
`priv` and the stack pointer at the top of the task's stack.  (On armv7e-m the floating point status and
control register is not initialised: the task starts with whatever its stack held - last conjunct.) -/
theorem arm_first (v : Var) (fa : Bool) (intr : W) (kst : W → Prop) (s : St R)
    (hap : ∀ o : W, o.toNat < (pushN v).toNat → ¬ (s.reg msp - pushN v + o - (s.reg r0 - size v)).toNat < (size v).toNat)
    (hio : ∀ a, (a - (s.reg r0 - size v)).toNat < (size v).toNat → ¬ (kst a ∨ a = intr)) :
    let y := run (first v) s
    y.reg r0 = s.reg r0 - size v ∧ y.reg pc = s.reg lr ∧ (∀ r, calleeSaved v r = true → y.reg r = s.reg r) ∧
    (∀ a, ¬ (a - (s.reg r0 - size v)).toNat < (size v).toNat → ¬ (a - (s.reg msp - pushN v)).toNat < (pushN v).toNat →
      y.mem a = s.mem a) ∧
    ∃ c, (port v fa intr kst).Holds (y.reg r0) c y ∧ c pc = s.reg r1 &&& ~~~1#32 ∧ c r0 = s.reg r2 ∧ c psp = s.reg r0 ∧
      (v = .v7e → (¬ (s.reg r0 - 8 - (s.reg msp - 36)).toNat < 36) → c fpscr = s.mem (s.reg r0 - 8)) := by
  obtain ⟨f1, f2, f3, f4, f5, f6, f7, f8⟩ := first_eff v s hap
  refine ⟨f1, f2, f3, f4, ?_⟩
  rw [show (run (first v) s).reg r0 = s.reg r0 - size v from f1]
  generalize run (first v) s = y at *
  refine ⟨fun r => if r = psp then s.reg r0 else if r = xpsr then 0x1000000#32 else if r = pc then s.reg r1 &&& ~~~1#32 else
    if r = fx then 0 else match lastOff (hwSaved (isFp v)) r with
      | some o => y.mem (s.reg r0 - size v + softSize v + o)
      | none => match lastOff (soft v) r with
        | some o => y.mem (s.reg r0 - size v + o)
        | none => 0, ?_, ?_, ?_, ?_, ?_⟩
  · refine arm_holds v fa intr kst _ _ _ hio ?_ ?_ ?_ ?_ ?_ ?_
    · rw [if_pos rfl, f7, if_neg (by rintro ⟨-, h⟩; exact absurd h (by decide)), size_eq]; grind
    · rw [if_neg (by decide), if_pos rfl, f7]; decide
    · rw [if_neg (by decide), if_neg (by decide), if_pos rfl, f6]
    · intro r o hl hp hx
      have hm := lastOff_mem hl
      have key : ∀ p ∈ hwSaved (isFp v), p.1 ≠ psp ∧ p.1 ≠ xpsr := by cases v <;> decide
      rw [if_neg (key _ hm).1, if_neg (key _ hm).2, if_neg hp, if_neg hx, hl]
    · intro r o hl
      have hm := lastOff_mem hl
      obtain ⟨n1, n2, n3, n4, n5, n6⟩ := soft_apart v _ hm
      have key : ∀ p ∈ soft v, lastOff (hwSaved (isFp v)) p.1 = none := by cases v <;> decide
      rw [if_neg n1, if_neg n3, if_neg n4, if_neg n5, key _ hm, hl]
    · intro r hv
      by_cases h1 : r = psp
      · subst h1; exact absurd hv (by cases v <;> decide)
      by_cases h2 : r = xpsr
      · subst h2; exact absurd hv (by cases v <;> decide)
      by_cases h3 : r = pc
      · subst h3; exact absurd hv (by cases v <;> decide)
      by_cases h4 : r = fx
      · rw [if_neg h1, if_neg h2, if_neg h3, if_pos h4]
      have : lastOff (hwSaved (isFp v)) r = none ∧ lastOff (soft v) r = none := by
        revert hv
        cases v <;> cases r <;> first | exact absurd rfl h4 | decide
      rw [if_neg h1, if_neg h2, if_neg h3, if_neg h4, this.1, this.2]
  · simp only []
    rw [if_neg (by decide), if_neg (by decide), if_pos trivial]
  · simp only []
    rw [if_neg (by decide), if_neg (by decide), if_neg (by decide), if_neg (by decide),
      show lastOff (hwSaved (isFp v)) r0 = some 0 by cases v <;> decide]
    simp only []
    rw [show s.reg r0 - size v + softSize v + 0 = s.reg r0 - size v + softSize v by grind, f5]
  · simp only []
    rw [if_pos trivial]
  · rintro rfl hp
    simp only []
    rw [if_neg (by decide), if_neg (by decide), if_neg (by decide), if_neg (by decide),
      show lastOff (hwSaved (isFp .v7e)) fpscr = some 96 by decide]
    exact f8 rfl hp

/-! ### arch_start_first_task -/

theorem tail_eff (csr : W) (x : St R) :
    ∃ z, run [.li r1 1, .li r2 csr, .lw r3 r2 0, .or r1 r1 r3, .sw r1 r2 0, .li primask 0] x = z ∧
      z.mem = upd x.mem csr (1 ||| x.mem csr) ∧ z.reg primask = 0 ∧
      ∀ r, r ≠ r1 → r ≠ r2 → r ≠ r3 → r ≠ primask → z.reg r = x.reg r := by
  refine ⟨_, rfl, ?_⟩
  rw [run_cons _ _ _ rfl, run_cons _ _ _ rfl, run_cons _ _ _ rfl, run_cons _ _ _ rfl, run_cons _ _ _ rfl,
    run_cons _ _ _ rfl, run_nil]
  simp only [exec]
  refine ⟨?_, ?_, fun r n1 n2 n3 n4 => ?_⟩
  · simp only [upd, reduceCtorEq, if_true, if_false, show csr + 0 = csr by grind]
  · rw [upd_same]
  · simp only [upd, n1, n2, n3, n4, if_false]

theorem addi_eff (b : R) (k : W) (x : St R) :
    ∃ z, run [.addi b b k] x = z ∧ z.mem = x.mem ∧ z.reg b = x.reg b + k ∧ ∀ r, r ≠ b → z.reg r = x.reg r := by
  refine ⟨_, rfl, ?_, ?_, fun r hr => ?_⟩ <;> rw [run_cons _ _ _ rfl, run_nil] <;> simp only [exec]
  · rw [upd_same]
  · rw [upd_ne _ _ hr]

theorem load_eff (b : R) (l : List (R × W)) (x : St R) (hb : lastOff l b = none) :
    ∃ z, run (lws b l) x = z ∧ z.mem = x.mem ∧ (∀ r o, lastOff l r = some o → z.reg r = x.mem (x.reg b + o)) ∧
      ∀ r, lastOff l r = none → z.reg r = x.reg r := by
  refine ⟨_, rfl, lws_mem _ _ _, fun r o h => ?_, fun r h => ?_⟩ <;> rw [lws_reg _ _ _ hb, h]

theorem li2_eff (k : W) (x : St R) :
    ∃ z, run [.li r0 k, .li spsel 1] x = z ∧ z.mem = x.mem ∧ z.reg spsel = 1 ∧
      ∀ r, r ≠ r0 → r ≠ spsel → z.reg r = x.reg r := by
  refine ⟨_, rfl, ?_, ?_, fun r hr hs => ?_⟩ <;> rw [run_cons _ _ _ rfl, run_cons _ _ _ rfl, run_nil] <;> simp only [exec]
  · rw [upd_same]
  · rw [upd_ne _ _ hs, upd_ne _ _ hr]

theorem li3_eff (k : W) (x : St R) :
    ∃ z, run [.li r0 k, .li spsel 1, .li fpca 1] x = z ∧ z.mem = x.mem ∧ z.reg spsel = 1 ∧ z.reg fpca = 1 ∧
      ∀ r, r ≠ r0 → r ≠ spsel → r ≠ fpca → z.reg r = x.reg r := by
  refine ⟨_, rfl, ?_, ?_, ?_, fun r hr hs hf => ?_⟩ <;>
    rw [run_cons _ _ _ rfl, run_cons _ _ _ rfl, run_cons _ _ _ rfl, run_nil] <;> simp only [exec]
  · simp only [upd, reduceCtorEq, if_true, if_false]
  · rw [upd_same]
  · rw [upd_ne _ _ hf, upd_ne _ _ hs, upd_ne _ _ hr]

theorem mv2_eff (x : St R) :
    ∃ z, run [.mv r12 r4, .mv lr r5] x = z ∧ z.mem = x.mem ∧ ∀ r, r ≠ r12 → r ≠ lr → z.reg r = x.reg r := by
  refine ⟨_, rfl, ?_, fun r hr hs => ?_⟩ <;> rw [run_cons _ _ _ rfl, run_cons _ _ _ rfl, run_nil] <;> simp only [exec]
  · rw [upd_ne _ _ hs, upd_ne _ _ hr]

theorem mv_eff (d b : R) (x : St R) :
    ∃ z, run [.mv d b] x = z ∧ z.mem = x.mem ∧ z.reg d = x.reg b ∧ ∀ r, r ≠ d → z.reg r = x.reg r := by
  refine ⟨_, rfl, ?_, ?_, fun r hr => ?_⟩ <;> rw [run_cons _ _ _ rfl, run_nil] <;> simp only [exec]
  · rw [upd_same]
  · rw [upd_ne _ _ hr]

/-- after RESTORE_CONTEXT: the code pops the processor's part of the frame by hand -/
theorem start_eff (v : Var) (csr : W) (e : St R) :
    let y := start v csr e
    y.reg pc = e.mem (e.reg r0 + softSize v + 24) &&& ~~~1#32 ∧ y.reg r0 = e.mem (e.reg r0 + softSize v) ∧
    y.reg psp = e.reg r0 + softSize v + hwSize (isFp v) ∧ y.reg msp = e.reg msp ∧ y.reg spsel = 1 ∧ y.reg primask = 0 ∧
    (v = .v7e → y.reg fpca = 1) ∧ y.mem = upd e.mem csr (1 ||| e.mem csr) := by
  obtain ⟨x1, x2, x3⟩ := restore_eff v e
  have x4 : (run (restore v) e).reg msp = e.reg msp := by
    rw [x3 _ (by decide) (by decide), show lastOff (soft v) msp = none by cases v <;> decide]
  cases v with
  | v6 =>
    have es : start .v6 csr e = bx r6 (run [.li r1 1, .li r2 csr, .lw r3 r2 0, .or r1 r1 r3, .sw r1 r2 0, .li primask 0]
      (run [.mv r12 r4, .mv lr r5] (run [.addi psp psp 32] (run (lws psp [(r0, 0), (r1, 4), (r2, 8), (r3, 12), (r4, 16),
        (r5, 20), (r6, 24), (r7, 28)]) (run [.li r0 2, .li spsel 1] (run (restore .v6) e)))))) := by
      simp only [start]
      rw [run_append _ _ _ (by decide), run_append _ _ _ (by decide), run_lws]
      rfl
    rw [es]
    clear es x3
    generalize run (restore .v6) e = a at *
    obtain ⟨b, hb, b1, b2, b3⟩ := li2_eff 2 a
    rw [hb]
    obtain ⟨c, hc, c1, c2, c3⟩ := load_eff psp [(r0, 0), (r1, 4), (r2, 8), (r3, 12), (r4, 16), (r5, 20), (r6, 24), (r7, 28)] b (by decide)
    rw [hc]
    obtain ⟨d, hd, d1, d2, d3⟩ := addi_eff psp 32 c
    rw [hd]
    obtain ⟨f, hf, f1, f2⟩ := mv2_eff d
    rw [hf]
    obtain ⟨g, hg, g1, g2, g3⟩ := tail_eff csr f
    rw [hg]
    have hbp : b.reg psp = e.reg r0 + softSize .v6 := by rw [b3 _ (by decide) (by decide), x2]
    have hbm : b.mem = e.mem := by rw [b1, x1]
    simp only [bx]
    refine ⟨?_, ?_, ?_, ?_, ?_, ?_, (fun h => nomatch h), ?_⟩
    · rw [upd_same, g3 _ (by decide) (by decide) (by decide) (by decide), f2 _ (by decide) (by decide), d3 _ (by decide),
        c2 r6 24 (by decide), hbp, hbm]
    · rw [upd_ne _ _ (by decide), g3 _ (by decide) (by decide) (by decide) (by decide), f2 _ (by decide) (by decide), d3 _ (by decide),
        c2 r0 0 (by decide), hbp, hbm, show e.reg r0 + softSize .v6 + 0 = e.reg r0 + softSize .v6 by grind]
    · rw [upd_ne _ _ (by decide), g3 _ (by decide) (by decide) (by decide) (by decide), f2 _ (by decide) (by decide), d2,
        c3 _ (by decide), hbp]; rfl
    · rw [upd_ne _ _ (by decide), g3 _ (by decide) (by decide) (by decide) (by decide), f2 _ (by decide) (by decide), d3 _ (by decide),
        c3 _ (by decide), b3 _ (by decide) (by decide), x4]
    · rw [upd_ne _ _ (by decide), g3 _ (by decide) (by decide) (by decide) (by decide), f2 _ (by decide) (by decide), d3 _ (by decide),
        c3 _ (by decide), b2]
    · rw [upd_ne _ _ (by decide), g2]
    · rw [g1, f1, d1, c1, hbm]
  | v7 =>
    have es : start .v7 csr e = bx r4 (run [.li r1 1, .li r2 csr, .lw r3 r2 0, .or r1 r1 r3, .sw r1 r2 0, .li primask 0]
      (run [.addi psp psp 8] (run (lws psp [(r4, 0), (r5, 4)]) (run [.addi psp psp 24] (run (lws psp [(r0, 0), (r1, 4), (r2, 8),
        (r3, 12), (r12, 16), (lr, 20)]) (run [.li r0 2, .li spsel 1] (run (restore .v7) e))))))) := by
      simp only [start]
      rw [run_append _ _ _ (by decide), run_append _ _ _ (by decide), run_lws, run_append _ _ _ (by decide), run_lws]
      rfl
    rw [es]
    clear es x3
    generalize run (restore .v7) e = a at *
    obtain ⟨b, hb, b1, b2, b3⟩ := li2_eff 2 a
    rw [hb]
    obtain ⟨c, hc, c1, c2, c3⟩ := load_eff psp [(r0, 0), (r1, 4), (r2, 8), (r3, 12), (r12, 16), (lr, 20)] b (by decide)
    rw [hc]
    obtain ⟨d, hd, d1, d2, d3⟩ := addi_eff psp 24 c
    rw [hd]
    obtain ⟨f, hf, f1, f2, f3⟩ := load_eff psp [(r4, 0), (r5, 4)] d (by decide)
    rw [hf]
    obtain ⟨h, hh, h1, h2, h3⟩ := addi_eff psp 8 f
    rw [hh]
    obtain ⟨g, hg, g1, g2, g3⟩ := tail_eff csr h
    rw [hg]
    have hbp : b.reg psp = e.reg r0 + softSize .v7 := by rw [b3 _ (by decide) (by decide), x2]
    have hbm : b.mem = e.mem := by rw [b1, x1]
    simp only [bx]
    refine ⟨?_, ?_, ?_, ?_, ?_, ?_, (fun h => nomatch h), ?_⟩
    · rw [upd_same, g3 _ (by decide) (by decide) (by decide) (by decide), h3 _ (by decide), f2 r4 0 (by decide), d2,
        c3 _ (by decide), hbp, d1, c1, hbm, show e.reg r0 + softSize .v7 + 24 + 0 = e.reg r0 + softSize .v7 + 24 by grind]
    · rw [upd_ne _ _ (by decide), g3 _ (by decide) (by decide) (by decide) (by decide), h3 _ (by decide), f3 _ (by decide), d3 _ (by decide),
        c2 r0 0 (by decide), hbp, hbm, show e.reg r0 + softSize .v7 + 0 = e.reg r0 + softSize .v7 by grind]
    · rw [upd_ne _ _ (by decide), g3 _ (by decide) (by decide) (by decide) (by decide), h2, f3 _ (by decide), d2,
        c3 _ (by decide), hbp]
      show e.reg r0 + softSize .v7 + 24#32 + 8#32 = e.reg r0 + softSize .v7 + 32#32
      grind
    · rw [upd_ne _ _ (by decide), g3 _ (by decide) (by decide) (by decide) (by decide), h3 _ (by decide), f3 _ (by decide), d3 _ (by decide),
        c3 _ (by decide), b3 _ (by decide) (by decide), x4]
    · rw [upd_ne _ _ (by decide), g3 _ (by decide) (by decide) (by decide) (by decide), h3 _ (by decide), f3 _ (by decide), d3 _ (by decide),
        c3 _ (by decide), b2]
    · rw [upd_ne _ _ (by decide), g2]
    · rw [g1, h1, f1, d1, c1, hbm]
  | v7e =>
    have es : start .v7e csr e = bx r4 (run [.li r1 1, .li r2 csr, .lw r3 r2 0, .or r1 r1 r3, .sw r1 r2 0, .li primask 0]
      (run [.mv psp r5] (run [.addi r5 r5 8] (run [.addi r5 r5 64] (run (lws r5 fpLow) (run [.mv r5 psp]
      (run [.addi psp psp 8] (run (lws psp [(r4, 0), (r5, 4)]) (run [.addi psp psp 24] (run (lws psp [(r0, 0), (r1, 4), (r2, 8),
        (r3, 12), (r12, 16), (lr, 20)]) (run [.li r0 6, .li spsel 1, .li fpca 1] (run (restore .v7e) e)))))))))))) := by
      simp only [start]
      rw [run_append _ _ _ (by decide), run_append _ _ _ (by decide), run_lws, run_append _ _ _ (by decide), run_lws,
        run_append _ _ _ (by decide), run_lws]
      rfl
    rw [es]
    clear es x3
    generalize run (restore .v7e) e = a at *
    obtain ⟨b, hb, b1, b2, b4, b3⟩ := li3_eff 6 a
    rw [hb]
    obtain ⟨c, hc, c1, c2, c3⟩ := load_eff psp [(r0, 0), (r1, 4), (r2, 8), (r3, 12), (r12, 16), (lr, 20)] b (by decide)
    rw [hc]
    obtain ⟨d, hd, d1, d2, d3⟩ := addi_eff psp 24 c
    rw [hd]
    obtain ⟨f, hf, f1, f2, f3⟩ := load_eff psp [(r4, 0), (r5, 4)] d (by decide)
    rw [hf]
    obtain ⟨h, hh, h1, h2, h3⟩ := addi_eff psp 8 f
    rw [hh]
    obtain ⟨i, hi, i1, i2, i3⟩ := mv_eff r5 psp h
    rw [hi]
    obtain ⟨j, hj, j1, j2, j3⟩ := load_eff r5 fpLow i (by decide)
    rw [hj]
    obtain ⟨k, hk, k1, k2, k3⟩ := addi_eff r5 64 j
    rw [hk]
    obtain ⟨l, hl, l1, l2, l3⟩ := addi_eff r5 8 k
    rw [hl]
    obtain ⟨m, hm, m1, m2, m3⟩ := mv_eff psp r5 l
    rw [hm]
    obtain ⟨g, hg, g1, g2, g3⟩ := tail_eff csr m
    rw [hg]
    have hbp : b.reg psp = e.reg r0 + softSize .v7e := by rw [b3 _ (by decide) (by decide) (by decide), x2]
    have hbm : b.mem = e.mem := by rw [b1, x1]
    simp only [bx]
    refine ⟨?_, ?_, ?_, ?_, ?_, ?_, fun _ => ?_, ?_⟩
    · rw [upd_same, g3 _ (by decide) (by decide) (by decide) (by decide), m3 _ (by decide), l3 _ (by decide), k3 _ (by decide),
        j3 _ (by decide), i3 _ (by decide), h3 _ (by decide), f2 r4 0 (by decide), d2,
        c3 _ (by decide), hbp, d1, c1, hbm, show e.reg r0 + softSize .v7e + 24 + 0 = e.reg r0 + softSize .v7e + 24 by grind]
    · rw [upd_ne _ _ (by decide), g3 _ (by decide) (by decide) (by decide) (by decide), m3 _ (by decide), l3 _ (by decide), k3 _ (by decide),
        j3 _ (by decide), i3 _ (by decide), h3 _ (by decide), f3 _ (by decide), d3 _ (by decide),
        c2 r0 0 (by decide), hbp, hbm, show e.reg r0 + softSize .v7e + 0 = e.reg r0 + softSize .v7e by grind]
    · rw [upd_ne _ _ (by decide), g3 _ (by decide) (by decide) (by decide) (by decide), m2, l2, k2, j3 _ (by decide), i2,
        h2, f3 _ (by decide), d2, c3 _ (by decide), hbp]
      show e.reg r0 + softSize .v7e + 24#32 + 8#32 + 64#32 + 8#32 = e.reg r0 + softSize .v7e + 104#32
      grind
    · rw [upd_ne _ _ (by decide), g3 _ (by decide) (by decide) (by decide) (by decide), m3 _ (by decide), l3 _ (by decide), k3 _ (by decide),
        j3 _ (by decide), i3 _ (by decide), h3 _ (by decide), f3 _ (by decide), d3 _ (by decide),
        c3 _ (by decide), b3 _ (by decide) (by decide) (by decide), x4]
    · rw [upd_ne _ _ (by decide), g3 _ (by decide) (by decide) (by decide) (by decide), m3 _ (by decide), l3 _ (by decide), k3 _ (by decide),
        j3 _ (by decide), i3 _ (by decide), h3 _ (by decide), f3 _ (by decide), d3 _ (by decide),
        c3 _ (by decide), b2]
    · rw [upd_ne _ _ (by decide), g2]
    · rw [upd_ne _ _ (by decide), g3 _ (by decide) (by decide) (by decide) (by decide), m3 _ (by decide), l3 _ (by decide), k3 _ (by decide),
        j3 _ (by decide), i3 _ (by decide), h3 _ (by decide), f3 _ (by decide), d3 _ (by decide),
        c3 _ (by decide), b4]
    · rw [g1, m1, l1, k1, j1, i1, h1, f1, d1, c1, hbm]

/-- the same on the rp2040, whose tick is a PWM counter -/
theorem startPwm_eff (csr : W) (e : St R) (hcsr : ∀ o : W, o.toNat < 32 → e.reg r0 + 32 + o ≠ csr) :
    let y := startPwm csr e
    y.reg pc = e.mem (e.reg r0 + 32 + 24) &&& ~~~1#32 ∧ y.reg r0 = e.mem (e.reg r0 + 32) ∧
    y.reg psp = e.reg r0 + 32 + 32 ∧ y.reg msp = e.reg msp ∧ y.reg spsel = 1 ∧ y.reg primask = 0 ∧
    y.mem = upd e.mem csr 1 := by
  obtain ⟨x1, x2, x3⟩ := restore_eff .v6 e
  have x4 : (run (restore .v6) e).reg msp = e.reg msp := by
    rw [x3 _ (by decide) (by decide), show lastOff (soft .v6) msp = none by decide]
  have es : startPwm csr e = bx r6 (run [.li primask 0] (run [.mv r12 r4, .mv lr r5] (run [.addi psp psp 32]
      (run (lws psp [(r0, 0), (r1, 4), (r2, 8), (r3, 12), (r4, 16), (r5, 20), (r6, 24), (r7, 28)])
        (run [.li r0 1, .li r3 csr, .sw r0 r3 0] (run [.li r0 2, .li spsel 1] (run (restore .v6) e))))))) := by
    simp only [startPwm]
    rw [run_append _ _ _ (by decide), run_append _ _ _ (by rfl), run_lws]
    rfl
  simp only []
  rw [es]
  clear es x3
  generalize run (restore .v6) e = a at *
  obtain ⟨b, hb, b1, b2, b3⟩ := li2_eff 2 a
  rw [hb]
  obtain ⟨q, hq, q1, q2⟩ : ∃ z, run [.li r0 1, .li r3 csr, .sw r0 r3 0] b = z ∧ z.mem = upd b.mem csr 1 ∧
      ∀ r, r ≠ r0 → r ≠ r3 → z.reg r = b.reg r := by
    refine ⟨_, rfl, ?_, fun r hr hs => ?_⟩ <;> rw [run_cons _ _ _ rfl, run_cons _ _ _ rfl, run_cons _ _ _ rfl, run_nil] <;> simp only [exec]
    · simp only [upd, reduceCtorEq, if_true, if_false, show csr + 0 = csr by grind]
    · rw [upd_ne _ _ hs, upd_ne _ _ hr]
  rw [hq]
  obtain ⟨c, hc, c1, c2, c3⟩ := load_eff psp [(r0, 0), (r1, 4), (r2, 8), (r3, 12), (r4, 16), (r5, 20), (r6, 24), (r7, 28)] q (by decide)
  rw [hc]
  obtain ⟨d, hd, d1, d2, d3⟩ := addi_eff psp 32 c
  rw [hd]
  obtain ⟨f, hf, f1, f2⟩ := mv2_eff d
  rw [hf]
  obtain ⟨g, hg, g1, g2, g3⟩ : ∃ z, run [.li primask 0] f = z ∧ z.mem = f.mem ∧ z.reg primask = 0 ∧
      ∀ r, r ≠ primask → z.reg r = f.reg r := by
    refine ⟨_, rfl, ?_, ?_, fun r hr => ?_⟩ <;> rw [run_cons _ _ _ rfl, run_nil] <;> simp only [exec]
    · rw [upd_same]
    · rw [upd_ne _ _ hr]
  rw [hg]
  have hbp : q.reg psp = e.reg r0 + 32 := by rw [q2 _ (by decide) (by decide), b3 _ (by decide) (by decide), x2]; rfl
  have hbm : ∀ o : W, o.toNat < 32 → q.mem (e.reg r0 + 32 + o) = e.mem (e.reg r0 + 32 + o) := by
    intro o ho
    rw [q1, upd_ne _ _ (hcsr o ho), b1, x1]
  simp only [bx]
  refine ⟨?_, ?_, ?_, ?_, ?_, ?_, ?_⟩
  · rw [upd_same, g3 _ (by decide), f2 _ (by decide) (by decide), d3 _ (by decide),
      c2 r6 24 (by decide), hbp, hbm 24 (by decide)]
  · rw [upd_ne _ _ (by decide), g3 _ (by decide), f2 _ (by decide) (by decide), d3 _ (by decide),
      c2 r0 0 (by decide), hbp, hbm 0 (by decide), show e.reg r0 + 32 + 0 = e.reg r0 + 32 by grind]
  · rw [upd_ne _ _ (by decide), g3 _ (by decide), f2 _ (by decide) (by decide), d2,
      c3 _ (by decide), hbp]
  · rw [upd_ne _ _ (by decide), g3 _ (by decide), f2 _ (by decide) (by decide), d3 _ (by decide),
      c3 _ (by decide), q2 _ (by decide) (by decide), b3 _ (by decide) (by decide), x4]
  · rw [upd_ne _ _ (by decide), g3 _ (by decide), f2 _ (by decide) (by decide), d3 _ (by decide),
      c3 _ (by decide), q2 _ (by decide) (by decide), b2]
  · rw [upd_ne _ _ (by decide), g2]
  · rw [g1, f1, d1, c1, q1, b1, x1]

/-- **arch_start_first_task.** Started on a context prepared by arch_save_first_context, the processor enters
`fn` with argument `priv`, on the task's own stack (all of it), interrupts enabled, the kernel's stack
pointer set aside and the tick started; nothing else is written. -/
theorem arm_start (v : Var) (csr : W) (s e : St R)
    (hap : ∀ o : W, o.toNat < (pushN v).toNat → ¬ (s.reg msp - pushN v + o - (s.reg r0 - size v)).toNat < (size v).toNat)
    (ha : e.reg r0 = (run (first v) s).reg r0)
    (hm : ∀ a, (a - e.reg r0).toNat < (size v).toNat → e.mem a = (run (first v) s).mem a) :
    let y := start v csr e
    y.reg pc = s.reg r1 &&& ~~~1#32 ∧ y.reg r0 = s.reg r2 ∧ y.reg psp = s.reg r0 ∧ y.reg spsel = 1 ∧ y.reg primask = 0 ∧
    y.reg msp = e.reg msp ∧ (v = .v7e → y.reg fpca = 1) ∧ y.mem = upd e.mem csr (1 ||| e.mem csr) := by
  obtain ⟨f1, -, -, -, f5, f6, -, -⟩ := first_eff v s hap
  rw [show (run (first v) s).reg r0 = s.reg r0 - size v from f1] at ha
  have hm' : ∀ o : W, (softSize v + o).toNat < (size v).toNat → e.mem (e.reg r0 + softSize v + o) =
      (run (first v) s).mem (s.reg r0 - size v + softSize v + o) := by
    intro o ho
    rw [hm _ (by rwa [show e.reg r0 + softSize v + o - e.reg r0 = softSize v + o by grind]), ha]
  obtain ⟨e1, e2, e3, e4, e5, e6, e7, e8⟩ := start_eff v csr e
  have m0 := hm' 0 (by cases v <;> decide)
  rw [show e.reg r0 + softSize v + 0 = e.reg r0 + softSize v by grind,
    show s.reg r0 - size v + softSize v + 0 = s.reg r0 - size v + softSize v by grind, f5] at m0
  refine ⟨?_, ?_, ?_, e5, e6, e4, e7, e8⟩
  · rw [e1, hm' 24 (by cases v <;> decide), f6]
  · rw [e2, m0]
  · rw [e3, ha, size_eq]; grind

/-- **The same on the rp2040.** -/
theorem arm_start_pwm (csr : W) (s e : St R)
    (hap : ∀ o : W, o.toNat < 20 → ¬ (s.reg msp - 20 + o - (s.reg r0 - 64)).toNat < 64)
    (ha : e.reg r0 = (run (first .v6) s).reg r0)
    (hcsr : ¬ (csr - e.reg r0).toNat < 64)
    (hm : ∀ a, (a - e.reg r0).toNat < 64 → e.mem a = (run (first .v6) s).mem a) :
    let y := startPwm csr e
    y.reg pc = s.reg r1 &&& ~~~1#32 ∧ y.reg r0 = s.reg r2 ∧ y.reg psp = s.reg r0 ∧ y.reg spsel = 1 ∧ y.reg primask = 0 ∧
    y.reg msp = e.reg msp ∧ y.mem = upd e.mem csr 1 := by
  obtain ⟨f1, -, -, -, f5, f6, -, -⟩ := first_eff .v6 s hap
  rw [show (run (first .v6) s).reg r0 = s.reg r0 - 64 from f1] at ha
  have f5' : (run (first .v6) s).mem (s.reg r0 - 64 + 32) = s.reg r2 := f5
  have f6' : (run (first .v6) s).mem (s.reg r0 - 64 + 32 + 24) = s.reg r1 := f6
  have hm' : ∀ o : W, o.toNat < 32 → e.mem (e.reg r0 + 32 + o) =
      (run (first .v6) s).mem (s.reg r0 - 64 + 32 + o) := by
    intro o ho
    rw [hm _ (by
      rw [show e.reg r0 + 32 + o - e.reg r0 = 32 + o by grind, BitVec.toNat_add, show (32 : W).toNat = 32 from rfl]; omega), ha]
  obtain ⟨e1, e2, e3, e4, e5, e6, e8⟩ := startPwm_eff csr e (by
    intro o ho h
    apply hcsr
    rw [← h, show e.reg r0 + 32 + o - e.reg r0 = 32 + o by grind, BitVec.toNat_add, show (32 : W).toNat = 32 from rfl]; omega)
  have m0 := hm' 0 (by decide)
  rw [show e.reg r0 + 32 + 0 = e.reg r0 + 32 by grind,
    show s.reg r0 - 64 + 32 + 0 = s.reg r0 - 64 + 32 by grind, f5'] at m0
  refine ⟨?_, ?_, ?_, e5, e6, e4, e8⟩
  · rw [e1, hm' 24 (by decide), f6']
  · rw [e2, m0]
  · rw [e3, ha]; grind

/-! ### Platform interrupts -/

/-- the function and the argument that `arch_register_interrupt(irq, fn, priv)` stored
(armv6-m/picoRTOS_port.c, `ISR_TABLE[irq].fn = fn; ISR_TABLE[irq].priv = priv`) -/
def registered (table : W) (mem : W → W) (irq : W) : W × W := (mem (table + 8 * irq), mem (table + 8 * irq + 4))

theorem entered_xpsr (v : Var) (fa : Bool) (exc ra : W) (s : St R) :
    (run (pushLr ++ save v) (hwPush (isFp v) fa exc ra s)).reg xpsr = exc := by
  rw [run_append _ _ _ (by decide), (save_eff v _).2.1 xpsr (by cases v <;> rfl)]
  simp only [pushLr]
  rw [run_cons _ _ _ rfl, run_cons _ _ _ rfl, run_nil]
  simp only [exec]
  rw [upd_ne _ _ (by decide)]
  simp only [hwPush]
  rw [upd_ne _ _ (by decide), upd_same]

theorem fp_frame (v : Var) (s : St R) (hf : v = .v7e → s.reg fpca = 1) : fpFrame v s = isFp v := by
  cases v with
  | v7e => show (true && s.reg fpca == 1#32) = true; rw [hf rfl]; rfl
  | _ => rfl

theorem shl3 (x : W) : x <<< 3 = 8 * x := by
  apply BitVec.eq_of_toNat_eq
  rw [BitVec.toNat_shiftLeft, BitVec.toNat_mul, Nat.shiftLeft_eq, show (8 : W).toNat = 8 from rfl]
  omega

theorem isrCall_eff (v : Var) (fa : Bool) (table irq next : W) (s : St R) (hf : v = .v7e → s.reg fpca = 1) :
    let w := run (pushLr ++ save v) (hwPush (isFp v) fa (16 + irq) (s.reg pc) s)
    let y := isrCall v fa table irq next s
    y.mem = upd w.mem (s.reg msp - 8) (base v fa s) ∧
    y.reg pc = y.mem (table + 8 * irq) &&& ~~~1#32 ∧ y.reg r0 = y.mem (table + 8 * irq + 4) ∧
    y.reg lr = next ∧ y.reg msp = s.reg msp - 8 := by
  have hx := entered_xpsr v fa (16 + irq) (s.reg pc) s
  obtain ⟨w1, w2, -, -⟩ := entered v fa .tick (16 + irq) s
  simp only [retAddr] at w1 w2
  have hst : (pushLr ++ save v).all (fun i => !i.isBr) = true := by cases v <;> decide
  simp only [isrCall, fp_frame v s hf]
  rw [run_append _ _ _ hst]
  generalize run (pushLr ++ save v) (hwPush (isFp v) fa (16 + irq) (s.reg pc) s) = w at *
  have hi : (16 + irq + -16) <<< 3 = 8 * irq := by
    rw [show 16 + irq + -16 = irq by grind, shl3]
  obtain ⟨z, hz, z1, z2, z3, z4⟩ : ∃ z, run [.addi msp msp (-4), .sw r0 msp 0, .mv r0 xpsr, .addi r0 r0 (-16), .li r3 table,
    .slli r0 r0 3, .add r3 r3 r0, .lw r1 r3 0, .lw r0 r3 4] w = z ∧ z.mem = upd w.mem (s.reg msp - 8) (base v fa s) ∧
      z.reg msp = s.reg msp - 8 ∧ z.reg r1 = z.mem (table + 8 * irq) ∧ z.reg r0 = z.mem (table + 8 * irq + 4) := by
    refine ⟨_, rfl, ?_⟩
    rw [run_cons _ _ _ rfl, run_cons _ _ _ rfl, run_cons _ _ _ rfl, run_cons _ _ _ rfl, run_cons _ _ _ rfl,
      run_cons _ _ _ rfl, run_cons _ _ _ rfl, run_cons _ _ _ rfl, run_cons _ _ _ rfl, run_nil]
    simp only [exec]
    simp only [upd, reduceCtorEq, if_false, if_true, w1, w2, hx, hi]
    refine ⟨?_, ?_, ?_, trivial⟩
    · rw [show s.reg msp - 4 + -4 + 0 = s.reg msp - 8 by grind]
    · grind
    · rw [show table + 8 * irq + 0 = table + 8 * irq by grind]
  rw [hz]
  simp only [bx]
  refine ⟨z1, ?_, ?_, ?_, ?_⟩
  · rw [upd_same, upd_ne _ _ (by decide), z3]
  · rw [upd_ne _ _ (by decide), upd_ne _ _ (by decide), z4]
  · rw [upd_ne _ _ (by decide), upd_same]
  · rw [upd_ne _ _ (by decide), upd_ne _ _ (by decide), z2]

/-- **A platform interrupt runs the function registered for it, with its argument**, and that function
will return to the code that brings the task back (`next`); for every interrupt number.  `table` is
ISR_TABLE; its entry is neither in the frame just saved nor in the two words pushed. -/
theorem arm_isr (v : Var) (fa : Bool) (table irq next : W) (s : St R) (hf : v = .v7e → s.reg fpca = 1)
    (hap : ∀ a, a = table + 8 * irq ∨ a = table + 8 * irq + 4 →
      ¬ (a - base v fa s).toNat < (size v).toNat ∧ a ≠ s.reg msp - 4 ∧ a ≠ s.reg msp - 8) :
    let y := isrCall v fa table irq next s
    y.reg pc = (registered table s.mem irq).1 &&& ~~~1#32 ∧ y.reg r0 = (registered table s.mem irq).2 ∧ y.reg lr = next ∧
    y.reg msp = s.reg msp - 8 := by
  obtain ⟨h1, h2, h3, h4, h5⟩ := isrCall_eff v fa table irq next s hf
  obtain ⟨-, -, w3, -⟩ := entered v fa .tick (16 + irq) s
  simp only [retAddr] at w3
  have key : ∀ a, a = table + 8 * irq ∨ a = table + 8 * irq + 4 → (isrCall v fa table irq next s).mem a = s.mem a := by
    intro a ha
    obtain ⟨n1, n2, n3⟩ := hap a ha
    rw [show (isrCall v fa table irq next s).mem = _ from h1, upd_ne _ _ n3, w3 a n2]
    have k1 : ∀ p ∈ soft v, p.2.toNat < (size v).toNat := by cases v <;> decide
    have k2 : ∀ p ∈ hwSaved (isFp v), p.2.toNat < (hwSize (isFp v)).toNat := by cases v <;> decide
    simp only [cells]
    rw [lastReg_none k1 n1]
    simp only []
    rw [lastReg_none k2]
    rw [show a - hwBase v fa s = (a - base v fa s) - softSize v by simp only [base]; grind]
    intro h
    apply n1
    generalize a - base v fa s = o at *
    have := o.isLt
    revert h
    cases v <;> intro h <;> (rw [BitVec.toNat_sub] at h; simp only [softSize, size, hwSize, isFp] at h ⊢; simp at h ⊢; omega)
  rw [key _ (Or.inl rfl)] at h2
  rw [key _ (Or.inr rfl)] at h3
  exact ⟨h2, h3, h4, h5⟩

/-- **... and then the interrupted task is resumed where it was**: whatever the function does (`e` is the
state in which it returns), as long as it gives back the kernel's stack pointer as it found it and leaves
the saved context and the two words pushed by the handler alone. -/
theorem arm_isr_resumes (v : Var) (fa : Bool) (intr table irq next : W) (kst : W → Prop) (s e : St R) (hok : Ok v kst s)
    (hio : ∀ a, (a - base v fa s).toNat < (size v).toNat → ¬ (kst a ∨ a = intr)) (hk : kst (s.reg msp - 8))
    (h1 : e.reg msp = (isrCall v fa table irq next s).reg msp)
    (h2 : ∀ a, (a - base v fa s).toNat < (size v).toNat ∨ a = s.reg msp - 8 ∨ a = s.reg msp - 4 →
      e.mem a = (isrCall v fa table irq next s).mem a) :
    let y := isrRet v fa e
    (∀ r, visible v r = true → y.reg r = s.reg r) ∧ y.reg msp = s.reg msp ∧ y.mem = e.mem := by
  obtain ⟨o1, o2, o3, o4⟩ := hok
  obtain ⟨c1, -, -, -, c5⟩ := isrCall_eff v fa table irq next s o4
  obtain ⟨-, -, w3, w4⟩ := entered v fa .tick (16 + irq) s
  simp only [retAddr] at c1 w3 w4
  rw [c5] at h1
  rw [c1] at h2
  generalize run (pushLr ++ save v) (hwPush (isFp v) fa (16 + irq) (s.reg pc) s) = w at *
  have k1 : ∀ p ∈ soft v, p.2.toNat < (size v).toNat := by cases v <;> decide
  have w4' := w4 (lastReg_none k1 fun h => hio _ h (Or.inl o1))
  obtain ⟨z, hz, z1, z2, z3⟩ : ∃ z, run [.lw r0 msp 0, .addi msp msp 4] e = z ∧ z.mem = e.mem ∧ z.reg r0 = base v fa s ∧
      z.reg msp = s.reg msp - 4 := by
    refine ⟨_, rfl, ?_, ?_, ?_⟩ <;> rw [run_cons _ _ _ rfl, run_cons _ _ _ rfl, run_nil] <;> simp only [exec]
    · rw [upd_ne _ _ (by decide), upd_same, h1, show s.reg msp - 8 + 0 = s.reg msp - 8 by grind,
        h2 _ (Or.inr (Or.inl rfl)), upd_same]
    · rw [upd_same, upd_ne _ _ (by decide), h1]; grind
  have hne : s.reg msp - 4 ≠ s.reg msp - 8 := by
    intro h
    have : (4 : W) = 0 := by
      have h' : s.reg msp - 4 - (s.reg msp - 8) = 0 := by rw [h]; grind
      rw [← h']; grind
    exact absurd this (by decide)
  have hcok : (port v fa intr kst).cok .tick z := by
    show z.mem (z.reg msp) = excRet (isFp v)
    rw [z1, z3, h2 _ (Or.inr (Or.inr rfl)), upd_ne _ _ hne, w4']
  have hH := cells_hold v fa intr kst .tick s z o2 o3 hio fun o ho => by
    have hfr : (base v fa s + o - base v fa s).toNat < (size v).toNat := by
      rwa [show base v fa s + o - base v fa s = o by grind]
    have hn := hio _ hfr
    have n1 : base v fa s + o ≠ s.reg msp - 8 := fun h => hn (Or.inl (by rw [h]; exact hk))
    have n2 : base v fa s + o ≠ s.reg msp - 4 := fun h => hn (Or.inl (by rw [h]; exact o1))
    rw [z1, h2 _ (Or.inl hfr), upd_ne _ _ n1, w3 _ n2]
  have hl : isrRet v fa e = leave v fa .tick z := by simp only [isrRet, leave, hz]
  obtain ⟨l1, l2, -⟩ := leave_eff v fa .tick z hcok
  have hctx := hH.2 .tick z hcok z2 (fun _ _ => rfl)
  simp only []
  rw [hl]
  refine ⟨fun r hv => ?_, ?_, ?_⟩
  · have := congrFun hctx r
    have h' : (if visible v r = true then (leave v fa .tick z).reg r else 0) =
      (if visible v r = true then s.reg r else 0) := this
    rwa [if_pos hv, if_pos hv] at h'
  · rw [l2, z3]; grind
  · rw [l1, z1]

/-- **Bringing a task in leaves the interrupt mask (PRIMASK) as it is.** -/
theorem arm_interrupt_enable (v : Var) (fa : Bool) (k : Kind) (e : St R) (hc : e.mem (e.reg msp) = excRet (isFp v)) :
    (leave v fa k e).reg primask = e.reg primask := by
  obtain ⟨-, -, -, -, -, -, l7⟩ := leave_eff v fa k e hc
  rw [l7 _ (by decide) (by decide) (by decide) (by decide) (by decide),
    show lastOff (hwSaved (isFp v)) primask = none by cases v <;> decide,
    show lastOff (soft v) primask = none by cases v <;> decide]

/-! ### The hypotheses are met -/

/-- a task interrupted with its stack at 0x404 (not a multiple of 8), the kernel's at 0x1000 -/
def demo : St R where
  reg := fun
    | psp => 0x404 | msp => 0x1000 | pc => 0x80 | lr => 0x44 | r0 => 3 | r1 => 7 | r4 => 9 | r11 => 11 | xpsr => 0x1000000
    | fpca => 1 | s20 => 21 | _ => 5
  mem := fun a => a

/-- the kernel's stack -/
def demoKst (a : W) : Prop := 0xf00 ≤ a.toNat ∧ a.toNat < 0x1000

theorem demo_ok (v : Var) : Ok v demoKst demo := by
  refine ⟨⟨by decide, by decide⟩, by decide, by decide, fun _ => rfl⟩

theorem demo_base (v : Var) : base v true demo = 0x404 - 4 - size v := by cases v <;> decide

theorem demo_frame (v : Var) (a : W) (h : (a - base v true demo).toNat < (size v).toNat) :
    ¬ (demoKst a ∨ a = 0x2000) := by
  rw [demo_base] at h
  rintro (⟨h1, h2⟩ | rfl)
  · revert h
    cases v <;> (simp only [size]; rw [BitVec.toNat_sub]; simp; omega)
  · revert h; cases v <;> decide

/-- the same task with another stack, at 0x800, memory holding the context of `demo` -/
def demo2 (v : Var) : St R := { reg := upd demo.reg psp 0x800, mem := (enter v true 0x2000 .tick demo).mem }

theorem demo2_ok (v : Var) : Ok v demoKst (demo2 v) := by
  refine ⟨?_, ?_, ?_, ?_⟩
  · show demoKst (upd demo.reg psp 0x800 msp - 4)
    rw [upd_ne _ _ (by decide)]; exact ⟨by decide, by decide⟩
  · show (upd demo.reg psp 0x800 pc).getLsbD 0 = false
    rw [upd_ne _ _ (by decide)]; decide
  · show (upd demo.reg psp 0x800 xpsr).getLsbD 9 = false
    rw [upd_ne _ _ (by decide)]; decide
  · intro
    show upd demo.reg psp 0x800 fpca = 1
    rw [upd_ne _ _ (by decide)]; rfl

theorem demo2_base (v : Var) : base v true (demo2 v) = 0x800 - size v := by
  simp only [base, hwBase, demo2, upd_same]
  cases v <;> decide

theorem demo2_frame (v : Var) (a : W) (h : (a - base v true (demo2 v)).toNat < (size v).toNat) :
    ¬ (demoKst a ∨ a = 0x2000) ∧ ¬ (a - base v true demo).toNat < (size v).toNat := by
  rw [demo2_base] at h
  rw [demo_base]
  refine ⟨?_, ?_⟩
  · rintro (⟨h1, h2⟩ | rfl)
    · revert h
      cases v <;> (simp only [size]; rw [BitVec.toNat_sub]; simp; omega)
    · revert h; cases v <;> decide
  · revert h
    cases v <;> (simp only [size]; rw [BitVec.toNat_sub, BitVec.toNat_sub]; simp; omega)

/-- **A switch between two tasks**: one interrupted by the tick, the other making a system call; the
scheduler gives the first one back. -/
example (v : Var) : ∃ x x' : Sys (St R) W (R → W) Bool, ∃ e, Sys.Reach (port v true 0x2000 demoKst) (Ok v demoKst) x ∧
    Switch (port v true 0x2000 demoKst) (Ok v demoKst) x .svc e true ((port v true 0x2000 demoKst).ctx demo) x' ∧
    (port v true 0x2000 demoKst).ctx x'.m = (port v true 0x2000 demoKst).ctx demo := by
  have e1 : (port v true 0x2000 demoKst).arg ((port v true 0x2000 demoKst).enter .tick demo) = base v true demo :=
    (enter_eff v true 0x2000 .tick demo (demo_ok v).2.2.2).1
  have e2 : (port v true 0x2000 demoKst).arg ((port v true 0x2000 demoKst).enter .svc (demo2 v)) = base v true (demo2 v) :=
    (enter_eff v true 0x2000 .svc (demo2 v) (demo2_ok v).2.2.2).1
  have hc := arm_enter_cok v true 0x2000 demoKst .svc (demo2 v) (demo2_ok v) (fun a h => (demo2_frame v a h).1)
    (by rintro ⟨-, h⟩; exact absurd h (by decide))
  obtain ⟨x, x', -, h1, h2, -, h4⟩ := switch_possible (arm_sound v true 0x2000 demoKst) .tick .svc demo (demo2 v)
    { reg := upd (enter v true 0x2000 .svc (demo2 v)).reg r0 (base v true demo), mem := (enter v true 0x2000 .svc (demo2 v)).mem }
    (demo_ok v) (demo2_ok v)
    (by rw [e1]; exact demo_frame v)
    (fun a _ => rfl)
    (by rw [e1, e2]; exact demo2_frame v)
    (by
      have hc' : (enter v true 0x2000 .svc (demo2 v)).mem ((enter v true 0x2000 .svc (demo2 v)).reg msp) = excRet (isFp v) := hc
      show (enter v true 0x2000 .svc (demo2 v)).mem (upd (enter v true 0x2000 .svc (demo2 v)).reg r0 (base v true demo) msp) = excRet (isFp v)
      rw [upd_ne _ _ (by decide), hc'])
    (by rw [e1]; show upd (enter v true 0x2000 .svc (demo2 v)).reg r0 (base v true demo) r0 = _; rw [upd_same])
    (fun a => rfl)
  exact ⟨x, x', _, h1, h2, h4⟩

/-- `arm_first` and `arm_start` apply: the caller's stack is at 0x1000, the task's stack ends at 0x800 -/
example (v : Var) : ∀ o : W, o.toNat < (pushN v).toNat → ¬ (0x1000 - pushN v + o - (0x800 - size v)).toNat < (size v).toNat := by
  intro o ho
  revert ho
  cases v <;> (simp only [pushN, size]; intro ho; rw [BitVec.toNat_sub, BitVec.toNat_add]; simp at ho ⊢; omega)

/-- `arm_isr` applies: interrupt 5, table at 0x3000 -/
example (v : Var) : ∀ a, a = 0x3000 + 8 * 5 ∨ a = 0x3000 + 8 * 5 + 4 →
    ¬ (a - base v true demo).toNat < (size v).toNat ∧ a ≠ demo.reg msp - 4 ∧ a ≠ demo.reg msp - 8 := by
  rw [demo_base]
  rintro a (rfl | rfl) <;> (cases v <;> decide)

/-- `arm_isr_resumes` applies: the kernel's stack has room for the second word -/
example : demoKst (demo.reg msp - 8) := ⟨by decide, by decide⟩

end Pico.Ctx.Arm
