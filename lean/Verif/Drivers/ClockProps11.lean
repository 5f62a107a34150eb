import Verif.Drivers.ClockProps10
import Verif.Drivers.ClockProps7
/-
Clocks (C95): nxp_siu.
-/
namespace Pico.Clock
open Field

namespace Siu

theorem bind_ok {α β : Type} {o : Option α} {f : α → Option β} {b : β} (h : o.bind f = some b) : ∃ a, o = some a ∧ f a = some b := Option.bind_eq_some_iff.mp h
theorem map_ok {α β : Type} {o : Option α} {f : α → β} {b : β} (h : o.map f = some b) : ∃ a, o = some a ∧ f a = b := Option.map_eq_some_iff.mp h

theorem in_cands0 (k : Nat × Nat) (h : k ∈ cands0) : 1 ≤ k.1 ∧ k.1 ≤ 7 ∧ 8 ≤ k.2 ∧ k.2 ≤ 127 := by
  unfold cands0 at h
  simp only [List.mem_flatMap, List.mem_map, List.mem_range] at h
  obtain ⟨p, hp, m, hm, rfl⟩ := h
  refine ⟨?_, ?_, ?_, ?_⟩ <;> dsimp only <;> omega

theorem in_cands1 (k : Nat × Nat) (h : k ∈ cands1) : 16 ≤ k.1 ∧ k.1 ≤ 34 ∧ 1 ≤ k.2 ∧ k.2 ≤ 63 := by
  unfold cands1 at h
  simp only [List.mem_flatMap, List.mem_map, List.mem_range] at h
  obtain ⟨p, hp, m, hm, rfl⟩ := h
  refine ⟨?_, ?_, ?_, ?_⟩ <;> dsimp only <;> omega

def dv0Of (k : Nat × Nat) (a b : Nat) : BitVec 32 := orIn 4 27 (BitVec.ofNat 32 b) (orIn 6 16 (BitVec.ofNat 32 a) (orIn 7 0 (BitVec.ofNat 32 k.2) (orIn 3 12 (BitVec.ofNat 32 k.1) 0#32)))
def dv1Of (k : Nat × Nat) : BitVec 32 := orIn 6 16 (BitVec.ofNat 32 k.2) (orIn 7 0 (BitVec.ofNat 32 k.1) 0#32)

theorem dv0_fields (k : Nat × Nat) (a b : Nat) (h1 : k.1 < 8) (h2 : k.2 < 128) (h3 : a < 64) (h4 : b < 16) :
    (get 3 12 (dv0Of k a b)).toNat = k.1 ∧ (get 7 0 (dv0Of k a b)).toNat = k.2 ∧ (get 6 16 (dv0Of k a b)).toNat = a ∧ (get 4 27 (dv0Of k a b)).toNat = b := by
  unfold dv0Of
  refine ⟨?_, ?_, ?_, ?_⟩
  · rw [get_orIn_other _ _ _ _ _ _ (by omega), get_orIn_other _ _ _ _ _ _ (by omega), get_orIn_other _ _ _ _ _ _ (by omega), get_orIn_zero _ _ _ _ (by omega) (by omega) (get_zero _ _)]
  · rw [get_orIn_other _ _ _ _ _ _ (by omega), get_orIn_other _ _ _ _ _ _ (by omega), get_orIn_zero _ _ _ _ (by omega) (by omega)]
    rw [get_orIn_other _ _ _ _ _ _ (by omega)]; exact get_zero _ _
  · rw [get_orIn_other _ _ _ _ _ _ (by omega), get_orIn_zero _ _ _ _ (by omega) (by omega)]
    rw [get_orIn_other _ _ _ _ _ _ (by omega), get_orIn_other _ _ _ _ _ _ (by omega)]; exact get_zero _ _
  · rw [get_orIn_zero _ _ _ _ (by omega) (by omega)]
    rw [get_orIn_other _ _ _ _ _ _ (by omega), get_orIn_other _ _ _ _ _ _ (by omega), get_orIn_other _ _ _ _ _ _ (by omega)]; exact get_zero _ _

theorem dv1_fields (k : Nat × Nat) (h1 : k.1 < 128) (h2 : k.2 < 64) : (get 7 0 (dv1Of k)).toNat = k.1 ∧ (get 6 16 (dv1Of k)).toNat = k.2 := by
  unfold dv1Of
  refine ⟨?_, ?_⟩
  · rw [get_orIn_other _ _ _ _ _ _ (by omega), get_orIn_zero _ _ _ _ (by omega) (by omega) (get_zero _ _)]
  · rw [get_orIn_zero _ _ _ _ (by omega) (by omega)]
    rw [get_orIn_other _ _ _ _ _ _ (by omega)]; exact get_zero _ _

/-- the final content of SYSDIV -/
def sdOf (p v f : Nat) (e : Bool) : BitVec 32 :=
  let a := orIn 2 16 (BitVec.ofNat 32 p) (clear 2 16 (bset 24 (bset 26 (bclr 28 0#32))))
  let b := orIn 3 2 (BitVec.ofNat 32 v) (clear 3 2 (orIn 2 12 2#32 (clear 2 12 a)))
  let c := orIn 2 20 (BitVec.ofNat 32 f) (clear 2 20 b)
  bset 31 (bclr 15 (bset 0 (if e then bset 8 c else bclr 8 c)))

theorem sd_fields : ∀ p, p < 3 → ∀ v, v < 5 → ∀ f, f < 3 → ∀ e : Bool,
    (get 2 12 (sdOf p v f e)).toNat = 2 ∧ (get 3 2 (sdOf p v f e)).toNat = v ∧ (get 2 20 (sdOf p v f e)).toNat = f ∧ (get 2 16 (sdOf p v f e)).toNat = p ∧
    (sdOf p v f e).getLsbD 26 = true ∧ (sdOf p v f e).getLsbD 24 = true ∧ (sdOf p v f e).getLsbD 8 = e := by decide +kernel

theorem sys_code (d v : Nat) (h : sysCode d = some v) : v < 5 ∧ sysDivOf v = d ∧ 0 < d := by
  unfold sysCode at h
  split at h <;> first | (cases h; decide) | cases h
theorem per_code (d v : Nat) (h : perCode d = some v) : v < 3 ∧ 2 ^ (v + 1) = d ∧ 0 < d := by
  unfold perCode at h
  split at h <;> first | (cases h; decide) | cases h

/-- what a successful initialisation leaves -/
theorem init_ok (c : Cfg) (e : Env) (s s' : St) (h : init c e s = some s') :
    0 < c.phiDiv ∧ c.phiDiv < 64 ∧ 4 < c.phi1Div ∧ c.phi1Div < 16 ∧ (c.etpuDiv = 1 ∨ c.etpuDiv = 2) ∧ lockWait e e.count 0 = true ∧ ∃ k0 k1 v p f, k0 ∈ cands0 ∧ c.xosc / k0.1 * k0.2 % 2 ^ 32 = c.pll0 ∧
    k1 ∈ cands1 ∧ c.pll0 / c.phi1Div * k1.1 % 2 ^ 32 / (k1.2 * 2) = c.pll1 ∧ sysCode c.sysDiv = some v ∧ perCode c.perDiv = some p ∧ perCode c.fmDiv = some f ∧
    s'.sysdiv = sdOf p v f (decide (c.etpuDiv = 1)) ∧ s'.dv0 = dv0Of k0 c.phiDiv c.phi1Div ∧ s'.dv1 = dv1Of k1 ∧ s'.xosc = c.xosc ∧ s'.core = c.pll1 / c.sysDiv ∧ s'.plat = c.pll1 / c.sysDiv / 2 ∧
    s'.pper = c.pll0 / c.phiDiv / c.perDiv ∧ s'.fmPer = c.pll1 / c.sysDiv / c.fmDiv ∧ s'.etpu = c.pll1 / c.sysDiv / c.etpuDiv := by
  unfold init at h
  by_cases hx : e.xosc = false
  · rw [if_pos hx] at h; cases h
  rw [if_neg hx] at h
  obtain ⟨s1, e1, h⟩ := bind_ok h
  obtain ⟨s2, e2, h⟩ := bind_ok h
  obtain ⟨s3, e3, h⟩ := bind_ok h
  obtain ⟨s4, e4, h⟩ := bind_ok h
  obtain ⟨s5, e5, h⟩ := bind_ok h
  obtain ⟨s6, e6, h⟩ := bind_ok h
  unfold pll0 at e1
  by_cases h1 : c.phiDiv = 0 ∨ 63 < c.phiDiv ∨ c.phi1Div ≤ 4 ∨ 15 < c.phi1Div
  · rw [if_pos h1] at e1; cases e1
  rw [if_neg h1] at e1
  dsimp only at e1
  cases hk0 : cands0.find? fun k => decide (c.xosc / k.1 * k.2 % 2 ^ 32 = c.pll0) with
  | none => rw [hk0] at e1; cases e1
  | some k0 =>
    rw [hk0] at e1
    dsimp only at e1
    cases hl : e.lock0 with
    | false => rw [hl] at e1; cases e1
    | true =>
      rw [hl, if_pos rfl, Option.some.injEq] at e1
      obtain ⟨m0, n0⟩ := Mpc.find_mem hk0
      rw [decide_eq_true_eq] at n0
      unfold pll1 at e2
      have a1 : s1.phi01 = c.pll0 / c.phi1Div := by rw [← e1]
      have a2 : s1.phi0 = c.pll0 / c.phiDiv := by rw [← e1]
      have a3 : s1.dv0 = dv0Of k0 c.phiDiv c.phi1Div := by rw [← e1]; rfl
      have a4 : s1.sysdiv = bclr 28 0#32 := by rw [← e1]
      have a5 : s1.xosc = c.xosc := by rw [← e1]
      rw [a1] at e2
      cases hk1 : cands1.find? fun k => decide (c.pll0 / c.phi1Div * k.1 % 2 ^ 32 / (k.2 * 2) = c.pll1) with
      | none => rw [hk1] at e2; cases e2
      | some k1 =>
        rw [hk1] at e2
        dsimp only at e2
        cases hw : lockWait e e.count 0 with
        | false => rw [hw] at e2; cases e2
        | true =>
          rw [hw, if_pos rfl, Option.some.injEq] at e2
          obtain ⟨m1, n1⟩ := Mpc.find_mem hk1
          rw [decide_eq_true_eq] at n1
          obtain ⟨p, hp, e3⟩ := map_ok e3
          obtain ⟨v, hv, e4⟩ := map_ok e4
          obtain ⟨f, hf, e5⟩ := map_ok e5
          have he : c.etpuDiv = 1 ∨ c.etpuDiv = 2 := by
            unfold etpuClk at e6
            split at e6
            · left; assumption
            · right; assumption
            · cases e6
          have e6' : s6.sysdiv = (if decide (c.etpuDiv = 1) then bset 8 s5.sysdiv else bclr 8 s5.sysdiv) ∧ s6.dv0 = s5.dv0 ∧ s6.dv1 = s5.dv1 ∧ s6.xosc = s5.xosc ∧ s6.core = s5.core ∧ s6.plat = s5.plat ∧ s6.pper = s5.pper ∧
              s6.fmPer = s5.fmPer ∧ s6.etpu = s5.sysclk / c.etpuDiv := by
            unfold etpuClk at e6
            rcases he with he | he
            · rw [he] at e6 ⊢
              have e6 : some { s5 with sysdiv := bset 8 s5.sysdiv, etpu := s5.sysclk / 1 } = some s6 := e6
              rw [Option.some.injEq] at e6
              rw [← e6]; simp
            · rw [he] at e6 ⊢
              have e6 : some { s5 with sysdiv := bclr 8 s5.sysdiv, etpu := s5.sysclk / 2 } = some s6 := e6
              rw [Option.some.injEq] at e6
              rw [← e6]; simp
          obtain ⟨g1, g2, g3, g4, g5, g6, g7, g8, g9⟩ := e6'
          cases hq : e.pcs with
          | false => rw [hq] at h; cases h
          | true =>
            rw [hq, if_pos rfl, Option.some.injEq] at h
            have b1 : s2.sysdiv = bset 26 (bclr 28 0#32) := by rw [← e2]; show bset 26 s1.sysdiv = _; rw [a4]
            have b3 : s2.dv0 = dv0Of k0 c.phiDiv c.phi1Div := by rw [← e2]; exact a3
            have b4 : s2.dv1 = dv1Of k1 := by rw [← e2]; rfl
            have b5 : s2.phi1 = c.pll1 := by rw [← e2]
            have b6 : s2.phi0 = c.pll0 / c.phiDiv := by rw [← e2]; exact a2
            have b7 : s2.xosc = c.xosc := by rw [← e2]; exact a5
            have c1 : s3.sysdiv = orIn 2 16 (BitVec.ofNat 32 p) (clear 2 16 (bset 24 (bset 26 (bclr 28 0#32)))) := by rw [← e3, ← b1]
            have c2 : s3.pper = c.pll0 / c.phiDiv / c.perDiv := by rw [← e3, ← b6]
            have c3 : s3.phi1 = c.pll1 := by rw [← e3]; exact b5
            have c4 : s3.dv0 = dv0Of k0 c.phiDiv c.phi1Div := by rw [← e3]; exact b3
            have c5 : s3.dv1 = dv1Of k1 := by rw [← e3]; exact b4
            have c6 : s3.xosc = c.xosc := by rw [← e3]; exact b7
            have d1 : s4.sysdiv = orIn 3 2 (BitVec.ofNat 32 v) (clear 3 2 (orIn 2 12 2#32 (clear 2 12 (orIn 2 16 (BitVec.ofNat 32 p) (clear 2 16 (bset 24 (bset 26 (bclr 28 0#32)))))))) := by rw [← e4, ← c1]
            have d2 : s4.core = c.pll1 / c.sysDiv ∧ s4.plat = c.pll1 / c.sysDiv / 2 ∧ s4.sysclk = c.pll1 / c.sysDiv := by rw [← e4, ← c3]; exact ⟨rfl, rfl, rfl⟩
            have d3 : s4.pper = c.pll0 / c.phiDiv / c.perDiv ∧ s4.dv0 = dv0Of k0 c.phiDiv c.phi1Div ∧ s4.dv1 = dv1Of k1 ∧ s4.xosc = c.xosc := by rw [← e4]; exact ⟨c2, c4, c5, c6⟩
            have f1 : s5.sysdiv = orIn 2 20 (BitVec.ofNat 32 f) (clear 2 20 s4.sysdiv) := by rw [← e5]
            have f2 : s5.fmPer = s4.sysclk / c.fmDiv ∧ s5.core = s4.core ∧ s5.plat = s4.plat ∧ s5.sysclk = s4.sysclk ∧ s5.pper = s4.pper ∧ s5.dv0 = s4.dv0 ∧ s5.dv1 = s4.dv1 ∧ s5.xosc = s4.xosc := by
              rw [← e5]; exact ⟨rfl, rfl, rfl, rfl, rfl, rfl, rfl, rfl⟩
            obtain ⟨y1, y2, y3, y4, y5, y6, y7, y8⟩ := f2
            refine ⟨by omega, by omega, by omega, by omega, he, rfl, k0, k1, v, p, f, m0, n0, m1, n1, hv, hp, hf, ?_, ?_, ?_, ?_, ?_, ?_, ?_, ?_, ?_⟩
            · rw [← h]; show bset 31 (bclr 15 (bset 0 s6.sysdiv)) = _
              rw [g1, f1, d1]; rfl
            · rw [← h]; show s6.dv0 = _; rw [g2, y6, d3.2.1]
            · rw [← h]; show s6.dv1 = _; rw [g3, y7, d3.2.2.1]
            · rw [← h]; show s6.xosc = _; rw [g4, y8, d3.2.2.2]
            · rw [← h]; show s6.core = _; rw [g5, y2, d2.1]
            · rw [← h]; show s6.plat = _; rw [g6, y3, d2.2.1]
            · rw [← h]; show s6.pper = _; rw [g7, y5, d3.1]
            · rw [← h]; show s6.fmPer = _; rw [g8, y1, d2.2.2]
            · rw [← h]; show s6.etpu = _; rw [g9, y4, d2.2.2]

/-- the conditions under which the factors found make what was asked: the input divider divides the crystal, PHI1 is a whole number of Hz, no product overflows -/
def Exact (c : Cfg) : Prop :=
  (∀ p m, 1 ≤ p → p ≤ 7 → 8 ≤ m → m ≤ 127 → c.xosc / p * m % 2 ^ 32 = c.pll0 → p ∣ c.xosc ∧ c.xosc / p * m < 2 ^ 32) ∧ c.phi1Div ∣ c.pll0 ∧ c.pll0 / c.phi1Div * 34 < 2 ^ 32

/-- **C95, nxp_siu**: under these conditions every clock with an identifier is as told.  Missing: the rest (`rounds`); and a PLL that locks early makes the initialisation fail (`locked_fails`),
a PLL that never locks is taken (`unlocked_passes`) -/
theorem freq_partial (c : Cfg) (e : Env) (s s' : St) (h : init c e s = some s') (hx : Exact c) (k : Nat) (hk : k ≤ 1 ∨ (4 ≤ k ∧ k ≤ 8)) : Tells (getFreq s' k) (hw c.xosc s' k) := by
  obtain ⟨q1, q2, q3, q4, he, -, k0, k1, v, p, f, m0, n0, m1, n1, hv, hp, hf, r1, r2, r3, r4, r5, r6, r7, r8, r9⟩ := init_ok c e s s' h
  obtain ⟨i1, i2, i3, i4⟩ := in_cands0 k0 m0
  obtain ⟨j1, j2, j3, j4⟩ := in_cands1 k1 m1
  obtain ⟨v1, v2, v3⟩ := sys_code _ _ hv
  obtain ⟨p1, p2, p3⟩ := per_code _ _ hp
  obtain ⟨f1, f2, f3⟩ := per_code _ _ hf
  obtain ⟨z1, z2, z3, z4, z5, z6, z7⟩ := sd_fields p p1 v v1 f f1 (decide (c.etpuDiv = 1))
  obtain ⟨w1, w2, w3, w4⟩ := dv0_fields k0 c.phiDiv c.phi1Div (by omega) (by omega) q2 q4
  obtain ⟨w5, w6⟩ := dv1_fields k1 (by omega) (by omega)
  obtain ⟨x1, x2, x3⟩ := hx
  obtain ⟨t1, t2⟩ := x1 k0.1 k0.2 i1 i2 i3 i4 n0
  rw [Nat.mod_eq_of_lt t2] at n0
  have hp0 : c.xosc * k0.2 = c.pll0 * k0.1 := by
    obtain ⟨y, hy⟩ := t1
    rw [hy, Nat.mul_div_cancel_left _ (by omega)] at n0
    rw [hy, ← n0, Nat.mul_assoc, Nat.mul_comm]
  have t3 : c.pll0 / c.phi1Div * k1.1 ≤ c.pll0 / c.phi1Div * 34 := Nat.mul_le_mul_left _ j2
  rw [Nat.mod_eq_of_lt (by omega)] at n1
  have g0 : phi0Hz c.xosc 6 16 s' = some (c.pll0 * k0.1, k0.1 * c.phiDiv) := by
    unfold phi0Hz; rw [r2, w1, w2, w3, if_neg (by omega), hp0]
  have g1 : phi0Hz c.xosc 4 27 s' = some (c.pll0 * k0.1, k0.1 * c.phi1Div) := by
    unfold phi0Hz; rw [r2, w1, w2, w4, if_neg (by omega), hp0]
  have g2 : phi1Hz c.xosc s' = some (c.pll0 * k0.1 * k1.1, k0.1 * c.phi1Div * (2 * k1.2)) := by
    unfold phi1Hz; rw [r3, w5, w6, r1, z5, if_neg (by omega), if_pos rfl, g1]; rfl
  have h0 : Tells (some (c.pll0 / c.phiDiv)) (phi0Hz c.xosc 6 16 s') := by
    rw [g0]
    refine ⟨_, _, rfl, Nat.mul_pos (by omega) q1, ?_⟩
    rw [Nat.mul_comm c.pll0, Nat.mul_div_mul_left _ _ (by omega)]
  have h1 : Tells (some c.pll1) (phi1Hz c.xosc s') := by
    rw [g2]
    refine ⟨_, _, rfl, Nat.mul_pos (Nat.mul_pos (by omega) (by omega)) (by omega), ?_⟩
    obtain ⟨y, hy⟩ := x2
    rw [hy, Nat.mul_div_cancel_left _ (by omega)] at n1
    rw [hy, ← n1, show c.phi1Div * y * k0.1 * k1.1 = (k0.1 * c.phi1Div) * (y * k1.1) by
      rw [Nat.mul_comm c.phi1Div y, Nat.mul_assoc y, Nat.mul_comm c.phi1Div k0.1, Nat.mul_comm y, Nat.mul_assoc]]
    rw [Nat.mul_div_mul_left _ _ (Nat.mul_pos (by omega) (by omega)), Nat.mul_comm k1.2 2]
  have hsys : Tells (some (c.pll1 / c.sysDiv)) (sysHz c.xosc s') := by
    unfold sysHz
    rw [r1, z1, z2, v2]
    exact tells_div h1 v3
  have hc : k = 0 ∨ k = 1 ∨ k = 4 ∨ k = 5 ∨ k = 6 ∨ k = 7 ∨ k = 8 := by omega
  rcases hc with rfl | rfl | rfl | rfl | rfl | rfl | rfl
  · show Tells (some s'.xosc) _
    rw [r4]; exact tells_self _
  · exact tells_self _
  · show Tells (some s'.core) _
    rw [r5]; exact hsys
  · show Tells (some s'.plat) (Hz.div _ 2)
    rw [r6]; exact tells_div hsys (by omega)
  · show Tells (some s'.fmPer) (Hz.div _ _)
    rw [r8, r1, z3, f2]; exact tells_div hsys f3
  · show Tells (some s'.etpu) (Hz.div _ _)
    rw [r9, r1, z7]
    rcases he with he | he
    · rw [he]; exact tells_div hsys (by omega)
    · rw [he]; exact tells_div hsys (by omega)
  · show Tells (some s'.pper) (Hz.div _ _)
    rw [r7, r1, z4, z6, if_pos rfl, p2]; exact tells_div h0 p3

def reset : St := ⟨0#32, 0#32, 0#32, 0, 0, 0, 0, 0, 0, 0, 0, 0, 0⟩
def good : Env := ⟨true, true, true, fun _ => false, 100⟩
/-- the settings of the demonstration board (header: 40 MHz, 192 MHz, 264 MHz) -/
def usual : Cfg := ⟨40000000, 192000000, 3, 6, 264000000, 1, 2, 4, 1⟩

theorem usual_exact : Exact usual := by
  refine ⟨?_, by decide, by decide⟩
  have : ∀ p, p < 8 → ∀ m, m < 128 → (8 ≤ m ∧ 40000000 / p * m % 2 ^ 32 = 192000000 → 40000000 % p = 0 ∧ 40000000 / p * m < 2 ^ 32) := by decide +kernel
  intro p m h1 h2 h3 h4 h5
  obtain ⟨a, b⟩ := this p (by omega) m (by omega) ⟨h3, h5⟩
  exact ⟨Nat.dvd_of_mod_eq_zero a, b⟩

theorem sample : (init usual good reset).map (fun s => (getFreq s 4, getFreq s 8, hw 40000000 s 4)) = some (some 264000000, some 32000000, some (31680000000, 120)) := by decide +kernel

/-- **C95 refuted, nxp_siu**: the crystal is divided before it is multiplied: 133333330 Hz asked of 40 MHz (/ 3 * 10) is told, 133333333 Hz is made -/
theorem rounds : (init { usual with pll0 := 133333330, phiDiv := 1, phi1Div := 5, pll1 := 213333328, perDiv := 2 } good reset).map (fun s => (getFreq s 8, hw 40000000 s 8)) = some (some 66666665, some (400000000, 6)) ∧
    ¬ Tells (some 66666665) (some (400000000, 6)) := by
  refine ⟨by decide +kernel, ?_⟩
  rintro ⟨n, d, e1, -, e2⟩
  cases e1; revert e2; decide

theorem wait_false (e : Env) (h : ∀ k, e.lock1 k = true) : ∀ n k, lockWait e n k = false := by
  intro n
  induction n with
  | zero => intro k; unfold lockWait; rw [h]; rfl
  | succ n ih => intro k; unfold lockWait; rw [h, ih]; rfl

/-- **C95, nxp_siu**: a PLL1 that is locked when it is read makes every initialisation fail -/
theorem locked_fails (c : Cfg) (e : Env) (s : St) (h : ∀ k, e.lock1 k = true) : init c e s = none := by
  cases hi : init c e s with
  | none => rfl
  | some s' =>
    obtain ⟨-, -, -, -, -, hw, -⟩ := init_ok c e s s' hi
    rw [wait_false e h] at hw; cases hw

/-- and one that never locks is taken (`good` is such an environment) -/
theorem unlocked_passes (e : Env) (h : e.lock1 0 = false) : lockWait e e.count 0 = true := by
  cases e.count <;> simp [lockWait, h]

/-- the divider 4 of PHI1, which the documentation allows, is refused -/
theorem phi1_four (c : Cfg) (e : Env) (s : St) (h : c.phi1Div = 4) : init c e s = none := by
  cases hi : init c e s with
  | none => rfl
  | some s' =>
    obtain ⟨-, -, h4, -⟩ := init_ok c e s s' hi
    omega

end Siu
end Pico.Clock
