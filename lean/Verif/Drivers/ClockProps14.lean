import Verif.Drivers.ClockProps13
/-
Clocks (C95, C96): stm32f401x.
-/
namespace Pico.Clock
open Field

namespace F4

theorem in_cands (i : Nat) (k : Nat × Nat × Nat) (h2 : 2000000 ≤ i) (hi : i ≤ 31999999) (h : k ∈ cands i) : 1 ≤ k.1 ∧ k.1 ≤ 31 ∧ 192 ≤ k.2.1 ∧ k.2.1 ≤ 423 ∧ (k.2.2 = 2 ∨ k.2.2 = 4 ∨ k.2.2 = 6 ∨ k.2.2 = 8) := by
  unfold cands at h
  simp only [List.mem_flatMap, List.mem_map, List.mem_range, List.mem_cons, List.not_mem_nil, or_false] at h
  obtain ⟨m, hm, n, hn, p, hp, rfl⟩ := h
  dsimp only
  omega

/-- a field whose upper bit is 0 -/
theorem get6 (r : BitVec 32) (h : r.getLsbD 5 = false) : get 6 0 r = get 5 0 r := by
  apply BitVec.eq_of_getLsbD_eq
  intro i hi
  rw [get_bit, get_bit]
  by_cases h5 : i = 5
  · subst h5
    rw [show 0 + 5 = 5 from rfl, h]; simp
  · rw [show (decide (i < 6)) = decide (i < 5) by simp only [decide_eq_decide]; omega]

theorem or_bit (w t i : Nat) (v r : BitVec 32) (hi : i < 32) (h : i < t ∨ t + w ≤ i) : (orIn w t v r).getLsbD i = r.getLsbD i := by
  have : (decide (t ≤ i) && decide (i < t + w)) = false := by
    rw [Bool.eq_false_iff]; simp only [ne_eq, Bool.and_eq_true, decide_eq_true_eq]; omega
  rw [orIn_bit _ _ _ _ _ hi, this]
  simp
theorem cl_bit (w t i : Nat) (r : BitVec 32) (h : i < t ∨ t + w ≤ i) : (clear w t r).getLsbD i = r.getLsbD i := by
  have : (decide (t ≤ i) && decide (i < t + w)) = false := by
    rw [Bool.eq_false_iff]; simp only [ne_eq, Bool.and_eq_true, decide_eq_true_eq]; omega
  rw [clear_bit, this]
  simp

/-- the fields of PLLCFGR -/
theorem cfg_fields (i : Nat) (k : Nat × Nat × Nat) (r : BitVec 32) (h1 : k.1 ≤ 31) (h2 : k.2.1 ≤ 423) (h3 : k.2.2 = 2 ∨ k.2.2 = 4 ∨ k.2.2 = 6 ∨ k.2.2 = 8) (h5 : r.getLsbD 5 = false) :
    (get 6 0 (cfgOf i k r)).toNat = k.1 ∧ (get 9 6 (cfgOf i k r)).toNat = k.2.1 ∧ 2 * ((get 2 16 (cfgOf i k r)).toNat + 1) = k.2.2 ∧ (cfgOf i k r).getLsbD 22 = r.getLsbD 22 := by
  unfold cfgOf
  refine ⟨?_, ?_, ?_, ?_⟩
  · rw [get6]
    · rw [get_orIn_other _ _ _ _ _ _ (by omega)]
      apply get_orIn_zero _ _ _ _ (by omega) (by omega)
      rw [get_orIn_other _ _ _ _ _ _ (by omega), get_orIn_other _ _ _ _ _ _ (by omega), get_clear_other _ _ _ _ _ (by omega)]
      exact get_clear_same _ _ _
    · rw [or_bit _ _ _ _ _ (by omega) (by omega), or_bit _ _ _ _ _ (by omega) (by omega), or_bit _ _ _ _ _ (by omega) (by omega), or_bit _ _ _ _ _ (by omega) (by omega),
        cl_bit _ _ _ _ (by omega), cl_bit _ _ _ _ (by omega), cl_bit _ _ _ _ (by omega), cl_bit _ _ _ _ (by omega), h5]
  · apply get_orIn_zero _ _ _ _ (by omega) (by omega)
    rw [get_orIn_other _ _ _ _ _ _ (by omega), get_orIn_other _ _ _ _ _ _ (by omega), get_orIn_other _ _ _ _ _ _ (by omega)]
    exact get_clear_same _ _ _
  · rw [get_orIn_other _ _ _ _ _ _ (by omega), get_orIn_other _ _ _ _ _ _ (by omega), get_orIn_other _ _ _ _ _ _ (by omega), get_orIn_zero _ _ _ _ (by omega) (by omega)]
    · omega
    · rw [get_clear_other _ _ _ _ _ (by omega), get_clear_other _ _ _ _ _ (by omega), get_clear_other _ _ _ _ _ (by omega)]
      exact get_clear_same _ _ _
  · rw [or_bit _ _ _ _ _ (by omega) (by omega), or_bit _ _ _ _ _ (by omega) (by omega), or_bit _ _ _ _ _ (by omega) (by omega), or_bit _ _ _ _ _ (by omega) (by omega),
      cl_bit _ _ _ _ (by omega), cl_bit _ _ _ _ (by omega), cl_bit _ _ _ _ (by omega), cl_bit _ _ _ _ (by omega)]

theorem hse_ok (hse : Nat) (w : Bool) (s s' : St) (h : setupHse hse w s = .ok s') : (hse ≠ 0 → s'.cr.getLsbD 16 = true) ∧ s'.cr.getLsbD 24 = s.cr.getLsbD 24 ∧ s'.cfgr = s.cfgr ∧ s'.pllcfgr = s.pllcfgr := by
  unfold setupHse at h
  by_cases h0 : hse = 0
  · rw [if_pos h0, Res.ok.injEq] at h
    rw [← h]
    exact ⟨fun q => absurd h0 q, rfl, rfl, rfl⟩
  rw [if_neg h0] at h
  cases w with
  | false => cases h
  | true =>
    rw [if_pos rfl, Res.ok.injEq] at h
    rw [← h]
    exact ⟨fun _ => bset_same _ _ (by omega), bset_ne _ _ _ (by omega), rfl, rfl⟩

/-- the input of the PLL the settings ask for -/
def input (c : Cfg) : Nat := if c.pllsrc = 1 then c.hse else 16000000

/-- the PLL: what setup_pll leaves -/
theorem pll_ok (c : Cfg) (w : Bool) (s s' : St) (h : setupPll c w s = .ok s') (hoff : s.cr.getLsbD 24 = false) (hh : c.hse ≤ 26000000) (h5 : s.pllcfgr.getLsbD 5 = false)
    (hon : c.hse ≠ 0 → s.cr.getLsbD 16 = true) : s'.cr.getLsbD 16 = s.cr.getLsbD 16 ∧ (c.pll ≠ 0 → s'.pll = c.pll ∧ 0 < (get 6 0 s'.pllcfgr).toNat ∧ (2 ≤ (get 6 0 s'.pllcfgr).toNat → input c % (get 6 0 s'.pllcfgr).toNat = 0 → Tells (some c.pll) (pllHz c.hse s'))) := by
  unfold setupPll at h
  by_cases h0 : 2 ≤ c.pllsrc ∨ 84000000 < c.pll
  · rw [if_pos h0] at h; cases h
  rw [if_neg h0] at h
  by_cases hz : c.pll = 0
  · rw [if_pos hz, Res.ok.injEq] at h
    rw [← h]
    exact ⟨bclr_ne _ _ _ (by omega), fun q => absurd hz q⟩
  rw [if_neg hz] at h
  by_cases h1 : c.pllsrc = 1 ∧ c.hse = 0
  · rw [if_pos h1] at h; cases h
  rw [if_neg h1] at h
  dsimp only at h
  rw [show (if c.pllsrc = 1 then c.hse else 16000000) = input c from rfl] at h
  have hi : input c ≤ 26000000 := by
    unfold input
    by_cases q : c.pllsrc = 1
    · rw [if_pos q]; exact hh
    · rw [if_neg q]; omega
  by_cases h2 : input c < 2000000
  · rw [if_pos h2] at h; cases h
  rw [if_neg h2] at h
  cases hf : factors (input c) c.pll with
  | none => rw [hf] at h; cases h
  | some k =>
    rw [hf] at h
    cases w with
    | false => cases h
    | true =>
      dsimp only at h
      rw [if_pos rfl, hoff, if_neg (by decide), Res.ok.injEq] at h
      obtain ⟨m1, m2⟩ := Mpc.find_mem hf
      obtain ⟨k1, k2, k3, k4, k5⟩ := in_cands _ k (by omega) (by omega) m1
      rw [decide_eq_true_eq] at m2
      generalize hr : (if c.pllsrc = 1 then bset 22 s.pllcfgr else bclr 22 s.pllcfgr) = r at h
      have r5 : r.getLsbD 5 = false := by
        rw [← hr]
        by_cases q : c.pllsrc = 1
        · rw [if_pos q, bset_ne _ _ _ (by omega), h5]
        · rw [if_neg q, bclr_ne _ _ _ (by omega), h5]
      have r22 : r.getLsbD 22 = decide (c.pllsrc = 1) := by
        rw [← hr]
        by_cases q : c.pllsrc = 1
        · rw [if_pos q, bset_same _ _ (by omega), decide_eq_true q]
        · rw [if_neg q, bclr_same, decide_eq_false q]
      obtain ⟨g1, g2, g3, g4⟩ := cfg_fields (input c) k r k2 k4 k5 r5
      have e1 : s'.pllcfgr = cfgOf (input c) k r := by rw [← h]
      have e2 : s'.cr = bset 24 s.cr := by rw [← h]
      have e3 : s'.cr.getLsbD 24 = true := by rw [e2]; exact bset_same _ _ (by omega)
      have e4 : s'.cr.getLsbD 16 = s.cr.getLsbD 16 := by rw [e2]; exact bset_ne _ _ _ (by omega)
      refine ⟨e4, fun _ => ⟨by rw [← h], by rw [e1, g1]; omega, ?_⟩⟩
      rw [e1, g1]
      intro q1 q2
      have hin : (if s'.pllcfgr.getLsbD 22 then hseHz c.hse s' else some (16000000, 1)) = some (input c, 1) := by
        unfold hseHz input
        rw [e1, g4, r22, e4]
        by_cases q : c.pllsrc = 1
        · rw [decide_eq_true q, if_pos rfl, if_pos q, hon (by omega), if_pos rfl]
        · rw [decide_eq_false q, if_neg (by decide), if_neg q]
      unfold pllHz vcoHz
      rw [hin, e3, e1, g1, g2, g3, if_neg (by simp only [reduceCtorEq, false_or]; omega)]
      refine ⟨input c * k.2.1, 1 * k.1 * k.2.2, rfl, ?_, ?_⟩
      · rw [Nat.one_mul]; exact Nat.mul_pos (by omega) (by omega)
      · obtain ⟨y, hy⟩ := Nat.dvd_of_mod_eq_zero q2
        have := m2.2
        rw [hy, Nat.mul_div_cancel_left _ (by omega)] at this
        rw [← this, hy, Nat.one_mul, Nat.mul_assoc, Nat.mul_div_mul_left _ _ (by omega)]

/-- what a successful initialisation leaves -/
theorem init_ok (c : Cfg) (e : Env) (s s' : St) (h : init c e s = .ok s') : ∃ s1 s2 f b, setupHse c.hse e.hse s = .ok s1 ∧ setupPll c e.pll s1 = .ok s2 ∧ sysOf c s2 = some f ∧ c.sysclk < 3 ∧
    Stm.BusOk 10 13 c.ahb c.apb1 c.apb2 f s2.cfgr b ∧ s'.cr = s2.cr ∧ s'.pllcfgr = s2.pllcfgr ∧
    s'.cfgr = orIn 2 0 (BitVec.ofNat 32 c.sysclk) (clear 2 0 b.1) ∧ s'.sysclk = f ∧ s'.ahb = f / c.ahb ∧ s'.apb1 = f / c.apb1 ∧ s'.apb2 = f / c.apb2 := by
  unfold init at h
  by_cases h0 : 3 ≤ c.sysclk ∨ c.ahb = 0 ∨ c.apb1 = 0 ∨ c.apb2 = 0
  · rw [if_pos h0] at h; cases h
  rw [if_neg h0] at h
  obtain ⟨s1, e1, h⟩ := Res.bind_ok h
  obtain ⟨s2, e2, h⟩ := Res.bind_ok h
  cases e3 : sysOf c s2 with
  | none => rw [e3] at h; cases h
  | some f =>
    rw [e3] at h
    dsimp only at h
    cases e4 : Stm.bus 10 13 42000000 c.ahb c.apb1 c.apb2 f s2.cfgr with
    | none => rw [e4] at h; cases h
    | some b =>
      rw [e4] at h
      dsimp only at h
      cases hw : e.sw with
      | false => rw [hw] at h; cases h
      | true =>
        rw [hw, if_pos rfl, Res.ok.injEq] at h
        have hb := Stm.bus_ok 10 13 _ _ _ _ _ _ _ (by omega) (by omega) (by omega) e4
        refine ⟨s1, s2, f, b, e1, e2, e3, by omega, hb, ?_, ?_, ?_, ?_, ?_, ?_, ?_⟩
        · rw [← h]
        · rw [← h]
        · rw [← h]
        · rw [← h]
        · rw [← h]; exact hb.rh
        · rw [← h]; exact hb.ra
        · rw [← h]; exact hb.rb

theorem pll_congr (x : Nat) (s s' : St) (h1 : s'.cr = s.cr) (h2 : s'.pllcfgr = s.pllcfgr) : pllHz x s' = pllHz x s := by
  unfold pllHz vcoHz hseHz
  rw [h1, h2]

/-- **C95, stm32f401x**: when the PLL was off, the crystal is in the range of the manual, the sixth bit of PLLM was 0 (as at reset) and the divider found is at least 2 and divides the input, the system clock, HCLK and the LSI are
as told; when the AHB isn't divided, so are PCLK1 and PCLK2.  Missing: the rest (`apb_wrong`, `usb_wrong`, `rounds`, `pll_stays`, `slow_undef`) -/
theorem freq_partial (c : Cfg) (e : Env) (s s' : St) (h : init c e s = .ok s') (hoff : s.cr.getLsbD 24 = false) (hh : c.hse ≤ 26000000) (h5 : s.pllcfgr.getLsbD 5 = false)
    (hd : c.sysclk = 2 → 2 ≤ (get 6 0 s'.pllcfgr).toNat ∧ input c % (get 6 0 s'.pllcfgr).toNat = 0) :
    (∀ k ∈ [0, 3, 7], Tells (getFreq s' k) (hw c.hse s' k)) ∧ (c.ahb = 1 → ∀ k ∈ [4, 5], Tells (getFreq s' k) (hw c.hse s' k)) := by
  obtain ⟨s1, s2, f, b, e1, e2, e3, hs, hb, r1, r2, r3, r4, r5, r6, r7⟩ := init_ok c e s s' h
  obtain ⟨o1, o2, o3, o4⟩ := hse_ok _ _ _ _ e1
  obtain ⟨p1, p2⟩ := pll_ok c e.pll s1 s2 e2 (by rw [o2]; exact hoff) hh (by rw [o4]; exact h5) o1
  have hpll := pll_congr c.hse s2 s' r1 r2
  have hsw : (get 2 0 s'.cfgr).toNat = c.sysclk := by rw [r3]; exact Stm.put_same _ _ _ _ (by omega) (by omega)
  have hk : ∀ w t, 2 ≤ t → get w t s'.cfgr = get w t b.1 := by
    intro w t ht
    rw [r3]; exact Stm.put_other _ _ _ _ _ _ (by omega)
  have hsys : Tells (some f) (sysHz c.hse s') := by
    unfold sysHz
    rw [hsw]
    have hc : c.sysclk = 0 ∨ c.sysclk = 1 ∨ c.sysclk = 2 := by omega
    unfold sysOf at e3
    rcases hc with hc | hc | hc
    · rw [hc] at e3 ⊢
      have e3 : some 16000000 = some f := e3
      rw [← e3]; exact tells_self _
    · rw [hc] at e3 ⊢
      have e3 : (if c.hse = 0 then none else some c.hse) = some f := e3
      by_cases q : c.hse = 0
      · rw [if_pos q] at e3; cases e3
      rw [if_neg q] at e3
      show Tells (some f) (hseHz c.hse s')
      unfold hseHz
      rw [r1, p1, o1 q, if_pos rfl, ← e3]; exact tells_self _
    · have hd := hd hc
      rw [hc] at e3 ⊢
      have e3 : (if c.pll = 0 then none else some s2.pll) = some f := e3
      by_cases q : c.pll = 0
      · rw [if_pos q] at e3; cases e3
      rw [if_neg q] at e3
      show Tells (some f) (pllHz c.hse s')
      obtain ⟨t1, -, t3⟩ := p2 q
      rw [hpll, ← e3, t1]
      rw [r2] at hd
      exact t3 hd.1 hd.2
  have hh' : Tells (some (f / c.ahb)) (hclkHz c.hse s') := by
    unfold hclkHz
    rw [hk 4 4 (by omega), hb.h]
    exact tells_div hsys hb.hp
  refine ⟨?_, ?_⟩
  · intro k hk
    simp only [List.mem_cons, List.not_mem_nil, or_false] at hk
    rcases hk with rfl | rfl | rfl
    · show Tells (some s'.sysclk) (sysHz c.hse s'); rw [r4]; exact hsys
    · show Tells (some s'.ahb) (hclkHz c.hse s'); rw [r5]; exact hh'
    · exact tells_self _
  · intro hahb
    rw [hahb, Nat.div_one] at hh'
    have h4 : Tells (some s'.apb1) (pclkHz c.hse 10 s') := by
      unfold pclkHz
      rw [hk 3 10 (by omega), hb.a, r6]
      exact tells_div hh' hb.ap
    have h5 : Tells (some s'.apb2) (pclkHz c.hse 13 s') := by
      unfold pclkHz
      rw [hk 3 13 (by omega), hb.fb, r7]
      exact tells_div hh' hb.bp
    intro k hk
    simp only [List.mem_cons, List.not_mem_nil, or_false] at hk
    rcases hk with rfl | rfl
    · exact h4
    · exact h5

def reset : St := ⟨0x83#32, 0x24003010#32, 0#32, fun _ => 0#32, 0, 0, 0, 0, 0⟩
def good : Env := ⟨true, true, true⟩
/-- the settings of a board with a crystal of 8 MHz -/
def usual : Cfg := ⟨2, 1, 8000000, 84000000, 1, 2, 1⟩
/-- a view of a result that can be compared -/
def seen {α : Type} (r : Res St) (f : St → α) : Option α := match r with | .ok s => some (f s) | _ => none

/-- the case meets the hypotheses: m = 5 -/
theorem sample : seen (init usual good reset) (fun s => (getFreq s 3, getFreq s 4, (get 6 0 s.pllcfgr).toNat, hw 8000000 s 4)) = some (some 84000000, some 42000000, 5, some (1680000000, 40)) := by decide +kernel

/-- **C95 refuted, stm32f401x**: the APB clocks are divided from HCLK, told as divided from the system clock -/
theorem apb_wrong : seen (init { usual with ahb := 2 } good reset) (fun s => (getFreq s 4, hw 8000000 s 4)) = some (some 42000000, some (1680000000, 80)) ∧ ¬ Tells (some 42000000) (some (1680000000, 80)) :=
  ⟨by decide +kernel, F1.not_tells _ _ _ (by decide)⟩

/-- **refuted**: the USB clock is told as 48 MHz; with the PLL at 80 MHz it is 53.3 -/
theorem usb_wrong : seen (init { usual with pll := 80000000 } good reset) (fun s => (getFreq s 1, hw 8000000 s 1)) = some (some 48000000, some (1600000000, 30)) ∧ ¬ Tells (some 48000000) (some (1600000000, 30)) :=
  ⟨by decide +kernel, F1.not_tells _ _ _ (by decide)⟩

/-- **refuted**: the input is divided first, and cut: 49 999 992 Hz asked of a crystal of 25 MHz are 50 MHz -/
theorem rounds : seen (init { usual with pll := 49999992, hse := 25000000 } good reset) (fun s => (getFreq s 0, hw 25000000 s 0)) = some (some 49999992, some (4800000000, 96)) ∧ ¬ Tells (some 49999992) (some (4800000000, 96)) :=
  ⟨by decide +kernel, F1.not_tells _ _ _ (by decide)⟩

/-- **refuted**: a second initialisation tells a new frequency of the PLL, which keeps its factors -/
theorem pll_stays : seen ((init usual good reset).bind (init { usual with pll := 72000000 } good)) (fun s => (getFreq s 0, hw 8000000 s 0)) = some (some 72000000, some (1680000000, 20)) ∧ ¬ Tells (some 72000000) (some (1680000000, 20)) :=
  ⟨by decide +kernel, F1.not_tells _ _ _ (by decide)⟩

/-- **refuted**: with a crystal under 2 MHz as the input of the PLL the driver divides by 0 -/
theorem slow_undef (c : Cfg) (e : Env) (s : St) (h1 : c.sysclk < 3 ∧ c.ahb ≠ 0 ∧ c.apb1 ≠ 0 ∧ c.apb2 ≠ 0) (h2 : 0 < c.hse ∧ c.hse < 2000000) (h3 : c.pllsrc = 1) (h4 : 0 < c.pll ∧ c.pll ≤ 84000000) (h5 : e.hse = true) : init c e s = .undef := by
  unfold init setupHse
  rw [if_neg (by omega), if_neg (by omega), h5, if_pos rfl]
  show (setupPll c e.pll _).bind _ = _
  unfold setupPll
  rw [if_neg (by omega), if_neg (by omega), if_neg (by omega)]
  dsimp only
  rw [if_pos h3, if_pos h2.2]
  rfl

/-- **C96, stm32f401x**: a call acts on the gate named and on no other -/
theorem enable_does (k : Nat) (s s' : St) (h : enable k s = some s') : ∀ j, runs s' j = (decide (j = k) || runs s j) := by
  unfold enable at h
  by_cases h0 : 0x73 ≤ k
  · rw [if_pos h0] at h; cases h
  rw [if_neg h0, if_pos (show k / 32 < 4 by omega), Option.some.injEq] at h
  intro j
  rw [← h]
  exact gset_bit _ _ _
theorem disable_does (k : Nat) (s s' : St) (h : disable k s = some s') : ∀ j, runs s' j = (!decide (j = k) && runs s j) := by
  unfold disable at h
  by_cases h0 : 0x73 ≤ k
  · rw [if_pos h0] at h; cases h
  rw [if_neg h0, if_pos (show k / 32 < 4 by omega), Option.some.injEq] at h
  intro j
  rw [← h]
  exact gclr_bit _ _ _
theorem gates_accepted (k : Nat) (h : k ∈ gates) (s : St) : (enable k s).isSome ∧ (disable k s).isSome := by
  have h1 : ∀ k ∈ gates, k < 0x73 := by decide
  have := h1 k h
  unfold enable disable
  rw [if_neg (show ¬ 0x73 ≤ k by omega), if_neg (show ¬ 0x73 ≤ k by omega), if_pos (show k / 32 < 4 by omega), if_pos (show k / 32 < 4 by omega)]
  exact ⟨rfl, rfl⟩

end F4
end Pico.Clock
