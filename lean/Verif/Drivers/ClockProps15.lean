import Verif.Drivers.ClockProps14
/-
Clocks (C95, C96): stm32l4x.
-/
namespace Pico.Clock
open Field

namespace L4

theorem in_cands (i : Nat) (k : Nat × Nat × Nat) (h2 : 16000000 ≤ i) (h : k ∈ cands i) : 1 ≤ k.1 ∧ k.1 ≤ i / 4000000 ∧ 8 ≤ k.2.1 ∧ k.2.1 ≤ 86 ∧ (k.2.2 = 2 ∨ k.2.2 = 4 ∨ k.2.2 = 6 ∨ k.2.2 = 8) := by
  unfold cands at h
  simp only [List.mem_flatMap, List.mem_map, List.mem_range, List.mem_cons, List.not_mem_nil, or_false] at h
  obtain ⟨m, hm, n, hn, p, hp, rfl⟩ := h
  dsimp only
  omega

/-- the fields of PLLCFGR -/
theorem cfg_fields (i : Nat) (k : Nat × Nat × Nat) (r : BitVec 32) (h0 : 1 ≤ k.1) (h1 : k.1 ≤ 8) (h2 : k.2.1 ≤ 86) (h3 : k.2.2 = 2 ∨ k.2.2 = 4 ∨ k.2.2 = 6 ∨ k.2.2 = 8) :
    (get 3 4 (cfgOf i k r)).toNat + 1 = k.1 ∧ (get 7 8 (cfgOf i k r)).toNat = k.2.1 ∧ 2 * ((get 2 25 (cfgOf i k r)).toNat + 1) = k.2.2 ∧ (cfgOf i k r).getLsbD 24 = true ∧ get 2 0 (cfgOf i k r) = get 2 0 r := by
  unfold cfgOf
  refine ⟨?_, ?_, ?_, ?_, ?_⟩
  · rw [get_orIn_other _ _ _ _ _ _ (by omega), get_orIn_zero _ _ _ _ (by omega) (by omega)]
    · omega
    · rw [get_orIn_other _ _ _ _ _ _ (by omega), get_bset_other _ _ _ _ (by omega), get_orIn_other _ _ _ _ _ _ (by omega), get_clear_other _ _ _ _ _ (by omega)]
      exact get_clear_same _ _ _
  · apply get_orIn_zero _ _ _ _ (by omega) (by omega)
    rw [get_orIn_other _ _ _ _ _ _ (by omega), get_orIn_other _ _ _ _ _ _ (by omega), get_bset_other _ _ _ _ (by omega), get_orIn_other _ _ _ _ _ _ (by omega)]
    exact get_clear_same _ _ _
  · rw [get_orIn_other _ _ _ _ _ _ (by omega), get_orIn_other _ _ _ _ _ _ (by omega), get_orIn_other _ _ _ _ _ _ (by omega), get_bset_other _ _ _ _ (by omega), get_orIn_zero _ _ _ _ (by omega) (by omega)]
    · omega
    · rw [get_clear_other _ _ _ _ _ (by omega), get_clear_other _ _ _ _ _ (by omega), get_clear_other _ _ _ _ _ (by omega)]
      exact get_clear_same _ _ _
  · rw [F4.or_bit _ _ _ _ _ (by omega) (by omega), F4.or_bit _ _ _ _ _ (by omega) (by omega), F4.or_bit _ _ _ _ _ (by omega) (by omega)]
    exact bset_same _ _ (by omega)
  · rw [get_orIn_other _ _ _ _ _ _ (by omega), get_orIn_other _ _ _ _ _ _ (by omega), get_orIn_other _ _ _ _ _ _ (by omega), get_bset_other _ _ _ _ (by omega), get_orIn_other _ _ _ _ _ _ (by omega),
      get_clear_other _ _ _ _ _ (by omega), get_clear_other _ _ _ _ _ (by omega), get_clear_other _ _ _ _ _ (by omega), get_clear_other _ _ _ _ _ (by omega)]

theorem hse_ok (hse : Nat) (w : Bool) (s s' : St) (h : setupHse hse w s = .ok s') : (hse ≠ 0 → s'.cr.getLsbD 16 = true) ∧ s'.cr.getLsbD 24 = s.cr.getLsbD 24 ∧ s'.cr.getLsbD 8 = s.cr.getLsbD 8 ∧ s'.cfgr = s.cfgr := by
  unfold setupHse at h
  by_cases h0 : hse = 0
  · rw [if_pos h0, Res.ok.injEq] at h
    rw [← h]
    exact ⟨fun q => absurd h0 q, rfl, rfl, rfl⟩
  rw [if_neg h0] at h
  cases w with
  | false => cases h
  | true =>
    rw [if_pos rfl, Res.ok.injEq] at h
    rw [← h]
    exact ⟨fun _ => bset_same _ _ (by omega), bset_ne _ _ _ (by omega), bset_ne _ _ _ (by omega), rfl⟩

/-- the input of the PLL the settings ask for: the crystal, or the HSI16 -/
def input (c : Cfg) : Nat := if c.pllsrc = 3 then c.hse else 16000000

/-- the PLL: what setup_pll leaves -/
theorem pll_ok (c : Cfg) (w : Bool) (s s' : St) (h : setupPll c w s = .ok s') (hoff : s.cr.getLsbD 24 = false) (hh : c.hse ≤ 48000000) (hon : c.hse ≠ 0 → s.cr.getLsbD 16 = true) : s'.cr.getLsbD 16 = s.cr.getLsbD 16 ∧
    (c.pll ≠ 0 → c.pllsrc ≠ 0 → s'.pll = c.pll ∧ ((c.pllsrc ≠ 3 → s.cr.getLsbD 8 = true) → input c % ((get 3 4 s'.pllcfgr).toNat + 1) = 0 → Tells (some c.pll) (pllHz c.hse s'))) := by
  unfold setupPll at h
  by_cases h0 : 4 ≤ c.pllsrc ∨ 80000000 < c.pll
  · rw [if_pos h0] at h; cases h
  rw [if_neg h0] at h
  by_cases hz : c.pll = 0 ∨ c.pllsrc = 0
  · rw [if_pos hz, Res.ok.injEq] at h
    rw [← h]
    exact ⟨bclr_ne _ _ _ (by omega), fun q q' => absurd hz (by omega)⟩
  rw [if_neg hz] at h
  by_cases h1 : c.pllsrc = 3 ∧ c.hse = 0
  · rw [if_pos h1] at h; cases h
  rw [if_neg h1] at h
  dsimp only at h
  rw [show (if c.pllsrc = 3 then c.hse else 16000000) = input c from rfl] at h
  have hi : input c ≤ 48000000 := by
    unfold input
    by_cases q : c.pllsrc = 3
    · rw [if_pos q]; exact hh
    · rw [if_neg q]; omega
  by_cases h2 : input c < 16000000
  · rw [if_pos h2] at h; cases h
  rw [if_neg h2] at h
  cases hf : factors (input c) c.pll with
  | none => rw [hf] at h; cases h
  | some k =>
    rw [hf] at h
    cases w with
    | false => cases h
    | true =>
      dsimp only at h
      rw [if_pos rfl, hoff, if_neg (by decide), Res.ok.injEq] at h
      obtain ⟨m1, m2⟩ := Mpc.find_mem hf
      obtain ⟨k1, k2, k3, k4, k5⟩ := in_cands _ k (by omega) m1
      rw [decide_eq_true_eq] at m2
      have k6 : k.1 ≤ 8 := by
        by_cases q : k.1 ≤ 8
        · exact q
        have := m2.1
        have : input c / k.1 ≤ 48000000 / 9 := Nat.div_le_div hi (by omega) (by omega)
        omega
      generalize hr : orIn 2 0 (if c.pllsrc = 3 then 3#32 else 2#32) (clear 2 0 s.pllcfgr) = r at h
      have hr2 : (get 2 0 r).toNat = if c.pllsrc = 3 then 3 else 2 := by
        rw [← hr]
        by_cases q : c.pllsrc = 3
        · rw [if_pos q, if_pos q]; exact Stm.put_same 2 0 3 _ (by omega) (by omega)
        · rw [if_neg q, if_neg q]; exact Stm.put_same 2 0 2 _ (by omega) (by omega)
      obtain ⟨g1, g2, g3, g4, g5⟩ := cfg_fields (input c) k r k1 k6 k4 k5
      have e1 : s'.pllcfgr = cfgOf (input c) k r := by rw [← h]
      have e2 : s'.cr = bset 24 s.cr := by rw [← h]
      have e3 : s'.cr.getLsbD 24 = true := by rw [e2]; exact bset_same _ _ (by omega)
      have e4 : s'.cr.getLsbD 16 = s.cr.getLsbD 16 := by rw [e2]; exact bset_ne _ _ _ (by omega)
      have e5 : s'.cr.getLsbD 8 = s.cr.getLsbD 8 := by rw [e2]; exact bset_ne _ _ _ (by omega)
      refine ⟨e4, fun _ _ => ⟨by rw [← h], ?_⟩⟩
      rw [e1, g1]
      intro q1 q2
      have hin : inHz c.hse s' = some (input c, 1) := by
        unfold inHz
        rw [e1, g5, hr2]
        unfold input
        by_cases q : c.pllsrc = 3
        · rw [if_pos q, if_pos q]
          show hseHz c.hse s' = _
          unfold hseHz
          rw [e4, hon (by omega), if_pos rfl]
        · rw [if_neg q, if_neg q]
          show hsiHz s' = _
          unfold hsiHz
          rw [e5, q1 q, if_pos rfl]
      unfold pllHz vcoHz
      rw [hin, e3, e1, g1, g2, g3, g4, if_pos rfl, if_neg (by decide)]
      refine ⟨input c * k.2.1, 1 * k.1 * k.2.2, rfl, ?_, ?_⟩
      · rw [Nat.one_mul]; exact Nat.mul_pos (by omega) (by omega)
      · obtain ⟨y, hy⟩ := Nat.dvd_of_mod_eq_zero q2
        have := m2.2.2
        rw [hy, Nat.mul_div_cancel_left _ (by omega)] at this
        rw [← this, hy, Nat.one_mul, Nat.mul_assoc, Nat.mul_div_mul_left _ _ (by omega)]

/-- what the end of the initialisation leaves -/
theorem finish_ok (c : Cfg) (e : Env) (f : Nat) (s s' : St) (h : finish c e f s = .ok s') : ∃ b, Stm.BusOk 8 11 c.ahb c.apb1 c.apb2 f s.cfgr b ∧ s'.cr = s.cr ∧ s'.pllcfgr = s.pllcfgr ∧
    s'.cfgr = orIn 2 0 (BitVec.ofNat 32 c.sysclk) (clear 2 0 b.1) ∧ s'.sysclk = f ∧ s'.ahb = f / c.ahb ∧ s'.apb1 = f / c.apb1 ∧ s'.apb2 = f / c.apb2 := by
  unfold finish at h
  cases e4 : Stm.bus 8 11 42000000 c.ahb c.apb1 c.apb2 f s.cfgr with
  | none => rw [e4] at h; cases h
  | some b =>
    rw [e4] at h
    dsimp only at h
    cases hw : e.sw with
    | false => rw [hw] at h; cases h
    | true =>
      rw [hw, if_pos rfl, Res.ok.injEq] at h
      have hb := Stm.bus_ok 8 11 _ _ _ _ _ _ _ (by omega) (by omega) (by omega) e4
      refine ⟨b, hb, ?_, ?_, ?_, ?_, ?_, ?_, ?_⟩
      · rw [← h]
      · rw [← h]
      · rw [← h]
      · rw [← h]
      · rw [← h]; exact hb.rh
      · rw [← h]; exact hb.ra
      · rw [← h]; exact hb.rb

theorem pll_congr (x : Nat) (s s' : St) (h1 : s'.cr = s.cr) (h2 : s'.pllcfgr = s.pllcfgr) : pllHz x s' = pllHz x s := by
  unfold pllHz vcoHz inHz hseHz hsiHz msiHz
  rw [h1, h2]

/-- the clocks once the system clock is known -/
theorem from_sys (c : Cfg) (e : Env) (f : Nat) (s s' : St) (hs : c.sysclk < 4) (h : finish c e f s = .ok s') (hsys : (get 2 0 s'.cfgr).toNat = c.sysclk → s'.cr = s.cr → s'.pllcfgr = s.pllcfgr → Tells (some f) (sysHz c.hse s')) :
    (∀ k ∈ [0, 1, 15], Tells (getFreq s' k) (hw c.hse s' k)) ∧ (c.ahb = 1 → ∀ k ∈ [2, 8], Tells (getFreq s' k) (hw c.hse s' k)) := by
  obtain ⟨b, hb, r1, r2, r3, r4, r5, r6, r7⟩ := finish_ok c e f s s' h
  have hsys := hsys (by rw [r3]; exact Stm.put_same _ _ _ _ (by omega) (by omega)) r1 r2
  have hk : ∀ w t, 2 ≤ t → get w t s'.cfgr = get w t b.1 := by
    intro w t ht
    rw [r3]; exact Stm.put_other _ _ _ _ _ _ (by omega)
  have hh' : Tells (some (f / c.ahb)) (hclkHz c.hse s') := by
    unfold hclkHz
    rw [hk 4 4 (by omega), hb.h]
    exact tells_div hsys hb.hp
  refine ⟨?_, ?_⟩
  · intro k hk
    simp only [List.mem_cons, List.not_mem_nil, or_false] at hk
    rcases hk with rfl | rfl | rfl
    · show Tells (some s'.sysclk) (sysHz c.hse s'); rw [r4]; exact hsys
    · show Tells (some s'.ahb) (hclkHz c.hse s'); rw [r5]; exact hh'
    · exact tells_self _
  · intro hahb
    rw [hahb, Nat.div_one] at hh'
    have h4 : Tells (some s'.apb1) (pclkHz c.hse 8 s') := by
      unfold pclkHz
      rw [hk 3 8 (by omega), hb.a, r6]
      exact tells_div hh' hb.ap
    have h5 : Tells (some s'.apb2) (pclkHz c.hse 11 s') := by
      unfold pclkHz
      rw [hk 3 11 (by omega), hb.fb, r7]
      exact tells_div hh' hb.bp
    intro k hk
    simp only [List.mem_cons, List.not_mem_nil, or_false] at hk
    rcases hk with rfl | rfl
    · exact h4
    · exact h5

/-- **C95, stm32l4x**: when the PLL was off, the crystal is in the range of the manual, the clock asked isn't the MSI, and - for the PLL - there is a source, the HSI16 runs if it is the source, and the divider found divides the
input, the system clock, HCLK and the LSI are as told; when the AHB isn't divided, so are PCLK1 and PCLK2.  Missing: the rest (`apb_wrong`, `msi_stale`, `hsi_off`, `rounds`, `pll_stays`, `slow_undef`) -/
theorem freq_partial (c : Cfg) (e : Env) (s s' : St) (h : init c e s = .ok s') (hoff : s.cr.getLsbD 24 = false) (hh : c.hse ≤ 48000000) (h0 : c.sysclk ≠ 0)
    (hd : c.sysclk = 3 → c.pllsrc ≠ 0 ∧ (c.pllsrc ≠ 3 → s.cr.getLsbD 8 = true) ∧ input c % ((get 3 4 s'.pllcfgr).toNat + 1) = 0) :
    (∀ k ∈ [0, 1, 15], Tells (getFreq s' k) (hw c.hse s' k)) ∧ (c.ahb = 1 → ∀ k ∈ [2, 8], Tells (getFreq s' k) (hw c.hse s' k)) := by
  unfold init at h
  by_cases h1 : 4 ≤ c.sysclk ∨ c.ahb = 0 ∨ c.apb1 = 0 ∨ c.apb2 = 0
  · rw [if_pos h1] at h; cases h
  rw [if_neg h1] at h
  obtain ⟨s1, e1, h⟩ := Res.bind_ok h
  obtain ⟨s2, e2, h⟩ := Res.bind_ok h
  obtain ⟨o1, o2, o3, o4⟩ := hse_ok _ _ _ _ e1
  obtain ⟨p1, p2⟩ := pll_ok c e.pll s1 s2 e2 (by rw [o2]; exact hoff) hh o1
  have hc : c.sysclk = 1 ∨ c.sysclk = 2 ∨ c.sysclk = 3 := by omega
  rcases hc with hc | hc | hc
  · have h : (if e.hsi then finish c e 16000000 { s2 with cr := bset 8 s2.cr } else .fail) = .ok s' := by rw [hc] at h; exact h
    cases hi : e.hsi with
    | false => rw [hi] at h; cases h
    | true =>
      rw [hi, if_pos rfl] at h
      refine from_sys c e _ _ s' (by omega) h ?_
      intro t1 t2 t3
      unfold sysHz
      rw [t1, hc]
      show Tells _ (hsiHz s')
      unfold hsiHz
      rw [t2, show (bset 8 s2.cr).getLsbD 8 = true from bset_same _ _ (by omega), if_pos rfl]
      exact tells_self _
  · have h : (if c.hse = 0 then .fail else finish c e c.hse s2) = .ok s' := by rw [hc] at h; exact h
    by_cases q : c.hse = 0
    · rw [if_pos q] at h; cases h
    rw [if_neg q] at h
    refine from_sys c e _ _ s' (by omega) h ?_
    intro t1 t2 t3
    unfold sysHz
    rw [t1, hc]
    show Tells _ (hseHz c.hse s')
    unfold hseHz
    rw [t2, p1, o1 q, if_pos rfl]
    exact tells_self _
  · obtain ⟨d1, d2, d3⟩ := hd hc
    have h : (if c.pll = 0 then .fail else finish c e s2.pll s2) = .ok s' := by rw [hc] at h; exact h
    by_cases q : c.pll = 0
    · rw [if_pos q] at h; cases h
    rw [if_neg q] at h
    refine from_sys c e _ _ s' (by omega) h ?_
    intro t1 t2 t3
    obtain ⟨v1, v2⟩ := p2 q d1
    unfold sysHz
    rw [t1, hc]
    show Tells _ (pllHz c.hse s')
    rw [pll_congr c.hse s2 s' t2 t3, v1]
    rw [t3] at d3
    exact v2 (by rw [o3]; exact d2) d3

def reset : St := ⟨0x63#32, 0x1000#32, 0#32, fun _ => 0#32, 0, 0, 0, 0, 0⟩
def good : Env := ⟨true, true, true, true⟩
/-- the PLL on a crystal of 16 MHz -/
def usual : Cfg := ⟨3, 3, 16000000, 80000000, 1, 2, 1⟩
/-- a view of a result that can be compared -/
def seen {α : Type} (r : Res St) (f : St → α) : Option α := match r with | .ok s => some (f s) | _ => none

/-- the case meets the hypotheses: m = 1 -/
theorem sample : seen (init usual good reset) (fun s => (getFreq s 1, getFreq s 2, (get 3 4 s.pllcfgr).toNat + 1, hw 16000000 s 2)) = some (some 80000000, some 40000000, 1, some (160000000, 4)) := by decide +kernel

/-- **C95 refuted, stm32l4x**: the APB clocks are divided from HCLK, told as divided from the system clock -/
theorem apb_wrong : seen (init { usual with ahb := 2 } good reset) (fun s => (getFreq s 2, hw 16000000 s 2)) = some (some 40000000, some (160000000, 8)) ∧ ¬ Tells (some 40000000) (some (160000000, 8)) :=
  ⟨by decide +kernel, F1.not_tells _ _ _ (by decide)⟩

/-- **refuted**: the MSI asked as the system clock, the initialisation succeeds, switches nothing and tells what it told before: from reset 0, after the PLL still the PLL -/
theorem msi_stale : seen (init { usual with sysclk := 0 } good reset) (fun s => (getFreq s 0, hw 16000000 s 0)) = some (some 0, some (4000000, 1)) ∧
    seen ((init usual good reset).bind (init { usual with sysclk := 0 } good)) (fun s => (get 2 0 s.cfgr).toNat) = some 3 ∧ ¬ Tells (some 0) (some (4000000, 1)) :=
  ⟨by decide +kernel, by decide +kernel, F1.not_tells _ _ _ (by decide)⟩

/-- **refuted**: with the HSI16 (or the MSI, for which it is taken) as the source, the PLL is started on an oscillator nobody started: from reset it has no input -/
theorem hsi_off : seen (init { usual with pllsrc := 2 } good reset) (fun s => (getFreq s 0, hw 16000000 s 0)) = some (some 80000000, none) ∧
    seen (init { usual with pllsrc := 1 } good reset) (fun s => (get 2 0 s.pllcfgr).toNat) = some 2 := ⟨by decide +kernel, by decide +kernel⟩

/-- **refuted**: the input is divided first, and cut: 33 333 332 Hz asked of a crystal of 25 MHz are 33 333 333 -/
theorem rounds : seen (init { usual with pll := 33333332, hse := 25000000 } good reset) (fun s => (getFreq s 0, hw 25000000 s 0)) = some (some 33333332, some (200000000, 6)) ∧ ¬ Tells (some 33333332) (some (200000000, 6)) :=
  ⟨by decide +kernel, F1.not_tells _ _ _ (by decide)⟩

/-- **refuted**: a second initialisation tells a new frequency of the PLL, which keeps its factors -/
theorem pll_stays : seen ((init usual good reset).bind (init { usual with pll := 64000000 } good)) (fun s => (getFreq s 0, hw 16000000 s 0)) = some (some 64000000, some (160000000, 2)) ∧ ¬ Tells (some 64000000) (some (160000000, 2)) :=
  ⟨by decide +kernel, F1.not_tells _ _ _ (by decide)⟩

/-- a frequency the chip makes (25 MHz / 5 * 64 / 4) that the driver doesn't find: a VCO that is too slow ends the search on N, which would make it faster -/
theorem misses : seen (init { usual with hse := 25000000 } good reset) (fun s => s.sysclk) = none ∧ 64000000 ≤ 25000000 / 5 * 64 ∧ 25000000 / 5 * 64 ≤ 344000000 ∧ 25000000 / 5 * 64 / 4 = 80000000 := ⟨by decide +kernel, by decide⟩

/-- **refuted**: with a crystal under 16 MHz as the input of the PLL - most are - the driver divides by 0 -/
theorem slow_undef (c : Cfg) (e : Env) (s : St) (h1 : c.sysclk < 4 ∧ c.ahb ≠ 0 ∧ c.apb1 ≠ 0 ∧ c.apb2 ≠ 0) (h2 : 0 < c.hse ∧ c.hse < 16000000) (h3 : c.pllsrc = 3) (h4 : 0 < c.pll ∧ c.pll ≤ 80000000) (h5 : e.hse = true) : init c e s = .undef := by
  unfold init setupHse
  rw [if_neg (by omega), if_neg (by omega), h5, if_pos rfl]
  show (setupPll c e.pll _).bind _ = _
  unfold setupPll
  rw [if_neg (by omega), if_neg (by omega), if_neg (by omega)]
  dsimp only
  rw [if_pos h3, if_pos h2.2]
  rfl

/-- **C96, stm32l4x**: a call acts on the gate named and on no other -/
theorem enable_does (k : Nat) (s s' : St) (h : enable k s = some s') : ∀ j, runs s' j = (decide (j = k) || runs s j) := by
  unfold enable at h
  by_cases h0 : 0xb9 ≤ k
  · rw [if_pos h0] at h; cases h
  rw [if_neg h0, if_pos (show k / 32 < 6 by omega), Option.some.injEq] at h
  intro j
  rw [← h]
  exact gset_bit _ _ _
theorem disable_does (k : Nat) (s s' : St) (h : disable k s = some s') : ∀ j, runs s' j = (!decide (j = k) && runs s j) := by
  unfold disable at h
  by_cases h0 : 0xb9 ≤ k
  · rw [if_pos h0] at h; cases h
  rw [if_neg h0, if_pos (show k / 32 < 6 by omega), Option.some.injEq] at h
  intro j
  rw [← h]
  exact gclr_bit _ _ _
theorem gates_accepted (k : Nat) (h : k ∈ gates) (s : St) : (enable k s).isSome ∧ (disable k s).isSome := by
  have h1 : ∀ k ∈ gates, k < 0xb9 := by decide
  have := h1 k h
  unfold enable disable
  rw [if_neg (show ¬ 0xb9 ≤ k by omega), if_neg (show ¬ 0xb9 ≤ k by omega), if_pos (show k / 32 < 6 by omega), if_pos (show k / 32 < 6 by omega)]
  exact ⟨rfl, rfl⟩

end L4
end Pico.Clock
