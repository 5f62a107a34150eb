/-
The SPI drivers (C89, C90): theorems, continued.
-/
import Verif.Drivers.SpiSetupProps

namespace Pico.SpiSetup
open Pico.Field

/-! ### stm32h7xx -/

theorem stmMbr_low (f b : Nat) (h : f / 256 ≤ b) : ∃ i, i < 8 ∧ (List.range 8).find? (fun i => decide (f / 2 ^ (i + 1) ≤ b)) = some i := by
  have : ((List.range 8).find? fun i => decide (f / 2 ^ (i + 1) ≤ b)).isSome := by
    rw [List.find?_isSome]
    exact ⟨7, by decide, by simpa using h⟩
  obtain ⟨i, hi⟩ := Option.isSome_iff_exists.1 this
  exact ⟨i, (find_range_some _ _ _ hi).1, hi⟩

theorem stm_pre (f : Nat) (s : Settings) (r : Stm) :
    stmSetup f s r = ((opt s.bitrate (stmRate f s.bitrate) { r with cr1 := bclr 0 r.cr1, cfg2 := bset 29 (bclr 26 r.cfg2) }).bind fun r =>
      (opt s.clk (stmClk s.clk) r).bind fun r => (opt s.nbits (stmBits s.nbits) r).bind fun r => (opt s.mode (stmMode s.mode) r).map fun r =>
        { r with cr1 := bset 0 r.cr1, cfg2 := if s.csPol = 0 then r.cfg2 else if s.csPol = 1 then bclr 28 r.cfg2 else bset 28 r.cfg2 }) := by
  unfold stmSetup
  congr; funext r1; congr; funext r2; congr; funext r3
  cases opt s.mode (stmMode s.mode) r3 with
  | none => rfl
  | some r4 =>
    rw [Option.bind_some, Option.map_some]
    unfold opt stmPol
    by_cases c : s.csPol = 0
    · simp only [c, if_true]; rfl
    · simp only [c, if_false]; rfl

/-- **C89, C90, stm32h7xx**, for the rates from f / 256 on: everything as asked; SCK is the fastest of the rates available that are not above the one asked -/
theorem stm_setup_partial (f : Nat) (s : Settings) (r r' : Stm) (hb : s.bitrate = 0 ∨ f / 256 ≤ s.bitrate) (h : stmSetup f s r = some r') :
    Asked (Fastest (Pow2 8) f) s (stmView r) (stmView r') := by
  rw [stm_pre] at h
  refine chain stmView (Fastest (Pow2 8) f) s (stmRate f s.bitrate) (stmClk s.clk) (stmBits s.nbits) (stmMode s.mode)
    (fun r => { r with cr1 := bclr 0 r.cr1, cfg2 := bset 29 (bclr 26 r.cfg2) })
    (fun r => { r with cr1 := bset 0 r.cr1, cfg2 := if s.csPol = 0 then r.cfg2 else if s.csPol = 1 then bclr 28 r.cfg2 else bset 28 r.cfg2 }) ?_ ?_ ?_ ?_ ?_ ?_ r r' h
  · intro r; exact ⟨false, by unfold stmView; bits⟩
  · intro r
    by_cases c : s.csPol = 0
    · simp only [c, if_true]; unfold stmView; bits
    · by_cases c1 : s.csPol = 1
      · simp only [if_neg c, if_pos c1]; unfold stmView; bits
      · simp only [c, c1, if_false]; unfold stmView; bits
  · intro r r' c e
    obtain ⟨i, h8, hi⟩ := stmMbr_low f s.bitrate (by rcases hb with hb | hb; exact absurd hb c; exact hb)
    cases e
    unfold stmView
    refine ⟨?_, by bits⟩
    unfold stmMbr
    rw [hi, Option.getD_some]
    dsimp only
    rw [get_put_nat _ _ _ _ (by decide) (by omega)]
    exact fastest_of_find _ _ _ _ hi
  · intro r r' _ e
    obtain ⟨x, hx, rfl⟩ := Option.map_eq_some_iff.1 e
    obtain ⟨h1, h2, h3, h4⟩ := clk2_some _ _ _ _ _ hx (by decide) (by decide) (by decide)
    unfold stmView
    simp (disch := decide) only [h1, h2, h3]
  · intro r r' _ e
    unfold stmBits at e
    by_cases c : 4 ≤ s.nbits ∧ s.nbits ≤ 32
    · rw [if_pos c] at e
      cases e
      unfold stmView; bits
      rw [get_put_nat _ _ _ _ (by decide) (by omega), Nat.sub_add_cancel (by omega)]
    · rw [if_neg c] at e; cases e
  · intro r r' _ e
    cases e
    by_cases c : s.mode = 1
    · rw [c, if_pos rfl]; unfold stmView; bits; rfl
    · rw [if_neg c]; unfold stmView; bits; simp [c]

/-- every rate is accepted, and any mode, 4 to 32 bits -/
theorem stm_accepts (f : Nat) (s : Settings) (r : Stm) (hs : InRange s) (hn : s.nbits = 0 ∨ 4 ≤ s.nbits ∧ s.nbits ≤ 32) : ∃ r', stmSetup f s r = some r' := by
  rw [stm_pre]
  refine chain_accepts s (stmRate f s.bitrate) (stmClk s.clk) (stmBits s.nbits) (stmMode s.mode)
    (fun r => { r with cr1 := bclr 0 r.cr1, cfg2 := bset 29 (bclr 26 r.cfg2) }) _ ?_ ?_ ?_ ?_ r
  · intro c r; exact ⟨_, rfl⟩
  · intro c r
    obtain ⟨x, hx⟩ := clk2_accepts 25 24 s.clk r.cfg2 ⟨by omega, by have := hs.2.1; omega⟩
    exact ⟨_, by unfold stmClk; rw [hx]; rfl⟩
  · intro c r
    rcases hn with c' | c'
    · exact absurd c' c
    · exact ⟨_, by unfold stmBits; rw [if_pos c']⟩
  · intro c r; exact ⟨_, rfl⟩

/-- **C89, stm32h7xx, refuted** for the rates below f / 256: SCK is f / 2, the fastest rate there is -/
theorem stm_slow (f b : Nat) (r r' : Stm) (hb : b < f / 256) (h : stmRate f b r = some r') : (stmView r').div = 2 := by
  have e : (List.range 8).find? (fun i => decide (f / 2 ^ (i + 1) ≤ b)) = none := by
    rw [List.find?_eq_none]
    intro i hi
    rw [List.mem_range] at hi
    simp only [decide_eq_true_eq]
    have : f / 2 ^ 8 ≤ f / 2 ^ (i + 1) := Nat.div_le_div_left (Nat.pow_le_pow_right (by decide) (by omega)) (Nat.two_pow_pos _)
    omega
  cases h
  unfold stmView stmMbr
  rw [e, Option.getD_none]
  dsimp only
  rw [get_put_mod _ _ _ _ (by decide)]

/-- a case: 200 MHz, 400 kHz asked (a SD card): 100 MHz -/
example : (stmSetup 200000000 ⟨400000, 1, 1, 8, 0, 0⟩ ⟨0, 0x00070007, 0, 8⟩).map stmView = some ⟨2, false, false, true, 8, true, 8⟩ := by decide +kernel

/-- **C90, stm32h7xx**: the polarity of the chip select -/
theorem stm_cs (f : Nat) (s : Settings) (r r' : Stm) (hs : InRange s) (h : stmSetup f s r = some r') : stmCsHigh r' = if s.csPol = 0 then stmCsHigh r else s.csPol == 2 := by
  rw [stm_pre] at h
  obtain ⟨r1, h1, h⟩ := Option.bind_eq_some_iff.1 h
  obtain ⟨r2, h2, h⟩ := Option.bind_eq_some_iff.1 h
  obtain ⟨r3, h3, h⟩ := Option.bind_eq_some_iff.1 h
  obtain ⟨r4, h4, h⟩ := Option.map_eq_some_iff.1 h
  have i1 : stmCsHigh r1 = stmCsHigh r := by
    unfold opt at h1
    by_cases c : s.bitrate = 0
    · rw [if_pos c] at h1; cases h1; unfold stmCsHigh; bits
    · rw [if_neg c] at h1; cases h1; unfold stmCsHigh; bits
  have i2 : stmCsHigh r2 = stmCsHigh r1 := by
    unfold opt at h2
    by_cases c : s.clk = 0
    · rw [if_pos c] at h2; cases h2; rfl
    · rw [if_neg c] at h2
      obtain ⟨x, hx, rfl⟩ := Option.map_eq_some_iff.1 h2
      exact (clk2_some _ _ _ _ _ hx (by decide) (by decide) (by decide)).2.2.1 28 (by decide) (by decide)
  have i3 : stmCsHigh r3 = stmCsHigh r2 := by
    unfold opt at h3
    by_cases c : s.nbits = 0
    · rw [if_pos c] at h3; cases h3; rfl
    · rw [if_neg c] at h3
      unfold stmBits at h3
      by_cases c' : 4 ≤ s.nbits ∧ s.nbits ≤ 32
      · rw [if_pos c'] at h3; cases h3; rfl
      · rw [if_neg c'] at h3; cases h3
  have i4 : stmCsHigh r4 = stmCsHigh r3 := by
    unfold opt at h4
    by_cases c : s.mode = 0
    · rw [if_pos c] at h4; cases h4; rfl
    · rw [if_neg c] at h4
      cases h4
      unfold stmCsHigh
      by_cases c' : s.mode = 1
      · simp only [c', if_true]; bits
      · simp only [c', if_false]; bits
  rw [← i1, ← i2, ← i3, ← i4, ← h]
  unfold stmCsHigh
  obtain ⟨_, _, hp⟩ := hs
  have : s.csPol = 0 ∨ s.csPol = 1 ∨ s.csPol = 2 := by omega
  rcases this with c | c | c
  · simp only [c, if_true]
  · simp only [c, if_true, Nat.one_ne_zero, if_false]; bits; rfl
  · simp only [c, show ¬ (2 = 0) by decide, show ¬ (2 = 1) by decide, if_false]; bits; rfl

/-! ### nxp_dspi -/

theorem mem_pairs (n m : Nat) (c : Nat × Nat) (h : c ∈ (List.range n).flatMap fun i => (List.range m).map fun j => (i, j)) : c.1 < n ∧ c.2 < m := by
  simp only [List.mem_flatMap, List.mem_map, List.mem_range] at h
  obtain ⟨i, hi, j, hj, rfl⟩ := h
  exact ⟨hi, hj⟩

theorem pairs_mem (n m i j : Nat) (hi : i < n) (hj : j < m) : (i, j) ∈ (List.range n).flatMap fun i => (List.range m).map fun j => (i, j) := by
  simp only [List.mem_flatMap, List.mem_map, List.mem_range]
  exact ⟨i, hi, j, hj, rfl⟩

/-- the rates above f / 4 are always refused -/
theorem dspi_fast (f b : Nat) (r : Dspi) (hb : f / 4 < b) : dspiRate f b r = none := by
  unfold dspiRate
  rw [if_pos hb, Option.map_eq_none_iff, List.find?_eq_none]
  intro c hc
  obtain ⟨h1, h2⟩ := mem_pairs _ _ _ hc
  simp only [decide_eq_true_eq]
  have hp : ∀ i : Fin 4, 2 ≤ pbr.getD i.val 0 := by decide
  have hq : ∀ i : Fin 16, 2 ≤ br.getD i.val 0 := by decide
  have h1 := hp ⟨c.1, h1⟩
  have h2 := hq ⟨c.2, h2⟩
  dsimp only at h1 h2
  rw [Nat.div_div_eq_div_mul]
  have : 4 ≤ pbr.getD c.1 0 * 2 * br.getD c.2 0 := Nat.le_trans (show 4 ≤ 4 * 1 by decide) (Nat.mul_le_mul (by omega) (by omega))
  have : f / (pbr.getD c.1 0 * 2 * br.getD c.2 0) ≤ f / 4 := Nat.div_le_div_left this (by decide)
  omega

/-- what set_bitrate leaves: the rate to the Hz, and zeros elsewhere -/
theorem dspiRate_some (f b : Nat) (r r' : Dspi) (h : dspiRate f b r = some r') :
    Exact f b (dspiView r').div ∧ dspiView r' = { dspiView r with div := (dspiView r').div, cpol := false, cpha := false, nbits := 1 } := by
  by_cases hb : f / 4 < b
  · rw [dspi_fast f b r hb] at h; cases h
  · unfold dspiRate at h
    rw [if_neg hb] at h
    obtain ⟨c, hc, rfl⟩ := Option.map_eq_some_iff.1 h
    obtain ⟨h1, h2⟩ := mem_pairs _ _ _ (List.mem_of_find?_eq_some hc)
    have h3 := List.find?_some hc
    simp only [decide_eq_true_eq, Nat.mul_one] at h3
    have e : ∀ i : Fin 4, ∀ j : Fin 16, (Field.get 2 16 (orIn 4 0 (BitVec.ofNat 32 j.val) (orIn 2 16 (BitVec.ofNat 32 i.val) (orIn 1 31 (BitVec.ofNat 32 (1 - 1)) 0)))).toNat = i.val ∧
        (Field.get 4 0 (orIn 4 0 (BitVec.ofNat 32 j.val) (orIn 2 16 (BitVec.ofNat 32 i.val) (orIn 1 31 (BitVec.ofNat 32 (1 - 1)) 0)))).toNat = j.val ∧
        (orIn 4 0 (BitVec.ofNat 32 j.val) (orIn 2 16 (BitVec.ofNat 32 i.val) (orIn 1 31 (BitVec.ofNat 32 (1 - 1)) 0))).getLsbD 31 = false ∧
        (orIn 4 0 (BitVec.ofNat 32 j.val) (orIn 2 16 (BitVec.ofNat 32 i.val) (orIn 1 31 (BitVec.ofNat 32 (1 - 1)) 0))).getLsbD 26 = false ∧
        (orIn 4 0 (BitVec.ofNat 32 j.val) (orIn 2 16 (BitVec.ofNat 32 i.val) (orIn 1 31 (BitVec.ofNat 32 (1 - 1)) 0))).getLsbD 25 = false ∧
        (Field.get 4 27 (orIn 4 0 (BitVec.ofNat 32 j.val) (orIn 2 16 (BitVec.ofNat 32 i.val) (orIn 1 31 (BitVec.ofNat 32 (1 - 1)) 0)))).toNat = 0 := by decide +kernel
    obtain ⟨e1, e2, e3, e4, e5, e6⟩ := e ⟨c.1, h1⟩ ⟨c.2, h2⟩
    dsimp only at e1 e2 e3 e4 e5 e6
    unfold dspiView
    dsimp only
    rw [e1, e2, e3, e4, e5, e6]
    refine ⟨?_, rfl⟩
    unfold Exact
    rw [if_neg (by decide), Nat.div_one, ← Nat.div_div_eq_div_mul]
    exact h3

theorem dspi_pre (f : Nat) (s : Settings) (r r' : Dspi) (h : dspiSetup f s r = some r') :
    ∃ r1 r2 r3 r4, opt s.bitrate (dspiRate f s.bitrate) { r with mcr := bset 0 r.mcr } = some r1 ∧ opt s.clk (dspiClk s.clk) r1 = some r2 ∧
      opt s.nbits (dspiBits s.nbits) r2 = some r3 ∧ opt s.mode (dspiMode s.mode) r3 = some r4 ∧
      ∃ r5, opt s.csPol (dspiPol s.csPol s.cs) r4 = some r5 ∧ r' = { r5 with cs := s.cs, mcr := bclr 0 r5.mcr } := by
  unfold dspiSetup at h
  obtain ⟨r1, h1, h⟩ := Option.bind_eq_some_iff.1 h
  obtain ⟨r2, h2, h⟩ := Option.bind_eq_some_iff.1 h
  obtain ⟨r3, h3, h⟩ := Option.bind_eq_some_iff.1 h
  obtain ⟨r4, h4, h⟩ := Option.bind_eq_some_iff.1 h
  obtain ⟨r5, h5, h⟩ := Option.map_eq_some_iff.1 h
  exact ⟨r1, r2, r3, r4, h1, h2, h3, h4, r5, h5, h.symm⟩

theorem put1_bit {n : Nat} (t : Nat) (b : Bool) (r : BitVec n) (h : t < n) (hn : 1 < n) : (put 1 t (if b then 1#n else 0#n) r).getLsbD t = b := by
  rw [put, orIn_bit _ _ _ _ _ h, clear_bit]
  simp only [Nat.le_refl, decide_true, Bool.true_and, show t < t + 1 by omega, Nat.sub_self, Bool.not_true, Bool.and_false, Bool.false_or]
  cases b
  · simp
  · simp [show 0 < n by omega]

theorem dspiClk_some (k : Nat) (r r' : Dspi) (h : dspiClk k r = some r') : dspiView r' = { dspiView r with cpol := pol k, cpha := pha k } := by
  unfold dspiClk at h
  by_cases c : 1 ≤ k ∧ k ≤ 4
  · rw [if_pos c] at h
    have e1 : (if 3 ≤ k then 1#32 else 0#32) = if pol k then 1#32 else 0#32 := by
      have : k = 1 ∨ k = 2 ∨ k = 3 ∨ k = 4 := by omega
      rcases this with rfl | rfl | rfl | rfl <;> rfl
    have e2 : (if k = 2 ∨ k = 4 then 1#32 else 0#32) = if pha k then 1#32 else 0#32 := by
      have : k = 1 ∨ k = 2 ∨ k = 3 ∨ k = 4 := by omega
      rcases this with rfl | rfl | rfl | rfl <;> rfl
    dsimp only at h
    rw [e1, e2] at h
    cases h
    unfold dspiView
    simp (disch := decide) only [put1_bit, put_bit, get_put_other]
  · rw [if_neg c] at h; cases h

theorem dspiBits_some (n : Nat) (r r' : Dspi) (h : dspiBits n r = some r') : dspiView r' = { dspiView r with nbits := n, fn := n } := by
  unfold dspiBits at h
  by_cases c : 4 ≤ n ∧ n ≤ 16
  · rw [if_pos c] at h
    cases h
    unfold dspiView; bits
    rw [get_put_nat _ _ _ _ (by decide) (by omega), Nat.sub_add_cancel (by omega)]
  · rw [if_neg c] at h; cases h

theorem dspiMode_some (m : Nat) (r r' : Dspi) (h : dspiMode m r = some r') : dspiView r' = { dspiView r with master := m == 1 } := by
  cases h
  by_cases c : m = 1
  · rw [c, if_pos rfl]; unfold dspiView; bits; rfl
  · rw [if_neg c]; unfold dspiView; bits; simp [c]

theorem csMask_bit (cs j : Nat) (hj : j < 32) : ((1#32 <<< cs &&& mask 32 6) <<< 16).getLsbD j = decide (j = cs + 16 ∧ cs < 6) := by
  rw [BitVec.getLsbD_shiftLeft, BitVec.getLsbD_and, mask_bit, Bool.eq_iff_iff]
  by_cases c : j < 16
  · simp [c]; omega
  · rw [show (1#32 <<< cs).getLsbD (j - 16) = decide (j - 16 = cs) from one_bit 32 cs (j - 16) (by omega)]
    simp only [Bool.and_eq_true, Bool.not_eq_true', decide_eq_false_iff_not, decide_eq_true_eq]
    omega

theorem dspiPol_bit (p cs : Nat) (r r' : Dspi) (h : dspiPol p cs r = some r') (j : Nat) (hj : j < 32) :
    r'.mcr.getLsbD j = if j = cs + 16 ∧ cs < 6 then p == 1 else r.mcr.getLsbD j := by
  cases h
  dsimp only
  by_cases c : p = 1
  · rw [if_pos c, BitVec.getLsbD_or, csMask_bit _ _ hj]
    by_cases c2 : j = cs + 16 ∧ cs < 6 <;> simp [c2, c]
  · rw [if_neg c, BitVec.getLsbD_and, BitVec.getLsbD_not, csMask_bit _ _ hj]
    by_cases c2 : j = cs + 16 ∧ cs < 6 <;> simp [c2, c, hj]

theorem dspiPol_some (p cs : Nat) (r r' : Dspi) (h : dspiPol p cs r = some r') : dspiView r' = dspiView r := by
  have h31 := dspiPol_bit p cs r r' h 31 (by decide)
  have h0 := dspiPol_bit p cs r r' h 0 (by decide)
  rw [if_neg (by omega)] at h31 h0
  unfold dspiView
  rw [h31, h0]
  cases h
  rfl

/-- **C89, C90, nxp_dspi**, when the clock mode and the frame size are asked for together with the rate (or the rate is not asked for): everything as asked; the rate to the Hz -/
theorem dspi_setup_partial (f : Nat) (s : Settings) (r r' : Dspi) (hs : s.bitrate = 0 ∨ (s.clk ≠ 0 ∧ s.nbits ≠ 0)) (h : dspiSetup f s r = some r') :
    Asked (Exact f) s (dspiView r) (dspiView r') ∧ r'.cs = s.cs := by
  obtain ⟨r1, r2, r3, r4, h1, h2, h3, h4, r5, h5, rfl⟩ := dspi_pre f s r r' h
  refine ⟨?_, rfl⟩
  have e0 : dspiView { r with mcr := bset 0 r.mcr } = { dspiView r with on := false } := by unfold dspiView; bits; rfl
  have e2 := (opt_step dspiView (fun _ => True) _ _ (fun v => { v with cpol := pol s.clk, cpha := pha s.clk }) (fun r r' _ _ e => ⟨trivial, dspiClk_some _ r r' e⟩) _ _ trivial h2).2
  have e3 := (opt_step dspiView (fun _ => True) _ _ (fun v => { v with nbits := s.nbits, fn := s.nbits }) (fun r r' _ _ e => ⟨trivial, dspiBits_some _ r r' e⟩) _ _ trivial h3).2
  have e4 := (opt_step dspiView (fun _ => True) _ _ (fun v => { v with master := s.mode == 1 }) (fun r r' _ _ e => ⟨trivial, dspiMode_some _ r r' e⟩) _ _ trivial h4).2
  have e5 := (opt_step dspiView (fun _ => True) _ _ (fun v => v) (fun r r' _ _ e => ⟨trivial, dspiPol_some _ _ r r' e⟩) _ _ trivial h5).2
  have e6 : dspiView { r5 with cs := s.cs, mcr := bclr 0 r5.mcr } = { dspiView r5 with on := true } := by unfold dspiView; bits; rfl
  rw [ite_self] at e5
  rw [e6, e5, e4, e3, e2]
  unfold opt at h1
  by_cases c : s.bitrate = 0
  · rw [if_pos c] at h1
    cases h1
    rw [e0]
    by_cases c2 : s.clk = 0 <;> by_cases c3 : s.nbits = 0 <;> by_cases c4 : s.mode = 0 <;> simp only [c2, c3, c4, if_true, if_false] <;>
      exact ⟨by rw [if_pos c], by simp only [c2, if_true, if_false], by simp only [c2, if_true, if_false],
        by simp only [c3, if_true, if_false], by simp only [c3, if_true, if_false], by simp only [c4, if_true, if_false], rfl⟩
  · rw [if_neg c] at h1
    obtain ⟨a, e1⟩ := dspiRate_some _ _ _ _ h1
    obtain ⟨c2, c3⟩ : s.clk ≠ 0 ∧ s.nbits ≠ 0 := by rcases hs with hs | hs; exact absurd hs c; exact hs
    rw [e1, e0]
    by_cases c4 : s.mode = 0 <;> simp only [c2, c3, c4, if_true, if_false] <;>
      exact ⟨by rw [if_neg c]; exact a, by simp only [c2, if_false], by simp only [c2, if_false],
        by simp only [c3, if_false], by simp only [c3, if_false], by simp only [c4, if_true, if_false], rfl⟩

/-- **C90, nxp_dspi, refuted**: asking for a rate only, the clock mode goes to mode 0 and the frames to one bit, while the driver goes on with its old frame size -/
theorem dspi_clobber (f : Nat) (s : Settings) (r r' : Dspi) (hb : s.bitrate ≠ 0) (hc : s.clk = 0) (hn : s.nbits = 0) (h : dspiSetup f s r = some r') :
    (dspiView r').cpol = false ∧ (dspiView r').cpha = false ∧ (dspiView r').nbits = 1 ∧ (dspiView r').fn = (dspiView r).fn := by
  obtain ⟨r1, r2, r3, r4, h1, h2, h3, h4, r5, h5, rfl⟩ := dspi_pre f s r r' h
  have e4 := (opt_step dspiView (fun _ => True) _ _ (fun v => { v with master := s.mode == 1 }) (fun r r' _ _ e => ⟨trivial, dspiMode_some _ r r' e⟩) _ _ trivial h4).2
  have e5 := (opt_step dspiView (fun _ => True) _ _ (fun v => v) (fun r r' _ _ e => ⟨trivial, dspiPol_some _ _ r r' e⟩) _ _ trivial h5).2
  have e6 : dspiView { r5 with cs := s.cs, mcr := bclr 0 r5.mcr } = { dspiView r5 with on := true } := by unfold dspiView; bits; rfl
  rw [ite_self] at e5
  unfold opt at h1 h2 h3
  rw [if_neg hb] at h1
  rw [if_pos hc] at h2
  rw [if_pos hn] at h3
  cases h2
  cases h3
  obtain ⟨a, e1⟩ := dspiRate_some _ _ _ _ h1
  rw [e6, e5, e4, e1]
  by_cases c4 : s.mode = 0
  · rw [if_pos c4]; exact ⟨rfl, rfl, rfl, rfl⟩
  · rw [if_neg c4]; exact ⟨rfl, rfl, rfl, rfl⟩

/-- **C90, nxp_dspi**: the polarity of the chip select asked for; the others do not change -/
theorem dspi_cs (f : Nat) (s : Settings) (r r' : Dspi) (h : dspiSetup f s r = some r') (c : Nat) (hc : c < 6) :
    dspiIdle r' c = if s.csPol ≠ 0 ∧ c = s.cs then s.csPol == 1 else dspiIdle r c := by
  obtain ⟨r1, r2, r3, r4, h1, h2, h3, h4, r5, h5, rfl⟩ := dspi_pre f s r r' h
  have i1 : r1.mcr.getLsbD (16 + c) = r.mcr.getLsbD (16 + c) := by
    unfold opt at h1
    by_cases c0 : s.bitrate = 0
    · rw [if_pos c0] at h1; cases h1; exact bset_ne _ _ _ (by omega)
    · rw [if_neg c0] at h1
      obtain ⟨x, _, rfl⟩ := Option.map_eq_some_iff.1 h1
      exact bset_ne _ _ _ (by omega)
  have i2 : r2.mcr = r1.mcr := by
    unfold opt at h2
    by_cases c0 : s.clk = 0
    · rw [if_pos c0] at h2; cases h2; rfl
    · rw [if_neg c0] at h2
      unfold dspiClk at h2
      by_cases c1 : 1 ≤ s.clk ∧ s.clk ≤ 4
      · rw [if_pos c1] at h2; cases h2; rfl
      · rw [if_neg c1] at h2; cases h2
  have i3 : r3.mcr = r2.mcr := by
    unfold opt at h3
    by_cases c0 : s.nbits = 0
    · rw [if_pos c0] at h3; cases h3; rfl
    · rw [if_neg c0] at h3
      unfold dspiBits at h3
      by_cases c1 : 4 ≤ s.nbits ∧ s.nbits ≤ 16
      · rw [if_pos c1] at h3; cases h3; rfl
      · rw [if_neg c1] at h3; cases h3
  have i4 : r4.mcr.getLsbD (16 + c) = r3.mcr.getLsbD (16 + c) := by
    unfold opt at h4
    by_cases c0 : s.mode = 0
    · rw [if_pos c0] at h4; cases h4; rfl
    · rw [if_neg c0] at h4
      cases h4
      by_cases c1 : s.mode = 1
      · simp only [c1, if_true]; exact bset_ne _ _ _ (by omega)
      · simp only [c1, if_false]; exact bclr_ne _ _ _ (by omega)
  unfold dspiIdle
  rw [bclr_ne _ _ _ (by omega), ← i1, ← i2, ← i3, ← i4]
  unfold opt at h5
  by_cases c0 : s.csPol = 0
  · rw [if_pos c0] at h5; cases h5
    rw [if_neg (by omega)]
  · rw [if_neg c0] at h5
    rw [dspiPol_bit _ _ _ _ h5 (16 + c) (by omega)]
    by_cases c1 : c = s.cs
    · rw [if_pos (by omega), if_pos ⟨c0, c1⟩]
    · rw [if_neg (by omega), if_neg (by omega)]

/-- it returns 0 for any rate that the prescalers give, up to f / 4, any mode, 4 to 16 bits -/
theorem dspi_accepts (f : Nat) (s : Settings) (r : Dspi) (hs : InRange s) (hn : s.nbits = 0 ∨ 4 ≤ s.nbits ∧ s.nbits ≤ 16)
    (hb : s.bitrate = 0 ∨ ∃ i j, i < 4 ∧ j < 16 ∧ f / pbr.getD i 0 / br.getD j 0 = s.bitrate) : ∃ r', dspiSetup f s r = some r' := by
  obtain ⟨r1, e1⟩ := opt_accepts s.bitrate (dspiRate f s.bitrate) (fun c r => by
    rcases hb with c' | ⟨i, j, hi, hj, e⟩
    · exact absurd c' c
    have hp : ∀ i : Fin 4, 2 ≤ pbr.getD i.val 0 := by decide
    have hq : ∀ i : Fin 16, 2 ≤ br.getD i.val 0 := by decide
    have h1 := hp ⟨i, hi⟩
    have h2 := hq ⟨j, hj⟩
    dsimp only at h1 h2
    have h4 : ¬ f / 4 < s.bitrate := by
      rw [← e, Nat.div_div_eq_div_mul]
      have h4 : 2 * 2 ≤ pbr.getD i 0 * br.getD j 0 := Nat.mul_le_mul h1 h2
      have : f / (pbr.getD i 0 * br.getD j 0) ≤ f / (2 * 2) := Nat.div_le_div_left h4 (by decide)
      omega
    have : (((List.range 4).flatMap fun i => (List.range 16).map fun j => (i, j)).find? fun c => decide (f / (pbr.getD c.1 0 * 1) / br.getD c.2 0 = s.bitrate)).isSome := by
      rw [List.find?_isSome]
      exact ⟨(i, j), pairs_mem _ _ _ _ hi hj, by dsimp only; rw [Nat.mul_one, e]; simp⟩
    obtain ⟨x, hx⟩ := Option.isSome_iff_exists.1 this
    exact ⟨_, by unfold dspiRate; rw [if_neg h4]; dsimp only; rw [hx]; rfl⟩) { r with mcr := bset 0 r.mcr }
  obtain ⟨r2, e2⟩ := opt_accepts s.clk (dspiClk s.clk) (fun c r => ⟨_, by unfold dspiClk; rw [if_pos ⟨by omega, by have := hs.2.1; omega⟩]⟩) r1
  obtain ⟨r3, e3⟩ := opt_accepts s.nbits (dspiBits s.nbits) (fun c r => ⟨_, by unfold dspiBits; rw [if_pos (hn.resolve_left c)]⟩) r2
  obtain ⟨r4, e4⟩ := opt_accepts s.mode (dspiMode s.mode) (fun c r => ⟨_, rfl⟩) r3
  obtain ⟨r5, e5⟩ := opt_accepts s.csPol (dspiPol s.csPol s.cs) (fun c r => ⟨_, rfl⟩) r4
  exact ⟨_, by unfold dspiSetup; rw [e1, Option.bind_some, e2, Option.bind_some, e3, Option.bind_some, e4, Option.bind_some, e5]; rfl⟩

/-- a case: 40 MHz, 1.25 MHz, mode 3, 16 bits, master, chip select 2 active low -/
example : (dspiSetup 40000000 ⟨1250000, 1, 4, 16, 1, 2⟩ ⟨0, 0, 8, 0⟩).map (fun r => (dspiView r, dspiIdle r 2)) = some (⟨32, true, true, true, 16, true, 16⟩, true) := by decide +kernel

end Pico.SpiSetup
