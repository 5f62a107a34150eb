import Verif.Drivers.Clock4
import Verif.Drivers.ClockProps4
/-
Clocks (C95, C96): sam3x_pmc, numicro, n76e003, cy7c6801xa.
-/
namespace Pico.Clock
open Field

namespace Sam

/-- what a successful initialisation leaves -/
theorem init_ok (c : Cfg) (e : Env) (s s' : St) (h : init c e s = some s') :
    0 < c.moscx ∧ c.moscx ≤ c.plla / 2 ∧ c.plla / c.moscx < 2048 ∧ ∃ p, presOf c.mckDiv = some p ∧
    s' = { s with slck := if s.oscsels then 32768 else 32000, moscx := c.moscx, pllack := c.plla, pllar := pllarOf (c.plla / c.moscx), mckr := orIn 2 0 2#32 (orIn 3 4 (BitVec.ofNat 32 p) 0#32), mck := c.plla / c.mckDiv } := by
  unfold init at h
  by_cases h1 : c.moscx = 0
  · rw [if_pos h1] at h; cases h
  rw [if_neg h1] at h
  by_cases h2 : xtalWait e e.count 0 = false
  · rw [if_pos h2] at h; cases h
  rw [if_neg h2] at h
  by_cases h3 : c.plla / 2 < c.moscx
  · rw [if_pos h3] at h; cases h
  rw [if_neg h3] at h
  by_cases h4 : 2048 ≤ c.plla / c.moscx
  · rw [if_pos h4] at h; cases h
  rw [if_neg h4] at h
  by_cases h5 : e.lock = false
  · rw [if_pos h5] at h; cases h
  rw [if_neg h5] at h
  cases hp : presOf c.mckDiv with
  | none => rw [hp] at h; cases h
  | some p =>
    rw [hp] at h
    dsimp only at h
    by_cases h6 : e.rdy = false
    · rw [if_pos h6] at h; cases h
    rw [if_neg h6] at h
    by_cases h7 : e.rdy2 = false
    · rw [if_pos h7] at h; cases h
    rw [if_neg h7, Option.some.injEq] at h
    exact ⟨by omega, by omega, by omega, p, rfl, h.symm⟩

theorem pllar_fields (m : Nat) (h : m < 2048) : (get 8 0 (pllarOf m)).toNat = 1 ∧ (get 11 16 (pllarOf m)).toNat = m - 1 := by
  unfold pllarOf
  constructor
  · rw [show (1#32) = BitVec.ofNat 32 1 from rfl, get_orIn_zero _ _ _ _ (by omega) (by omega)]
    rw [get_orIn_other _ _ _ _ _ _ (by omega), get_orIn_other _ _ _ _ _ _ (by omega)]; decide
  · rw [get_orIn_other _ _ _ _ _ _ (by omega), get_orIn_zero _ _ _ _ (by omega) (by omega)]
    rw [get_orIn_other _ _ _ _ _ _ (by omega)]; decide

theorem pres_code (d p : Nat) (h : presOf d = some p) : p < 8 ∧ presDiv p = d ∧ 0 < d := by
  unfold presOf at h
  split at h <;> first | (cases h; decide) | cases h

theorem mckr_fields (p : Nat) (h : p < 8) : (get 2 0 (orIn 2 0 2#32 (orIn 3 4 (BitVec.ofNat 32 p) 0#32))).toNat = 2 ∧ (get 3 4 (orIn 2 0 2#32 (orIn 3 4 (BitVec.ofNat 32 p) 0#32))).toNat = p := by
  have hc : p = 0 ∨ p = 1 ∨ p = 2 ∨ p = 3 ∨ p = 4 ∨ p = 5 ∨ p = 6 ∨ p = 7 := by omega
  rcases hc with rfl | rfl | rfl | rfl | rfl | rfl | rfl | rfl <;> decide

/-- the master clock after an initialisation: whatever was asked, the crystal (or the RC oscillator while the switch is not done) times the floor of plla / moscx -/
theorem mck_real (c : Cfg) (e : Env) (s s' : St) (h : init c e s = some s') (sel : Bool) :
    mckHz c.moscx sel s' = some ((if sel then c.moscx else 4000000) * (c.plla / c.moscx), c.mckDiv) := by
  obtain ⟨h1, h2, h3, p, hp, e1⟩ := init_ok c e s s' h
  obtain ⟨q1, q2, q3⟩ := pres_code _ _ hp
  obtain ⟨f1, f2⟩ := pllar_fields _ h3
  obtain ⟨g1, g2⟩ := mckr_fields p q1
  have hm : 2 ≤ c.plla / c.moscx := by rw [Nat.le_div_iff_mul_le h1]; omega
  have a1 : s'.pllar = pllarOf (c.plla / c.moscx) := by rw [e1]
  have a2 : s'.mckr = orIn 2 0 2#32 (orIn 3 4 (BitVec.ofNat 32 p) 0#32) := by rw [e1]
  unfold mckHz
  rw [a2, g1, g2, q2]
  show Hz.div (pllHz c.moscx sel s') c.mckDiv = _
  unfold pllHz
  rw [a1, f1, f2, if_neg (show ¬ (c.plla / c.moscx - 1 = 0 ∨ 1 = 0) by omega)]
  rw [show c.plla / c.moscx - 1 + 1 = c.plla / c.moscx by omega]
  cases sel <;> simp [mainHz, Hz.div]

/-- **C95, sam3x**: when the PLL is asked a multiple of the crystal, and once the crystal has taken over, every clock but the peripherals is as told.
Missing: the other rates (`rounds`), and the time before the crystal has taken over, which the initialisation does not wait for (`no_wait`) -/
theorem freq_partial (c : Cfg) (e : Env) (s s' : St) (h : init c e s = some s') (hd : c.moscx ∣ c.plla) (k : Nat) (hk : k ≤ 4) :
    Tells (getFreq s' k) (hw c.moscx true s' k) := by
  have hr := mck_real c e s s' h true
  obtain ⟨h1, h2, h3, p, hp, e1⟩ := init_ok c e s s' h
  obtain ⟨q1, q2, q3⟩ := pres_code _ _ hp
  have a1 : s'.mck = c.plla / c.mckDiv := by rw [e1]
  have a2 : s'.slck = if s'.oscsels then 32768 else 32000 := by rw [e1]
  have hmck : Tells (some s'.mck) (mckHz c.moscx true s') := by
    rw [hr, a1]
    refine ⟨_, _, rfl, q3, ?_⟩
    rw [if_pos rfl, Nat.mul_div_cancel' hd]
  have hc : k = 0 ∨ k = 1 ∨ k = 2 ∨ k = 3 ∨ k = 4 := by omega
  rcases hc with rfl | rfl | rfl | rfl | rfl
  · exact hmck
  · show Tells (some s'.slck) (slowHz s')
    rw [a2]; unfold slowHz
    cases s'.oscsels <;> exact tells_self _
  · exact tells_div hmck (by omega)
  · exact hmck
  · exact hmck

def reset : St := ⟨0x3f00#32, 1#32, fun _ => (false, 0), false, 0, 0, 0, 0, fun _ => 0⟩
/-- waits in time; the crystal starts and takes over after a while -/
def usual : Env := ⟨fun k => decide (3 < k), fun k => decide (5 < k), true, true, true, 100⟩

/-- the case of the Arduino Due: 12 MHz, 168 MHz, / 2 -/
theorem sample : (12000000 ∣ 168000000) ∧ (init ⟨12000000, 168000000, 2⟩ usual reset).map (fun s => (getFreq s 0, getFreq s 2)) = some (some 84000000, some 10500000) := by decide

/-- **C95 refuted, sam3x**: 160 MHz is asked of 12 MHz: 160 MHz is told, the PLL makes 156 -/
theorem rounds : ∃ s', init ⟨12000000, 160000000, 2⟩ usual reset = some s' ∧ getFreq s' 0 = some 80000000 ∧ hw 12000000 true s' 0 = some (156000000, 2) ∧ ¬ Tells (getFreq s' 0) (hw 12000000 true s' 0) := by
  obtain ⟨s', hs⟩ : ∃ s', init ⟨12000000, 160000000, 2⟩ usual reset = some s' := Option.isSome_iff_exists.mp (by decide)
  have a1 : getFreq s' 0 = some 80000000 := by
    have : (init ⟨12000000, 160000000, 2⟩ usual reset).map (fun s => getFreq s 0) = some (some 80000000) := by decide
    rw [hs] at this; exact Option.some.inj this
  have a2 : hw 12000000 true s' 0 = some (156000000, 2) := mck_real _ _ _ _ hs true
  refine ⟨s', hs, a1, a2, ?_⟩
  rintro ⟨n, d, e1, -, e2⟩
  rw [a2] at e1; rw [a1] at e2
  cases e1; revert e2; decide

/-- **C95 refuted, sam3x**: a crystal that is not started at the first reading is not waited for: the initialisation succeeds although it never starts, and the processor runs from the RC oscillator -/
theorem no_wait (c : Cfg) (e : Env) (s : St) (hx : e.xts 0 = false) (h1 : 0 < c.moscx) (h2 : c.moscx ≤ c.plla / 2) (h3 : c.plla / c.moscx < 2048) (h4 : presOf c.mckDiv ≠ none)
    (h5 : e.lock = true) (h6 : e.rdy = true) (h7 : e.rdy2 = true) : ∃ s', init c e s = some s' ∧ getFreq s' 0 = some (c.plla / c.mckDiv) ∧
    hw c.moscx false s' 0 = some (4000000 * (c.plla / c.moscx), c.mckDiv) := by
  have hw' : xtalWait e e.count 0 = true := by
    cases e.count <;> simp [xtalWait, hx]
  cases hp : presOf c.mckDiv with
  | none => exact absurd hp h4
  | some p =>
    have hi : init c e s = some { s with slck := if s.oscsels then 32768 else 32000, moscx := c.moscx, pllack := c.plla, pllar := pllarOf (c.plla / c.moscx), mckr := orIn 2 0 2#32 (orIn 3 4 (BitVec.ofNat 32 p) 0#32), mck := c.plla / c.mckDiv } := by
      unfold init
      rw [if_neg (show ¬ c.moscx = 0 by omega), if_neg (by rw [hw']; decide), if_neg (show ¬ c.plla / 2 < c.moscx by omega), if_neg (show ¬ 2048 ≤ c.plla / c.moscx by omega),
        if_neg (by rw [h5]; decide), hp]
      dsimp only
      rw [if_neg (by rw [h6]; decide), if_neg (by rw [h7]; decide)]
    exact ⟨_, hi, rfl, mck_real _ _ _ _ hi false⟩

/-- the case: 12 MHz, 168 MHz / 2: 84 MHz told, 28 MHz made -/
theorem no_wait_sample : ∃ s', init ⟨12000000, 168000000, 2⟩ ⟨fun _ => false, fun _ => false, true, true, true, 100⟩ reset = some s' ∧ getFreq s' 0 = some 84000000 ∧
    hw 12000000 false s' 0 = some (56000000, 2) :=
  no_wait _ _ _ rfl (by decide) (by decide) (by decide) (by decide) rfl rfl rfl

theorem pcr_enable (p d : Nat) (hp : p < 45) (hd : d < 3) (t : Nat → Bool × Nat) :
    pcrWrite (orIn 6 0 (BitVec.ofNat 32 p) (orIn 2 16 (BitVec.ofNat 32 d) (bset 12 (bset 28 0#32)))) t = Rp.set t p (true, d) := by
  unfold pcrWrite
  have hb : ∀ j, j = 12 ∨ j = 28 → (orIn 6 0 (BitVec.ofNat 32 p) (orIn 2 16 (BitVec.ofNat 32 d) (bset 12 (bset 28 0#32)))).getLsbD j = true := by
    intro j hj
    rw [orIn_bit _ _ _ _ _ (by omega), orIn_bit _ _ _ _ _ (by omega)]
    rcases hj with rfl | rfl <;> simp [bset]
  have h12 := hb 12 (Or.inl rfl)
  have h28 := hb 28 (Or.inr rfl)
  have g1 : (get 6 0 (orIn 6 0 (BitVec.ofNat 32 p) (orIn 2 16 (BitVec.ofNat 32 d) (bset 12 (bset 28 0#32))))).toNat = p := by
    rw [get_orIn_zero _ _ _ _ (by omega) (by omega)]
    rw [get_orIn_other _ _ _ _ _ _ (by omega)]; decide
  have g2 : (get 2 16 (orIn 6 0 (BitVec.ofNat 32 p) (orIn 2 16 (BitVec.ofNat 32 d) (bset 12 (bset 28 0#32))))).toNat = d := by
    rw [get_orIn_other _ _ _ _ _ _ (by omega), get_orIn_zero _ _ _ _ (by omega) (by omega)]; decide
  rw [if_pos h12, h28, g1, g2]

theorem pcr_disable (p : Nat) (hp : p < 45) (t : Nat → Bool × Nat) : pcrWrite (orIn 6 0 (BitVec.ofNat 32 p) (bset 12 0#32)) t = Rp.set t p (false, 0) := by
  unfold pcrWrite
  have hb : ∀ j, 6 ≤ j → j < 32 → (orIn 6 0 (BitVec.ofNat 32 p) (bset 12 0#32)).getLsbD j = decide (j = 12) := by
    intro j h1 h2
    rw [orIn_bit _ _ _ _ _ h2, bset_bit _ _ _ h2]
    simp; omega
  have h12 : (orIn 6 0 (BitVec.ofNat 32 p) (bset 12 0#32)).getLsbD 12 = true := by rw [hb 12 (by omega) (by omega)]; decide
  have h28 : (orIn 6 0 (BitVec.ofNat 32 p) (bset 12 0#32)).getLsbD 28 = false := by rw [hb 28 (by omega) (by omega)]; decide
  have g1 : (get 6 0 (orIn 6 0 (BitVec.ofNat 32 p) (bset 12 0#32))).toNat = p := by
    rw [get_orIn_zero _ _ _ _ (by omega) (by omega)]; decide
  have g2 : (get 2 16 (orIn 6 0 (BitVec.ofNat 32 p) (bset 12 0#32))).toNat = 0 := by
    rw [get_orIn_other _ _ _ _ _ _ (by omega)]; decide
  rw [if_pos h12, h28, g1, g2]

/-- **C96, sam3x**: enable of a peripheral (identifiers from 33) runs its clock, at the frequency told if the master clock is as told, and touches no other.
Missing: the other identifiers, for which nothing is done and 0 is returned (`enable_nothing`) -/
theorem enable_partial (k d : Nat) (s s' : St) (h : enable k d s = some s') (hk : 32 < k) :
    (∀ j, 32 < j → on s' j = (decide (j = k) || on s j)) ∧ (∀ j, j ≠ k → getFreq s' j = getFreq s j) ∧ (∀ x sel j, j ≠ k → hw x sel s' j = hw x sel s j) ∧
    ∀ x sel, Tells (getFreq s 4) (hw x sel s 4) → Tells (getFreq s' k) (hw x sel s' k) := by
  unfold enable at h
  by_cases hd : 3 ≤ d
  · rw [if_pos hd] at h; cases h
  rw [if_neg hd, if_pos hk] at h
  by_cases hp : 45 ≤ k - 32
  · rw [if_pos hp] at h; cases h
  rw [if_neg hp, pcr_enable _ _ (by omega) (by omega), Option.some.injEq] at h
  have a1 : s'.pcr = Rp.set s.pcr (k - 32) (true, d) := by rw [← h]
  have a2 : s'.periph = Rp.set s.periph (k - 32) (s.mck / 2 ^ d) := by rw [← h]
  have a3 : s'.mck = s.mck := by rw [← h]
  have a4 : s'.slck = s.slck := by rw [← h]
  have a5 : ∀ x sel, mckHz x sel s' = mckHz x sel s := by intro x sel; rw [← h]; rfl
  have a6 : slowHz s' = slowHz s := by rw [← h]; rfl
  refine ⟨?_, ?_, ?_, ?_⟩
  · intro j hj
    unfold on
    rw [a1]
    by_cases hjk : j = k
    · rw [hjk, Rp.set_same]; simp
    · rw [Rp.set_ne _ _ _ _ (by omega)]; simp [hjk]
  · intro j hjk
    unfold getFreq
    by_cases hj : 32 < j
    · rw [if_pos hj, if_pos hj, a2, Rp.set_ne _ _ _ _ (by omega)]
    · rw [if_neg hj, if_neg hj, a3, a4]
  · intro x sel j hjk
    unfold hw
    by_cases hj : 32 < j
    · rw [if_pos hj, if_pos hj, a1, Rp.set_ne _ _ _ _ (by omega), a5]
    · rw [if_neg hj, if_neg hj, a5, a6]
  · intro x sel ht
    have ht : Tells (some s.mck) (mckHz x sel s) := ht
    unfold getFreq hw
    rw [if_pos hk, if_pos hk, if_neg hp, a1, a2, Rp.set_same, Rp.set_same, a5]
    exact tells_div ht (Nat.two_pow_pos d)

theorem disable_partial (k : Nat) (s s' : St) (h : disable k s = some s') (hk : 32 < k) :
    (∀ j, 32 < j → on s' j = (!decide (j = k) && on s j)) ∧ (∀ j, getFreq s' j = getFreq s j) ∧ ∀ x sel j, j ≠ k → hw x sel s' j = hw x sel s j := by
  unfold disable at h
  rw [if_pos hk] at h
  by_cases hp : 45 ≤ k - 32
  · rw [if_pos hp] at h; cases h
  rw [if_neg hp, pcr_disable _ (by omega), Option.some.injEq] at h
  have a1 : s'.pcr = Rp.set s.pcr (k - 32) (false, 0) := by rw [← h]
  refine ⟨?_, ?_, ?_⟩
  · intro j hj
    unfold on
    rw [a1]
    by_cases hjk : j = k
    · rw [hjk, Rp.set_same]; simp
    · rw [Rp.set_ne _ _ _ _ (by omega)]; simp [hjk]
  · intro j; rw [← h]; rfl
  · intro x sel j hjk
    have a5 : mckHz x sel s' = mckHz x sel s := by rw [← h]; rfl
    have a6 : slowHz s' = slowHz s := by rw [← h]; rfl
    unfold hw
    by_cases hj : 32 < j
    · rw [if_pos hj, if_pos hj, a1, Rp.set_ne _ _ _ _ (by omega), a5]
    · rw [if_neg hj, if_neg hj, a5, a6]

/-- every peripheral of the device but the first (the supply controller, which has no clock) is accepted -/
theorem gates_accepted (k d : Nat) (h1 : 32 < k) (h2 : k < 32 + 45) (hd : d < 3) (s : St) : (∃ s', enable k d s = some s') ∧ ∃ s', disable k s = some s' := by
  unfold enable disable
  rw [if_neg (show ¬ 3 ≤ d by omega), if_pos h1, if_pos h1, if_neg (show ¬ 45 ≤ k - 32 by omega), if_neg (show ¬ 45 ≤ k - 32 by omega)]
  exact ⟨⟨_, rfl⟩, _, rfl⟩

/-- **C96 refuted, sam3x**: enabling or disabling any of the other clocks (a programmable clock, the USB clocks) returns 0 and does nothing -/
theorem enable_nothing (k d : Nat) (s : St) (hk : k ≤ 32) (hd : d < 3) : enable k d s = some s ∧ disable k s = some s := by
  unfold enable disable
  rw [if_neg (show ¬ 3 ≤ d by omega), if_neg (show ¬ 32 < k by omega), if_neg (show ¬ 32 < k by omega)]
  exact ⟨rfl, rfl⟩

/-- **C95 refuted, sam3x**: a peripheral clock follows the master clock; what is told of it does not -/
theorem periph_stale (c : Cfg) (e : Env) (s s' : St) (h : init c e s = some s') (k : Nat) (hk : 32 < k) : getFreq s' k = getFreq s k ∧ on s' k = on s k := by
  obtain ⟨-, -, -, p, -, e1⟩ := init_ok c e s s' h
  have a1 : s'.periph = s.periph := by rw [e1]
  have a2 : s'.pcr = s.pcr := by rw [e1]
  unfold getFreq on
  rw [if_pos hk, if_pos hk, a1, a2]
  exact ⟨rfl, rfl⟩

end Sam

namespace Nu

/-- what a successful initialisation leaves, at 16 MHz -/
theorem init_ok (n : Nat) (c : Cfg) (w : Bool) (s s' : St) (h : init n c w s = some s') :
    (c.clkdiv = 1 ∨ (c.clkdiv % 2 = 0 ∧ 0 < c.clkdiv)) ∧ c.clkdiv ≤ 510 ∧ c.fosc < 3 ∧ ∃ s1 s2, setupHirc n c.fhirc s = some s1 ∧ switch c.fosc c.feclk w s1 = some s2 ∧
    s' = { s2 with ckdiv := c.clkdiv / 2 % 256, feclk := c.feclk, fsys := s2.fosc / c.clkdiv } := by
  unfold init at h
  by_cases h1 : c.clkdiv = 0
  · rw [if_pos h1] at h; cases h
  rw [if_neg h1] at h
  by_cases h2 : ¬ (c.clkdiv = 1 ∨ c.clkdiv % 2 = 0)
  · rw [if_pos h2] at h; cases h
  rw [if_neg h2] at h
  by_cases h3 : 510 < c.clkdiv
  · rw [if_pos h3] at h; cases h
  rw [if_neg h3] at h
  by_cases h4 : 3 ≤ c.fosc
  · rw [if_pos h4] at h; cases h
  rw [if_neg h4] at h
  cases e1 : setupHirc n c.fhirc s with
  | none => rw [e1] at h; cases h
  | some s1 =>
    rw [e1, Option.bind_some] at h
    cases e2 : switch c.fosc c.feclk w s1 with
    | none => rw [e2] at h; cases h
    | some s2 =>
      rw [e2, Option.map_some, Option.some.injEq] at h
      exact ⟨by omega, by omega, by omega, s1, s2, rfl, e2, h.symm⟩

/-- the division of CKDIV is the one asked -/
theorem ckdiv_right (d : Nat) (h : d = 1 ∨ (d % 2 = 0 ∧ 0 < d)) (h5 : d ≤ 510) : (if d / 2 % 256 = 0 then 1 else 2 * (d / 2 % 256)) = d := by
  by_cases h1 : d / 2 % 256 = 0
  · rw [if_pos h1]; omega
  · rw [if_neg h1]; omega

/-- **C95, numicro (n = 3) and n76e003 (n = 2)**: with HIRC at 16 MHz, from the trim of the factory, the system clock and its oscillator are as told.
Missing: 16.6 MHz (`trim_wrong`), the return from 24 MHz (`hirc24_stays`); the oscillators not selected (`hirc_off`) -/
theorem freq_partial (n t : Nat) (c : Cfg) (w : Bool) (s s' : St) (h : init n c w s = some s') (hn : n = 2 ∨ n = 3) (hf : c.fhirc = 0 ∨ c.fhirc = 2) (ht : trim s = t)
    (h24 : c.fhirc = 0 → s.rc1.getLsbD 4 = false) (k : Nat) (hk : k < 2 ∨ k = 4 ∨ (k = 2 ∧ c.fosc = 1) ∨ (k = 3 ∧ c.fosc = 0)) : Tells (getFreq s' k) (hw t c.feclk s' k) := by
  obtain ⟨h1, h2, h3, s1, s2, e1, e2, e3⟩ := init_ok n c w s s' h
  -- the oscillator
  have b1 : trim s1 = t ∧ s1.rc1.getLsbD 4 = decide (c.fhirc = 2) ∧ s1.fhirc = if c.fhirc = 2 then 24000000 else 16000000 := by
    unfold setupHirc at e1
    by_cases hnk : n ≤ c.fhirc
    · rw [if_pos hnk] at e1; cases e1
    rw [if_neg hnk] at e1
    by_cases h0 : c.fhirc = 0
    · rw [if_pos h0, Option.some.injEq] at e1
      rw [← e1]
      refine ⟨ht, ?_, ?_⟩
      · rw [h0]; exact h24 h0
      · rw [h0]; rfl
    · have hc2 : c.fhirc = 2 := by omega
      rw [if_neg h0, if_neg (by omega), Option.some.injEq] at e1
      have er : s1.rc1 = bset 4 s.rc1 := by rw [← e1]
      have er0 : s1.rc0 = s.rc0 := by rw [← e1]
      refine ⟨?_, ?_, ?_⟩
      · unfold trim at ht ⊢
        rw [er, er0]
        have hl : (bset 4 s.rc1).toNat % 2 = s.rc1.toNat % 2 := by
          have := bset_bit 4 0 s.rc1 (by omega)
          simp only [Nat.reduceEqDiff, decide_false, Bool.false_or] at this
          rw [BitVec.getLsbD, BitVec.getLsbD, Nat.testBit_zero, Nat.testBit_zero, decide_eq_decide] at this
          omega
        rw [hl]; exact ht
      · rw [er, bset_same _ _ (by omega), hc2]; rfl
      · rw [hc2, ← e1]; rfl
  obtain ⟨b1, b2, b3⟩ := b1
  have b4 : s2.rc0 = s1.rc0 ∧ s2.rc1 = s1.rc1 ∧ s2.fhirc = s1.fhirc ∧ s2.osc = c.fosc ∧
      (c.fosc = 0 → s2.cken = bset 5 0#8 ∧ s2.fosc = s1.fhirc) ∧ (c.fosc = 1 → s2.cken = orIn 2 6 3#8 0#8 ∧ s2.fosc = c.feclk) ∧ (c.fosc = 2 → s2.fosc = 10000) := by
    unfold switch at e2
    have hc : c.fosc = 0 ∨ c.fosc = 1 ∨ c.fosc = 2 := by omega
    rcases hc with hc | hc | hc
    · rw [if_pos hc] at e2
      cases w with
      | false => cases e2
      | true => rw [if_pos rfl, Option.some.injEq] at e2; rw [← e2, hc]; simp
    · rw [if_neg (by omega), if_pos hc] at e2
      by_cases hz : c.feclk = 0
      · rw [if_pos hz] at e2; cases e2
      rw [if_neg hz] at e2
      cases w with
      | false => cases e2
      | true => rw [if_pos rfl, Option.some.injEq] at e2; rw [← e2, hc]; simp
    · rw [if_neg (by omega), if_neg (by omega), if_pos hc] at e2
      cases w with
      | false => cases e2
      | true => rw [if_pos rfl, Option.some.injEq] at e2; rw [← e2, hc]; simp
  obtain ⟨c1, c2, c3, c4, c5, c6, c7⟩ := b4
  have d1 : trim s' = t := by rw [← b1, e3]; unfold trim; rw [← c1, ← c2]
  have d2 : s'.rc1.getLsbD 4 = decide (c.fhirc = 2) := by rw [← b2, e3, ← c2]
  have d3 : s'.fhirc = if c.fhirc = 2 then 24000000 else 16000000 := by rw [← b3, ← c3, e3]
  have d4 : s'.osc = c.fosc := by rw [e3]; exact c4
  have d5 : s'.fosc = s2.fosc := by rw [e3]
  have d6 : s'.cken = s2.cken := by rw [e3]
  have d7 : s'.fsys = s2.fosc / c.clkdiv := by rw [e3]
  have d8 : s'.ckdiv = c.clkdiv / 2 % 256 := by rw [e3]
  have d9 : s'.feclk = c.feclk := by rw [e3]
  have hh : c.fosc = 0 → Tells (some s'.fhirc) (hircHz t s') := by
    intro h0
    unfold hircHz
    rw [d6, (c5 h0).1, if_neg (by decide), d2, d1, d3]
    rcases hf with hf | hf
    · rw [hf]
      rw [if_neg (by decide), if_neg (by decide), if_pos rfl]
      exact tells_self _
    · rw [hf]
      simp only [decide_true, if_true]
      exact tells_self _
  have hx : c.fosc = 1 → Tells (some s'.feclk) (extHz c.feclk s') := by
    intro h0
    unfold extHz
    rw [d6, (c6 h0).1, if_pos (by decide), d9]
    exact tells_self _
  have ho : Tells (some s'.fosc) (oscHz t c.feclk s') := by
    unfold oscHz
    rw [d4]
    have hc : c.fosc = 0 ∨ c.fosc = 1 ∨ c.fosc = 2 := by omega
    rcases hc with hc | hc | hc
    · rw [hc]; rw [d5, (c5 hc).2, ← c3, show s2.fhirc = s'.fhirc by rw [e3]]; exact hh hc
    · rw [hc]; have := hx hc; rw [d9] at this; rw [d5, (c6 hc).2]; exact this
    · rw [hc]; rw [d5, c7 hc]; exact tells_self _
  rcases hk with hk | rfl | ⟨rfl, hk⟩ | ⟨rfl, hk⟩
  · have hc : k = 0 ∨ k = 1 := by omega
    rcases hc with rfl | rfl
    · show Tells (some s'.fsys) (Hz.div _ _)
      rw [d7, d8, ckdiv_right _ h1 h2, ← d5]
      exact tells_div ho (by omega)
    · exact ho
  · exact tells_self _
  · exact hx hk
  · exact hh hk

def reset : St := ⟨100#8, 1#8, 0, 0x20#8, 0, 0#8, 0, 0, 0, 0⟩

/-- the case is met: 16 MHz, / 4 -/
theorem sample : trim reset = 201 ∧ (init 2 ⟨0, 0, 0, 4⟩ true reset).map (fun s => (getFreq s 0, hw 201 0 s 0)) = some (some 4000000, some (16000000, 4)) := by decide

/-- the value written to the trim is at least 497 of 511, whatever the trim of the factory was: the subtraction of 15 is made before the or -/
theorem rctrim_high : ∀ a : BitVec 8, ∀ c : BitVec 8, c = 0#8 ∨ c = 1#8 →
    497 ≤ ((((a.setWidth 16 <<< 1) ||| ((c.setWidth 16 &&& 1#16) - 15#16)) >>> 1).setWidth 8).toNat * 2 + ((((a.setWidth 16 <<< 1) ||| ((c.setWidth 16 &&& 1#16) - 15#16)) &&& 1#16).setWidth 8).toNat % 2 := by
  intro a c hc
  rcases hc with rfl | rfl
  · revert a; decide +kernel
  · revert a; decide +kernel

theorem low_bit (c : BitVec 8) : c.setWidth 16 &&& 1#16 = (c &&& 1#8).setWidth 16 &&& 1#16 := by
  apply BitVec.eq_of_getLsbD_eq
  intro i hi
  simp only [BitVec.getLsbD_and, BitVec.getLsbD_setWidth]
  by_cases h : i = 0
  · subst h; simp
  · have : (1#16).getLsbD i = false := by simp [BitVec.getLsbD_one, h]
    rw [this]; simp

theorem low_cases (c : BitVec 8) : c &&& 1#8 = 0#8 ∨ c &&& 1#8 = 1#8 := by
  revert c; decide +kernel

/-- **C95 refuted, numicro and n76e003**: 16.6 MHz.  From a chip with a trim of 15 or more (the datasheet subtracts 15), the trim is not the one that gives it, and 16.6 MHz is told -/
theorem trim_wrong (n t : Nat) (s s1 : St) (h : setupHirc n 1 s = some s1) (ht : trim s = t) (h15 : 15 ≤ t) :
    s1.fhirc = 16600000 ∧ 497 ≤ trim s1 ∧ ¬ Tells (getFreq s1 3) (hw t 0 s1 3) := by
  unfold setupHirc at h
  by_cases hn : n ≤ 1
  · rw [if_pos hn] at h; cases h
  rw [if_neg hn, if_neg (by omega), if_pos rfl, Option.some.injEq] at h
  have a0 : s1.rc0 = (rctrim s >>> 1).setWidth 8 := by rw [← h]
  have a1 : s1.rc1 = (rctrim s &&& 1#16).setWidth 8 := by rw [← h]
  have a2 : s1.fhirc = 16600000 := by rw [← h]
  have hr : rctrim s = (s.rc0.setWidth 16 <<< 1) ||| (((s.rc1 &&& 1#8).setWidth 16 &&& 1#16) - 15#16) := by unfold rctrim; rw [low_bit]
  have hh : 497 ≤ trim s1 := by
    unfold trim
    rw [a0, a1, hr]
    exact rctrim_high s.rc0 (s.rc1 &&& 1#8) (low_cases s.rc1)
  have hb : s1.rc1.getLsbD 4 = false := by
    rw [a1, BitVec.getLsbD_setWidth, BitVec.getLsbD_and]
    rw [show (1#16).getLsbD 4 = false from by decide]
    simp
  refine ⟨a2, hh, ?_⟩
  rintro ⟨m, d, e1, -, e2⟩
  have e1 : hircHz t s1 = some (m, d) := e1
  have e2 : some s1.fhirc = some (m / d) := e2
  rw [a2, Option.some.injEq] at e2
  have hlt : t ≤ 511 := by
    rw [← ht]; unfold trim
    have := s.rc0.isLt
    omega
  unfold hircHz at e1
  by_cases hc : s1.cken.getLsbD 5 = false
  · rw [if_pos hc] at e1; cases e1
  rw [if_neg hc, hb, if_neg (by decide)] at e1
  by_cases hq : trim s1 = t
  · rw [if_pos hq] at e1
    cases e1; revert e2; decide
  · rw [if_neg hq, if_neg (by omega)] at e1; cases e1

/-- the case is met -/
theorem trim_sample : ∃ s1, setupHirc 2 1 reset = some s1 ∧ trim reset = 201 ∧ trim s1 = 506 := ⟨_, rfl, by decide, by decide⟩

/-- **C95 refuted, numicro**: back from 24 MHz, 16 MHz is told, HIRC24 is still set -/
theorem hirc24_stays (s s1 s2 : St) (h1 : setupHirc 3 2 s = some s1) (h2 : setupHirc 3 0 s1 = some s2) : getFreq s2 3 = some 16000000 ∧ s2.rc1.getLsbD 4 = true ∧
    ∀ t x, ¬ Tells (getFreq s2 3) (hw t x s2 3) := by
  have h1 : some { s with rc1 := bset 4 s.rc1, fhirc := 24000000 } = some s1 := h1
  have h2 : some { s1 with fhirc := 16000000 } = some s2 := h2
  rw [Option.some.injEq] at h1 h2
  have a1 : s2.rc1.getLsbD 4 = true := by rw [← h2, ← h1]; exact bset_same _ _ (by omega)
  have a2 : getFreq s2 3 = some 16000000 := by rw [← h2]; rfl
  refine ⟨a2, a1, ?_⟩
  rintro t x ⟨m, d, e1, -, e2⟩
  have e1 : hircHz t s2 = some (m, d) := e1
  rw [a2, Option.some.injEq] at e2
  unfold hircHz at e1
  by_cases hc : s2.cken.getLsbD 5 = false
  · rw [if_pos hc] at e1; cases e1
  rw [if_neg hc, a1, if_pos rfl] at e1
  by_cases hq : trim s2 = t
  · rw [if_pos hq] at e1
    cases e1; revert e2; decide
  · rw [if_neg hq] at e1; cases e1

/-- with the external clock selected HIRC is switched off; it is told to run at 16 MHz -/
theorem hirc_off : (init 2 ⟨1, 0, 20000000, 1⟩ true reset).map (fun s => (getFreq s 0, getFreq s 3, hw 201 20000000 s 3)) = some (some 20000000, some 16000000, none) := by decide

end Nu

namespace Cy

/-- the register is as asked, and so the CPU runs at the frequency recorded -/
theorem init_sets (k : Nat) (s s' : St) (h : init k s = some s') : hw s' 0 = some (s'.cpu, 1) ∧ s'.cpu = 12000000 * 2 ^ k ∧ ∀ i, i < 3 ∨ 5 ≤ i → s'.cpucs.getLsbD i = s.cpucs.getLsbD i := by
  have hf : ∀ v, v < 4 → (get 2 3 (orIn 2 3 (BitVec.ofNat 8 v) (clear 2 3 s.cpucs))).toNat = v := by
    intro v hv
    rw [get_orIn_same _ _ _ _ (by omega) (get_clear_same _ _ _), and_mask _ _ _ (by omega) hv]
  have hb : ∀ v i, i < 3 ∨ 5 ≤ i → (orIn 2 3 (BitVec.ofNat 8 v) (clear 2 3 s.cpucs)).getLsbD i = s.cpucs.getLsbD i := fun v i hi => put_bit 2 3 i _ _ (by omega)
  have hb0 : ∀ i, i < 3 ∨ 5 ≤ i → (clear 2 3 s.cpucs).getLsbD i = s.cpucs.getLsbD i := by
    intro i hi
    rw [clear_bit]
    have : (decide (3 ≤ i) && decide (i < 3 + 2)) = false := by rw [Bool.eq_false_iff]; simp only [ne_eq, Bool.and_eq_true, decide_eq_true_eq]; omega
    rw [this]; simp
  have hc : k = 0 ∨ k = 1 ∨ k = 2 ∨ ∃ j, k = j + 3 := by
    have : k < 3 ∨ 3 ≤ k := by omega
    rcases this with h | h
    · omega
    · exact Or.inr (Or.inr (Or.inr ⟨k - 3, by omega⟩))
  rcases hc with rfl | rfl | rfl | ⟨j, rfl⟩
  · have h : some { s with cpucs := clear 2 3 s.cpucs, cpu := 12000000 } = some s' := h
    rw [Option.some.injEq] at h
    have a1 : s'.cpucs = clear 2 3 s.cpucs := by rw [← h]
    have a2 : s'.cpu = 12000000 := by rw [← h]
    refine ⟨?_, by rw [a2], by rw [a1]; exact hb0⟩
    unfold hw; rw [a1, a2, get_clear_same]; rfl
  · have h : some { s with cpucs := orIn 2 3 1#8 (clear 2 3 s.cpucs), cpu := 24000000 } = some s' := h
    rw [Option.some.injEq] at h
    have a1 : s'.cpucs = orIn 2 3 (BitVec.ofNat 8 1) (clear 2 3 s.cpucs) := by rw [← h]
    have a2 : s'.cpu = 24000000 := by rw [← h]
    refine ⟨?_, by rw [a2], by rw [a1]; exact hb 1⟩
    unfold hw; rw [a1, a2, hf 1 (by omega)]; rfl
  · have h : some { s with cpucs := orIn 2 3 2#8 (clear 2 3 s.cpucs), cpu := 48000000 } = some s' := h
    rw [Option.some.injEq] at h
    have a1 : s'.cpucs = orIn 2 3 (BitVec.ofNat 8 2) (clear 2 3 s.cpucs) := by rw [← h]
    have a2 : s'.cpu = 48000000 := by rw [← h]
    refine ⟨?_, by rw [a2], by rw [a1]; exact hb 2⟩
    unfold hw; rw [a1, a2, hf 2 (by omega)]; rfl
  · cases h

/-- **C95 refuted, cy7c6801xa**: clock_get_freq refuses the only clock there is, and the others -/
theorem never_told (s : St) (k : Nat) : getFreq s k = none ∧ ¬ Tells (getFreq s k) (hw s k) := by
  have : getFreq s k = none := by
    unfold getFreq
    by_cases h : k = 0
    · rw [if_pos (by omega)]
    · rw [if_neg (by omega), if_neg h]
  refine ⟨this, ?_⟩
  rintro ⟨n, d, -, -, e⟩
  rw [this] at e; cases e

end Cy
end Pico.Clock
