import Verif.Drivers.ClockProps9
/-
Clocks (C95, C96): mpc574xx.
-/
namespace Pico.Clock
open Field

namespace Mpc

theorem find_mem {α : Type} {l : List α} {q : α → Bool} {a : α} (h : l.find? q = some a) : a ∈ l ∧ q a = true :=
  ⟨List.mem_of_find?_eq_some h, List.find?_some h⟩

theorem in_cands (k : Nat × Nat × Nat) (h : k ∈ cands) : 1 ≤ k.1 ∧ k.1 ≤ 6 ∧ 10 ≤ k.2.1 ∧ k.2.1 ≤ 150 ∧ k.2.2 ≤ 4 := by
  unfold cands at h
  simp only [List.mem_flatMap, List.mem_map, List.mem_range] at h
  obtain ⟨p, hp, m, hm, r, hr, rfl⟩ := h
  refine ⟨?_, ?_, ?_, ?_, ?_⟩ <;> dsimp only <;> omega

theorem dv_fields (k : Nat × Nat × Nat) (h1 : k.1 < 8) (h2 : k.2.1 < 256) (h3 : k.2.2 < 64) :
    (get 3 12 (dvOf k)).toNat = k.1 ∧ (get 8 0 (dvOf k)).toNat = k.2.1 ∧ (get 6 16 (dvOf k)).toNat = k.2.2 := by
  unfold dvOf
  refine ⟨?_, ?_, ?_⟩
  · rw [get_orIn_other _ _ _ _ _ _ (by omega), get_orIn_other _ _ _ _ _ _ (by omega), get_orIn_zero _ _ _ _ (by omega) (by omega) (get_zero _ _)]
  · rw [get_orIn_other _ _ _ _ _ _ (by omega), get_orIn_zero _ _ _ _ (by omega) (by omega)]
    rw [get_orIn_other _ _ _ _ _ _ (by omega)]; exact get_zero _ _
  · rw [get_orIn_zero _ _ _ _ (by omega) (by omega)]
    rw [get_orIn_other _ _ _ _ _ _ (by omega), get_orIn_other _ _ _ _ _ _ (by omega)]; exact get_zero _ _

/-- the system clock of the settings: FIRC only if it is already the one in use, the PLL with an input that cannot overflow -/
def Fit (c : Cfg) (s : St) : Prop := (c.sysclk = 0 → s.sel = 0) ∧ (c.sysclk = 2 → c.clkin = 1 → c.fxosc * 150 < 2 ^ 32)

theorem toSys_ok (c : Cfg) (w : Bool) (s s' : St) (h : toSys c w s = some s') (hf : Fit c s) : Tells (some s'.sysclk) (sysHz c.fxosc s') ∧ s'.dc = s.dc := by
  unfold toSys at h
  have hc : c.sysclk = 0 ∨ c.sysclk = 1 ∨ c.sysclk = 2 ∨ 3 ≤ c.sysclk := by omega
  rcases hc with hc | hc | hc | hc
  · rw [hc] at h
    have h : some { s with sysclk := 16000000 } = some s' := h
    rw [Option.some.injEq] at h
    rw [← h]
    refine ⟨?_, rfl⟩
    show Tells (some 16000000) (sysHz c.fxosc { s with sysclk := 16000000 })
    unfold sysHz
    dsimp only
    rw [hf.1 hc]
    exact tells_self _
  · rw [hc] at h
    have h : toXosc c.fxosc w s = some s' := h
    unfold toXosc at h
    by_cases h1 : c.fxosc < 8000000 ∨ 40000000 < c.fxosc
    · rw [if_pos h1] at h; cases h
    rw [if_neg h1] at h
    cases w with
    | false => cases h
    | true =>
      rw [if_pos rfl, Option.some.injEq] at h
      rw [← h]
      exact ⟨tells_self _, rfl⟩
  · rw [hc] at h
    have h : toPll c w s = some s' := h
    unfold toPll at h
    by_cases h1 : 2 ≤ c.clkin
    · rw [if_pos h1] at h; cases h
    rw [if_neg h1] at h
    by_cases h2 : c.phi0 = 0
    · rw [if_pos h2] at h; cases h
    rw [if_neg h2] at h
    cases hk : cands.find? fun k => decide (c.phi0 = phi (if c.clkin = 0 then 16000000 else c.fxosc) k) with
    | none => rw [hk] at h; cases h
    | some k =>
      rw [hk] at h
      cases w with
      | false => cases h
      | true =>
        have h : some { s with xin := decide (c.clkin = 1), plldv := dvOf k, sel := 2, sysclk := c.phi0 } = some s' := h
        rw [Option.some.injEq] at h
        obtain ⟨m1, m2⟩ := find_mem hk
        obtain ⟨b1, b2, b3, b4, b5⟩ := in_cands k m1
        obtain ⟨f1, f2, f3⟩ := dv_fields k (by omega) (by omega) (by omega)
        rw [decide_eq_true_eq] at m2
        have e1 : s'.plldv = dvOf k := by rw [← h]
        have e2 : s'.xin = decide (c.clkin = 1) := by rw [← h]
        have e3 : s'.sysclk = c.phi0 := by rw [← h]
        have e4 : s'.sel = 2 := by rw [← h]
        have e5 : s'.dc = s.dc := by rw [← h]
        refine ⟨?_, e5⟩
        unfold sysHz
        rw [e4]
        show Tells (some s'.sysclk) (pllHz c.fxosc s')
        unfold pllHz
        rw [e1, e2, e3, f1, f2, f3, if_neg (show ¬ k.1 = 0 by omega)]
        have hin : (if decide (c.clkin = 1) = true then c.fxosc else 16000000) = (if c.clkin = 0 then 16000000 else c.fxosc) := by
          have : c.clkin = 0 ∨ c.clkin = 1 := by omega
          rcases this with hq | hq <;> rw [hq] <;> rfl
        rw [hin]
        refine ⟨_, _, rfl, Nat.mul_pos (by omega) (Nat.two_pow_pos _), ?_⟩
        rw [m2]; unfold phi
        rw [Nat.mod_eq_of_lt]
        by_cases hq : c.clkin = 0
        · rw [if_pos hq]; omega
        · rw [if_neg hq]
          have h3 := hf.2 hc (by omega)
          have h4 : c.fxosc * k.2.1 ≤ c.fxosc * 150 := Nat.mul_le_mul_left _ b4
          omega
  · exfalso
    obtain ⟨j, hj⟩ : ∃ j, c.sysclk = j + 3 := ⟨c.sysclk - 3, by omega⟩
    rw [hj] at h
    cases h

theorem dc_field (w d : Nat) (hw : 3 ≤ w) (hw2 : w ≤ 15) (hd : 0 < d) (hd2 : d ≤ 8) : (bset 31 (orIn 3 16 (BitVec.ofNat 32 (d - 1)) 0#32)).getLsbD 31 = true ∧
    (get w 16 (bset 31 (orIn 3 16 (BitVec.ofNat 32 (d - 1)) 0#32))).toNat + 1 = d := by
  refine ⟨bset_same _ _ (by omega), ?_⟩
  rw [get_bset_other _ _ _ _ (by omega)]
  have hv : orIn 3 16 (BitVec.ofNat 32 (d - 1)) 0#32 = orIn w 16 (BitVec.ofNat 32 (d - 1)) 0#32 := by
    unfold orIn
    have : BitVec.ofNat 32 (d - 1) &&& mask 32 3 = BitVec.ofNat 32 (d - 1) &&& mask 32 w := by
      apply BitVec.eq_of_toNat_eq
      rw [and_mask _ _ _ (by omega) (by omega)]
      rw [and_mask _ _ _ (by omega) (Nat.lt_of_lt_of_le (show d - 1 < 2 ^ 3 by omega) (Nat.pow_le_pow_right (by omega) hw))]
    rw [this]
  rw [hv, get_orIn_zero _ _ _ _ (by omega) (Nat.lt_of_lt_of_le (show d - 1 < 2 ^ 3 by omega) (Nat.pow_le_pow_right (by omega) hw)) (get_zero _ _)]
  omega

theorem init_ok (c : Cfg) (w : Bool) (s s' : St) (h : init c w s = .ok s') : ∃ s1 s2, dividers c s = some s1 ∧ toSys c w s1 = some s2 ∧ 0 < c.s160 ∧ 0 < c.s80 ∧ 0 < c.fs80 ∧ 0 < c.s40 ∧
    s' = { s2 with s160 := s2.sysclk / c.s160, s80 := s2.sysclk / c.s80, fs80 := s2.sysclk / c.fs80, s40 := s2.sysclk / c.s40, f40 := s2.sysclk / 4, f80 := s2.sysclk / 2, f20 := s2.sysclk / 8 } := by
  unfold init at h
  cases e1 : dividers c s with
  | none => rw [e1] at h; cases h
  | some s1 =>
    rw [e1, Option.bind_some] at h
    cases e2 : toSys c w s1 with
    | none => rw [e2] at h; cases h
    | some s2 =>
      rw [e2] at h
      dsimp only at h
      by_cases hz : c.s160 = 0 ∨ c.s80 = 0 ∨ c.fs80 = 0 ∨ c.s40 = 0
      · rw [if_pos hz] at h; cases h
      rw [if_neg hz] at h
      injection h with h
      exact ⟨s1, s2, rfl, e2, by omega, by omega, by omega, by omega, h.symm⟩

theorem dividers_ok (c : Cfg) (s s' : St) (h : dividers c s = some s') : c.s160 ≤ 8 ∧ c.s80 ≤ 8 ∧ c.fs80 ≤ 8 ∧ c.s40 ≤ 16 ∧
    s' = { s with dc := dcSet 5 c.fs80 (dcSet 2 c.s40 (dcSet 1 c.s80 (dcSet 0 c.s160 s.dc))) } := by
  unfold dividers at h
  by_cases hz : 8 < c.s160 ∨ 8 < c.s80 ∨ 8 < c.fs80 ∨ 16 < c.s40
  · rw [if_pos hz] at h; cases h
  rw [if_neg hz, Option.some.injEq] at h
  exact ⟨by omega, by omega, by omega, by omega, h.symm⟩

/-- **C95, mpc574xx**: after a successful initialisation every clock is as told, if the choice of FIRC is the clock already in use, a crystal at the input of the PLL is below 28.6 MHz and the divider of
S40 is at most 8.  Missing: the rest (`firc_stays`, `pll_wraps`, `s40_wrong`), and the dividers of 0 (`disable_undef`) -/
theorem freq_partial (c : Cfg) (w : Bool) (s s' : St) (h : init c w s = .ok s') (hf : Fit c s) (h40 : c.s40 ≤ 8) (k : Nat) (hk : k ≤ 7) : Tells (getFreq s' k) (hw c.fxosc s' k) := by
  obtain ⟨s1, s2, e1, e2, p1, p2, p3, p4, e3⟩ := init_ok c w s s' h
  obtain ⟨b1, b2, b3, b4, e4⟩ := dividers_ok c s s1 e1
  have hf1 : Fit c s1 := by rw [e4]; exact hf
  obtain ⟨t, d⟩ := toSys_ok c w s1 s2 e2 hf1
  have r1 : sysHz c.fxosc s' = sysHz c.fxosc s2 := by rw [e3]; rfl
  have r2 : s'.dc = dcSet 5 c.fs80 (dcSet 2 c.s40 (dcSet 1 c.s80 (dcSet 0 c.s160 s.dc))) := by
    have : s'.dc = s2.dc := by rw [e3]
    rw [this, d, e4]
  have q : ∀ i d, 0 < d → ∀ f, dcSet i d f = Rp.set f i (bset 31 (orIn 3 16 (BitVec.ofNat 32 (d - 1)) 0#32)) := fun i d h f => if_neg (by omega)
  rw [q _ _ p3, q _ _ p4, q _ _ p2, q _ _ p1] at r2
  have dv : ∀ wd i d, 3 ≤ wd → wd ≤ 15 → 0 < d → d ≤ 8 → s'.dc i = bset 31 (orIn 3 16 (BitVec.ofNat 32 (d - 1)) 0#32) → Tells (some (s2.sysclk / d)) (dcHz wd i c.fxosc s') := by
    intro wd i d h1 h2 h3 h4 h5
    obtain ⟨f1, f2⟩ := dc_field wd d h1 h2 h3 h4
    unfold dcHz
    rw [h5, if_pos f1, f2, r1]
    exact tells_div t h3
  have hc : k = 0 ∨ k = 1 ∨ k = 2 ∨ k = 3 ∨ k = 4 ∨ k = 5 ∨ k = 6 ∨ k = 7 := by omega
  rcases hc with rfl | rfl | rfl | rfl | rfl | rfl | rfl | rfl
  · show Tells (some s'.sysclk) (sysHz c.fxosc s')
    rw [r1, show s'.sysclk = s2.sysclk by rw [e3]]; exact t
  · show Tells (some s'.s160) _
    rw [show s'.s160 = s2.sysclk / c.s160 by rw [e3]]
    refine dv 3 0 _ (by omega) (by omega) p1 b1 ?_
    rw [r2, Rp.set_ne _ _ _ _ (by omega), Rp.set_ne _ _ _ _ (by omega), Rp.set_ne _ _ _ _ (by omega), Rp.set_same]
  · show Tells (some s'.s80) _
    rw [show s'.s80 = s2.sysclk / c.s80 by rw [e3]]
    refine dv 3 1 _ (by omega) (by omega) p2 b2 ?_
    rw [r2, Rp.set_ne _ _ _ _ (by omega), Rp.set_ne _ _ _ _ (by omega), Rp.set_same]
  · show Tells (some s'.fs80) _
    rw [show s'.fs80 = s2.sysclk / c.fs80 by rw [e3]]
    refine dv 3 5 _ (by omega) (by omega) p3 b3 ?_
    rw [r2, Rp.set_same]
  · show Tells (some s'.s40) _
    rw [show s'.s40 = s2.sysclk / c.s40 by rw [e3]]
    refine dv 4 2 _ (by omega) (by omega) p4 h40 ?_
    rw [r2, Rp.set_ne _ _ _ _ (by omega), Rp.set_same]
  · show Tells (some s'.f40) (Hz.div (sysHz c.fxosc s') 4)
    rw [show s'.f40 = s2.sysclk / 4 by rw [e3], r1]; exact tells_div t (by omega)
  · show Tells (some s'.f80) (Hz.div (sysHz c.fxosc s') 2)
    rw [show s'.f80 = s2.sysclk / 2 by rw [e3], r1]; exact tells_div t (by omega)
  · show Tells (some s'.f20) (Hz.div (sysHz c.fxosc s') 8)
    rw [show s'.f20 = s2.sysclk / 8 by rw [e3], r1]; exact tells_div t (by omega)

def reset : St := ⟨fun _ => 0#32, 0#32, false, 0, fun _ => 0#32, fun _ => 0#32, fun _ => 0#8, 0, 0, 0, 0, 0, 0, 0, 0⟩
def tell (r : Res St) (k : Nat) : Option Nat := match r with | .ok s => getFreq s k | _ => none
def real (r : Res St) (x k : Nat) : Option Hz := match r with | .ok s => hw x s k | _ => none

/-- the case is met: 16 MHz of FIRC or a quartz of 16 MHz, 160 MHz -/
def usual : Cfg := ⟨2, 1, 16000000, 160000000, 1, 2, 2, 4⟩
theorem sample : Fit usual reset ∧ usual.s40 ≤ 8 ∧ tell (init usual true reset) 0 = some 160000000 ∧ tell (init usual true reset) 4 = some 40000000 ∧ real (init usual true reset) 16000000 4 = some (320000000, 8) :=
  ⟨⟨(fun h => by cases h), (fun _ _ => by decide)⟩, by decide, by decide +kernel, by decide +kernel, by decide +kernel⟩

/-- **C95 refuted, mpc574xx**: a divider of 9 to 16 for S40, as the documentation allows, is cut to 3 bits: the clock told is divided by 8 more -/
theorem s40_wrong (c : Cfg) (w : Bool) (s s' : St) (h : init c w s = .ok s') (hf : Fit c s) (h40 : 8 < c.s40) : getFreq s' 4 = some (s'.sysclk / c.s40) ∧ hw c.fxosc s' 4 = Hz.div (sysHz c.fxosc s') (c.s40 - 8) := by
  obtain ⟨s1, s2, e1, e2, p1, p2, p3, p4, e3⟩ := init_ok c w s s' h
  obtain ⟨b1, b2, b3, b4, e4⟩ := dividers_ok c s s1 e1
  have hf1 : Fit c s1 := by rw [e4]; exact hf
  obtain ⟨-, d⟩ := toSys_ok c w s1 s2 e2 hf1
  have r2 : s'.dc = dcSet 5 c.fs80 (dcSet 2 c.s40 (dcSet 1 c.s80 (dcSet 0 c.s160 s.dc))) := by
    have : s'.dc = s2.dc := by rw [e3]
    rw [this, d, e4]
  have q : ∀ i d, 0 < d → ∀ f, dcSet i d f = Rp.set f i (bset 31 (orIn 3 16 (BitVec.ofNat 32 (d - 1)) 0#32)) := fun i d h f => if_neg (by omega)
  rw [q _ _ p3, q _ _ p4] at r2
  have r3 : s'.dc 2 = bset 31 (orIn 3 16 (BitVec.ofNat 32 (c.s40 - 1)) 0#32) := by rw [r2, Rp.set_ne _ _ _ _ (by omega), Rp.set_same]
  refine ⟨by rw [e3]; rfl, ?_⟩
  show dcHz 4 2 c.fxosc s' = _
  unfold dcHz
  rw [r3, if_pos (bset_same _ _ (by omega))]
  have hc : c.s40 = 9 ∨ c.s40 = 10 ∨ c.s40 = 11 ∨ c.s40 = 12 ∨ c.s40 = 13 ∨ c.s40 = 14 ∨ c.s40 = 15 ∨ c.s40 = 16 := by omega
  rcases hc with hc | hc | hc | hc | hc | hc | hc | hc <;> rw [hc] <;> rfl

/-- the case: / 16 of 160 MHz: 10 MHz told, 20 MHz made -/
theorem s40_sample : tell (init { usual with s40 := 16 } true reset) 4 = some 10000000 ∧ real (init { usual with s40 := 16 } true reset) 16000000 4 = some (320000000, 16) := by decide +kernel

/-- **C95 refuted, mpc574xx**: FIRC chosen after another clock: 16 MHz is told, the system clock is left as it was -/
theorem firc_stays (c : Cfg) (w : Bool) (s s' : St) (h : init c w s = .ok s') (h0 : c.sysclk = 0) (x : Nat) : getFreq s' 0 = some 16000000 ∧ hw x s' 0 = hw x s 0 := by
  obtain ⟨s1, s2, e1, e2, -, -, -, -, e3⟩ := init_ok c w s s' h
  obtain ⟨-, -, -, -, e4⟩ := dividers_ok c s s1 e1
  unfold toSys at e2
  rw [h0] at e2
  have e2 : some { s1 with sysclk := 16000000 } = some s2 := e2
  rw [Option.some.injEq] at e2
  rw [e3, ← e2, e4]
  exact ⟨rfl, rfl⟩

theorem firc_sample : ∃ s' s'', init usual true reset = .ok s' ∧ init { usual with sysclk := 0 } true s' = .ok s'' ∧ getFreq s'' 0 = some 16000000 ∧ hw 16000000 s' 0 = some (320000000, 2) := by
  have hok : ∀ r : Res St, (match r with | .ok _ => true | _ => false) = true → ∃ s, r = .ok s := by
    intro r hr
    cases r with
    | ok s => exact ⟨s, rfl⟩
    | fail => cases hr
    | undef => cases hr
  obtain ⟨s', h1⟩ := hok (init usual true reset) (by decide +kernel)
  have h2 : ∃ s'', init { usual with sysclk := 0 } true s' = .ok s'' := ⟨_, rfl⟩
  obtain ⟨s'', h2⟩ := h2
  refine ⟨s', s'', h1, h2, (firc_stays _ _ _ _ h2 rfl 0).1, ?_⟩
  have : real (init usual true reset) 16000000 0 = some (320000000, 2) := by decide +kernel
  rw [h1] at this; exact this

/-- **C95 refuted, mpc574xx**: the product of the search wraps at 32 bits.  With 40 MHz, 782272 Hz is accepted and told; 135 MHz is made -/
theorem pll_wraps : ∃ f, tell (init { usual with fxosc := 40000000, phi0 := f } true reset) 0 = some f ∧ ¬ Tells (tell (init { usual with fxosc := 40000000, phi0 := f } true reset) 0) (real (init { usual with fxosc := 40000000, phi0 := f } true reset) 40000000 0) := by
  refine ⟨782272, by decide +kernel, ?_⟩
  rintro ⟨n, d, e1, -, e2⟩
  have a1 : tell (init { usual with fxosc := 40000000, phi0 := 782272 } true reset) 0 = some 782272 := by decide +kernel
  rw [a1, Option.some.injEq] at e2
  have a2 : (real (init { usual with fxosc := 40000000, phi0 := 782272 } true reset) 40000000 0).map (fun f => f.1 / f.2) = some 135000000 := by decide +kernel
  rw [e1] at a2
  have a2 : some (n / d) = some 135000000 := a2
  rw [Option.some.injEq, ← e2] at a2
  cases a2

/-- **C95 refuted, mpc574xx**: a divider of 0, documented as "disable", is a division by zero after the switch of the clock -/
theorem disable_undef (c : Cfg) (w : Bool) (s s1 s2 : St) (h1 : dividers c s = some s1) (h2 : toSys c w s1 = some s2) (h0 : c.s160 = 0 ∨ c.s80 = 0 ∨ c.fs80 = 0 ∨ c.s40 = 0) : init c w s = .undef := by
  unfold init
  rw [h1, Option.bind_some, h2]
  exact if_pos h0

theorem disable_sample : init { usual with fs80 := 0 } true reset = .undef := by
  have h : (match init { usual with fs80 := 0 } true reset with | .undef => true | _ => false) = true := by decide +kernel
  cases e : init { usual with fs80 := 0 } true reset with
  | undef => rfl
  | ok s => rw [e] at h; cases h
  | fail => rw [e] at h; cases h

/-- **C96, mpc574xx**: a peripheral gets the run configuration named; no other peripheral, and not its low power configuration, changes -/
theorem run_does (p i : Nat) (s s' : St) (h : setRun p i s = some s') : (∀ m, on s' p m = (s.runPc i).getLsbD m) ∧ (∀ q m, q ≠ p → on s' q m = on s q m) ∧ (∀ q m, onLp s' q m = onLp s q m) ∧ s'.runPc = s.runPc := by
  unfold setRun at h
  by_cases h1 : 106 ≤ p
  · rw [if_pos h1] at h; cases h
  rw [if_neg h1] at h
  by_cases h2 : 8 ≤ i
  · rw [if_pos h2] at h; cases h
  rw [if_neg h2, Option.some.injEq] at h
  have a1 : s'.pctl = Rp.set s.pctl p (orIn 3 0 (BitVec.ofNat 8 i) (clear 3 0 (s.pctl p))) := by rw [← h]
  have a2 : s'.runPc = s.runPc := by rw [← h]
  have a3 : s'.lpPc = s.lpPc := by rw [← h]
  refine ⟨?_, ?_, ?_, a2⟩
  · intro m
    unfold on
    rw [a1, a2, Rp.set_same, get_orIn_same _ _ _ _ (by omega) (get_clear_same _ _ _), and_mask _ _ _ (by omega) (by omega)]
  · intro q m hq
    unfold on
    rw [a1, a2, Rp.set_ne _ _ _ _ hq]
  · intro q m
    unfold onLp
    rw [a1, a3]
    by_cases hq : q = p
    · rw [hq, Rp.set_same, get_orIn_other _ _ _ _ _ _ (by omega), get_clear_other _ _ _ _ _ (by omega)]
    · rw [Rp.set_ne _ _ _ _ hq]

theorem lp_does (p i : Nat) (s s' : St) (h : setLp p i s = some s') : (∀ m, onLp s' p m = (s.lpPc i).getLsbD m) ∧ (∀ q m, q ≠ p → onLp s' q m = onLp s q m) ∧ (∀ q m, on s' q m = on s q m) ∧ s'.lpPc = s.lpPc := by
  unfold setLp at h
  by_cases h1 : 106 ≤ p
  · rw [if_pos h1] at h; cases h
  rw [if_neg h1] at h
  by_cases h2 : 8 ≤ i
  · rw [if_pos h2] at h; cases h
  rw [if_neg h2, Option.some.injEq] at h
  have a1 : s'.pctl = Rp.set s.pctl p (orIn 3 3 (BitVec.ofNat 8 i) (clear 3 3 (s.pctl p))) := by rw [← h]
  have a2 : s'.runPc = s.runPc := by rw [← h]
  have a3 : s'.lpPc = s.lpPc := by rw [← h]
  refine ⟨?_, ?_, ?_, a3⟩
  · intro m
    unfold onLp
    rw [a1, a3, Rp.set_same, get_orIn_same _ _ _ _ (by omega) (get_clear_same _ _ _), and_mask _ _ _ (by omega) (by omega)]
  · intro q m hq
    unfold onLp
    rw [a1, a3, Rp.set_ne _ _ _ _ hq]
  · intro q m
    unfold on
    rw [a1, a2]
    by_cases hq : q = p
    · rw [hq, Rp.set_same, get_orIn_other _ _ _ _ _ _ (by omega), get_clear_other _ _ _ _ _ (by omega)]
    · rw [Rp.set_ne _ _ _ _ hq]

/-- a run configuration gets the modes named (flags of 8 bits); the peripherals that use it follow, the others do not change -/
theorem pc_does (i : Nat) (f : Nat) (s s' : St) (h : setRunPc i f s = some s') : f < 0x100 ∧ (∀ p m, m < 32 → on s' p m = if (get 3 0 (s.pctl p)).toNat = i then f.testBit m else on s p m) ∧
    ∀ p m, onLp s' p m = onLp s p m := by
  unfold setRunPc at h
  by_cases h1 : 8 ≤ i
  · rw [if_pos h1] at h; cases h
  rw [if_neg h1] at h
  by_cases h2 : (0x100 : Int) ≤ (f : Int)
  · rw [if_pos h2] at h; cases h
  rw [if_neg h2, Option.some.injEq] at h
  have a1 : s'.runPc = Rp.set s.runPc i (BitVec.ofInt 32 f) := by rw [← h]
  have a2 : s'.pctl = s.pctl := by rw [← h]
  refine ⟨by omega, ?_, by intro p m; rw [← h]; rfl⟩
  intro p m hm
  unfold on
  rw [a1, a2]
  by_cases hq : (get 3 0 (s.pctl p)).toNat = i
  · rw [hq, Rp.set_same, if_pos rfl]
    rw [show BitVec.ofInt 32 (f : Int) = BitVec.ofNat 32 f from BitVec.ofInt_natCast 32 f, BitVec.getLsbD_ofNat]
    simp [hm]
  · rw [Rp.set_ne _ _ _ _ hq, if_neg hq]

theorem gates_accepted (p i f : Nat) (hp : p < 106) (hi : i < 8) (hf : f < 256) (s : St) : (∃ s', setRun p i s = some s') ∧ (∃ s', setLp p i s = some s') ∧ ∃ s', setRunPc i f s = some s' := by
  unfold setRun setLp setRunPc
  rw [if_neg (show ¬ 106 ≤ p by omega), if_neg (show ¬ 8 ≤ i by omega), if_neg (show ¬ 106 ≤ p by omega), if_neg (show ¬ 8 ≤ i by omega), if_neg (show ¬ 8 ≤ i by omega), if_neg (show ¬ (0x100 : Int) ≤ (f : Int) by omega)]
  exact ⟨⟨_, rfl⟩, ⟨_, rfl⟩, _, rfl⟩

/-- a negative set of flags passes the check -/
theorem pc_negative (s : St) : ∃ s', setRunPc 0 (-1) s = some s' ∧ s'.runPc 0 = 0xffffffff#32 := ⟨_, rfl, rfl⟩

end Mpc
end Pico.Clock
