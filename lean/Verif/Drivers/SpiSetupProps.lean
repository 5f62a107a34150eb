/-
The SPI drivers (C89: bit rate; C90: clock mode, frame size, role, chip select): theorems.
-/
import Verif.Drivers.SpiSetup

namespace Pico.SpiSetup
open Pico.Field

/-! ### Specification -/

/-- SCK is the rate asked, to the Hz -/
def Exact (f b d : Nat) : Prop := f / d = b

/-- `d` is among the dividers available, SCK is not above the rate asked (to the Hz), and none of the others gives a rate that is closer -/
def Fastest (S : Nat → Prop) (f b d : Nat) : Prop := S d ∧ f / d ≤ b ∧ ∀ d', S d' → f / d' ≤ b → d ≤ d'

/-- SCK is not below the rate asked, and none of the others gives a rate that is closer -/
def Slowest (S : Nat → Prop) (f b d : Nat) : Prop := S d ∧ b * d ≤ f ∧ ∀ d', S d' → b * d' ≤ f → d' ≤ d

/-- polarity and phase of the clock modes (spi.h:23-35) -/
def pol (k : Nat) : Bool := k == 3 || k == 4
def pha (k : Nat) : Bool := k == 2 || k == 4

/-- what was asked for, 0 meaning as it was (spi.h:63-70); the controller is on afterwards -/
structure Asked (Rate : Nat → Nat → Prop) (s : Settings) (v v' : View) : Prop where
  rate : if s.bitrate = 0 then v'.div = v.div else Rate s.bitrate v'.div
  cpol : v'.cpol = if s.clk = 0 then v.cpol else pol s.clk
  cpha : v'.cpha = if s.clk = 0 then v.cpha else pha s.clk
  nbits : v'.nbits = if s.nbits = 0 then v.nbits else s.nbits
  fn : v'.fn = if s.nbits = 0 then v.fn else s.nbits
  master : v'.master = if s.mode = 0 then v.master else s.mode == 1
  on : v'.on = true

/-- the enumerations are in their ranges -/
def InRange (s : Settings) : Prop := s.mode < 3 ∧ s.clk < 5 ∧ s.csPol < 3

/-! ### Steps -/

theorem opt_step {R : Type} (view : R → View) (I : R → Prop) (x : Nat) (step : R → Option R) (u : View → View)
    (h : ∀ r r', I r → x ≠ 0 → step r = some r' → I r' ∧ view r' = u (view r)) (r r' : R) (hI : I r) (e : opt x step r = some r') :
    I r' ∧ view r' = if x = 0 then view r else u (view r) := by
  unfold opt at e
  by_cases c : x = 0
  · rw [if_pos c] at e ⊢; cases e; exact ⟨hI, rfl⟩
  · rw [if_neg c] at e ⊢; exact h r r' hI c e

theorem opt_rate {R : Type} (view : R → View) (Rate : Nat → Nat → Prop) (I : R → Prop) (b : Nat) (step : R → Option R)
    (h : ∀ r r', I r → b ≠ 0 → step r = some r' → I r' ∧ Rate b (view r').div ∧ view r' = { view r with div := (view r').div }) (r r' : R) (hI : I r)
    (e : opt b step r = some r') :
    I r' ∧ (if b = 0 then (view r').div = (view r).div else Rate b (view r').div) ∧ view r' = { view r with div := (view r').div } := by
  unfold opt at e
  by_cases c : b = 0
  · rw [if_pos c] at e; cases e; rw [if_pos c]; exact ⟨hI, rfl, rfl⟩
  · rw [if_neg c] at e; rw [if_neg c]; exact h r r' hI c e

/-- the order rate, clock mode, frame size, role; `I` holds all along -/
theorem chainI {R : Type} (view : R → View) (Rate : Nat → Nat → Prop) (I : R → Prop) (s : Settings) (rate clk bits mode : R → Option R) (off : R → R) (onn : R → R)
    (hoff : ∀ r, I r → I (off r) ∧ ∃ o, view (off r) = { view r with on := o }) (hon : ∀ r, I r → view (onn r) = { view r with on := true })
    (hr : ∀ r r', I r → s.bitrate ≠ 0 → rate r = some r' → I r' ∧ Rate s.bitrate (view r').div ∧ view r' = { view r with div := (view r').div })
    (hc : ∀ r r', I r → s.clk ≠ 0 → clk r = some r' → I r' ∧ view r' = { view r with cpol := pol s.clk, cpha := pha s.clk })
    (hb : ∀ r r', I r → s.nbits ≠ 0 → bits r = some r' → I r' ∧ view r' = { view r with nbits := s.nbits, fn := s.nbits })
    (hm : ∀ r r', I r → s.mode ≠ 0 → mode r = some r' → I r' ∧ view r' = { view r with master := s.mode == 1 }) (r r' : R) (hI : I r)
    (h : ((opt s.bitrate rate (off r)).bind fun r => (opt s.clk clk r).bind fun r => (opt s.nbits bits r).bind fun r => (opt s.mode mode r).map onn) = some r') :
    Asked Rate s (view r) (view r') := by
  obtain ⟨r1, h1, h⟩ := Option.bind_eq_some_iff.1 h
  obtain ⟨r2, h2, h⟩ := Option.bind_eq_some_iff.1 h
  obtain ⟨r3, h3, h⟩ := Option.bind_eq_some_iff.1 h
  obtain ⟨r4, h4, h⟩ := Option.map_eq_some_iff.1 h
  obtain ⟨i0, o, e0⟩ := hoff r hI
  obtain ⟨i1, a1, e1⟩ := opt_rate view Rate I _ _ hr _ _ i0 h1
  obtain ⟨i2, e2⟩ := opt_step view I s.clk clk (fun v => { v with cpol := pol s.clk, cpha := pha s.clk }) hc _ _ i1 h2
  obtain ⟨i3, e3⟩ := opt_step view I s.nbits bits (fun v => { v with nbits := s.nbits, fn := s.nbits }) hb _ _ i2 h3
  obtain ⟨i4, e4⟩ := opt_step view I s.mode mode (fun v => { v with master := s.mode == 1 }) hm _ _ i3 h4
  have e5 := hon r4 i4
  rw [h] at e5
  rw [e0] at a1 e1
  generalize view r' = v' at *
  generalize view r1 = v1 at *
  generalize view r2 = v2 at *
  generalize view r3 = v3 at *
  generalize view r4 = v4 at *
  generalize view r = v at *
  subst e5 e4 e3 e2
  rw [e1]
  rw [e1] at a1
  by_cases c2 : s.clk = 0 <;> by_cases c3 : s.nbits = 0 <;> by_cases c4 : s.mode = 0 <;>
    simp only [c2, c3, c4, if_true, if_false] <;> exact ⟨a1, by simp only [c2, if_true, if_false], by simp only [c2, if_true, if_false],
      by simp only [c3, if_true, if_false], by simp only [c3, if_true, if_false], by simp only [c4, if_true, if_false], rfl⟩

theorem chain {R : Type} (view : R → View) (Rate : Nat → Nat → Prop) (s : Settings) (rate clk bits mode : R → Option R) (off : R → R) (onn : R → R)
    (hoff : ∀ r, ∃ o, view (off r) = { view r with on := o }) (hon : ∀ r, view (onn r) = { view r with on := true })
    (hr : ∀ r r', s.bitrate ≠ 0 → rate r = some r' → Rate s.bitrate (view r').div ∧ view r' = { view r with div := (view r').div })
    (hc : ∀ r r', s.clk ≠ 0 → clk r = some r' → view r' = { view r with cpol := pol s.clk, cpha := pha s.clk })
    (hb : ∀ r r', s.nbits ≠ 0 → bits r = some r' → view r' = { view r with nbits := s.nbits, fn := s.nbits })
    (hm : ∀ r r', s.mode ≠ 0 → mode r = some r' → view r' = { view r with master := s.mode == 1 }) (r r' : R)
    (h : ((opt s.bitrate rate (off r)).bind fun r => (opt s.clk clk r).bind fun r => (opt s.nbits bits r).bind fun r => (opt s.mode mode r).map onn) = some r') :
    Asked Rate s (view r) (view r') :=
  chainI view Rate (fun _ => True) s rate clk bits mode off onn (fun r _ => ⟨trivial, hoff r⟩) (fun r _ => hon r) (fun r r' _ c e => ⟨trivial, hr r r' c e⟩)
    (fun r r' _ c e => ⟨trivial, hc r r' c e⟩) (fun r r' _ c e => ⟨trivial, hb r r' c e⟩) (fun r r' _ c e => ⟨trivial, hm r r' c e⟩) r r' trivial h

theorem opt_accepts {R : Type} (x : Nat) (step : R → Option R) (h : x ≠ 0 → ∀ r, ∃ r', step r = some r') (r : R) : ∃ r', opt x step r = some r' := by
  unfold opt
  by_cases c : x = 0
  · exact ⟨r, if_pos c⟩
  · rw [if_neg c]; exact h c r

theorem chain_accepts {R : Type} (s : Settings) (rate clk bits mode : R → Option R) (off onn : R → R)
    (hr : s.bitrate ≠ 0 → ∀ r, ∃ r', rate r = some r') (hc : s.clk ≠ 0 → ∀ r, ∃ r', clk r = some r') (hb : s.nbits ≠ 0 → ∀ r, ∃ r', bits r = some r')
    (hm : s.mode ≠ 0 → ∀ r, ∃ r', mode r = some r') (r : R) :
    ∃ r', ((opt s.bitrate rate (off r)).bind fun r => (opt s.clk clk r).bind fun r => (opt s.nbits bits r).bind fun r => (opt s.mode mode r).map onn) = some r' := by
  obtain ⟨r1, e1⟩ := opt_accepts _ _ hr (off r)
  obtain ⟨r2, e2⟩ := opt_accepts _ _ hc r1
  obtain ⟨r3, e3⟩ := opt_accepts _ _ hb r2
  obtain ⟨r4, e4⟩ := opt_accepts _ _ hm r3
  rw [e1, Option.bind_some, e2, Option.bind_some, e3, Option.bind_some, e4]
  exact ⟨_, rfl⟩

theorem clk2_some {n : Nat} (p h k : Nat) (r r' : BitVec n) (e : clk2 p h k r = some r') (hp : p < n) (hh : h < n) (ne : p ≠ h) :
    r'.getLsbD p = pol k ∧ r'.getLsbD h = pha k ∧ (∀ j, j ≠ p → j ≠ h → r'.getLsbD j = r.getLsbD j) ∧
      (∀ w t, (p < t ∨ t + w ≤ p) → (h < t ∨ t + w ≤ h) → get w t r' = get w t r) := by
  have hj := @bset_ne n
  have hj' := @bclr_ne n
  have hs := @bset_same n
  have hs' := @bclr_same n
  unfold clk2 at e
  split at e <;> first | (cases e; done) | skip
  all_goals
    simp only [Option.some.injEq] at e
    subst e
    refine ⟨?_, ?_, ?_, ?_⟩
    · first
        | rw [hj' h p _ ne, hs']; rfl
        | rw [hj h p _ ne, hs']; rfl
        | rw [hj' h p _ ne, hs _ _ hp]; rfl
        | rw [hj h p _ ne, hs _ _ hp]; rfl
    · first
        | rw [hs']; rfl
        | rw [hs _ _ hh]; rfl
    · intro j h1 h2
      first
        | rw [hj' _ _ _ h2, hj' _ _ _ h1]
        | rw [hj' _ _ _ h2, hj _ _ _ h1]
        | rw [hj _ _ _ h2, hj' _ _ _ h1]
        | rw [hj _ _ _ h2, hj _ _ _ h1]
    · intro w t h1 h2
      first
        | rw [get_bclr_other _ _ _ _ h2, get_bclr_other _ _ _ _ h1]
        | rw [get_bclr_other _ _ _ _ h2, get_bset_other _ _ _ _ h1]
        | rw [get_bset_other _ _ _ _ h2, get_bclr_other _ _ _ _ h1]
        | rw [get_bset_other _ _ _ _ h2, get_bset_other _ _ _ _ h1]

/-- every mode is accepted -/
theorem clk2_accepts {n : Nat} (p h k : Nat) (r : BitVec n) (hk : 1 ≤ k ∧ k ≤ 4) : ∃ r', clk2 p h k r = some r' := by
  have : k = 1 ∨ k = 2 ∨ k = 3 ∨ k = 4 := by omega
  rcases this with rfl | rfl | rfl | rfl <;> exact ⟨_, rfl⟩

/-- bits and fields of a register after writes elsewhere -/
macro "bits" : tactic => `(tactic| simp (disch := decide) only [bset_ne, bset_same, bclr_ne, bclr_same, put_bit, get_bset_other, get_bclr_other, get_put_other])

/-! ### gd32vf103 -/

/-- **C89, C90, gd32vf103**: when spi_setup returns 0 the lines are as asked; the rate to the Hz -/
theorem gd_setup (f : Nat) (s : Settings) (r r' : Gd) (h : gdSetup f s r = some r') : Asked (Exact f) s (gdView r) (gdView r') := by
  refine chain gdView (Exact f) s (gdRate f s.bitrate) (gdClk s.clk) (gdBits s.nbits) (gdMode s.mode) (fun r => { r with ctl0 := bclr 6 r.ctl0 })
    (fun r => { r with ctl0 := bset 6 r.ctl0 }) ?_ ?_ ?_ ?_ ?_ ?_ r r' h
  · intro r; exact ⟨false, by unfold gdView; bits⟩
  · intro r; unfold gdView; bits
  · intro r r' _ e
    obtain ⟨i, hi, rfl⟩ := Option.map_eq_some_iff.1 e
    have h1 := List.mem_of_find?_eq_some hi
    have h2 := List.find?_some hi
    rw [List.mem_range] at h1
    simp only [decide_eq_true_eq] at h2
    unfold gdView
    refine ⟨?_, by bits⟩
    unfold Exact
    rw [get_put_nat _ _ _ _ (by decide) (by omega), ← Nat.shiftRight_eq_div_pow]
    exact h2
  · intro r r' _ e
    obtain ⟨x, hx, rfl⟩ := Option.map_eq_some_iff.1 e
    obtain ⟨h1, h2, h3, h4⟩ := clk2_some _ _ _ _ _ hx (by decide) (by decide) (by decide)
    unfold gdView
    simp (disch := decide) only [h1, h2, h3, h4]
  · intro r r' _ e
    unfold gdBits at e
    by_cases c : s.nbits = 8
    · rw [if_pos c] at e
      cases e
      unfold gdView; bits; simp [c]
    · rw [if_neg c] at e
      by_cases c2 : s.nbits = 16
      · rw [if_pos c2] at e
        cases e
        unfold gdView; bits; simp [c2]
      · rw [if_neg c2] at e; cases e
  · intro r r' _ e
    cases e
    by_cases c : s.mode = 1
    · rw [c, if_pos rfl]; unfold gdView; bits; rfl
    · rw [if_neg c]; unfold gdView; bits; simp [c]

/-- it returns 0 for any rate that the prescaler gives, any mode, 8 or 16 bits -/
theorem gd_accepts (f : Nat) (s : Settings) (r : Gd) (hs : InRange s) (hn : s.nbits = 0 ∨ s.nbits = 8 ∨ s.nbits = 16)
    (hb : s.bitrate = 0 ∨ ∃ i, i < 8 ∧ f / 2 ^ (i + 1) = s.bitrate) : ∃ r', gdSetup f s r = some r' := by
  refine chain_accepts s (gdRate f s.bitrate) (gdClk s.clk) (gdBits s.nbits) (gdMode s.mode) (fun r => { r with ctl0 := bclr 6 r.ctl0 })
    (fun r => { r with ctl0 := bset 6 r.ctl0 }) ?_ ?_ ?_ ?_ r
  · intro c r
    rcases hb with c' | ⟨i, hi, e⟩
    · exact absurd c' c
    · unfold gdRate
      have : ((List.range 8).find? fun i => decide (f >>> (i + 1) = s.bitrate)).isSome := by
        rw [List.find?_isSome]
        exact ⟨i, List.mem_range.2 hi, by rw [Nat.shiftRight_eq_div_pow, e]; simp⟩
      obtain ⟨x, hx⟩ := Option.isSome_iff_exists.1 this
      exact ⟨_, by rw [hx]; rfl⟩
  · intro c r
    obtain ⟨x, hx⟩ := clk2_accepts 1 0 s.clk r.ctl0 ⟨by omega, by have := hs.2.1; omega⟩
    exact ⟨_, by unfold gdClk; rw [hx]; rfl⟩
  · intro c r
    unfold gdBits
    rcases hn with c | c | c <;> rw [c] <;> first | exact ⟨_, rfl⟩ | contradiction
  · intro c r; exact ⟨_, rfl⟩

/-- a case: 54 MHz, from reset: 6.75 MHz, mode 3, 16 bits, master -/
example : (gdSetup 54000000 ⟨6750000, 1, 4, 16, 0, 0⟩ ⟨0, 0, 8⟩).map gdView = some ⟨8, true, true, true, 16, true, 16⟩ := by decide +kernel

/-! ### arm_pl022 -/

/-- the divider is within one of the quotient; up to 513, it is the even number just below: SCK is the slowest rate available that is not below the one asked -/
def PlRate (f b d : Nat) : Prop := d ≤ f / b + 1 ∧ f / b ≤ d + 1 ∧ (f / b ≤ 513 → Slowest (fun d => d % 2 = 0 ∧ 0 < d) f b d)

theorem plOk_iff (d : Nat) (hd : d < 2 ^ 31) (c : Nat × Nat) (h0 : 0 < c.1) : plOk d c = true ↔ 2 ≤ d ∧ d < c.1 * (1 + c.2) + 2 ∧ c.1 * (1 + c.2) < d + 2 := by
  have hp : 0 < c.1 * (1 + c.2) := Nat.mul_pos h0 (by omega)
  unfold plOk
  generalize c.1 * (1 + c.2) = v at *
  simp only [Bool.and_eq_true, decide_eq_true_eq]
  omega

theorem mem_plCands (c : Nat × Nat) : c ∈ plCands ↔ ∃ i j, i < 127 ∧ j < 256 ∧ c = (2 * (i + 1), j) := by
  unfold plCands
  simp only [List.mem_flatMap, List.mem_map, List.mem_range]
  constructor
  · rintro ⟨i, hi, j, hj, rfl⟩; exact ⟨i, j, hi, hj, rfl⟩
  · rintro ⟨i, j, hi, hj, rfl⟩; exact ⟨i, hi, j, hj, rfl⟩

theorem range_flatMap {α : Type} (n : Nat) (g : Nat → List α) : (List.range (n + 1)).flatMap g = g 0 ++ (List.range n).flatMap fun i => g (i + 1) := by
  rw [List.range_succ_eq_map, List.flatMap_cons, List.flatMap_map]

theorem find_first (n m : Nat) (hn : n = m + 1) (g : Nat → List (Nat × Nat)) (p : Nat × Nat → Bool) (x : Nat × Nat) (h : (g 0).find? p = some x) :
    ((List.range n).flatMap g).find? p = some x := by
  rw [hn, range_flatMap, List.find?_append, h, Option.some_or]

theorem find_pair (n k j : Nat) (p : Nat × Nat → Bool) (hj : j < n) (h1 : p (k, j) = true) (h2 : ∀ i, i < j → p (k, i) = false) :
    ((List.range n).map fun i => (k, i)).find? p = some (k, j) := by
  rw [List.find?_map, Option.map_eq_some_iff]
  refine ⟨j, ?_, rfl⟩
  rw [List.find?_range_eq_some]
  refine ⟨h1, List.mem_range.2 hj, fun i hi => ?_⟩
  show (!p (k, i)) = true
  rw [h2 i hi]; rfl

/-- up to 513: the first prescaler does it -/
theorem pl_first (d : Nat) (h2 : 2 ≤ d) (h : d ≤ 513) : plCands.find? (plOk d) = some (2, d / 2 - 1) := by
  unfold plCands
  refine find_first _ 126 (by decide) _ _ _ ?_
  refine find_pair _ _ _ _ (by omega) ?_ ?_
  · rw [plOk_iff d (by omega) _ (show 0 < 2 by decide)]
    dsimp only
    omega
  · intro j hj
    rw [← Bool.not_eq_true, plOk_iff d (by omega) _ (show 0 < 2 by decide)]
    dsimp only
    omega

/-- **C89, C90, arm_pl022** -/
theorem pl_setup (f : Nat) (hf : f < 2 ^ 31) (s : Settings) (r r' : Pl) (h : plSetup f s r = some r') : Asked (PlRate f) s (plView r) (plView r') := by
  refine chain plView (PlRate f) s (plRate f s.bitrate) (plClk s.clk) (plBits s.nbits) (plMode s.mode) (fun r => { r with cr1 := bclr 1 r.cr1 })
    (fun r => { r with cr1 := bset 1 r.cr1 }) ?_ ?_ ?_ ?_ ?_ ?_ r r' h
  · intro r; exact ⟨false, by unfold plView; bits⟩
  · intro r; unfold plView; bits
  · intro r r' hb e
    obtain ⟨c, hi, rfl⟩ := Option.map_eq_some_iff.1 e
    have hb0 : 0 < s.bitrate := by omega
    have h1 := (mem_plCands c).1 (List.mem_of_find?_eq_some hi)
    have h2 := List.find?_some hi
    have hq : f / s.bitrate < 2 ^ 31 := Nat.lt_of_le_of_lt (Nat.div_le_self _ _) hf
    obtain ⟨i, j, hi', hj, hc⟩ := h1
    rw [plOk_iff _ hq c (by rw [hc]; dsimp only; omega)] at h2
    unfold plView
    refine ⟨?_, by bits⟩
    have e1 : (Field.get 8 0 (BitVec.ofNat 32 c.1 &&& mask 32 8)).toNat = c.1 := by
      have : ∀ x : Fin 256, (Field.get 8 0 (BitVec.ofNat 32 x.val &&& mask 32 8)).toNat = x.val := by decide +kernel
      exact this ⟨c.1, by rw [hc]; dsimp only; omega⟩
    dsimp only
    rw [e1, get_put_nat _ _ _ _ (by decide) (by rw [hc]; exact hj)]
    refine ⟨by omega, by omega, fun h513 => ?_⟩
    have hfirst := pl_first _ h2.1 h513
    rw [hfirst] at hi
    have hc : c = (2, f / s.bitrate / 2 - 1) := by cases hi; rfl
    have hd : c.1 * (1 + c.2) = 2 * (f / s.bitrate / 2) := by rw [hc]; dsimp only; omega
    rw [hd]
    refine ⟨by omega, ?_, ?_⟩
    · have h3 : s.bitrate * (2 * (f / s.bitrate / 2)) ≤ s.bitrate * (f / s.bitrate) := Nat.mul_le_mul_left _ (by omega)
      exact Nat.le_trans h3 (Nat.mul_div_le _ _)
    · intro d' hd' hle
      have : d' ≤ f / s.bitrate := (Nat.le_div_iff_mul_le hb0).2 (by rw [Nat.mul_comm]; exact hle)
      omega
  · intro r r' _ e
    obtain ⟨x, hx, rfl⟩ := Option.map_eq_some_iff.1 e
    obtain ⟨h1, h2, h3, h4⟩ := clk2_some _ _ _ _ _ hx (by decide) (by decide) (by decide)
    unfold plView
    simp (disch := decide) only [h1, h2, h3, h4]
  · intro r r' _ e
    unfold plBits at e
    by_cases c : 4 ≤ s.nbits ∧ s.nbits ≤ 16
    · rw [if_pos c] at e
      cases e
      unfold plView; bits
      rw [get_put_nat _ _ _ _ (by decide) (by omega), Nat.sub_add_cancel (by omega)]
    · rw [if_neg c] at e; cases e
  · intro r r' _ e
    cases e
    by_cases c : s.mode = 1
    · rw [c, if_pos rfl]; unfold plView; bits; rfl
    · rw [if_neg c]; unfold plView; bits; simp [c]

/-- it returns 0 for the rates from f / 513 to f / 2, any mode, 4 to 16 bits -/
theorem pl_accepts (f : Nat) (s : Settings) (r : Pl) (hs : InRange s) (hn : s.nbits = 0 ∨ 4 ≤ s.nbits ∧ s.nbits ≤ 16)
    (hb : s.bitrate = 0 ∨ 2 ≤ f / s.bitrate ∧ f / s.bitrate ≤ 513) : ∃ r', plSetup f s r = some r' := by
  refine chain_accepts s (plRate f s.bitrate) (plClk s.clk) (plBits s.nbits) (plMode s.mode) (fun r => { r with cr1 := bclr 1 r.cr1 })
    (fun r => { r with cr1 := bset 1 r.cr1 }) ?_ ?_ ?_ ?_ r
  · intro c r
    rcases hb with c' | hb
    · exact absurd c' c
    · unfold plRate
      rw [pl_first _ hb.1 hb.2]
      exact ⟨_, rfl⟩
  · intro c r
    obtain ⟨x, hx⟩ := clk2_accepts 6 7 s.clk r.cr0 ⟨by omega, by have := hs.2.1; omega⟩
    exact ⟨_, by unfold plClk; rw [hx]; rfl⟩
  · intro c r
    rcases hn with c' | c'
    · exact absurd c' c
    · exact ⟨_, by unfold plBits; rw [if_pos c']⟩
  · intro c r; exact ⟨_, rfl⟩

/-- a rate above half the clock is refused -/
theorem pl_refuses (f : Nat) (s : Settings) (r : Pl) (hb : s.bitrate ≠ 0) (h : f / s.bitrate < 2) : plSetup f s r = none := by
  have : plCands.find? (plOk (f / s.bitrate)) = none := by
    rw [List.find?_eq_none]
    intro c hc
    obtain ⟨i, j, hi, hj, hc⟩ := (mem_plCands c).1 hc
    rw [plOk_iff _ (by omega) c (by rw [hc]; dsimp only; omega)]
    omega
  unfold plSetup opt plRate
  rw [if_neg hb, this]
  rfl

/-- how far: 3 asked as the divider gives 2, half as fast again as asked (125 MHz, 41.67 MHz asked: 62.5 MHz) -/
theorem pl_fast : (plSetup 125000000 ⟨41666666, 1, 1, 8, 0, 0⟩ ⟨0, 0, 0, 8⟩).map plView = some ⟨2, false, false, true, 8, true, 8⟩ := by
  have e : ∀ r : Pl, plRate 125000000 41666666 r = some { r with cpsr := BitVec.ofNat 32 2 &&& mask 32 8, cr0 := put 8 8 (BitVec.ofNat 32 0) r.cr0 } := by
    intro r
    unfold plRate
    rw [show 125000000 / 41666666 = 3 by decide, pl_first 3 (by decide) (by decide), Option.map_some]
  unfold plSetup opt
  simp only [e]
  decide +kernel

/-! ### stm32h7xx -/

theorem find_range_some (n : Nat) (p : Nat → Bool) (i : Nat) (h : (List.range n).find? p = some i) : i < n ∧ p i = true ∧ ∀ j, j < i → p j = false := by
  rw [List.find?_range_eq_some] at h
  obtain ⟨h1, h2, h3⟩ := h
  exact ⟨List.mem_range.1 h2, h1, fun j hj => by have := h3 j hj; simpa using this⟩

/-- 2, 4, .., 2^n -/
def Pow2 (n d : Nat) : Prop := ∃ i, i < n ∧ d = 2 ^ (i + 1)

theorem fastest_of_find (n f b i : Nat) (h : (List.range n).find? (fun i => decide (f / 2 ^ (i + 1) ≤ b)) = some i) : Fastest (Pow2 n) f b (2 ^ (i + 1)) := by
  obtain ⟨h1, h2, h3⟩ := find_range_some _ _ _ h
  refine ⟨⟨i, h1, rfl⟩, by simpa using h2, ?_⟩
  rintro d' ⟨j, hj, rfl⟩ hle
  apply Nat.pow_le_pow_right (by decide)
  have : ¬ j < i := fun hji => by
    have := h3 j hji
    simp only [decide_eq_false_iff_not] at this
    exact this hle
  omega

end Pico.SpiSetup
