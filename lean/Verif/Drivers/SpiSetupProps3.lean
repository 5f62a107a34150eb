/-
The SPI drivers (C89, C90): theorems, continued: pic32mx, renesas_ra4, mc9s08ptxx, n76e003, ch552, tinyavr, avr.
-/
import Verif.Drivers.SpiSetupProps2

namespace Pico.SpiSetup
open Pico.Field

/-! ### Steps in other orders -/

/-- rate, clock mode, frame size, role; nothing before, nothing after -/
theorem chainN {R : Type} (view : R → View) (Rate : Nat → Nat → Prop) (I : R → Prop) (s : Settings) (rate clk bits mode : R → Option R)
    (hI : ∀ r, I r → (view r).on = true)
    (hr : ∀ r r', I r → s.bitrate ≠ 0 → rate r = some r' → I r' ∧ Rate s.bitrate (view r').div ∧ view r' = { view r with div := (view r').div })
    (hc : ∀ r r', I r → s.clk ≠ 0 → clk r = some r' → I r' ∧ view r' = { view r with cpol := pol s.clk, cpha := pha s.clk })
    (hb : ∀ r r', I r → s.nbits ≠ 0 → bits r = some r' → I r' ∧ view r' = { view r with nbits := s.nbits, fn := s.nbits })
    (hm : ∀ r r', I r → s.mode ≠ 0 → mode r = some r' → I r' ∧ view r' = { view r with master := s.mode == 1 }) (r r' : R) (i0 : I r)
    (h : ((opt s.bitrate rate r).bind fun r => (opt s.clk clk r).bind fun r => (opt s.nbits bits r).bind fun r => opt s.mode mode r) = some r') :
    Asked Rate s (view r) (view r') := by
  refine chainI view Rate I s rate clk bits mode id id (fun r i => ⟨i, (view r).on, rfl⟩) (fun r i => ?_) hr hc hb hm r r' i0 ?_
  · have := hI r i
    rw [← this]; rfl
  · simp only [Option.map_id, id]; exact h

theorem opt_some {R : Type} (x : Nat) (r : R) : opt x some r = some r := by
  unfold opt
  by_cases c : x = 0
  · rw [if_pos c]
  · rw [if_neg c]

/-- rate, role, clock mode, frame size -/
theorem chainRMCB {R : Type} (view : R → View) (Rate : Nat → Nat → Prop) (I : R → Prop) (s : Settings) (rate clk bits mode : R → Option R) (off onn : R → R)
    (hoff : ∀ r, I r → I (off r) ∧ ∃ o, view (off r) = { view r with on := o }) (hon : ∀ r, I r → view (onn r) = { view r with on := true })
    (hr : ∀ r r', I r → s.bitrate ≠ 0 → rate r = some r' → I r' ∧ Rate s.bitrate (view r').div ∧ view r' = { view r with div := (view r').div })
    (hc : ∀ r r', I r → s.clk ≠ 0 → clk r = some r' → I r' ∧ view r' = { view r with cpol := pol s.clk, cpha := pha s.clk })
    (hb : ∀ r r', I r → s.nbits ≠ 0 → bits r = some r' → I r' ∧ view r' = { view r with nbits := s.nbits, fn := s.nbits })
    (hm : ∀ r r', I r → s.mode ≠ 0 → mode r = some r' → I r' ∧ view r' = { view r with master := s.mode == 1 }) (r r' : R) (hI : I r)
    (h : ((opt s.bitrate rate (off r)).bind fun r => (opt s.mode mode r).bind fun r => (opt s.clk clk r).bind fun r => (opt s.nbits bits r).map onn) = some r') :
    Asked Rate s (view r) (view r') := by
  obtain ⟨r1, h1, h⟩ := Option.bind_eq_some_iff.1 h
  obtain ⟨r2, h2, h⟩ := Option.bind_eq_some_iff.1 h
  obtain ⟨r3, h3, h⟩ := Option.bind_eq_some_iff.1 h
  obtain ⟨r4, h4, h⟩ := Option.map_eq_some_iff.1 h
  obtain ⟨i0, o, e0⟩ := hoff r hI
  obtain ⟨i1, a1, e1⟩ := opt_rate view Rate I _ _ hr _ _ i0 h1
  obtain ⟨i2, e2⟩ := opt_step view I s.mode mode (fun v => { v with master := s.mode == 1 }) hm _ _ i1 h2
  obtain ⟨i3, e3⟩ := opt_step view I s.clk clk (fun v => { v with cpol := pol s.clk, cpha := pha s.clk }) hc _ _ i2 h3
  obtain ⟨i4, e4⟩ := opt_step view I s.nbits bits (fun v => { v with nbits := s.nbits, fn := s.nbits }) hb _ _ i3 h4
  have e5 := hon r4 i4
  rw [h] at e5
  rw [e0] at a1 e1
  generalize view r' = v' at *
  generalize view r1 = v1 at *
  generalize view r2 = v2 at *
  generalize view r3 = v3 at *
  generalize view r4 = v4 at *
  generalize view r = v at *
  subst e5 e4 e3 e2
  rw [e1]
  rw [e1] at a1
  by_cases c2 : s.clk = 0 <;> by_cases c3 : s.nbits = 0 <;> by_cases c4 : s.mode = 0 <;>
    simp only [c2, c3, c4, if_true, if_false] <;> exact ⟨a1, by simp only [c2, if_true, if_false], by simp only [c2, if_true, if_false],
      by simp only [c3, if_true, if_false], by simp only [c3, if_true, if_false], by simp only [c4, if_true, if_false], rfl⟩

/-- role, clock mode, rate: the drivers whose frames have 8 bits -/
theorem chainMCR {R : Type} (view : R → View) (Rate : Nat → Nat → Prop) (I : R → Prop) (s : Settings) (rate clk mode : R → Option R)
    (hI : ∀ r, I r → (view r).on = true ∧ (view r).nbits = 8 ∧ (view r).fn = 8) (h8 : s.nbits = 0 ∨ s.nbits = 8)
    (hr : ∀ r r', I r → s.bitrate ≠ 0 → rate r = some r' → I r' ∧ Rate s.bitrate (view r').div ∧ view r' = { view r with div := (view r').div })
    (hc : ∀ r r', I r → s.clk ≠ 0 → clk r = some r' → I r' ∧ view r' = { view r with cpol := pol s.clk, cpha := pha s.clk })
    (hm : ∀ r r', I r → s.mode ≠ 0 → mode r = some r' → I r' ∧ view r' = { view r with master := s.mode == 1 }) (r r' : R) (i0 : I r)
    (h : ((opt s.mode mode r).bind fun r => (opt s.clk clk r).bind fun r => opt s.bitrate rate r) = some r') :
    Asked Rate s (view r) (view r') := by
  obtain ⟨r1, h1, h⟩ := Option.bind_eq_some_iff.1 h
  obtain ⟨r2, h2, h3⟩ := Option.bind_eq_some_iff.1 h
  obtain ⟨i1, e1⟩ := opt_step view I s.mode mode (fun v => { v with master := s.mode == 1 }) hm _ _ i0 h1
  obtain ⟨i2, e2⟩ := opt_step view I s.clk clk (fun v => { v with cpol := pol s.clk, cpha := pha s.clk }) hc _ _ i1 h2
  obtain ⟨i3, a3, e3⟩ := opt_rate view Rate I _ _ hr _ _ i2 h3
  obtain ⟨o, n8, f8⟩ := hI r i0
  generalize view r' = v' at *
  generalize view r1 = v1 at *
  generalize view r2 = v2 at *
  generalize view r = v at *
  subst e2 e1
  rw [e3]
  rw [e3] at a3
  by_cases c2 : s.clk = 0 <;> by_cases c4 : s.mode = 0 <;>
    simp only [c2, c4, if_true, if_false] at a3 ⊢ <;> exact ⟨a3, by simp only [c2, if_true, if_false], by simp only [c2, if_true, if_false],
      by rcases h8 with h8 | h8 <;> simp [h8, n8], by rcases h8 with h8 | h8 <;> simp [h8, f8], by simp only [c4, if_true, if_false], o⟩

theorem slowest_even (n f b : Nat) (hb : 0 < b) (h1 : 1 ≤ f / (2 * b)) (h2 : f / (2 * b) ≤ n) :
    Slowest (fun d => d % 2 = 0 ∧ 0 < d ∧ d ≤ 2 * n) f b (2 * (f / (2 * b))) := by
  refine ⟨by omega, ?_, ?_⟩
  · have := Nat.mul_div_le f (2 * b)
    rw [← Nat.mul_assoc, Nat.mul_comm b 2]; exact this
  · rintro d' ⟨e, _, _⟩ hle
    obtain ⟨k, rfl⟩ : ∃ k, d' = 2 * k := ⟨d' / 2, by omega⟩
    have : k ≤ f / (2 * b) := (Nat.le_div_iff_mul_le (by omega)).2 (by rw [← Nat.mul_assoc, Nat.mul_comm b 2] at hle; rw [Nat.mul_comm]; exact hle)
    omega

/-- the quotient itself -/
theorem slowest_quot (S : Nat → Prop) (f b : Nat) (hb : 0 < b) (hS : S (f / b)) : Slowest S f b (f / b) :=
  ⟨hS, Nat.mul_div_le _ _, fun d' _ hle => (Nat.le_div_iff_mul_le hb).2 (by rw [Nat.mul_comm]; exact hle)⟩

/-! ### pic32mx -/

/-- the lines, the phase being the opposite -/
def picInv (r : Pic) : View := { picView r with cpha := r.con.getLsbD 8 }

theorem pic_inv (f : Nat) (hf : f < 2 ^ 32) (s : Settings) (r r' : Pic) (on : (picView r).on = true)
    (hb : s.bitrate = 0 ∨ 2 * s.bitrate ≤ f ∧ f / (2 * s.bitrate) ≤ 8192) (h : picSetup f s r = some r') :
    Asked (Slowest (fun d => d % 2 = 0 ∧ 0 < d ∧ d ≤ 2 * 8192) f) s (picInv r) (picInv r') := by
  refine chainN picInv _ (fun r => r.con.getLsbD 15 = true) s (picRate f s.bitrate) (picClk s.clk) (picBits s.nbits) (picMode s.mode) (fun r i => i) ?_ ?_ ?_ ?_ r r' on h
  · intro r r' i c e
    cases e
    rcases hb with hb | hb
    · exact absurd hb c
    refine ⟨i, ?_, rfl⟩
    have h1 : 1 ≤ f / (2 * s.bitrate) := (Nat.le_div_iff_mul_le (by omega)).2 (by omega)
    have e : (picInv { r with brg := BitVec.ofNat 32 (f / (s.bitrate * 2) + (2 ^ 32 - 1)) }).div = 2 * (f / (2 * s.bitrate)) := by
      unfold picInv picView
      dsimp only
      rw [Nat.mul_comm s.bitrate 2]
      generalize f / (2 * s.bitrate) = q at *
      have : BitVec.ofNat 32 (q + (2 ^ 32 - 1)) = BitVec.ofNat 32 (q - 1) := by
        apply BitVec.eq_of_toNat_eq
        rw [BitVec.toNat_ofNat, BitVec.toNat_ofNat]
        omega
      rw [this, Field.get, BitVec.ushiftRight_zero, and_mask _ _ _ (by decide) (by omega)]
      omega
    rw [e]
    exact slowest_even 8192 f s.bitrate (by omega) h1 hb.2
  · intro r r' i c e
    unfold picClk at e
    split at e
    · next k => cases e; rw [k]; refine ⟨?_, ?_⟩; · bits; exact i
                unfold picInv picView; bits; rfl
    · next k => cases e; rw [k]; refine ⟨?_, ?_⟩; · bits; exact i
                unfold picInv picView; bits; rfl
    · next k => cases e; rw [k]; refine ⟨?_, ?_⟩; · bits; exact i
                unfold picInv picView; bits; rfl
    · next k => cases e; rw [k]; refine ⟨?_, ?_⟩; · bits; exact i
                unfold picInv picView; bits; rfl
    · cases e
  · intro r r' i c e
    unfold picBits at e
    by_cases c1 : s.nbits = 32
    · simp only [c1, if_true, Option.some.injEq] at e
      cases e; refine ⟨?_, ?_⟩
      · bits; exact i
      · unfold picInv picView; bits; simp [c1]
    · by_cases c2 : s.nbits = 16
      · simp only [c2, show ¬ (16 = 32) by decide, if_true, if_false, Option.some.injEq] at e
        cases e; refine ⟨?_, ?_⟩
        · bits; exact i
        · unfold picInv picView; bits; simp [c2]
      · by_cases c3 : s.nbits = 8
        · simp only [c3, show ¬ (8 = 32) by decide, show ¬ (8 = 16) by decide, if_true, if_false, Option.some.injEq] at e
          cases e; refine ⟨?_, ?_⟩
          · bits; exact i
          · unfold picInv picView; bits; simp [c3]
        · simp only [c1, c2, c3, if_false] at e; cases e
  · intro r r' i c e
    cases e
    by_cases c : s.mode = 1
    · rw [c, if_pos rfl]; refine ⟨?_, ?_⟩
      · bits; exact i
      · unfold picInv picView; bits; rfl
    · rw [if_neg c]; refine ⟨?_, ?_⟩
      · bits; exact i
      · unfold picInv picView; bits; simp [c]

/-- **C89, C90, pic32mx**, when no clock mode is asked for and the divider fits: everything as asked; SCK is the slowest rate available not below the one asked -/
theorem pic_setup_partial (f : Nat) (hf : f < 2 ^ 32) (s : Settings) (r r' : Pic) (on : (picView r).on = true) (hc : s.clk = 0)
    (hb : s.bitrate = 0 ∨ 2 * s.bitrate ≤ f ∧ f / (2 * s.bitrate) ≤ 8192) (h : picSetup f s r = some r') :
    Asked (Slowest (fun d => d % 2 = 0 ∧ 0 < d ∧ d ≤ 16384) f) s (picView r) (picView r') := by
  obtain ⟨a1, a2, a3, a4, a5, a6, a7⟩ := pic_inv f hf s r r' on hb h
  refine ⟨a1, a2, ?_, a4, a5, a6, a7⟩
  rw [if_pos hc] at a3 ⊢
  show (!r'.con.getLsbD 8) = !r.con.getLsbD 8
  exact congrArg not a3

/-- **C90, pic32mx, refuted**: whatever mode is asked for, data are sampled on the other edge -/
theorem pic_clk_wrong (f : Nat) (hf : f < 2 ^ 32) (s : Settings) (r r' : Pic) (on : (picView r).on = true) (hc : s.clk ≠ 0)
    (hb : s.bitrate = 0 ∨ 2 * s.bitrate ≤ f ∧ f / (2 * s.bitrate) ≤ 8192) (h : picSetup f s r = some r') :
    (picView r').cpol = pol s.clk ∧ (picView r').cpha = !pha s.clk := by
  obtain ⟨a1, a2, a3, a4, a5, a6, a7⟩ := pic_inv f hf s r r' on hb h
  rw [if_neg hc] at a2 a3
  exact ⟨a2, congrArg not a3⟩

/-- it returns 0 for any rate, any mode, 8, 16 or 32 bits -/
theorem pic_accepts (f : Nat) (s : Settings) (r : Pic) (hs : InRange s) (hn : s.nbits = 0 ∨ s.nbits = 8 ∨ s.nbits = 16 ∨ s.nbits = 32) : ∃ r', picSetup f s r = some r' := by
  obtain ⟨r1, e1⟩ := opt_accepts s.bitrate (picRate f s.bitrate) (fun _ r => ⟨_, rfl⟩) r
  obtain ⟨r2, e2⟩ := opt_accepts s.clk (picClk s.clk) (fun c r => by
    obtain ⟨_, h2, _⟩ := hs
    have : s.clk = 1 ∨ s.clk = 2 ∨ s.clk = 3 ∨ s.clk = 4 := by omega
    rcases this with k | k | k | k <;> rw [k] <;> exact ⟨_, rfl⟩) r1
  obtain ⟨r3, e3⟩ := opt_accepts s.nbits (picBits s.nbits) (fun c r => by
    rcases hn with c' | c' | c' | c' <;> rw [c'] <;> first | exact ⟨_, rfl⟩ | exact absurd c' c) r2
  obtain ⟨r4, e4⟩ := opt_accepts s.mode (picMode s.mode) (fun _ r => ⟨_, rfl⟩) r3
  exact ⟨r4, by unfold picSetup; rw [e1, Option.bind_some, e2, Option.bind_some, e3, Option.bind_some, e4]⟩

/-- **C89, pic32mx, refuted**: a rate above half the clock gives the slowest rate of all -/
theorem pic_fast (f b : Nat) (h0 : f < 2 * b) (r r' : Pic) (h : picRate f b r = some r') : (picView r').div = 16384 := by
  cases h
  unfold picView
  dsimp only
  rw [Nat.mul_comm b 2, Nat.div_eq_of_lt h0]
  decide

/-- **C89, pic32mx, refuted**: 40 MHz, 2 kHz asked gives 11.1 kHz: the counter has 13 bits -/
theorem pic_slow : (picSetup 40000000 ⟨2000, 0, 0, 0, 0, 0⟩ ⟨0x8000, 0, 8⟩).map (fun r => (picView r).div) = some 3616 := by decide +kernel

/-- a case: 40 MHz, 1 MHz, 16 bits, master -/
example : (picSetup 40000000 ⟨1000000, 1, 0, 16, 0, 0⟩ ⟨0x8000, 0, 8⟩).map picView = some ⟨40, false, true, true, 16, true, 16⟩ := by decide +kernel

/-! ### renesas_ra4 -/

theorem ra_pre (f : Nat) (s : Settings) (r : Ra) (hc : s.cs < 4) :
    raSetup f s r = ((opt s.bitrate (raRate f s.bitrate) { r with spcr := bclr 6 r.spcr }).bind fun r =>
      (opt s.clk (raClk s.clk) r).bind fun r => (opt s.nbits (raBits s.nbits) r).bind fun r => (opt s.mode (raMode s.mode) r).map fun r =>
        { r with ssl := s.cs, spcmd := put 3 4 (BitVec.ofNat 16 s.cs) r.spcmd, spcr := bset 6 r.spcr,
                 sslp := if s.csPol = 0 then r.sslp else if s.csPol = 1 then bclr s.cs r.sslp else bset s.cs r.sslp }) := by
  unfold raSetup
  rw [if_pos hc]
  congr; funext r1; congr; funext r2; congr; funext r3
  cases opt s.mode (raMode s.mode) r3 with
  | none => rfl
  | some r4 =>
    rw [Option.bind_some, Option.map_some]
    unfold opt raPol
    by_cases c : s.csPol = 0
    · simp only [c, if_true]; rfl
    · simp only [c, if_false]; rfl

theorem raSpb_some (n x : Nat) (h : raSpb n = some x) : x < 16 ∧ raNbits x = n := by
  unfold raSpb at h
  by_cases c : n = 8
  · rw [if_pos c] at h; cases h; rw [c]; decide
  rw [if_neg c] at h
  by_cases c : 9 ≤ n ∧ n ≤ 16
  · rw [if_pos c] at h; cases h
    have : n = 9 ∨ n = 10 ∨ n = 11 ∨ n = 12 ∨ n = 13 ∨ n = 14 ∨ n = 15 ∨ n = 16 := by omega
    rcases this with rfl | rfl | rfl | rfl | rfl | rfl | rfl | rfl <;> decide
  rw [if_neg c] at h
  by_cases c : n = 20
  · rw [if_pos c] at h; cases h; rw [c]; decide
  rw [if_neg c] at h
  by_cases c : n = 24
  · rw [if_pos c] at h; cases h; rw [c]; decide
  rw [if_neg c] at h
  by_cases c : n = 32
  · rw [if_pos c] at h; cases h; rw [c]; decide
  rw [if_neg c] at h
  cases h

/-- **C89, C90, renesas_ra4**: everything as asked, the rate to the Hz -/
theorem ra_setup (f : Nat) (s : Settings) (r r' : Ra) (h : raSetup f s r = some r') : Asked (Exact f) s (raView r) (raView r') := by
  by_cases hcs : s.cs < 4
  · rw [ra_pre _ _ _ hcs] at h
    refine chain raView (Exact f) s (raRate f s.bitrate) (raClk s.clk) (raBits s.nbits) (raMode s.mode) (fun r => { r with spcr := bclr 6 r.spcr })
      (fun r => { r with ssl := s.cs, spcmd := put 3 4 (BitVec.ofNat 16 s.cs) r.spcmd, spcr := bset 6 r.spcr,
                         sslp := if s.csPol = 0 then r.sslp else if s.csPol = 1 then bclr s.cs r.sslp else bset s.cs r.sslp }) ?_ ?_ ?_ ?_ ?_ ?_ r r' h
    · intro r; exact ⟨false, by unfold raView; bits⟩
    · intro r; unfold raView; bits
    · intro r r' _ e
      obtain ⟨c, hc, rfl⟩ := Option.map_eq_some_iff.1 e
      obtain ⟨h1, h2⟩ := mem_pairs _ _ _ (List.mem_of_find?_eq_some hc)
      have h3 := List.find?_some hc
      simp only [decide_eq_true_eq] at h3
      unfold raView
      refine ⟨?_, by bits⟩
      unfold Exact
      dsimp only
      rw [get_put_nat _ _ _ _ (by decide) (by omega), BitVec.toNat_ofNat, Nat.mod_eq_of_lt (by omega)]
      exact h3
    · intro r r' _ e
      obtain ⟨x, hx, rfl⟩ := Option.map_eq_some_iff.1 e
      obtain ⟨h1, h2, h3, h4⟩ := clk2_some _ _ _ _ _ hx (by decide) (by decide) (by decide)
      unfold raView
      simp (disch := decide) only [h1, h2, h4]
    · intro r r' _ e
      unfold raBits at e
      by_cases c : 8 ≤ s.nbits ∧ s.nbits ≤ 32
      · rw [if_pos c] at e
        obtain ⟨x, hx, rfl⟩ := Option.map_eq_some_iff.1 e
        obtain ⟨h1, h2⟩ := raSpb_some _ _ hx
        unfold raView; bits
        rw [get_put_nat _ _ _ _ (by decide) (by omega), h2]
      · rw [if_neg c] at e; cases e
    · intro r r' _ e
      cases e
      by_cases c : s.mode = 1
      · rw [c, if_pos rfl]; unfold raView; bits; rfl
      · rw [if_neg c]; unfold raView; bits; simp [c]
  · unfold raSetup at h
    rw [if_neg hcs] at h; cases h

/-- **C90, renesas_ra4**: the chip select of the frames is the one asked for; its polarity too, the others' do not change -/
theorem ra_cs (f : Nat) (s : Settings) (r r' : Ra) (hs : InRange s) (h : raSetup f s r = some r') :
    raSel r' = s.cs ∧ ∀ c, c < 8 → raCsHigh r' c = if s.csPol ≠ 0 ∧ c = s.cs then s.csPol == 2 else raCsHigh r c := by
  by_cases hcs : s.cs < 4
  · rw [ra_pre _ _ _ hcs] at h
    obtain ⟨r1, h1, h⟩ := Option.bind_eq_some_iff.1 h
    obtain ⟨r2, h2, h⟩ := Option.bind_eq_some_iff.1 h
    obtain ⟨r3, h3, h⟩ := Option.bind_eq_some_iff.1 h
    obtain ⟨r4, h4, h⟩ := Option.map_eq_some_iff.1 h
    have i1 : r1.sslp = r.sslp := by
      unfold opt at h1
      by_cases c : s.bitrate = 0
      · rw [if_pos c] at h1; cases h1; rfl
      · rw [if_neg c] at h1; obtain ⟨x, _, rfl⟩ := Option.map_eq_some_iff.1 h1; rfl
    have i2 : r2.sslp = r1.sslp := by
      unfold opt at h2
      by_cases c : s.clk = 0
      · rw [if_pos c] at h2; cases h2; rfl
      · rw [if_neg c] at h2; obtain ⟨x, _, rfl⟩ := Option.map_eq_some_iff.1 h2; rfl
    have i3 : r3.sslp = r2.sslp := by
      unfold opt at h3
      by_cases c : s.nbits = 0
      · rw [if_pos c] at h3; cases h3; rfl
      · rw [if_neg c] at h3
        unfold raBits at h3
        by_cases c : 8 ≤ s.nbits ∧ s.nbits ≤ 32
        · rw [if_pos c] at h3; obtain ⟨x, _, rfl⟩ := Option.map_eq_some_iff.1 h3; rfl
        · rw [if_neg c] at h3; cases h3
    have i4 : r4.sslp = r3.sslp := by
      unfold opt at h4
      by_cases c : s.mode = 0
      · rw [if_pos c] at h4; cases h4; rfl
      · rw [if_neg c] at h4; cases h4; rfl
    subst h
    refine ⟨get_put_nat _ _ _ _ (by decide) (by omega), fun c hc => ?_⟩
    unfold raCsHigh
    dsimp only
    rw [← i1, ← i2, ← i3, ← i4]
    obtain ⟨_, _, hp⟩ := hs
    by_cases c0 : s.csPol = 0
    · rw [if_pos c0, if_neg (by omega)]
    · rw [if_neg c0]
      by_cases c1 : s.csPol = 1
      · rw [if_pos c1]
        by_cases e : c = s.cs
        · rw [if_pos ⟨c0, e⟩, e, bclr_same, c1]; rfl
        · rw [if_neg (fun x => e x.2), bclr_ne _ _ _ e]
      · rw [if_neg c1]
        by_cases e : c = s.cs
        · rw [if_pos ⟨c0, e⟩, e, bset_same _ _ (by omega), show s.csPol = 2 by omega]; rfl
        · rw [if_neg (fun x => e x.2), bset_ne _ _ _ e]
  · unfold raSetup at h
    rw [if_neg hcs] at h; cases h

/-- it returns 0 for any rate the dividers give, any mode, the frame sizes of the controller, a chip select below 4 -/
theorem ra_accepts (f : Nat) (s : Settings) (r : Ra) (hs : InRange s) (hc : s.cs < 4) (hn : s.nbits ∈ [0, 8, 9, 10, 11, 12, 13, 14, 15, 16, 20, 24, 32])
    (hb : s.bitrate = 0 ∨ ∃ n p, n < 255 ∧ p < 4 ∧ f / (2 * (n + 1) * 2 ^ p) = s.bitrate) : ∃ r', raSetup f s r = some r' := by
  rw [ra_pre _ _ _ hc]
  refine chain_accepts s (raRate f s.bitrate) (raClk s.clk) (raBits s.nbits) (raMode s.mode) (fun r => { r with spcr := bclr 6 r.spcr }) _ ?_ ?_ ?_ ?_ r
  · intro c r
    rcases hb with c' | ⟨n, p, hn, hp, e⟩
    · exact absurd c' c
    · unfold raRate
      have : (((List.range 255).flatMap fun n => (List.range 4).map fun p => (n, p)).find? fun c => decide (f / (2 * (c.1 + 1) * 2 ^ c.2) = s.bitrate)).isSome := by
        rw [List.find?_isSome]
        exact ⟨(n, p), pairs_mem _ _ _ _ hn hp, by dsimp only; rw [e]; simp⟩
      obtain ⟨x, hx⟩ := Option.isSome_iff_exists.1 this
      exact ⟨_, by rw [hx]; rfl⟩
  · intro c r
    obtain ⟨x, hx⟩ := clk2_accepts 1 0 s.clk r.spcmd ⟨by omega, by have := hs.2.1; omega⟩
    exact ⟨_, by unfold raClk; rw [hx]; rfl⟩
  · intro c r
    simp only [List.mem_cons, List.not_mem_nil, or_false] at hn
    unfold raBits
    rcases hn with c' | c' | c' | c' | c' | c' | c' | c' | c' | c' | c' | c' | c' <;> rw [c'] <;> first | exact ⟨_, rfl⟩ | exact absurd c' c
  · intro c r; exact ⟨_, rfl⟩

/-- a case: 48 MHz, 1 MHz, mode 3, 16 bits, master, chip select 2 active high -/
example : (raRate 48000000 1000000 ⟨0, 0, 0, 0, 8, 0⟩).isSome ∧
    (raSetup 48000000 ⟨0, 1, 4, 16, 2, 2⟩ ⟨0, 23, 0, 0, 8, 0⟩).map (fun r => (raView r, raSel r, raCsHigh r 2)) = some (⟨48, true, true, true, 16, true, 16⟩, 2, true) := by decide +kernel

/-! ### mc9s08ptxx -/

/-- **C89, C90, mc9s08ptxx**: everything as asked, the rate to the Hz -/
theorem mc_setup (f : Nat) (s : Settings) (r r' : Mc) (on : (mcView r).on = true) (h : mcSetup f s r = some r') : Asked (Exact f) s (mcView r) (mcView r') := by
  refine chainRMCB mcView (Exact f) (fun r => r.c1.getLsbD 6 = true) s (mcRate f s.bitrate) (mcClk s.clk) (mcBits s.nbits) (mcMode s.mode) id id (fun r i => ⟨i, _, rfl⟩) ?_ ?_ ?_ ?_ ?_ r r' on ?_
  · intro r i
    have : (mcView r).on = true := i
    rw [← this]; rfl
  · intro r r' i _ e
    obtain ⟨c, hc, rfl⟩ := Option.map_eq_some_iff.1 e
    obtain ⟨h1, h2⟩ := mem_pairs _ _ _ (List.mem_of_find?_eq_some hc)
    have h3 := List.find?_some hc
    simp only [decide_eq_true_eq] at h3
    refine ⟨i, ?_, rfl⟩
    have e : ∀ i : Fin 8, ∀ j : Fin 9, (Field.get 3 4 (orIn 4 0 (BitVec.ofNat 8 j.val) (orIn 3 4 (BitVec.ofNat 8 i.val) 0))).toNat = i.val ∧
        (Field.get 4 0 (orIn 4 0 (BitVec.ofNat 8 j.val) (orIn 3 4 (BitVec.ofNat 8 i.val) 0))).toNat = j.val := by decide +kernel
    obtain ⟨e1, e2⟩ := e ⟨c.1, h1⟩ ⟨c.2, h2⟩
    unfold mcView Exact
    dsimp only at e1 e2 ⊢
    rw [e1, e2]
    exact h3
  · intro r r' i _ e
    obtain ⟨x, hx, rfl⟩ := Option.map_eq_some_iff.1 e
    obtain ⟨h1, h2, h3, h4⟩ := clk2_some _ _ _ _ _ hx (by decide) (by decide) (by decide)
    refine ⟨?_, ?_⟩
    · simp (disch := decide) only [h3, i]
    · unfold mcView
      simp (disch := decide) only [h1, h2, h3]
  · intro r r' i _ e
    unfold mcBits at e
    by_cases c : s.nbits = 8
    · rw [if_pos c] at e
      cases e
      refine ⟨i, ?_⟩
      unfold mcView; bits; simp [c]
    · rw [if_neg c] at e
      by_cases c2 : s.nbits = 16
      · rw [if_pos c2] at e
        cases e
        refine ⟨i, ?_⟩
        unfold mcView; bits; simp [c2]
      · rw [if_neg c2] at e; cases e
  · intro r r' i _ e
    cases e
    by_cases c : s.mode = 1
    · rw [c, if_pos rfl]
      refine ⟨by bits; exact i, ?_⟩
      unfold mcView; bits; rfl
    · rw [if_neg c]
      refine ⟨by bits; exact i, ?_⟩
      unfold mcView; bits; simp [c]
  · simp only [Option.map_id, id]; exact h

/-- it returns 0 for any rate the dividers give, any mode, 8 or 16 bits -/
theorem mc_accepts (f : Nat) (s : Settings) (r : Mc) (hs : InRange s) (hn : s.nbits = 0 ∨ s.nbits = 8 ∨ s.nbits = 16)
    (hb : s.bitrate = 0 ∨ ∃ i j, i < 8 ∧ j < 9 ∧ f / ((i + 1) * 2 ^ (j + 1)) = s.bitrate) : ∃ r', mcSetup f s r = some r' := by
  obtain ⟨r1, e1⟩ := opt_accepts s.bitrate (mcRate f s.bitrate) (fun c r => by
    rcases hb with c' | ⟨i, j, hi, hj, e⟩
    · exact absurd c' c
    · unfold mcRate
      have : (((List.range 8).flatMap fun i => (List.range 9).map fun j => (i, j)).find? fun c => decide (f / ((c.1 + 1) * 2 ^ (c.2 + 1)) = s.bitrate)).isSome := by
        rw [List.find?_isSome]
        exact ⟨(i, j), pairs_mem _ _ _ _ hi hj, by dsimp only; rw [e]; simp⟩
      obtain ⟨x, hx⟩ := Option.isSome_iff_exists.1 this
      exact ⟨_, by rw [hx]; rfl⟩) r
  obtain ⟨r2, e2⟩ := opt_accepts s.mode (mcMode s.mode) (fun _ r => ⟨_, rfl⟩) r1
  obtain ⟨r3, e3⟩ := opt_accepts s.clk (mcClk s.clk) (fun c r => by
    obtain ⟨x, hx⟩ := clk2_accepts 3 2 s.clk r.c1 ⟨by omega, by have := hs.2.1; omega⟩
    exact ⟨_, by unfold mcClk; rw [hx]; rfl⟩) r2
  obtain ⟨r4, e4⟩ := opt_accepts s.nbits (mcBits s.nbits) (fun c r => by
    rcases hn with c' | c' | c' <;> rw [c'] <;> first | exact ⟨_, rfl⟩ | exact absurd c' c) r3
  exact ⟨r4, by unfold mcSetup; rw [e1, Option.bind_some, e2, Option.bind_some, e3, Option.bind_some, e4]⟩

/-- a case: 20 MHz, 1 MHz, mode 1, 16 bits, master -/
example : (mcSetup 20000000 ⟨1000000, 1, 2, 16, 0, 0⟩ ⟨0x40, 0, 0, 1⟩).map mcView = some ⟨20, false, true, true, 16, true, 16⟩ := by decide +kernel

/-! ### n76e003 -/

theorem n76_pre (f : Nat) (s : Settings) (r : BitVec 8) :
    n76Setup f s r = ((opt s.bitrate (n76Rate f s.bitrate) r).bind fun r => (opt s.clk (clk2 3 2 s.clk) r).bind fun r => (opt s.nbits some r).bind fun r => opt s.mode (n76Mode s.mode) r) := by
  unfold n76Setup
  simp only [opt_some, Option.bind_some]

theorem n76_field (x : Fin 4) : ∀ r : BitVec 8, (Field.get 2 0 (orIn 2 0 (BitVec.ofNat 8 x.val) (clear 2 0 r))).toNat = x.val := fun r =>
  get_put_nat 2 0 x.val r (by decide) x.isLt

theorem n76Rate_some (f b : Nat) (r r' : BitVec 8) (h : n76Rate f b r = some r') :
    ∃ x, x < 4 ∧ f / b % 256 = 2 ^ (x + 1) ∧ r' = put 2 0 (BitVec.ofNat 8 x) r := by
  unfold n76Rate at h
  dsimp only at h
  by_cases c : f / b % 256 = 2
  · rw [if_pos c] at h; cases h
    refine ⟨0, by decide, c, ?_⟩
    have : ∀ r : BitVec 8, clear 2 0 r = put 2 0 (BitVec.ofNat 8 0) r := by decide +kernel
    exact this r
  rw [if_neg c] at h
  by_cases c : f / b % 256 = 4
  · rw [if_pos c] at h; cases h; exact ⟨1, by decide, c, rfl⟩
  rw [if_neg c] at h
  by_cases c : f / b % 256 = 8
  · rw [if_pos c] at h; cases h; exact ⟨2, by decide, c, rfl⟩
  rw [if_neg c] at h
  by_cases c : f / b % 256 = 16
  · rw [if_pos c] at h; cases h; exact ⟨3, by decide, c, rfl⟩
  rw [if_neg c] at h
  cases h

/-- **C89, C90, n76e003**, for the rates above f / 256 and frames of 8 bits: everything as asked; SCK is the slowest rate available not below the one asked -/
theorem n76_setup_partial (f : Nat) (s : Settings) (r r' : BitVec 8) (on : (n76View r).on = true) (h8 : s.nbits = 0 ∨ s.nbits = 8)
    (hb : s.bitrate = 0 ∨ f / s.bitrate < 256) (h : n76Setup f s r = some r') : Asked (Slowest (Pow2 4) f) s (n76View r) (n76View r') := by
  rw [n76_pre] at h
  refine chainN n76View _ (fun r => r.getLsbD 6 = true) s (n76Rate f s.bitrate) (clk2 3 2 s.clk) some (n76Mode s.mode) (fun r i => i) ?_ ?_ ?_ ?_ r r' on h
  · intro r r' i c e
    rcases hb with hb | hb
    · exact absurd hb c
    obtain ⟨x, hx, q, rfl⟩ := n76Rate_some _ _ _ _ e
    clear e
    refine ⟨by bits; exact i, ?_, by unfold n76View; bits⟩
    unfold n76View
    dsimp only
    rw [get_put_nat _ _ _ _ (by decide) (by omega), ← q, Nat.mod_eq_of_lt hb]
    refine slowest_quot _ _ _ (by omega) ⟨x, hx, ?_⟩
    rw [← q, Nat.mod_eq_of_lt hb]
  · intro r r' i _ e
    obtain ⟨h1, h2, h3, h4⟩ := clk2_some _ _ _ _ _ e (by decide) (by decide) (by decide)
    refine ⟨?_, ?_⟩
    · simp (disch := decide) only [h3, i]
    · unfold n76View
      simp (disch := decide) only [h1, h2, h3, h4]
  · intro r r' i c e
    cases e
    rcases h8 with h8 | h8
    · exact absurd h8 c
    · rw [h8]; exact ⟨i, rfl⟩
  · intro r r' i _ e
    cases e
    by_cases c : s.mode = 1
    · rw [c, if_pos rfl]
      refine ⟨by bits; exact i, ?_⟩
      unfold n76View; bits; rfl
    · rw [if_neg c]
      refine ⟨by bits; exact i, ?_⟩
      unfold n76View; bits; simp [c]

/-- it returns 0 when the quotient is 2, 4, 8 or 16 -/
theorem n76_accepts (f : Nat) (s : Settings) (r : BitVec 8) (hs : InRange s) (hb : s.bitrate = 0 ∨ ∃ x, x < 4 ∧ f / s.bitrate = 2 ^ (x + 1)) : ∃ r', n76Setup f s r = some r' := by
  obtain ⟨r1, e1⟩ := opt_accepts s.bitrate (n76Rate f s.bitrate) (fun c r => by
    rcases hb with c' | ⟨x, hx, e⟩
    · exact absurd c' c
    · unfold n76Rate
      rw [e]
      have : x = 0 ∨ x = 1 ∨ x = 2 ∨ x = 3 := by omega
      rcases this with rfl | rfl | rfl | rfl <;> exact ⟨_, rfl⟩) r
  obtain ⟨r2, e2⟩ := opt_accepts s.clk (clk2 3 2 s.clk) (fun c r => clk2_accepts 3 2 s.clk r ⟨by omega, by have := hs.2.1; omega⟩) r1
  obtain ⟨r3, e3⟩ := opt_accepts s.mode (n76Mode s.mode) (fun _ r => ⟨_, rfl⟩) r2
  exact ⟨r3, by unfold n76Setup; rw [e1, Option.bind_some, e2, Option.bind_some, e3]⟩

/-- **C89, n76e003, refuted**: 16 MHz, 62 kHz asked, the quotient is 258: 8 MHz, and 0 is returned -/
theorem n76_slow : (n76Setup 16000000 ⟨62000, 0, 0, 0, 0, 0⟩ 0x40#8).map (fun r => (n76View r).div) = some 2 := by decide +kernel

/-- **C90, n76e003, refuted**: frames of 16 bits are accepted, and are frames of 8 bits -/
theorem n76_frame (f : Nat) (n : Nat) (r : BitVec 8) : n76Setup f ⟨0, 0, 0, n, 0, 0⟩ r = some r ∧ (n76View r).nbits = 8 := ⟨rfl, rfl⟩

example : (n76Setup 16000000 ⟨4000000, 1, 3, 8, 0, 0⟩ 0x40#8).map n76View = some ⟨4, true, false, true, 8, true, 8⟩ := by decide +kernel

/-! ### ch552 -/

theorem ch_pre (f : Nat) (s : Settings) (r : Ch) :
    chSetup f s r = ((opt s.bitrate (chRate f s.bitrate) r).bind fun r => (opt s.clk (chClk s.clk) r).bind fun r => (opt s.nbits some r).bind fun r => opt s.mode (chMode s.mode) r) := by
  unfold chSetup
  simp only [opt_some, Option.bind_some]

/-- **C89, C90, ch552**, for the dividers from 2 to 255 and frames of 8 bits: everything as asked; SCK is the slowest rate available not below the one asked -/
theorem ch_setup_partial (f : Nat) (s : Settings) (r r' : Ch) (on : (chView r).on = true) (h8 : s.nbits = 0 ∨ s.nbits = 8)
    (hb : s.bitrate = 0 ∨ 2 ≤ f / s.bitrate ∧ f / s.bitrate < 256) (h : chSetup f s r = some r') :
    Asked (Slowest (fun d => 2 ≤ d ∧ d < 256) f) s (chView r) (chView r') := by
  rw [ch_pre] at h
  refine chainN chView _ (fun r => (!r.ctrl.getLsbD 1) = true) s (chRate f s.bitrate) (chClk s.clk) some (chMode s.mode) (fun r i => i) ?_ ?_ ?_ ?_ r r' on h
  · intro r r' i c e
    rcases hb with hb | hb
    · exact absurd hb c
    cases e
    refine ⟨i, ?_, rfl⟩
    unfold chView
    dsimp only
    rw [BitVec.toNat_ofNat, Nat.mod_eq_of_lt hb.2]
    exact slowest_quot _ _ _ (by omega) hb
  · intro r r' i _ e
    unfold chClk at e
    by_cases c : s.clk = 1
    · rw [if_pos c] at e; cases e
      refine ⟨by bits; exact i, ?_⟩
      unfold chView; bits; rw [c]; rfl
    · rw [if_neg c] at e
      by_cases c : s.clk = 4
      · rw [if_pos c] at e; cases e
        refine ⟨by bits; exact i, ?_⟩
        unfold chView; bits; rw [c]; rfl
      · rw [if_neg c] at e; cases e
  · intro r r' i c e
    cases e
    rcases h8 with h8 | h8
    · exact absurd h8 c
    · rw [h8]; exact ⟨i, rfl⟩
  · intro r r' i _ e
    cases e
    by_cases c : s.mode = 1
    · rw [c, if_pos rfl]
      refine ⟨by bits; exact i, ?_⟩
      unfold chView; bits; rfl
    · rw [if_neg c]
      refine ⟨by bits; exact i, ?_⟩
      unfold chView; bits; simp [c]

/-- it returns 0 for any rate and modes 0 and 3; the other two modes, which it has not, are refused -/
theorem ch_accepts (f : Nat) (s : Settings) (r : Ch) (hs : InRange s) : (∃ r', chSetup f s r = some r') ↔ s.clk = 0 ∨ s.clk = 1 ∨ s.clk = 4 := by
  have hr : ∃ r1, opt s.bitrate (chRate f s.bitrate) r = some r1 := opt_accepts _ _ (fun _ r => ⟨_, rfl⟩) r
  obtain ⟨r1, e1⟩ := hr
  unfold chSetup
  rw [e1, Option.bind_some]
  constructor
  · rintro ⟨r', h⟩
    obtain ⟨r2, e2, _⟩ := Option.bind_eq_some_iff.1 h
    unfold opt chClk at e2
    by_cases c : s.clk = 0
    · exact .inl c
    · by_cases c1 : s.clk = 1
      · exact .inr (.inl c1)
      · by_cases c2 : s.clk = 4
        · exact .inr (.inr c2)
        · rw [if_neg c, if_neg c1, if_neg c2] at e2; cases e2
  · intro h
    obtain ⟨r2, e2⟩ := opt_accepts s.clk (chClk s.clk) (fun c r => by
      rcases h with h | h | h
      · exact absurd h c
      · rw [h]; exact ⟨_, rfl⟩
      · rw [h]; exact ⟨_, rfl⟩) r1
    obtain ⟨r3, e3⟩ := opt_accepts s.mode (chMode s.mode) (fun _ r => ⟨_, rfl⟩) r2
    exact ⟨r3, by rw [e2, Option.bind_some, e3]⟩

/-- **C89, ch552, refuted**: 24 MHz, 93 kHz asked, the quotient is 258: 12 MHz -/
theorem ch_slow : (chSetup 24000000 ⟨93000, 0, 0, 0, 0, 0⟩ ⟨0, 0, 0⟩).map (fun r => (chView r).div) = some 2 := by decide +kernel

/-- **C90, ch552, refuted**: frames of any size are accepted, and are frames of 8 bits -/
theorem ch_frame (f : Nat) (n : Nat) (r : Ch) : chSetup f ⟨0, 0, 0, n, 0, 0⟩ r = some r ∧ (chView r).nbits = 8 := ⟨rfl, rfl⟩

example : (chSetup 24000000 ⟨1000000, 1, 4, 8, 0, 0⟩ ⟨0, 0, 0⟩).map chView = some ⟨24, true, true, true, 8, true, 8⟩ := by decide +kernel

/-! ### tinyavr -/

/-- SCK from pdiv -/
theorem tinyRate_some (f b : Nat) (hb : 0 < b) (r r' : Tiny) (h : tinyRate f b r = some r') :
    Slowest (Pow2 7) f b (tinyView r').div ∧ tinyView r' = { tinyView r with div := (tinyView r').div } := by
  have key : ∀ d, (∃ i, i < 7 ∧ d = 2 ^ (i + 1)) → d ≤ f / b → (d = 128 ∨ f / b < 2 * d) → Slowest (Pow2 7) f b d := by
    intro d hd hle hmax
    refine ⟨hd, ?_, ?_⟩
    · exact Nat.le_trans (Nat.mul_le_mul_left _ hle) (Nat.mul_div_le _ _)
    · rintro d' ⟨j, hj, rfl⟩ hle'
      have h1 : 2 ^ (j + 1) ≤ f / b := (Nat.le_div_iff_mul_le hb).2 (by rw [Nat.mul_comm]; exact hle')
      obtain ⟨i, hi, rfl⟩ := hd
      have : i = 6 ∨ i < 6 := by omega
      rcases this with rfl | hi6
      · exact Nat.pow_le_pow_right (by decide) (by omega)
      · have hm : f / b < 2 ^ (i + 2) := by
          rcases hmax with hmax | hmax
          · have : 2 ^ (i + 1) ≤ 2 ^ 6 := Nat.pow_le_pow_right (by decide) (by omega)
            omega
          · rw [show 2 ^ (i + 2) = 2 * 2 ^ (i + 1) by rw [Nat.pow_succ 2 (i + 1), Nat.mul_comm]]; exact hmax
        have : ¬ i < j := fun hij => by
          have : 2 ^ (i + 2) ≤ 2 ^ (j + 1) := Nat.pow_le_pow_right (by decide) (by omega)
          omega
        exact Nat.pow_le_pow_right (by decide) (by omega)
  have fld : ∀ (x : Fin 4) (c : BitVec 8), (Field.get 2 1 (orIn 2 1 (BitVec.ofNat 8 x.val) (bclr 4 (clear 2 1 c)))).toNat = x.val ∧
      (orIn 2 1 (BitVec.ofNat 8 x.val) (bclr 4 (clear 2 1 c))).getLsbD 4 = false ∧ (orIn 2 1 (BitVec.ofNat 8 x.val) (bclr 4 (clear 2 1 c))).getLsbD 5 = c.getLsbD 5 ∧
      (orIn 2 1 (BitVec.ofNat 8 x.val) (bclr 4 (clear 2 1 c))).getLsbD 0 = c.getLsbD 0 := by decide +kernel
  have fld2 : ∀ (x : Fin 4) (c : BitVec 8), (Field.get 2 1 (orIn 2 1 (BitVec.ofNat 8 x.val) (bset 4 (bclr 4 (clear 2 1 c))))).toNat = x.val ∧
      (orIn 2 1 (BitVec.ofNat 8 x.val) (bset 4 (bclr 4 (clear 2 1 c)))).getLsbD 4 = true ∧ (orIn 2 1 (BitVec.ofNat 8 x.val) (bset 4 (bclr 4 (clear 2 1 c)))).getLsbD 5 = c.getLsbD 5 ∧
      (orIn 2 1 (BitVec.ofNat 8 x.val) (bset 4 (bclr 4 (clear 2 1 c)))).getLsbD 0 = c.getLsbD 0 := by decide +kernel
  have v1 : ∀ x, x < 4 → tinyView { r with a := orIn 2 1 (BitVec.ofNat 8 x) (bclr 4 (clear 2 1 r.a)) } =
      { tinyView r with div := [4, 16, 64, 128].getD x 0 } := by
    intro x hx
    obtain ⟨h1, h2, h3, h4⟩ := fld ⟨x, hx⟩ r.a
    unfold tinyView
    dsimp only at h1 h2 h3 h4 ⊢
    rw [h1, h2, h3, h4]
    have : x = 0 ∨ x = 1 ∨ x = 2 ∨ x = 3 := by omega
    rcases this with e | e | e | e <;> rw [e] <;> rfl
  have v2 : ∀ x, x < 4 → tinyView { r with a := orIn 2 1 (BitVec.ofNat 8 x) (bset 4 (bclr 4 (clear 2 1 r.a))) } =
      { tinyView r with div := [2, 8, 32, 64].getD x 0 } := by
    intro x hx
    obtain ⟨h1, h2, h3, h4⟩ := fld2 ⟨x, hx⟩ r.a
    unfold tinyView
    dsimp only at h1 h2 h3 h4 ⊢
    rw [h1, h2, h3, h4]
    have : x = 0 ∨ x = 1 ∨ x = 2 ∨ x = 3 := by omega
    rcases this with e | e | e | e <;> rw [e] <;> rfl
  unfold tinyRate at h
  dsimp only at h
  generalize hq : f / b = q at *
  by_cases c : 127 < q
  · rw [if_pos c] at h; cases h
    refine ⟨?_, by rw [v1 3 (by decide)]⟩
    rw [v1 3 (by decide)]; exact key 128 ⟨6, by decide, rfl⟩ (by omega) (.inl rfl)
  rw [if_neg c] at h
  by_cases c : 31 < q
  · rw [if_pos c] at h
    by_cases c2 : q < 64
    · rw [if_pos c2] at h; cases h
      refine ⟨?_, by rw [v2 2 (by decide)]⟩
      rw [v2 2 (by decide)]; exact key 32 ⟨4, by decide, rfl⟩ (by omega) (.inr (by omega))
    · rw [if_neg c2] at h; cases h
      refine ⟨?_, by rw [v1 2 (by decide)]⟩
      rw [v1 2 (by decide)]; exact key 64 ⟨5, by decide, rfl⟩ (by omega) (.inr (by omega))
  rw [if_neg c] at h
  by_cases c : 7 < q
  · rw [if_pos c] at h
    by_cases c2 : q < 16
    · rw [if_pos c2] at h; cases h
      refine ⟨?_, by rw [v2 1 (by decide)]⟩
      rw [v2 1 (by decide)]; exact key 8 ⟨2, by decide, rfl⟩ (by omega) (.inr (by omega))
    · rw [if_neg c2] at h; cases h
      refine ⟨?_, by rw [v1 1 (by decide)]⟩
      rw [v1 1 (by decide)]; exact key 16 ⟨3, by decide, rfl⟩ (by omega) (.inr (by omega))
  rw [if_neg c] at h
  by_cases c : 1 < q
  · rw [if_pos c] at h
    by_cases c2 : q < 4
    · rw [if_pos c2] at h; cases h
      refine ⟨?_, by rw [v2 0 (by decide)]⟩
      rw [v2 0 (by decide)]; exact key 2 ⟨0, by decide, rfl⟩ (by omega) (.inr (by omega))
    · rw [if_neg c2] at h; cases h
      refine ⟨?_, by rw [v1 0 (by decide)]⟩
      rw [v1 0 (by decide)]; exact key 4 ⟨1, by decide, rfl⟩ (by omega) (.inr (by omega))
  rw [if_neg c] at h
  cases h

theorem tinyMode_some (m : Nat) (r r' : Tiny) (h : tinyMode m r = some r') : tinyView r' = { tinyView r with master := m == 1 } := by
  cases h
  by_cases c : m = 1
  · rw [c, if_pos rfl]; unfold tinyView; bits; rfl
  · rw [if_neg c]; unfold tinyView; bits; simp [c]

/-- the mode that a clock mode asked for becomes: the one after it -/
def tinyNext (k : Nat) : Nat := if k = 4 then 1 else k + 1

theorem tinyClk_some (k : Nat) (hk : 1 ≤ k) (r r' : Tiny) (h : tinyClk k r = some r') :
    tinyView r' = { tinyView r with cpol := pol (tinyNext k), cpha := pha (tinyNext k) } := by
  unfold tinyClk at h
  by_cases c : k < 5
  · rw [if_pos c] at h; cases h
    have : k = 1 ∨ k = 2 ∨ k = 3 ∨ k = 4 := by omega
    have e : ∀ (j : Fin 5) (b : BitVec 8), 1 ≤ j.val → (put 2 0 (BitVec.ofNat 8 j.val) b).getLsbD 1 = pol (tinyNext j.val) ∧
        (put 2 0 (BitVec.ofNat 8 j.val) b).getLsbD 0 = pha (tinyNext j.val) := by decide +kernel
    obtain ⟨e1, e2⟩ := e ⟨k, c⟩ r.b hk
    unfold tinyView
    dsimp only at e1 e2 ⊢
    rw [e1, e2]
  · rw [if_neg c] at h; cases h

/-- **C89, C90, tinyavr**, when no clock mode is asked for and frames have 8 bits: everything as asked; SCK is the slowest rate available not below the one asked -/
theorem tiny_setup_partial (f : Nat) (s : Settings) (r r' : Tiny) (on : (tinyView r).on = true) (h8 : s.nbits = 0 ∨ s.nbits = 8) (hc : s.clk = 0)
    (h : tinySetup f s r = some r') : Asked (Slowest (Pow2 7) f) s (tinyView r) (tinyView r') := by
  refine chainMCR tinyView _ (fun r => (tinyView r).on = true) s (tinyRate f s.bitrate) (tinyClk s.clk) (tinyMode s.mode) (fun r i => ⟨i, rfl, rfl⟩) h8 ?_ ?_ ?_ r r' on h
  · intro r r' i c e
    obtain ⟨h1, h2⟩ := tinyRate_some _ _ (by omega) _ _ e
    exact ⟨by rw [h2]; exact i, h1, h2⟩
  · intro r r' i c; exact absurd hc c
  · intro r r' i c e
    have := tinyMode_some _ _ _ e
    exact ⟨by rw [this]; exact i, this⟩

/-- **C90, tinyavr, refuted**: every clock mode asked for gives another one, the one after it -/
theorem tiny_clk_wrong (f : Nat) (s : Settings) (r r' : Tiny) (hc : s.clk ≠ 0) (h : tinySetup f s r = some r') :
    (tinyView r').cpol = pol (tinyNext s.clk) ∧ (tinyView r').cpha = pha (tinyNext s.clk) ∧
      ¬ ((tinyView r').cpol = pol s.clk ∧ (tinyView r').cpha = pha s.clk) := by
  unfold tinySetup at h
  obtain ⟨r1, h1, h⟩ := Option.bind_eq_some_iff.1 h
  obtain ⟨r2, h2, h3⟩ := Option.bind_eq_some_iff.1 h
  unfold opt at h2
  rw [if_neg hc] at h2
  have e2 := tinyClk_some _ (by omega) _ _ h2
  have e3 : (tinyView r').cpol = (tinyView r2).cpol ∧ (tinyView r').cpha = (tinyView r2).cpha := by
    unfold opt at h3
    by_cases c : s.bitrate = 0
    · rw [if_pos c] at h3; cases h3; exact ⟨rfl, rfl⟩
    · rw [if_neg c] at h3
      obtain ⟨_, e⟩ := tinyRate_some _ _ (by omega) _ _ h3
      rw [e]; exact ⟨rfl, rfl⟩
  rw [e3.1, e3.2, e2]
  refine ⟨rfl, rfl, ?_⟩
  dsimp only
  have : s.clk < 5 := by
    unfold tinyClk at h2
    by_cases c : s.clk < 5
    · exact c
    · rw [if_neg c] at h2; cases h2
  have : s.clk = 1 ∨ s.clk = 2 ∨ s.clk = 3 ∨ s.clk = 4 := by omega
  rcases this with k | k | k | k <;> rw [k] <;> decide

/-- it returns 0 for any rate up to half the clock, and for no other -/
theorem tiny_accepts (f : Nat) (s : Settings) (r : Tiny) (hs : InRange s) : (∃ r', tinySetup f s r = some r') ↔ s.bitrate = 0 ∨ 2 ≤ f / s.bitrate := by
  obtain ⟨r1, e1⟩ := opt_accepts s.mode (tinyMode s.mode) (fun _ r => ⟨_, rfl⟩) r
  obtain ⟨r2, e2⟩ := opt_accepts s.clk (tinyClk s.clk) (fun _ r => ⟨_, by unfold tinyClk; rw [if_pos hs.2.1]⟩) r1
  unfold tinySetup
  rw [e1, Option.bind_some, e2, Option.bind_some]
  unfold opt
  by_cases c : s.bitrate = 0
  · rw [if_pos c]; exact ⟨fun _ => .inl c, fun _ => ⟨_, rfl⟩⟩
  · rw [if_neg c]
    unfold tinyRate
    dsimp only
    constructor
    · rintro ⟨r', h⟩
      by_cases c2 : 2 ≤ f / s.bitrate
      · exact .inr c2
      · rw [if_neg (by omega), if_neg (by omega), if_neg (by omega), if_neg (by omega)] at h; cases h
    · rintro (h | h)
      · exact absurd h c
      · by_cases c1 : 127 < f / s.bitrate
        · exact ⟨_, if_pos c1⟩
        rw [if_neg c1]
        by_cases c1 : 31 < f / s.bitrate
        · exact ⟨_, if_pos c1⟩
        rw [if_neg c1]
        by_cases c1 : 7 < f / s.bitrate
        · exact ⟨_, if_pos c1⟩
        rw [if_neg c1]
        exact ⟨_, if_pos (by omega)⟩

/-- **C90, tinyavr, refuted**: frames of any size are accepted, and are frames of 8 bits -/
theorem tiny_frame (f : Nat) (n : Nat) (r : Tiny) : tinySetup f ⟨0, 0, 0, n, 0, 0⟩ r = some r ∧ (tinyView r).nbits = 8 := ⟨rfl, rfl⟩

example : (tinySetup 20000000 ⟨1000000, 1, 0, 8, 0, 0⟩ ⟨1, 0⟩).map tinyView = some ⟨16, false, false, true, 8, true, 8⟩ := by decide +kernel

/-! ### avr -/

theorem avrRate_some (mem : Nat → BitVec 16) (f b : Nat) (hb : f / 128 ≤ b) (r r' : Avr) (h : avrRate mem f b r = some r') :
    Fastest (Pow2 7) f b (avrView r').div ∧ avrView r' = { avrView r with div := (avrView r').div } := by
  obtain ⟨i, hi, rfl⟩ := Option.map_eq_some_iff.1 h
  obtain ⟨h14, h1, h2⟩ := find_range_some _ _ _ hi
  have h1 : f / 2 ^ (i + 1) ≤ b := by rw [← Nat.shiftRight_eq_div_pow]; simpa using h1
  have h2 : ∀ j, j < i → b < f / 2 ^ (j + 1) := by
    intro j hj
    have := h2 j hj
    rw [← Nat.shiftRight_eq_div_pow]
    simpa using this
  have h7 : i < 7 := by
    apply Decidable.byContradiction
    intro c
    have : b < f / 128 := h2 6 (by omega)
    omega
  have tab : ∀ (x : Fin 7) (c d : BitVec 8), avrDiv ⟨put 2 0 ((BitVec.ofNat 16 ([4, 0, 5, 1, 6, 2, 3].getD x.val 0)).setWidth 8) c,
      bclr 0 d ||| (1#8 &&& (BitVec.ofNat 16 ([4, 0, 5, 1, 6, 2, 3].getD x.val 0) >>> 2).setWidth 8)⟩ = 2 ^ (x.val + 1) := by
    intro x c d
    unfold avrDiv
    dsimp only
    have e1 : ∀ (x : Fin 7) (c : BitVec 8), (Field.get 2 0 (put 2 0 ((BitVec.ofNat 16 ([4, 0, 5, 1, 6, 2, 3].getD x.val 0)).setWidth 8) c)).toNat = [0, 0, 1, 1, 2, 2, 3].getD x.val 0 := by decide +kernel
    have e2 : ∀ (x : Fin 7) (d : BitVec 8), (bclr 0 d ||| (1#8 &&& (BitVec.ofNat 16 ([4, 0, 5, 1, 6, 2, 3].getD x.val 0) >>> 2).setWidth 8)).getLsbD 0 =
        [true, false, true, false, true, false, false].getD x.val false := by decide +kernel
    rw [e1, e2]
    revert x
    decide
  unfold avrView
  refine ⟨?_, by bits⟩
  dsimp only
  have hs : avrSpr mem i = BitVec.ofNat 16 ([4, 0, 5, 1, 6, 2, 3].getD i 0) := by unfold avrSpr; rw [if_pos h7]
  rw [hs, tab ⟨i, h7⟩]
  show Fastest (Pow2 7) f b (2 ^ (i + 1))
  refine ⟨⟨i, h7, rfl⟩, h1, ?_⟩
  rintro d' ⟨j, hj, rfl⟩ hle
  apply Nat.pow_le_pow_right (by decide)
  have : ¬ j < i := fun hji => by have := h2 j hji; omega
  omega

/-- **C89, C90, avr**, for the rates from f / 128 on and frames of 8 bits: everything as asked; SCK is the fastest of the rates available that are not above the one asked -/
theorem avr_setup_partial (mem : Nat → BitVec 16) (f : Nat) (s : Settings) (r r' : Avr) (on : (avrView r).on = true) (h8 : s.nbits = 0 ∨ s.nbits = 8)
    (hb : s.bitrate = 0 ∨ f / 128 ≤ s.bitrate) (h : avrSetup mem f s r = some r') : Asked (Fastest (Pow2 7) f) s (avrView r) (avrView r') := by
  refine chainMCR avrView _ (fun r => (avrView r).on = true) s (avrRate mem f s.bitrate) (avrClk s.clk) (avrMode s.mode) (fun r i => ⟨i, rfl, rfl⟩) h8 ?_ ?_ ?_ r r' on h
  · intro r r' i c e
    rcases hb with hb | hb
    · exact absurd hb c
    obtain ⟨h1, h2⟩ := avrRate_some mem _ _ hb _ _ e
    exact ⟨by rw [h2]; exact i, h1, h2⟩
  · intro r r' i _ e
    obtain ⟨x, hx, rfl⟩ := Option.map_eq_some_iff.1 e
    obtain ⟨h1, h2, h3, h4⟩ := clk2_some _ _ _ _ _ hx (by decide) (by decide) (by decide)
    have : avrView { r with spcr := x } = { avrView r with cpol := pol s.clk, cpha := pha s.clk } := by
      unfold avrView avrDiv
      simp (disch := decide) only [h1, h2, h3, h4]
    exact ⟨by rw [this]; exact i, this⟩
  · intro r r' i c e
    have : avrView r' = { avrView r with master := s.mode == 1 } := by
      cases e
      by_cases c : s.mode = 1
      · rw [c, if_pos rfl]; unfold avrView avrDiv; bits; rfl
      · rw [if_neg c]; unfold avrView avrDiv; bits; simp [c]
    exact ⟨by rw [this]; exact i, this⟩

/-- it returns 0 for any rate from f / 128 on, any mode -/
theorem avr_accepts (mem : Nat → BitVec 16) (f : Nat) (s : Settings) (r : Avr) (hs : InRange s) (hb : s.bitrate = 0 ∨ f / 128 ≤ s.bitrate) :
    ∃ r', avrSetup mem f s r = some r' := by
  obtain ⟨r1, e1⟩ := opt_accepts s.mode (avrMode s.mode) (fun _ r => ⟨_, rfl⟩) r
  obtain ⟨r2, e2⟩ := opt_accepts s.clk (avrClk s.clk) (fun c r => by
    obtain ⟨x, hx⟩ := clk2_accepts 3 2 s.clk r.spcr ⟨by omega, by have := hs.2.1; omega⟩
    exact ⟨_, by unfold avrClk; rw [hx]; rfl⟩) r1
  obtain ⟨r3, e3⟩ := opt_accepts s.bitrate (avrRate mem f s.bitrate) (fun c r => by
    rcases hb with c' | hb
    · exact absurd c' c
    have : ((List.range 14).find? fun i => decide (f >>> (i + 1) ≤ s.bitrate)).isSome := by
      rw [List.find?_isSome]
      exact ⟨6, by decide, by rw [Nat.shiftRight_eq_div_pow]; simpa using hb⟩
    obtain ⟨x, hx⟩ := Option.isSome_iff_exists.1 this
    exact ⟨_, by unfold avrRate; rw [hx]; rfl⟩) r2
  exact ⟨r3, by unfold avrSetup; rw [e1, Option.bind_some, e2, Option.bind_some, e3]⟩

/-- **C89, avr, refuted**: for every rate between f / 2^14 and f / 128 the divider is read past the end of the table; with a 4 there, SCK is half the clock -/
theorem avr_slow (f b : Nat) (h1 : b < f / 128) (h2 : f / 2 ^ 14 ≤ b) (r : Avr) : ∃ r', avrRate (fun _ => 4#16) f b r = some r' ∧ (avrView r').div = 2 := by
  have : ((List.range 14).find? fun i => decide (f >>> (i + 1) ≤ b)).isSome := by
    rw [List.find?_isSome]
    exact ⟨13, by decide, by rw [Nat.shiftRight_eq_div_pow]; simpa using h2⟩
  obtain ⟨i, hi⟩ := Option.isSome_iff_exists.1 this
  obtain ⟨h14, h3, _⟩ := find_range_some _ _ _ hi
  have h3 : f / 2 ^ (i + 1) ≤ b := by rw [← Nat.shiftRight_eq_div_pow]; simpa using h3
  have h7 : ¬ i < 7 := fun c => by
    have : f / 2 ^ 7 ≤ f / 2 ^ (i + 1) := Nat.div_le_div_left (Nat.pow_le_pow_right (by decide) (by omega)) (Nat.two_pow_pos _)
    omega
  refine ⟨_, by unfold avrRate; rw [hi, Option.map_some], ?_⟩
  unfold avrView avrDiv avrSpr
  dsimp only
  rw [if_neg h7]
  have e1 : ∀ c : BitVec 8, (Field.get 2 0 (put 2 0 ((4#16).setWidth 8) c)).toNat = 0 := by decide +kernel
  have e2 : ∀ d : BitVec 8, (bclr 0 d ||| (1#8 &&& (4#16 >>> 2).setWidth 8)).getLsbD 0 = true := by decide +kernel
  rw [e1, e2]
  rfl

/-- below f / 2^14 it is refused -/
theorem avr_refuses (mem : Nat → BitVec 16) (f b : Nat) (h : b < f / 2 ^ 14) (r : Avr) : avrRate mem f b r = none := by
  unfold avrRate
  rw [Option.map_eq_none_iff, List.find?_eq_none]
  intro i hi
  rw [List.mem_range] at hi
  simp only [decide_eq_true_eq, Nat.shiftRight_eq_div_pow]
  have : f / 2 ^ 14 ≤ f / 2 ^ (i + 1) := Nat.div_le_div_left (Nat.pow_le_pow_right (by decide) (by omega)) (Nat.two_pow_pos _)
  omega

/-- **C90, avr, refuted**: frames of any size are accepted, and are frames of 8 bits -/
theorem avr_frame (mem : Nat → BitVec 16) (f : Nat) (n : Nat) (r : Avr) : avrSetup mem f ⟨0, 0, 0, n, 0, 0⟩ r = some r ∧ (avrView r).nbits = 8 := ⟨rfl, rfl⟩

example : (avrSetup (fun _ => 0) 16000000 ⟨1000000, 1, 4, 8, 0, 0⟩ ⟨0x40, 0⟩).map avrView = some ⟨16, true, true, true, 8, true, 8⟩ := by decide +kernel

end Pico.SpiSetup
