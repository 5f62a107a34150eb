/-
The SPI drivers (C89, C90): theorems, continued: atmel_sercom, atsamx7x (and sam3x), atsamx7x_qspi, ti_f28x.
-/
import Verif.Drivers.SpiSetupProps3

namespace Pico.SpiSetup
open Pico.Field

/-! ### atmel_sercom -/

theorem serA_ok (x : BitVec 32) (r : Ser) (h : x.getLsbD 0 = false) : serA x r = { r with ctrla := x } := by
  unfold serA; rw [h]; rfl

theorem serBits_some (n : Nat) (hn : n % 8 = 0) (r r' : Ser) (h : serBits n r = some r') :
    r'.ctrla = r.ctrla ∧ serView r' = { serView r with nbits := n, fn := n } := by
  unfold serBits at h
  by_cases c : 8 ≤ n ∧ n ≤ 32
  · rw [if_pos c] at h
    by_cases c8 : n ≤ 8
    · rw [if_pos c8] at h; cases h
      refine ⟨rfl, ?_⟩
      unfold serView; bits
      have : n = 8 := by omega
      rw [this]; rfl
    · rw [if_neg c8] at h; cases h
      refine ⟨rfl, ?_⟩
      unfold serView; bits
      have : n = 16 ∨ n = 24 ∨ n = 32 := by omega
      rcases this with e | e | e <;> rw [e] <;> rfl
  · rw [if_neg c] at h; cases h

theorem serMode_some (m : Nat) (r r' : Ser) (i : r.ctrla.getLsbD 0 = false) (h : serMode m r = some r') :
    r'.ctrla.getLsbD 0 = false ∧ serView r' = { serView r with master := m == 1 } := by
  have e1 : (clear 3 2 r.ctrla).getLsbD 0 = false := by rw [clear_bit, i]; rfl
  have e2 : (orIn 3 2 (BitVec.ofNat 32 (if m = 1 then 3 else 2)) (clear 3 2 r.ctrla)).getLsbD 0 = false := by
    rw [orIn_bit _ _ _ _ _ (by decide), e1]; rfl
  unfold serMode at h
  dsimp only at h
  rw [serA_ok _ _ e1, serA_ok _ _ e2] at h
  cases h
  refine ⟨e2, ?_⟩
  unfold serView
  dsimp only
  have e3 : orIn 3 2 (BitVec.ofNat 32 (if m = 1 then 3 else 2)) (clear 3 2 r.ctrla) = put 3 2 (BitVec.ofNat 32 (if m = 1 then 3 else 2)) r.ctrla := rfl
  rw [e3]
  bits
  rw [get_put_nat _ _ _ _ (by decide) (by by_cases c : m = 1 <;> simp [c])]
  by_cases c : m = 1
  · rw [if_pos c, c]; rfl
  · rw [if_neg c]; simp [c]

theorem ser_q (q : Nat) (h : q < 2 ^ 32) : (q + (2 ^ 32 - 1)) % 2 ^ 32 < 0x100 ↔ 1 ≤ q ∧ q ≤ 256 := by omega

theorem ser_q1 (q : Nat) (h1 : 1 ≤ q) (h2 : q ≤ 256) : 2 * ((q + (2 ^ 32 - 1)) % 2 ^ 32 + 1) = 2 * q := by omega

theorem serRate_some (f b : Nat) (hf : f < 2 ^ 32) (hb : 0 < b) (r r' : Ser) (h : serRate f b r = some r') :
    r'.ctrla = r.ctrla ∧ Slowest (fun d => d % 2 = 0 ∧ 0 < d ∧ d ≤ 2 * 256) f b (serView r').div ∧ serView r' = { serView r with div := (serView r').div } := by
  have hq : f / (2 * b) < 2 ^ 32 := Nat.lt_of_le_of_lt (Nat.div_le_self _ _) hf
  unfold serRate at h
  dsimp only at h
  by_cases c : (f / (2 * b) + (2 ^ 32 - 1)) % 2 ^ 32 < 0x100
  · rw [if_pos c] at h
    cases h
    obtain ⟨h1, h2⟩ := (ser_q _ hq).1 c
    refine ⟨rfl, ?_, rfl⟩
    have e : ∀ x : Fin 256, (Field.get 8 0 (BitVec.ofNat 32 x.val &&& mask 32 8)).toNat = x.val := by decide +kernel
    have e := e ⟨_, c⟩
    unfold serView
    dsimp only at e ⊢
    rw [e, ser_q1 _ h1 h2]
    exact slowest_even 256 f b hb h1 h2
  · rw [if_neg c] at h; cases h

/-- **C89, C90, atmel_sercom**, when no clock mode is asked for, frames of whole bytes: everything as asked; SCK is the slowest rate available not below the one asked -/
theorem ser_setup_partial (f : Nat) (hf : f < 2 ^ 32) (s : Settings) (r r' : Ser) (hr : r.ctrla.getLsbD 0 = false) (hc : s.clk = 0) (hn : s.nbits % 8 = 0)
    (h : serSetup f s r = some r') : Asked (Slowest (fun d => d % 2 = 0 ∧ 0 < d ∧ d ≤ 512) f) s (serView r) (serView r') := by
  refine chainI serView _ (fun r => r.ctrla.getLsbD 0 = false) s (serRate f s.bitrate) (serClk s.clk) (serBits s.nbits) (serMode s.mode) (fun r => serA (bclr 1 r.ctrla) r)
    (fun r => serA (bset 1 r.ctrla) r) ?_ ?_ ?_ ?_ ?_ ?_ r r' hr h
  · intro r i
    have e : (bclr 1 r.ctrla).getLsbD 0 = false := by bits; exact i
    rw [serA_ok _ _ e]
    refine ⟨e, false, ?_⟩
    unfold serView; bits
  · intro r i
    have e : (bset 1 r.ctrla).getLsbD 0 = false := by bits; exact i
    rw [serA_ok _ _ e]
    unfold serView; bits
  · intro r r' i c e
    obtain ⟨h1, h2, h3⟩ := serRate_some f _ hf (by omega) _ _ e
    exact ⟨by rw [h1]; exact i, h2, h3⟩
  · intro r r' i c; exact absurd hc c
  · intro r r' i c e
    obtain ⟨h1, h2⟩ := serBits_some _ hn _ _ e
    exact ⟨by rw [h1]; exact i, h2⟩
  · intro r r' i c e
    exact serMode_some _ _ _ i e

/-- asking for mode 0 changes nothing: in particular it does not bring mode 0 back -/
theorem ser_clk0 (r : Ser) (hr : r.ctrla.getLsbD 0 = false) : serClk 1 r = some r := by
  have e1 : bclr 0 r.ctrla = r.ctrla := by
    apply BitVec.eq_of_getLsbD_eq
    intro i _
    rw [bclr_bit]
    by_cases c : i = 0
    · rw [c, hr]; rfl
    · simp [c]
  show some (serA (bclr 0 (serA (bclr 0 r.ctrla) r).ctrla) (serA (bclr 0 r.ctrla) r)) = some r
  have e2 : serA (bclr 0 r.ctrla) r = r := by rw [e1, serA_ok _ _ hr]
  rw [e2, e2]

theorem ser_clk_reset (k : Nat) (hk : 2 ≤ k) (r r' : Ser) (h : serClk k r = some r') : r' = ⟨0, 0, 0, 0, 0, r.fn⟩ := by
  have e : ∀ x : BitVec 32, (bset 0 x).getLsbD 0 = true := fun x => bset_same _ _ (by decide)
  have e' : ∀ (x : BitVec 32) (r : Ser), serA (bset 0 x) r = ⟨0, 0, 0, 0, 0, r.fn⟩ := fun x r => by unfold serA; rw [e]; rfl
  have f' : ∀ (x : BitVec 32) (r : Ser), (serA x r).fn = r.fn := fun x r => by unfold serA; cases x.getLsbD 0 <;> rfl
  unfold serClk at h
  split at h
  · omega
  · cases h; show serA (bset 0 _) _ = _; rw [e', f']
  · cases h; show serA (bclr 0 (serA (bset 0 _) _).ctrla) (serA (bset 0 _) _) = _; rw [e', serA_ok _ _ (bclr_same _ _)]; dsimp only; rw [show bclr 0 (0 : BitVec 32) = 0 by decide]
  · cases h; show serA (bset 0 _) _ = _; rw [e', f']
  · cases h

/-- **C89, C90, atmel_sercom, refuted**: asking for mode 1, 2 or 3 resets the controller: mode 0, SCK at half the clock whatever rate is asked for, receiver off -/
theorem ser_clk_wrong (f : Nat) (s : Settings) (r r' : Ser) (hc : 2 ≤ s.clk) (h : serSetup f s r = some r') :
    (serView r').cpol = false ∧ (serView r').cpha = false ∧ (serView r').div = 2 ∧ serRx r' = false := by
  unfold serSetup at h
  obtain ⟨r1, h1, h⟩ := Option.bind_eq_some_iff.1 h
  obtain ⟨r2, h2, h⟩ := Option.bind_eq_some_iff.1 h
  obtain ⟨r3, h3, h⟩ := Option.bind_eq_some_iff.1 h
  obtain ⟨r4, h4, h⟩ := Option.map_eq_some_iff.1 h
  unfold opt at h2
  rw [if_neg (by omega)] at h2
  have e2 := ser_clk_reset _ hc _ _ h2
  have e3 : r3.ctrla = 0 ∧ r3.ctrlb = 0 ∧ r3.baud = 0 := by
    unfold opt at h3
    by_cases c : s.nbits = 0
    · rw [if_pos c] at h3; cases h3; rw [e2]; exact ⟨rfl, rfl, rfl⟩
    · rw [if_neg c] at h3
      unfold serBits at h3
      by_cases c : 8 ≤ s.nbits ∧ s.nbits ≤ 32
      · rw [if_pos c] at h3
        by_cases c8 : s.nbits ≤ 8
        · rw [if_pos c8] at h3; cases h3; rw [e2]; exact ⟨rfl, rfl, rfl⟩
        · rw [if_neg c8] at h3; cases h3; rw [e2]; exact ⟨rfl, rfl, rfl⟩
      · rw [if_neg c] at h3; cases h3
  have e4 : (r4.ctrla = 0 ∨ r4.ctrla = 8 ∨ r4.ctrla = 12) ∧ r4.ctrlb = 0 ∧ r4.baud = 0 := by
    unfold opt at h4
    by_cases c : s.mode = 0
    · rw [if_pos c] at h4; cases h4; exact ⟨.inl e3.1, e3.2⟩
    · rw [if_neg c] at h4
      obtain ⟨e31, e32⟩ := e3
      unfold serMode at h4
      dsimp only at h4
      rw [e31, serA_ok (clear 3 2 0) _ (by decide)] at h4
      dsimp only at h4
      by_cases c : s.mode = 1
      · rw [if_pos c, serA_ok _ _ (by decide)] at h4
        cases h4; exact ⟨.inr (.inr (show orIn 3 2 3#32 (clear 3 2 0) = 12#32 by decide)), e32⟩
      · rw [if_neg c, serA_ok _ _ (by decide)] at h4
        cases h4; exact ⟨.inr (.inl (show orIn 3 2 2#32 (clear 3 2 0) = 8#32 by decide)), e32⟩
  obtain ⟨ea, eb, ec⟩ := e4
  subst h
  have e5 : (bset 1 r4.ctrla).getLsbD 0 = false := by rcases ea with e | e | e <;> rw [e] <;> decide
  rw [serA_ok _ _ e5]
  unfold serView serRx
  dsimp only
  rw [eb, ec]
  rcases ea with e | e | e <;> rw [e] <;> decide

/-- it returns 0 for the rates from f / 512 to f / 2, any mode, 8 to 32 bits, and for no other rate -/
theorem ser_accepts (f : Nat) (hf : f < 2 ^ 32) (s : Settings) (r : Ser) (hs : InRange s) (hn : s.nbits = 0 ∨ 8 ≤ s.nbits ∧ s.nbits ≤ 32) :
    (∃ r', serSetup f s r = some r') ↔ s.bitrate = 0 ∨ 1 ≤ f / (2 * s.bitrate) ∧ f / (2 * s.bitrate) ≤ 256 := by
  have hq : f / (2 * s.bitrate) < 2 ^ 32 := Nat.lt_of_le_of_lt (Nat.div_le_self _ _) hf
  constructor
  · rintro ⟨r', h⟩
    unfold serSetup at h
    obtain ⟨r1, h1, h⟩ := Option.bind_eq_some_iff.1 h
    unfold opt at h1
    by_cases c : s.bitrate = 0
    · exact .inl c
    · rw [if_neg c] at h1
      unfold serRate at h1
      dsimp only at h1
      by_cases c : (f / (2 * s.bitrate) + (2 ^ 32 - 1)) % 2 ^ 32 < 0x100
      · exact .inr ((ser_q _ hq).1 c)
      · rw [if_neg c] at h1; cases h1
  · intro hb
    refine chain_accepts s (serRate f s.bitrate) (serClk s.clk) (serBits s.nbits) (serMode s.mode) (fun r => serA (bclr 1 r.ctrla) r)
      (fun r => serA (bset 1 r.ctrla) r) ?_ ?_ ?_ ?_ r
    · intro c r
      rcases hb with c' | hb
      · exact absurd c' c
      · unfold serRate
        dsimp only
        rw [if_pos ((ser_q _ hq).2 hb)]; exact ⟨_, rfl⟩
    · intro c r
      have : s.clk = 1 ∨ s.clk = 2 ∨ s.clk = 3 ∨ s.clk = 4 := by have := hs.2.1; omega
      rcases this with k | k | k | k <;> rw [k] <;> exact ⟨_, rfl⟩
    · intro c r
      rcases hn with c' | c'
      · exact absurd c' c
      · unfold serBits
        rw [if_pos c']
        by_cases c8 : s.nbits ≤ 8
        · exact ⟨_, if_pos c8⟩
        · exact ⟨_, if_neg c8⟩
    · intro c r; exact ⟨_, rfl⟩

/-- **C90, atmel_sercom, refuted**: frames of 12 bits are accepted, and are frames of 16 bits -/
theorem ser_frame : (serSetup 48000000 ⟨1000000, 1, 0, 12, 0, 0⟩ ⟨0, 0x20000, 0, 0, 0, 8⟩).map serView = some ⟨48, false, false, true, 16, true, 12⟩ := by decide +kernel

example : (serSetup 48000000 ⟨1000000, 1, 0, 32, 0, 0⟩ ⟨0, 0x20000, 0, 0, 0, 8⟩).map serView = some ⟨48, false, false, true, 32, true, 32⟩ := by decide +kernel

/-! ### atsamx7x, sam3x -/

/-- the divider or-ed, everything else zero -/
theorem noTilde (x v : BitVec 32) : Field.get 8 8 (orIn 8 8 v (x &&& (mask 32 8 <<< 8))) = Field.get 8 8 x ||| (v &&& mask 32 8) ∧
    (∀ i, i < 8 → (orIn 8 8 v (x &&& (mask 32 8 <<< 8))).getLsbD i = false) := by
  have hb : ∀ i, i < 32 → (orIn 8 8 v (x &&& (mask 32 8 <<< 8))).getLsbD i = (decide (8 ≤ i) && decide (i < 16) && (x.getLsbD i || v.getLsbD (i - 8))) := by
    intro i hi
    rw [orIn_bit _ _ _ _ _ hi, BitVec.getLsbD_and, BitVec.getLsbD_shiftLeft, mask_bit]
    by_cases c : i < 8
    · simp [c, hi, show ¬ 8 ≤ i by omega]
    · by_cases c2 : i < 16
      · simp [c, hi, c2, show 8 ≤ i by omega, show i - 8 < 8 by omega, show i - 8 < 32 by omega]
      · simp [c2, show ¬ i - 8 < 8 by omega]
  refine ⟨?_, fun i hi => ?_⟩
  · apply BitVec.eq_of_getLsbD_eq
    intro i hi
    rw [get_bit, BitVec.getLsbD_or, get_bit, BitVec.getLsbD_and, mask_bit]
    by_cases c : i < 8
    · rw [hb _ (by omega)]
      simp [c, hi, show 8 + i < 16 by omega]
    · simp [c]
  · rw [hb _ (by omega)]; simp [show ¬ 8 ≤ i by omega]

theorem low_zero (y : BitVec 32) (h : ∀ i, i < 8 → y.getLsbD i = false) : Field.get 4 4 y = 0 := by
  apply BitVec.eq_of_getLsbD_eq
  intro i _
  rw [get_bit]
  by_cases c : i < 4
  · rw [h _ (by omega)]; simp
  · simp [c]

theorem upd_same (c : Nat → BitVec 32) (i : Nat) (x : BitVec 32) : upd c i x i = x := if_pos rfl

theorem upd_other (c : Nat → BitVec 32) (i j : Nat) (x : BitVec 32) (h : j ≠ i) : upd c i x j = c j := if_neg h

/-- what set_bitrate leaves: the old divider or-ed with the new one; mode 1; 8 bits -/
theorem samRate_some (cs f b : Nat) (r r' : Sam) (h : samRate cs f b r = some r') :
    samView cs r' = { samView cs r with div := (Field.get 8 8 (r.csr cs) ||| (BitVec.ofNat 32 (f / b) &&& mask 32 8)).toNat, cpol := false, cpha := true, nbits := 8 } := by
  cases h
  obtain ⟨h1, h2⟩ := noTilde (r.csr cs) (BitVec.ofNat 32 (f / b))
  unfold samView
  dsimp only
  rw [upd_same, h1, h2 0 (by decide), h2 1 (by decide), low_zero _ h2]
  rfl

theorem samClk_some (cs k : Nat) (r r' : Sam) (h : samClk cs k r = some r') : samView cs r' = { samView cs r with cpol := pol k, cpha := pha k } := by
  unfold samClk at h
  split at h
  · cases h; unfold samView; simp only [upd_same]; bits; rfl
  · cases h; unfold samView; simp only [upd_same]; bits; rfl
  · cases h; unfold samView; simp only [upd_same]; bits; rfl
  · cases h; unfold samView; simp only [upd_same]; bits; rfl
  · cases h

theorem samBits_some (cs n : Nat) (r r' : Sam) (h : samBits cs n r = some r') : samView cs r' = { samView cs r with nbits := n, fn := n } := by
  unfold samBits at h
  by_cases c : 8 ≤ n ∧ n ≤ 16
  · rw [if_pos c] at h; cases h
    unfold samView; simp only [upd_same]; bits
    rw [get_put_nat _ _ _ _ (by decide) (by omega), Nat.sub_add_cancel c.1]
  · rw [if_neg c] at h; cases h

theorem samMode_some (cs m : Nat) (r r' : Sam) (h : samMode m r = some r') : samView cs r' = { samView cs r with master := m == 1 } := by
  cases h
  by_cases c : m = 1
  · rw [c, if_pos rfl]; unfold samView; bits; rfl
  · rw [if_neg c]; unfold samView; bits; simp [c]

theorem sam_pre (f : Nat) (s : Settings) (r r' : Sam) (h : samSetup f s r = some r') :
    s.cs < 4 ∧ ∃ r1 r2 r3 r4, opt s.bitrate (samRate s.cs f s.bitrate) r = some r1 ∧ opt s.clk (samClk s.cs s.clk) r1 = some r2 ∧
      opt s.nbits (samBits s.cs s.nbits) r2 = some r3 ∧ opt s.mode (samMode s.mode) r3 = some r4 ∧ r' = { r4 with mr := put 4 16 (~~~ (1#32 <<< s.cs)) r4.mr } := by
  unfold samSetup at h
  by_cases c : s.cs < 4
  · rw [if_pos c] at h
    obtain ⟨r1, h1, h⟩ := Option.bind_eq_some_iff.1 h
    obtain ⟨r2, h2, h⟩ := Option.bind_eq_some_iff.1 h
    obtain ⟨r3, h3, h⟩ := Option.bind_eq_some_iff.1 h
    obtain ⟨r4, h4, h⟩ := Option.map_eq_some_iff.1 h
    exact ⟨c, r1, r2, r3, r4, h1, h2, h3, h4, h.symm⟩
  · rw [if_neg c] at h; cases h

/-- all that follows set_bitrate -/
theorem sam_rest (f : Nat) (s : Settings) (r r' : Sam) (h : samSetup f s r = some r') : ∃ r1, opt s.bitrate (samRate s.cs f s.bitrate) r = some r1 ∧
    samView s.cs r' = { samView s.cs r1 with
      cpol := if s.clk = 0 then (samView s.cs r1).cpol else pol s.clk
      cpha := if s.clk = 0 then (samView s.cs r1).cpha else pha s.clk
      nbits := if s.nbits = 0 then (samView s.cs r1).nbits else s.nbits
      fn := if s.nbits = 0 then (samView s.cs r1).fn else s.nbits
      master := if s.mode = 0 then (samView s.cs r1).master else s.mode == 1 } := by
  obtain ⟨hc, r1, r2, r3, r4, h1, h2, h3, h4, rfl⟩ := sam_pre f s r r' h
  have e2 := (opt_step (samView s.cs) (fun _ => True) _ _ (fun v => { v with cpol := pol s.clk, cpha := pha s.clk }) (fun r r' _ _ e => ⟨trivial, samClk_some _ _ r r' e⟩) _ _ trivial h2).2
  have e3 := (opt_step (samView s.cs) (fun _ => True) _ _ (fun v => { v with nbits := s.nbits, fn := s.nbits }) (fun r r' _ _ e => ⟨trivial, samBits_some _ _ r r' e⟩) _ _ trivial h3).2
  have e4 := (opt_step (samView s.cs) (fun _ => True) _ _ (fun v => { v with master := s.mode == 1 }) (fun r r' _ _ e => ⟨trivial, samMode_some _ _ r r' e⟩) _ _ trivial h4).2
  have e5 : samView s.cs { r4 with mr := put 4 16 (~~~ (1#32 <<< s.cs)) r4.mr } = samView s.cs r4 := by unfold samView; bits
  refine ⟨r1, h1, ?_⟩
  rw [e5, e4, e3, e2]
  by_cases c2 : s.clk = 0 <;> by_cases c3 : s.nbits = 0 <;> by_cases c4 : s.mode = 0 <;> simp only [c2, c3, c4, if_true, if_false]

/-- **C89, C90, atsamx7x, sam3x**, when no rate is asked for, or the first time a rate is asked for (divider 0) together with the clock mode and the frame size and the divider
is from 1 to 255: everything as asked; SCK is the slowest rate available not below the one asked -/
theorem sam_setup_partial (f : Nat) (s : Settings) (r r' : Sam)
    (hs : s.bitrate = 0 ∨ ((samView s.cs r).div = 0 ∧ s.clk ≠ 0 ∧ s.nbits ≠ 0 ∧ 1 ≤ f / s.bitrate ∧ f / s.bitrate < 256)) (h : samSetup f s r = some r') :
    Asked (Slowest (fun d => 1 ≤ d ∧ d < 256) f) s (samView s.cs r) (samView s.cs r') := by
  obtain ⟨r1, h1, e⟩ := sam_rest f s r r' h
  unfold opt at h1
  by_cases c : s.bitrate = 0
  · rw [if_pos c] at h1
    cases h1
    rw [e]
    exact ⟨by rw [if_pos c], rfl, rfl, rfl, rfl, rfl, rfl⟩
  · rw [if_neg c] at h1
    obtain ⟨d0, c2, c3, q1, q2⟩ := hs.resolve_left c
    have e1 := samRate_some _ _ _ _ _ h1
    have d0 : Field.get 8 8 (r.csr s.cs) = 0#32 := BitVec.eq_of_toNat_eq d0
    rw [d0, BitVec.zero_or, and_mask _ _ _ (by decide) q2] at e1
    rw [e, e1]
    simp only [c2, c3, if_false]
    exact ⟨by rw [if_neg c]; exact slowest_quot _ _ _ (by omega) ⟨q1, q2⟩, by rw [if_neg c2], by rw [if_neg c2], by rw [if_neg c3], by rw [if_neg c3], rfl, rfl⟩

/-- **C89, C90, atsamx7x, sam3x, refuted**: asking for a rate, the divider becomes the old one or-ed with the new one (modulo 256); and if the clock mode is not asked for
again it becomes mode 1, the frame size 8 bits, while the driver goes on with its old frame size -/
theorem sam_rate_wrong (f : Nat) (s : Settings) (r r' : Sam) (hb : s.bitrate ≠ 0) (h : samSetup f s r = some r') :
    (samView s.cs r').div = (samView s.cs r).div ||| (f / s.bitrate % 256) ∧
      (s.clk = 0 → (samView s.cs r').cpol = false ∧ (samView s.cs r').cpha = true) ∧
      (s.nbits = 0 → (samView s.cs r').nbits = 8 ∧ (samView s.cs r').fn = (samView s.cs r).fn) := by
  obtain ⟨r1, h1, e⟩ := sam_rest f s r r' h
  unfold opt at h1
  rw [if_neg hb] at h1
  have e1 := samRate_some _ _ _ _ _ h1
  rw [e, e1]
  refine ⟨?_, fun c => ?_, fun c => ?_⟩
  · show (Field.get 8 8 (r.csr s.cs) ||| (BitVec.ofNat 32 (f / s.bitrate) &&& mask 32 8)).toNat = (Field.get 8 8 (r.csr s.cs)).toNat ||| (f / s.bitrate % 256)
    rw [BitVec.toNat_or, BitVec.toNat_and, mask, BitVec.toNat_ofNat, BitVec.toNat_ofNat]
    congr 1
    rw [show (2 ^ 8 - 1) % 2 ^ 32 = 2 ^ 8 - 1 by decide, Nat.and_two_pow_sub_one_eq_mod]
    omega
  · simp only [c, if_true]; exact ⟨trivial, trivial⟩
  · simp only [c, if_true]; exact ⟨trivial, trivial⟩

theorem put_bit_in {n : Nat} (w t i : Nat) (v r : BitVec n) (h : t + i < n) (hi : i < w) : (put w t v r).getLsbD (t + i) = v.getLsbD i := by
  rw [put, orIn_bit _ _ _ _ _ h, clear_bit]
  simp [hi]

/-- **C90, atsamx7x, sam3x**: the chip select asked for is the one selected; the settings of the others do not change -/
theorem sam_cs (f : Nat) (s : Settings) (r r' : Sam) (h : samSetup f s r = some r') : samSel r' = some s.cs ∧ ∀ c, c ≠ s.cs → r'.csr c = r.csr c := by
  obtain ⟨hc, r1, r2, r3, r4, h1, h2, h3, h4, rfl⟩ := sam_pre f s r r' h
  refine ⟨?_, fun c ne => ?_⟩
  · have e : samSel { r4 with mr := put 4 16 (~~~ (1#32 <<< s.cs)) r4.mr } = (List.range 4).find? fun i => !(~~~ (1#32 <<< s.cs)).getLsbD i := by
      unfold samSel
      have : ∀ l : List Nat, (∀ i, i ∈ l → i < 4) → (l.find? fun i => !(put 4 16 (~~~ (1#32 <<< s.cs)) r4.mr).getLsbD (16 + i)) = l.find? fun i => !(~~~ (1#32 <<< s.cs)).getLsbD i := by
        intro l
        induction l with
        | nil => intro _; rfl
        | cons a l ih =>
          intro hl
          have ha := hl a (.head _)
          rw [List.find?_cons, List.find?_cons, put_bit_in _ _ _ _ _ (by omega) ha, ih (fun i hi => hl i (.tail _ hi))]
      exact this _ (fun i hi => List.mem_range.1 hi)
    rw [e]
    have : ∀ cs : Fin 4, ((List.range 4).find? fun i => !(~~~ (1#32 <<< cs.val)).getLsbD i) = some cs.val := by decide
    exact this ⟨s.cs, hc⟩
  · have i1 : r1.csr c = r.csr c := by
      unfold opt at h1
      by_cases c0 : s.bitrate = 0
      · rw [if_pos c0] at h1; cases h1; rfl
      · rw [if_neg c0] at h1; cases h1; exact upd_other _ _ _ _ ne
    have i2 : r2.csr c = r1.csr c := by
      unfold opt at h2
      by_cases c0 : s.clk = 0
      · rw [if_pos c0] at h2; cases h2; rfl
      · rw [if_neg c0] at h2
        unfold samClk at h2
        split at h2 <;> first | (cases h2; exact upd_other _ _ _ _ ne) | cases h2
    have i3 : r3.csr c = r2.csr c := by
      unfold opt at h3
      by_cases c0 : s.nbits = 0
      · rw [if_pos c0] at h3; cases h3; rfl
      · rw [if_neg c0] at h3
        unfold samBits at h3
        by_cases c1 : 8 ≤ s.nbits ∧ s.nbits ≤ 16
        · rw [if_pos c1] at h3; cases h3; exact upd_other _ _ _ _ ne
        · rw [if_neg c1] at h3; cases h3
    have i4 : r4.csr c = r3.csr c := by
      unfold opt at h4
      by_cases c0 : s.mode = 0
      · rw [if_pos c0] at h4; cases h4; rfl
      · rw [if_neg c0] at h4; cases h4; rfl
    show r4.csr c = r.csr c
    rw [i4, i3, i2, i1]

/-- it returns 0 for any rate, any mode, 8 to 16 bits, a chip select below 4 -/
theorem sam_accepts (f : Nat) (s : Settings) (r : Sam) (hs : InRange s) (hc : s.cs < 4) (hn : s.nbits = 0 ∨ 8 ≤ s.nbits ∧ s.nbits ≤ 16) : ∃ r', samSetup f s r = some r' := by
  unfold samSetup
  rw [if_pos hc]
  refine chain_accepts s (samRate s.cs f s.bitrate) (samClk s.cs s.clk) (samBits s.cs s.nbits) (samMode s.mode) id _ ?_ ?_ ?_ ?_ r
  · intro c r; exact ⟨_, rfl⟩
  · intro c r
    have : s.clk = 1 ∨ s.clk = 2 ∨ s.clk = 3 ∨ s.clk = 4 := by have := hs.2.1; omega
    rcases this with k | k | k | k <;> rw [k] <;> exact ⟨_, rfl⟩
  · intro c r
    rcases hn with c' | c'
    · exact absurd c' c
    · exact ⟨_, if_pos c'⟩
  · intro c r; exact ⟨_, rfl⟩

/-- a case: 150 MHz, 10 MHz then 6 MHz: the divider goes from 15 to 15 | 25 = 31, that is 4.8 MHz -/
example : ((samSetup 150000000 ⟨10000000, 1, 1, 16, 0, 1⟩ ⟨fun _ => 0, 0, 8⟩).map (samView 1) = some ⟨15, false, false, true, 16, true, 16⟩) ∧
    ((samSetup 150000000 ⟨10000000, 1, 1, 16, 0, 1⟩ ⟨fun _ => 0, 0, 8⟩).bind (samSetup 150000000 ⟨6000000, 0, 0, 0, 0, 1⟩)).map (samView 1) = some ⟨31, false, true, true, 8, true, 16⟩ := by decide +kernel

/-! ### atsamx7x_qspi -/

/-- SCK = f / (SCBR + 1): the divider is one more than the quotient -/
def QspiRate (f b d : Nat) : Prop := f < b * d ∧ b * (d - 1) ≤ f

theorem qspiRate_some (f b : Nat) (r r' : Qspi) (h : qspiRate f b r = some r') :
    qspiView r' = { qspiView r with div := (Field.get 8 8 r.scr ||| (BitVec.ofNat 32 (f / b) &&& mask 32 8)).toNat + 1, cpol := false, cpha := false } := by
  cases h
  obtain ⟨h1, h2⟩ := noTilde r.scr (BitVec.ofNat 32 (f / b))
  unfold qspiView
  dsimp only
  rw [h1, h2 0 (by decide), h2 1 (by decide)]

theorem qspi_rest (f : Nat) (s : Settings) (r r' : Qspi) (h : qspiSetup f s r = some r') : ∃ r1, opt s.bitrate (qspiRate f s.bitrate) r = some r1 ∧
    qspiView r' = { qspiView r1 with
      cpol := if s.clk = 0 then (qspiView r1).cpol else pol s.clk
      cpha := if s.clk = 0 then (qspiView r1).cpha else pha s.clk
      nbits := if s.nbits = 0 then (qspiView r1).nbits else s.nbits
      fn := if s.nbits = 0 then (qspiView r1).fn else s.nbits } := by
  unfold qspiSetup at h
  obtain ⟨r1, h1, h⟩ := Option.bind_eq_some_iff.1 h
  obtain ⟨r2, h2, h3⟩ := Option.bind_eq_some_iff.1 h
  have e2 := (opt_step qspiView (fun _ => True) _ _ (fun v => { v with cpol := pol s.clk, cpha := pha s.clk }) (fun r r' _ _ e => ⟨trivial, by
    obtain ⟨x, hx, rfl⟩ := Option.map_eq_some_iff.1 e
    obtain ⟨h1, h2, h3, h4⟩ := clk2_some _ _ _ _ _ hx (by decide) (by decide) (by decide)
    unfold qspiView
    simp (disch := decide) only [h1, h2, h4]⟩) _ _ trivial h2).2
  have e3 := (opt_step qspiView (fun _ => True) _ _ (fun v => { v with nbits := s.nbits, fn := s.nbits }) (fun r r' _ _ e => ⟨trivial, by
    unfold qspiBits at e
    by_cases c : 8 ≤ s.nbits ∧ s.nbits ≤ 16
    · rw [if_pos c] at e; cases e
      unfold qspiView; bits
      rw [get_put_nat _ _ _ _ (by decide) (by omega), Nat.sub_add_cancel c.1]
    · rw [if_neg c] at e; cases e⟩) _ _ trivial h3).2
  refine ⟨r1, h1, ?_⟩
  rw [e3, e2]
  by_cases c2 : s.clk = 0 <;> by_cases c3 : s.nbits = 0 <;> simp only [c2, c3, if_true, if_false]

/-- **C89, C90, atsamx7x_qspi**, when no rate is asked for, or the first time (divider field 0) and together with the clock mode, the divider fitting; as a master (it is always
one): everything as asked; SCK is just below the rate asked for, by one step of the divider at most -/
theorem qspi_setup_partial (f : Nat) (s : Settings) (r r' : Qspi) (hm : s.mode < 2)
    (hs : s.bitrate = 0 ∨ ((qspiView r).div = 1 ∧ s.clk ≠ 0 ∧ f / s.bitrate < 256)) (h : qspiSetup f s r = some r') :
    Asked (QspiRate f) s (qspiView r) (qspiView r') := by
  obtain ⟨r1, h1, e⟩ := qspi_rest f s r r' h
  unfold opt at h1
  have hmaster : true = if s.mode = 0 then true else s.mode == 1 := by
    have : s.mode = 0 ∨ s.mode = 1 := by omega
    rcases this with c | c <;> rw [c] <;> rfl
  by_cases c : s.bitrate = 0
  · rw [if_pos c] at h1
    cases h1
    rw [e]
    exact ⟨by rw [if_pos c], rfl, rfl, rfl, rfl, hmaster, rfl⟩
  · rw [if_neg c] at h1
    obtain ⟨d0, c2, q2⟩ := hs.resolve_left c
    have e1 := qspiRate_some _ _ _ _ h1
    have d0 : (Field.get 8 8 r.scr).toNat + 1 = 1 := d0
    have d0 : Field.get 8 8 r.scr = 0#32 := BitVec.eq_of_toNat_eq (by rw [BitVec.toNat_ofNat]; omega)
    rw [d0, BitVec.zero_or, and_mask _ _ _ (by decide) q2] at e1
    rw [e, e1]
    simp only [c2, if_false]
    refine ⟨?_, by rw [if_neg c2], by rw [if_neg c2], rfl, rfl, hmaster, rfl⟩
    rw [if_neg c]
    show f < s.bitrate * (f / s.bitrate + 1) ∧ s.bitrate * (f / s.bitrate + 1 - 1) ≤ f
    refine ⟨Nat.lt_mul_div_succ _ (by omega), ?_⟩
    rw [Nat.add_sub_cancel]
    exact Nat.mul_div_le _ _

/-- **C89, C90, atsamx7x_qspi, refuted**: as atsamx7x; slave mode is accepted, and the controller is a master -/
theorem qspi_rate_wrong (f : Nat) (s : Settings) (r r' : Qspi) (hb : s.bitrate ≠ 0) (h : qspiSetup f s r = some r') :
    (qspiView r').div = ((qspiView r).div - 1 ||| (f / s.bitrate % 256)) + 1 ∧ (s.clk = 0 → (qspiView r').cpol = false ∧ (qspiView r').cpha = false) ∧ (qspiView r').master = true := by
  obtain ⟨r1, h1, e⟩ := qspi_rest f s r r' h
  unfold opt at h1
  rw [if_neg hb] at h1
  have e1 := qspiRate_some _ _ _ _ h1
  rw [e, e1]
  refine ⟨?_, fun c => ?_, rfl⟩
  · show (Field.get 8 8 r.scr ||| (BitVec.ofNat 32 (f / s.bitrate) &&& mask 32 8)).toNat + 1 = ((Field.get 8 8 r.scr).toNat + 1 - 1 ||| (f / s.bitrate % 256)) + 1
    rw [BitVec.toNat_or, BitVec.toNat_and, mask, BitVec.toNat_ofNat, BitVec.toNat_ofNat, Nat.add_sub_cancel]
    congr 2
    rw [show (2 ^ 8 - 1) % 2 ^ 32 = 2 ^ 8 - 1 by decide, Nat.and_two_pow_sub_one_eq_mod]
    omega
  · simp only [c, if_true]; exact ⟨trivial, trivial⟩

/-- it returns 0 for any rate, any mode, 8 to 16 bits -/
theorem qspi_accepts (f : Nat) (s : Settings) (r : Qspi) (hs : InRange s) (hn : s.nbits = 0 ∨ 8 ≤ s.nbits ∧ s.nbits ≤ 16) : ∃ r', qspiSetup f s r = some r' := by
  obtain ⟨r1, e1⟩ := opt_accepts s.bitrate (qspiRate f s.bitrate) (fun _ r => ⟨_, rfl⟩) r
  obtain ⟨r2, e2⟩ := opt_accepts s.clk (qspiClk s.clk) (fun c r => by
    obtain ⟨x, hx⟩ := clk2_accepts 0 1 s.clk r.scr ⟨by omega, by have := hs.2.1; omega⟩
    exact ⟨_, by unfold qspiClk; rw [hx]; rfl⟩) r1
  obtain ⟨r3, e3⟩ := opt_accepts s.nbits (qspiBits s.nbits) (fun c r => by
    rcases hn with c' | c'
    · exact absurd c' c
    · exact ⟨_, if_pos c'⟩) r2
  exact ⟨r3, by unfold qspiSetup; rw [e1, Option.bind_some, e2, Option.bind_some, e3]⟩

example : (qspiSetup 150000000 ⟨10000000, 1, 4, 16, 0, 0⟩ ⟨0, 0, 8⟩).map qspiView = some ⟨16, true, true, true, 16, true, 16⟩ := by decide +kernel

/-! ### ti_f28x -/

/-- the lines, the phase being the opposite -/
def tiInv (r : Ti) : View := { tiView r with cpha := r.ctl.getLsbD 3 }

theorem ti_inv (f : Nat) (s : Settings) (r r' : Ti) (hm : s.mode = 0 ↔ s.clk = 0) (hb : s.bitrate = 0 ∨ 4 ≤ f / s.bitrate ∧ f / s.bitrate ≤ 128)
    (h : tiSetup f s r = some r') : Asked (Slowest (fun d => 4 ≤ d ∧ d ≤ 128) f) s (tiInv r) (tiInv r') := by
  have hopt : opt s.mode (tiClk s.clk) = opt s.clk (tiClk s.clk) := by
    funext r
    unfold opt
    by_cases c : s.mode = 0
    · rw [if_pos c, if_pos (hm.1 c)]
    · rw [if_neg c, if_neg (fun x => c (hm.2 x))]
  unfold tiSetup at h
  rw [hopt] at h
  refine chainRMCB tiInv _ (fun _ => True) s (tiRate f s.bitrate) (tiClk s.clk) (tiBits s.nbits) (tiMode s.mode) (fun r => { r with ccr := bclr 7 r.ccr })
    (fun r => { r with ccr := bset 7 r.ccr }) ?_ ?_ ?_ ?_ ?_ ?_ r r' trivial h
  · intro r _; exact ⟨trivial, false, by unfold tiInv tiView; bits⟩
  · intro r _; unfold tiInv tiView; bits
  · intro r r' _ c e
    cases e
    rcases hb with hb | hb
    · exact absurd hb c
    refine ⟨trivial, ?_, rfl⟩
    have e : (Field.get 7 0 ((BitVec.ofNat 16 (f / s.bitrate) - 1#16) &&& mask 16 7)).toNat = f / s.bitrate - 1 := by
      have : ∀ x : Fin 129, 4 ≤ x.val → (Field.get 7 0 ((BitVec.ofNat 16 x.val - 1#16) &&& mask 16 7)).toNat = x.val - 1 := by decide +kernel
      exact this ⟨f / s.bitrate, by omega⟩ hb.1
    unfold tiInv tiView
    dsimp only
    rw [e, if_neg (by omega), Nat.sub_add_cancel (by omega)]
    exact slowest_quot _ _ _ (by omega) hb
  · intro r r' _ c e
    refine ⟨trivial, ?_⟩
    unfold tiClk at e
    split at e
    · next k => cases e; rw [k]; unfold tiInv tiView; bits; rfl
    · next k => cases e; rw [k]; unfold tiInv tiView; bits; rfl
    · next k => cases e; rw [k]; unfold tiInv tiView; bits; rfl
    · next k => cases e; rw [k]; unfold tiInv tiView; bits; rfl
    · cases e
  · intro r r' _ c e
    refine ⟨trivial, ?_⟩
    unfold tiBits at e
    by_cases c16 : s.nbits ≤ 16
    · rw [if_pos c16] at e; cases e
      unfold tiInv tiView; bits
      rw [get_put_nat _ _ _ _ (by decide) (by omega), Nat.sub_add_cancel (by omega)]
    · rw [if_neg c16] at e; cases e
  · intro r r' _ c e
    refine ⟨trivial, ?_⟩
    cases e
    by_cases c : s.mode = 1
    · rw [c, if_pos rfl]; unfold tiInv tiView; bits; rfl
    · rw [if_neg c]; unfold tiInv tiView; bits; simp [c]

/-- **C89, C90, ti_f28x**, when neither the role nor the clock mode is asked for and the divider is from 4 to 128: everything as asked; SCK is the slowest rate available not
below the one asked -/
theorem ti_setup_partial (f : Nat) (s : Settings) (r r' : Ti) (hm : s.mode = 0) (hc : s.clk = 0) (hb : s.bitrate = 0 ∨ 4 ≤ f / s.bitrate ∧ f / s.bitrate ≤ 128)
    (h : tiSetup f s r = some r') : Asked (Slowest (fun d => 4 ≤ d ∧ d ≤ 128) f) s (tiView r) (tiView r') := by
  obtain ⟨a1, a2, a3, a4, a5, a6, a7⟩ := ti_inv f s r r' ⟨fun _ => hc, fun _ => hm⟩ hb h
  refine ⟨a1, a2, ?_, a4, a5, a6, a7⟩
  rw [if_pos hc] at a3 ⊢
  show (!r'.ctl.getLsbD 3) = !r.ctl.getLsbD 3
  exact congrArg not a3

/-- **C90, ti_f28x**: asked for together, the role is as asked, and so is the polarity; **refuted**: the phase is the opposite -/
theorem ti_clk_wrong (f : Nat) (s : Settings) (r r' : Ti) (hm : s.mode ≠ 0) (hc : s.clk ≠ 0) (hb : s.bitrate = 0 ∨ 4 ≤ f / s.bitrate ∧ f / s.bitrate ≤ 128)
    (h : tiSetup f s r = some r') : (tiView r').master = (s.mode == 1) ∧ (tiView r').cpol = pol s.clk ∧ (tiView r').cpha = !pha s.clk := by
  obtain ⟨a1, a2, a3, a4, a5, a6, a7⟩ := ti_inv f s r r' ⟨fun x => absurd x hm, fun x => absurd x hc⟩ hb h
  rw [if_neg hc] at a2 a3
  rw [if_neg hm] at a6
  exact ⟨a6, a2, congrArg not a3⟩

/-- **C90, ti_f28x, refuted**: a role cannot be asked for alone: it is an error -/
theorem ti_mode_alone (f : Nat) (s : Settings) (r : Ti) (hm : s.mode ≠ 0) (hc : s.clk = 0) : tiSetup f s r = none := by
  unfold tiSetup
  cases h1 : opt s.bitrate (tiRate f s.bitrate) { r with ccr := bclr 7 r.ccr } with
  | none => rfl
  | some r1 =>
    rw [Option.bind_some]
    cases h2 : opt s.mode (tiMode s.mode) r1 with
    | none => rfl
    | some r2 =>
      rw [Option.bind_some]
      unfold opt
      rw [if_neg hm, hc]
      rfl

/-- **C90, ti_f28x, refuted**: a clock mode asked for alone is ignored, 0 is returned -/
theorem ti_clk_alone (f : Nat) (k : Nat) (r : Ti) : ∃ r', tiSetup f ⟨0, 0, k, 0, 0, 0⟩ r = some r' ∧ (tiView r').cpol = (tiView r).cpol ∧ (tiView r').cpha = (tiView r).cpha := by
  refine ⟨_, rfl, ?_, rfl⟩
  unfold tiView; bits

/-- **C89, ti_f28x, refuted**: the dividers outside 4 .. 128 -/
theorem ti_rate_wrong (f b : Nat) (r r' : Ti) (h : tiRate f b r = some r') :
    (f / b = 0 → (tiView r').div = 128) ∧ (1 ≤ f / b ∧ f / b < 4 → (tiView r').div = 4) ∧ (f / b = 129 → (tiView r').div = 4) := by
  cases h
  have e : ∀ x : Fin 130, (x.val = 0 → (Field.get 7 0 ((BitVec.ofNat 16 x.val - 1#16) &&& mask 16 7)).toNat = 127) ∧
      (1 ≤ x.val ∧ x.val < 4 → (Field.get 7 0 ((BitVec.ofNat 16 x.val - 1#16) &&& mask 16 7)).toNat ≤ 2) ∧
      (x.val = 129 → (Field.get 7 0 ((BitVec.ofNat 16 x.val - 1#16) &&& mask 16 7)).toNat = 0) := by decide +kernel
  unfold tiView
  dsimp only
  refine ⟨fun c => ?_, fun c => ?_, fun c => ?_⟩
  · have := (e ⟨f / b, by omega⟩).1 c
    dsimp only at this
    rw [this]; rfl
  · have := (e ⟨f / b, by omega⟩).2.1 c
    dsimp only at this
    rw [if_pos this]
  · have := (e ⟨f / b, by omega⟩).2.2 c
    dsimp only at this
    rw [this]; rfl

example : (tiSetup 50000000 ⟨1000000, 1, 1, 16, 0, 0⟩ ⟨0, 0, 0, 8, 8⟩).map tiView = some ⟨50, false, true, true, 16, true, 16⟩ := by decide +kernel

end Pico.SpiSetup
