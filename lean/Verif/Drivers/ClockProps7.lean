import Verif.Drivers.ClockProps6
/-
Clocks (C95, C96): same5x where it is wrong, its gates; pic32mx.
-/
namespace Pico.Clock
open Field

namespace S5

theorem real_gen (s : St) (i k d : Nat) (f : Hz) (hk : (get 4 0 (s.gen i)).toNat = k) (hd : divOf i (s.gen i) = d) (h : Real s (.src k) f) : Real s (.gen i) (f.1, f.2 * d) := by
  subst hk; subst hd; exact .gen i f h

theorem real_ch (s : St) (c g : Nat) (f : Hz) (hg : (get 4 0 (s.pch c)).toNat = g) (h : Real s (.gen g) f) : Real s (.ch c) f := by
  subst hg; exact .ch c f h

theorem real_dpll (s : St) (i m n : Nat) (f : Hz) (h0 : (get 3 5 (s.ctrlb i)).toNat = 0) (hm : (get 13 0 (s.ratio i)).toNat = m) (hn : (get 5 16 (s.ratio i)).toNat = n) (h : Real s (.ch (1 + i)) f) :
    Real s (.dpll i) (f.1 * ((m + 1) * 32 + n), f.2 * 32) := by
  subst hm; subst hn; exact .dpll i f h0 h

/-- the state a sequence of calls ends in -/
def after (os : List Op) : St := match run os reset with | .ok s => s | _ => reset

def inexact : List Op := [.gen 2 4 1, .ch 1 2, .dpll 0 0 100000000 true, .gen 0 7 1, .ch 40 0]

/-- a DPLL whose ratio is not a multiple of 1/32 runs slower than what is told: 100 MHz told from 32768 Hz, 3051 + 24/32 in the registers, which is 99999744 Hz -/
theorem dpll_wrong : run inexact reset = .ok (after inexact) ∧ getFreq (after inexact) 40 = some 100000000 ∧ ∀ f, Real (after inexact) (.ch 40) f → f.1 / f.2 = 99999744 := by
  refine ⟨rfl, by decide, fun f hf => ?_⟩
  have r : Real (after inexact) (.ch 40) _ :=
    real_ch _ 40 0 _ (by decide) (real_gen _ 0 7 1 _ (by decide) (by decide) (.fdpll 7 _ (Or.inl rfl) (real_dpll _ 0 3050 24 _ (by decide) (by decide) (by decide)
      (real_ch _ 1 2 _ (by decide) (real_gen _ 2 4 1 _ (by decide) (by decide) (.slow 4 (Or.inl rfl)))))))
  rw [real_det _ _ _ _ hf r]
  decide

def large : List Op := [.gen 2 6 256, .ch 7 2]

/-- a divider of more than 255 does not fit the generators but the first: 48 MHz / 256 is told, 48 MHz come out -/
theorem div_wrong : run large reset = .ok (after large) ∧ getFreq (after large) 7 = some 187500 ∧ ∀ f, Real (after large) (.ch 7) f → f = (48000000, 1) := by
  refine ⟨rfl, by decide, fun f hf => ?_⟩
  have r : Real (after large) (.ch 7) _ := real_ch _ 7 2 _ (by decide) (real_gen _ 2 6 1 _ (by decide) (by decide) .dfll)
  rw [real_det _ _ _ _ hf r]
  decide

/-- a channel set up before its generator is set up again keeps the old frequency -/
theorem stale (s s1 s2 : St) (c g src div : Nat) (h1 : step (.ch c g) s = .ok s1) (h2 : step (.gen g src div) s1 = .ok s2) : getFreq s2 c = some (s.rgen g) ∧ (get 4 0 (s2.pch c)).toNat = g := by
  simp only [step] at h1
  by_cases hb : 48 ≤ c ∨ 12 ≤ g
  · rw [if_pos hb] at h1; cases h1
  rw [if_neg hb] at h1
  have h1 := ok_inj h1
  have a1 : s1.rpch = Rp.set s.rpch c (s.rgen g) := by rw [← h1]
  have a2 : s1.pch = Rp.set s.pch c (put 4 0 (BitVec.ofNat 32 g) (s.pch c)) := by rw [← h1]
  have h2 : genSetup g src div s1 = .ok s2 := h2
  unfold genSetup at h2
  by_cases hb2 : 12 ≤ g ∨ 9 ≤ src ∨ 65536 ≤ div
  · rw [if_pos hb2] at h2; cases h2
  rw [if_neg hb2] at h2
  cases hr : srcRec s1 src with
  | none => rw [hr] at h2; cases h2
  | some f =>
    rw [hr] at h2
    have h2 : (if div = 0 then Res.undef else .ok { s1 with gen := Rp.set s1.gen g (genReg src div (s1.gen g)), rgen := Rp.set s1.rgen g (f / div) }) = .ok s2 := h2
    by_cases h0 : div = 0
    · rw [if_pos h0] at h2; cases h2
    rw [if_neg h0] at h2
    have h2 := ok_inj h2
    have b1 : s2.rpch = s1.rpch := by rw [← h2]
    have b2 : s2.pch = s1.pch := by rw [← h2]
    rw [getFreq, if_pos (by omega), b1, b2, a1, a2, Rp.set_same, Rp.set_same, get_put_same _ _ _ _ (by decide)]
    exact ⟨rfl, and_mask 32 4 g (by decide) (by omega)⟩

/-- the reference of a DPLL is not looked at: told from the channel, whatever it is -/
theorem ref_ignored (s : St) (i r r' freq : Nat) (hr : r < 4) (hr' : r' < 4) :
    (∃ s1 s2, dpllSetup i r freq true s = .ok s1 ∧ dpllSetup i r' freq true s = .ok s2 ∧ s1.ratio = s2.ratio ∧ s1.rdpll = s2.rdpll) ∨
    (dpllSetup i r freq true s = .fail ∧ dpllSetup i r' freq true s = .fail) := by
  unfold dpllSetup
  by_cases hi : 2 ≤ i
  · exact Or.inr ⟨if_pos (Or.inl hi), if_pos (Or.inl hi)⟩
  rw [if_neg (show ¬ (2 ≤ i ∨ 4 ≤ r) by omega), if_neg (show ¬ (2 ≤ i ∨ 4 ≤ r') by omega)]
  by_cases h0 : s.rpch (1 + i) = 0
  · exact Or.inr ⟨if_pos h0, if_pos h0⟩
  · exact Or.inl ⟨_, _, (if_neg h0).trans (if_neg Bool.noConfusion), (if_neg h0).trans (if_neg Bool.noConfusion), rfl, rfl⟩

/-- a divider of 0 is not refused -/
theorem div_zero (i src : Nat) (s : St) (h : i < 12) (f : Nat) (hs : src < 9) (hf : srcRec s src = some f) : genSetup i src 0 s = .undef := by
  unfold genSetup
  rw [if_neg (by omega), hf]
  rfl

theorem enable_does (k : Nat) (s s' : St) (h : enable k s = some s') : ∀ j, on s' j = (decide (j = k) || on s j) := by
  unfold enable at h
  by_cases h0 : 0x8c ≤ k
  · rw [if_pos h0] at h; cases h
  rw [if_neg h0, Option.some.injEq] at h
  intro j
  have a : s'.mclk = gset s.mclk k := by rw [← h]
  rw [on, a, gset_bit]; rfl

theorem disable_does (k : Nat) (s s' : St) (h : disable k s = some s') : ∀ j, on s' j = (!decide (j = k) && on s j) := by
  unfold disable at h
  by_cases h0 : 0x8c ≤ k
  · rw [if_pos h0] at h; cases h
  rw [if_neg h0, Option.some.injEq] at h
  intro j
  have a : s'.mclk = gclr s.mclk k := by rw [← h]
  rw [on, a, gclr_bit]; rfl

theorem gates_accepted (k : Nat) (h : k < 0x8c) (s : St) : (∃ s', enable k s = some s') ∧ ∃ s', disable k s = some s' :=
  ⟨⟨_, if_neg (Nat.not_le.mpr h)⟩, ⟨_, if_neg (Nat.not_le.mpr h)⟩⟩

/-- the gate of a channel: CHEN; the other channels and the generator chosen are as before -/
theorem channel_does (c : Nat) (s s' : St) (h : step (.chEnable c) s = .ok s') : (s'.pch c).getLsbD 6 = true ∧ (∀ k, k ≠ c → s'.pch k = s.pch k) ∧ get 4 0 (s'.pch c) = get 4 0 (s.pch c) := by
  simp only [step] at h
  by_cases hb : 48 ≤ c
  · rw [if_pos hb] at h; cases h
  rw [if_neg hb] at h
  have a : s'.pch = Rp.set s.pch c (bset 6 (s.pch c)) := by rw [← ok_inj h]
  rw [a]
  refine ⟨?_, fun k hk => Rp.set_ne _ _ _ _ hk, ?_⟩
  · rw [Rp.set_same]; exact bset_same _ _ (by decide)
  · rw [Rp.set_same]; exact get_bset_other _ _ _ _ (by decide)

theorem channel_stops (c : Nat) (s s' : St) (h : step (.chDisable c) s = .ok s') : (s'.pch c).getLsbD 6 = false ∧ (∀ k, k ≠ c → s'.pch k = s.pch k) ∧ get 4 0 (s'.pch c) = get 4 0 (s.pch c) := by
  simp only [step] at h
  by_cases hb : 48 ≤ c
  · rw [if_pos hb] at h; cases h
  rw [if_neg hb] at h
  have a : s'.pch = Rp.set s.pch c (bclr 6 (s.pch c)) := by rw [← ok_inj h]
  rw [a]
  refine ⟨?_, fun k hk => Rp.set_ne _ _ _ _ hk, ?_⟩
  · rw [Rp.set_same]; exact bclr_same _ _
  · rw [Rp.set_same]; exact get_bclr_other _ _ _ _ (by decide)

end S5

namespace Pic

theorem mem_cands (c : Nat × Nat × Nat) (h : c ∈ cands) : 1 ≤ c.1 ∧ c.1 ≤ 5 ∧ 1 ≤ c.2.1 ∧ c.2.1 ≤ 128 ∧ 1 ≤ c.2.2 ∧ c.2.2 ≤ 8 := by
  unfold cands at h
  simp only [List.mem_flatMap, List.mem_map, List.mem_range] at h
  obtain ⟨o, ho, m, hm, i, hi, e⟩ := h
  subst e
  refine ⟨?_, ?_, ?_, ?_, ?_, ?_⟩ <;> dsimp only <;> omega

theorem pllReg_fields (c : Nat × Nat × Nat) (r : BitVec 32) (h : c ∈ cands) :
    (get 3 24 (pllReg c r)).toNat = c.1 ∧ (get 7 16 (pllReg c r)).toNat + 1 = c.2.1 ∧ (get 3 8 (pllReg c r)).toNat + 1 = c.2.2 ∧ (pllReg c r).getLsbD 7 = r.getLsbD 7 := by
  obtain ⟨h1, h2, h3, h4, h5, h6⟩ := mem_cands c h
  unfold pllReg
  refine ⟨?_, ?_, ?_, ?_⟩
  · rw [get_orIn_other _ _ _ _ _ _ (by decide), get_orIn_other _ _ _ _ _ _ (by decide), get_orIn_zero _ _ _ _ (by decide) (by omega)]
    rw [get_clear_other _ _ _ _ _ (by decide), get_clear_other _ _ _ _ _ (by decide), get_clear_same]
  · rw [get_orIn_other _ _ _ _ _ _ (by decide), get_orIn_zero _ _ _ _ (by decide) (by omega)]
    · omega
    · rw [get_orIn_other _ _ _ _ _ _ (by decide), get_clear_other _ _ _ _ _ (by decide), get_clear_same]
  · rw [get_orIn_zero _ _ _ _ (by decide) (by omega)]
    · omega
    · rw [get_orIn_other _ _ _ _ _ _ (by decide), get_orIn_other _ _ _ _ _ _ (by decide), get_clear_same]
  · rw [orIn_bit _ _ _ _ _ (by decide), orIn_bit _ _ _ _ _ (by decide), orIn_bit _ _ _ _ _ (by decide), clear_bit, clear_bit, clear_bit]
    simp

theorem input_step (k : Nat) (s s' : St) (h : input k s = some s') :
    (s'.plliclk = if s'.spll.getLsbD 7 then 8000000 else s.posc) ∧ s'.posc = s.posc ∧ s'.cosc = s.cosc ∧ s'.nosc = s.nosc ∧ s'.oswen = s.oswen ∧ s'.pb = s.pb := by
  unfold input at h
  by_cases h2 : 2 ≤ k
  · rw [if_pos h2] at h; cases h
  rw [if_neg h2] at h
  by_cases h1 : k = 1
  · have h : some { s with spll := orIn 3 0 1#32 (bset 7 (clear 3 0 (bclr 7 s.spll))), plliclk := 8000000 } = some s' := by rw [← h]; exact (if_pos h1).symm
    rw [Option.some.injEq] at h
    have a1 : s'.spll = orIn 3 0 1#32 (bset 7 (clear 3 0 (bclr 7 s.spll))) := by rw [← h]
    have a2 : s'.plliclk = 8000000 := by rw [← h]
    refine ⟨?_, by rw [← h], by rw [← h], by rw [← h], by rw [← h], by rw [← h]⟩
    have : s'.spll.getLsbD 7 = true := by
      rw [a1, orIn_bit _ _ _ _ _ (by decide), bset_same _ _ (by decide)]; rfl
    rw [this, a2]; rfl
  · have h : (range s.posc).map (fun g => { s with spll := orIn 3 0 (BitVec.ofNat 32 g) (clear 3 0 (bclr 7 s.spll)), plliclk := s.posc }) = some s' := by rw [← h]; exact (if_neg h1).symm
    obtain ⟨g, _, h⟩ := map_some h
    have a1 : s'.spll = orIn 3 0 (BitVec.ofNat 32 g) (clear 3 0 (bclr 7 s.spll)) := by rw [← h]
    have a2 : s'.plliclk = s.posc := by rw [← h]
    refine ⟨?_, by rw [← h], by rw [← h], by rw [← h], by rw [← h], by rw [← h]⟩
    have : s'.spll.getLsbD 7 = false := by
      rw [a1, orIn_bit _ _ _ _ _ (by decide), clear_bit, bclr_same]; rfl
    rw [this, a2]; rfl

/-- the PLL gives what was asked when the input frequency f does not overflow (below 33 MHz) and is a multiple of every input divider that can be found -/
theorem pll_step (k freq : Nat) (s s' : St) (h : pll k freq s = some s') (f : Nat) (hf : f = if k = 1 then 8000000 else s.posc) (hlt : f < 2 ^ 25)
    (hd : ∀ o m i, 1 ≤ i → i ≤ 8 → 1 ≤ m → m ≤ 128 → 1 ≤ o → o ≤ 5 → f / i * m / 2 ^ o = freq → i ∣ f) :
    Tells (some freq) (pllHz s.posc s') ∧ s'.pllclk = freq ∧ s'.posc = s.posc ∧ s'.cosc = s.cosc ∧ s'.nosc = s.nosc ∧ s'.oswen = s.oswen ∧ s'.pb = s.pb := by
  unfold pll at h
  obtain ⟨s1, e1, h⟩ := bind_some h
  obtain ⟨c, ec, h⟩ := map_some h
  have hc := List.mem_of_find?_eq_some ec
  have he := List.find?_some ec
  simp only [decide_eq_true_eq] at he
  obtain ⟨i1, i2, i3, i4, i5, i6⟩ := input_step k s s1 e1
  obtain ⟨c1, c2, c3, c4, c5, c6⟩ := mem_cands c hc
  obtain ⟨p1, p2, p3, p4⟩ := pllReg_fields c s1.spll hc
  have a1 : s'.spll = pllReg c s1.spll := by rw [← h]
  refine ⟨?_, by rw [← h], by rw [← h]; exact i2, by rw [← h]; exact i3, by rw [← h]; exact i4, by rw [← h]; exact i5, by rw [← h]; exact i6⟩
  -- which input
  have hk : s1.plliclk = f := by
    unfold input at e1
    by_cases h2 : 2 ≤ k
    · rw [if_pos h2] at e1; cases e1
    rw [if_neg h2] at e1
    by_cases h1 : k = 1
    · rw [hf, if_pos h1]
      have e1 : some { s with spll := orIn 3 0 1#32 (bset 7 (clear 3 0 (bclr 7 s.spll))), plliclk := 8000000 } = some s1 := by rw [← e1]; exact (if_pos h1).symm
      rw [Option.some.injEq] at e1
      rw [← e1]
    · rw [hf, if_neg h1]
      have e1 : (range s.posc).map (fun g => { s with spll := orIn 3 0 (BitVec.ofNat 32 g) (clear 3 0 (bclr 7 s.spll)), plliclk := s.posc }) = some s1 := by rw [← e1]; exact (if_neg h1).symm
      obtain ⟨g, _, e1⟩ := map_some e1
      rw [← e1]
  have hin : (if s'.spll.getLsbD 7 then 8000000 else s.posc) = f := by rw [a1, p4, ← i1, hk]
  rw [hk] at he
  have hov : f / c.2.2 * c.2.1 < 2 ^ 32 := by
    calc f / c.2.2 * c.2.1 ≤ f * 128 := Nat.mul_le_mul (Nat.div_le_self _ _) c4
      _ < 2 ^ 32 := by omega
  rw [Nat.mod_eq_of_lt hov] at he
  have hdv := hd c.1 c.2.1 c.2.2 c5 c6 c3 c4 c1 c2 he
  unfold pllHz
  rw [a1] at hin ⊢
  simp only [p1, p2, p3, hin]
  rw [if_neg (by omega)]
  refine ⟨_, _, rfl, Nat.mul_pos (by omega) (Nat.two_pow_pos _), ?_⟩
  rw [← he]
  congr 1
  rw [← Nat.div_div_eq_div_mul]
  congr 1
  obtain ⟨q, hq⟩ := hdv
  rw [hq, Nat.mul_div_cancel_left _ (by omega), Nat.mul_assoc, Nat.mul_div_cancel_left _ (by omega)]

end Pic
end Pico.Clock
