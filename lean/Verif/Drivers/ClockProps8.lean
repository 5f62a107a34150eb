import Verif.Drivers.ClockProps7
/-
Clocks (C95, C96): pic32mx.
-/
namespace Pico.Clock
open Field
namespace Pic

/-- what an initialisation that returned 0 leaves -/
theorem init_zero (c : Cfg) (e : Bool) (s s' : St) (h : init c e s = (s', 0)) :
    e = false ∧ c.osc < 8 ∧ c.osc ≠ 3 ∧ ∃ s1, pll c.plliclk c.pllo { s with posc := c.posc } = some s1 ∧ s' = { s1 with nosc := c.osc, oswen := true, sys := oscRec c.osc s1 } := by
  unfold init at h
  cases hp : pll c.plliclk c.pllo { s with posc := c.posc } with
  | none => rw [hp] at h; cases (Prod.mk.inj h).2
  | some s1 =>
    rw [hp] at h
    have h : switch c.osc e s1 = (s', 0) := h
    unfold switch at h
    by_cases hb : 8 ≤ c.osc ∨ c.osc = 3
    · rw [if_pos hb] at h; cases (Prod.mk.inj h).2
    rw [if_neg hb] at h
    cases e with
    | true => cases (Prod.mk.inj h).2
    | false => exact ⟨rfl, by omega, by omega, s1, rfl, (Prod.mk.inj h).1.symm⟩

theorem input_posc (k : Nat) (s s' : St) (h : input k s = some s') : s'.posc = s.posc := (input_step k s s' h).2.1

theorem pll_posc (k f : Nat) (s s' : St) (h : pll k f s = some s') : s'.posc = s.posc ∧ s'.cosc = s.cosc ∧ s'.pbclk = s.pbclk ∧ s'.pb = s.pb := by
  unfold pll at h
  obtain ⟨s1, e1, h⟩ := bind_some h
  obtain ⟨c, ec, h⟩ := map_some h
  obtain ⟨-, i2, i3, i4, i5, i6⟩ := input_step k s s1 e1
  have i7 : s1.pbclk = s.pbclk := by
    unfold input at e1
    by_cases h2 : 2 ≤ k
    · rw [if_pos h2] at e1; cases e1
    rw [if_neg h2] at e1
    by_cases h1 : k = 1
    · have e1 : some { s with spll := orIn 3 0 1#32 (bset 7 (clear 3 0 (bclr 7 s.spll))), plliclk := 8000000 } = some s1 := by rw [← e1]; exact (if_pos h1).symm
      rw [Option.some.injEq] at e1
      rw [← e1]
    · have e1 : (range s.posc).map (fun g => { s with spll := orIn 3 0 (BitVec.ofNat 32 g) (clear 3 0 (bclr 7 s.spll)), plliclk := s.posc }) = some s1 := by rw [← e1]; exact (if_neg h1).symm
      obtain ⟨g, _, e1⟩ := map_some e1
      rw [← e1]
  refine ⟨?_, ?_, ?_, ?_⟩ <;> rw [← h] <;> assumption

/-- the conditions under which the search of the PLL finds factors that make what was asked: no overflow (input under 33 MHz), and an input divider that divides -/
def Exact (c : Cfg) : Prop :=
  (if c.plliclk = 1 then 8000000 else c.posc) < 2 ^ 25 ∧
  ∀ o m i, 1 ≤ i → i ≤ 8 → 1 ≤ m → m ≤ 128 → 1 ≤ o → o ≤ 5 → (if c.plliclk = 1 then 8000000 else c.posc) / i * m / 2 ^ o = c.pllo → i ∣ (if c.plliclk = 1 then 8000000 else c.posc)

/-- After clock_pic32mx_init returned 0 and once the hardware has made the switch, clock_get_freq tells the system clock; the PLL under the conditions above. -/
theorem freq_partial (c : Cfg) (e : Bool) (s s' : St) (h : init c e s = (s', 0)) (hx : c.osc = 1 → Exact c) :
    Tells (getFreq (settle s') 0) (hw c.posc (settle s') 0) ∧ Tells (getFreq (settle s') 2) (hw c.posc (settle s') 2) ∧ Tells (getFreq (settle s') 3) (hw c.posc (settle s') 3) := by
  obtain ⟨-, h8, h3, s1, hp, e1⟩ := init_zero c e s s' h
  refine ⟨?_, tells_self _, tells_self _⟩
  have est : settle s' = { s1 with nosc := c.osc, oswen := false, sys := oscRec c.osc s1, cosc := c.osc } := by rw [e1]; rfl
  have a1 : getFreq (settle s') 0 = some (oscRec c.osc s1) := by rw [est]; rfl
  have a2 : hw c.posc (settle s') 0 = sysHz c.posc { s1 with cosc := c.osc } := by rw [est]; rfl
  rw [a1, a2]
  obtain ⟨p1, -⟩ := pll_posc _ _ _ _ hp
  obtain ⟨q, hq⟩ : ∃ q, q = c.osc := ⟨_, rfl⟩
  rw [← hq] at h8 h3 hx ⊢
  have hc : q = 0 ∨ q = 1 ∨ q = 2 ∨ q = 4 ∨ q = 5 ∨ q = 6 ∨ q = 7 := by omega
  rcases hc with rfl | rfl | rfl | rfl | rfl | rfl | rfl
  · exact tells_self _
  · obtain ⟨t, t1, -⟩ := pll_step _ _ _ _ hp _ rfl (hx rfl).1 (hx rfl).2
    show Tells (some s1.pllclk) _
    rw [t1]; exact t
  · show Tells (some s1.posc) _
    rw [p1]; exact tells_self _
  · exact tells_self _
  · exact tells_self _
  · exact tells_self _
  · exact tells_self _

def reset : St := ⟨0#32, 0, 0, false, fun _ => 0#32, 0, 0, 0, 0, fun _ => 0⟩

/-- 120 MHz from a quartz of 24 MHz -/
def usual : Cfg := ⟨24000000, 0, 120000000, 1⟩

theorem usual_exact : Exact usual := by
  refine ⟨by decide, ?_⟩
  show ∀ o m i, 1 ≤ i → i ≤ 8 → 1 ≤ m → m ≤ 128 → 1 ≤ o → o ≤ 5 → 24000000 / i * m / 2 ^ o = 120000000 → i ∣ 24000000
  intro o m i i1 i2 m1 m2 o1 o2 h
  have hc : i = 1 ∨ i = 2 ∨ i = 3 ∨ i = 4 ∨ i = 5 ∨ i = 6 ∨ i = 7 ∨ i = 8 := by omega
  rcases hc with rfl | rfl | rfl | rfl | rfl | rfl | rfl | rfl
  · decide
  · decide
  · decide
  · decide
  · decide
  · decide
  · exfalso
    have ho : o = 1 ∨ o = 2 ∨ o = 3 ∨ o = 4 ∨ o = 5 := by omega
    rcases ho with rfl | rfl | rfl | rfl | rfl <;> omega
  · decide

/-- factors that fit are found -/
theorem pll_finds (k freq : Nat) (s s1 : St) (c : Nat × Nat × Nat) (e : input k s = some s1) (hc : c ∈ cands) (h : s1.plliclk / c.2.2 * c.2.1 % 2 ^ 32 / 2 ^ c.1 = freq) : ∃ s2, pll k freq s = some s2 := by
  unfold pll
  rw [e]
  have hs : (cands.find? fun c => decide (s1.plliclk / c.2.2 * c.2.1 % 2 ^ 32 / 2 ^ c.1 = freq)).isSome := by
    rw [List.find?_isSome]
    exact ⟨c, hc, by rw [h]; exact decide_eq_true rfl⟩
  obtain ⟨c, hc⟩ := Option.isSome_iff_exists.mp hs
  refine ⟨{ s1 with spll := pllReg c s1.spll, pllclk := freq }, ?_⟩
  rw [Option.bind_some, hc]; rfl

theorem in_cands (o m i : Nat) (h1 : o < 5) (h2 : m < 128) (h3 : i < 8) : (o + 1, m + 1, i + 1) ∈ cands := by
  unfold cands
  simp only [List.mem_flatMap, List.mem_map, List.mem_range]
  exact ⟨o, h1, m, h2, i, h3, rfl⟩

theorem init_of_pll (c : Cfg) (s s1 : St) (h : c.osc < 8) (h3 : c.osc ≠ 3) (hp : pll c.plliclk c.pllo { s with posc := c.posc } = some s1) : ∃ s', init c false s = (s', 0) := by
  refine ⟨{ s1 with nosc := c.osc, oswen := true, sys := oscRec c.osc s1 }, ?_⟩
  unfold init; rw [hp]
  show switch c.osc false s1 = _
  unfold switch
  rw [if_neg (show ¬ (8 ≤ c.osc ∨ c.osc = 3) by omega)]
  rfl

theorem usual_found : ∃ s', init usual false reset = (s', 0) := by
  obtain ⟨s1, h⟩ := pll_finds 0 120000000 { reset with posc := 24000000 } _ (1, 10, 1) rfl (in_cands 0 9 0 (by decide) (by decide) (by decide)) rfl
  exact init_of_pll usual reset s1 (by decide) (by decide) h

/-- the case is met: 120 MHz told, 120 MHz made -/
theorem sample : ∃ s', init usual false reset = (s', 0) ∧ getFreq (settle s') 0 = some 120000000 := by
  obtain ⟨s', h⟩ := usual_found
  refine ⟨s', h, ?_⟩
  obtain ⟨-, -, -, s1, hp, e1⟩ := init_zero _ _ _ _ h
  obtain ⟨-, t1, -⟩ := pll_step _ _ _ _ hp 24000000 rfl (by decide) usual_exact.2
  have : getFreq (settle s') 0 = some s1.pllclk := by rw [e1]; rfl
  rw [this, t1]; rfl

/-- 0 is returned before the switch is made: the wait is for OSWEN to be set, which it is; the clock told is not the one that runs yet -/
theorem pending (c : Cfg) (s s' : St) (h : init c false s = (s', 0)) : s'.oswen = true ∧ s'.cosc = s.cosc ∧ getFreq s' 0 = getFreq (settle s') 0 := by
  obtain ⟨-, -, -, s1, hp, e1⟩ := init_zero _ _ _ _ h
  obtain ⟨-, p2, -⟩ := pll_posc _ _ _ _ hp
  refine ⟨by rw [e1], by rw [e1]; exact p2, ?_⟩
  rw [e1]; rfl

/-- a switch made before the first reading is told as an error -/
theorem early_fails (c : Cfg) (s s1 : St) (hp : pll c.plliclk c.pllo { s with posc := c.posc } = some s1) (h : c.osc < 8) (h3 : c.osc ≠ 3) :
    (init c true s).2 = -16 ∧ (init c true s).1.cosc = c.osc := by
  unfold init; rw [hp]
  show (switch c.osc true s1).2 = -16 ∧ (switch c.osc true s1).1.cosc = c.osc
  unfold switch
  rw [if_neg (show ¬ (8 ≤ c.osc ∨ c.osc = 3) by omega)]
  exact ⟨rfl, rfl⟩

/-- what the PLL makes, with the factors found -/
theorem pll_makes (k freq : Nat) (s s' : St) (h : pll k freq s = some s') :
    ∃ c ∈ cands, ∃ f, (f = if s'.spll.getLsbD 7 then 8000000 else s.posc) ∧ f / c.2.2 * c.2.1 % 2 ^ 32 / 2 ^ c.1 = freq ∧ pllHz s.posc s' = some (f * c.2.1, c.2.2 * 2 ^ c.1) := by
  unfold pll at h
  obtain ⟨s1, e1, h⟩ := bind_some h
  obtain ⟨c, ec, h⟩ := map_some h
  have hc := List.mem_of_find?_eq_some ec
  have he := List.find?_some ec
  simp only [decide_eq_true_eq] at he
  obtain ⟨i1, -⟩ := input_step k s s1 e1
  obtain ⟨c1, c2, -⟩ := mem_cands c hc
  obtain ⟨p1, p2, p3, p4⟩ := pllReg_fields c s1.spll hc
  have a1 : s'.spll = pllReg c s1.spll := by rw [← h]
  refine ⟨c, hc, s1.plliclk, by rw [a1, p4]; exact i1, he, ?_⟩
  unfold pllHz
  rw [a1]
  simp only [p1, p2, p3, p4]
  rw [if_neg (by omega), i1]

/-- the clock after an initialisation on the PLL -/
theorem init_makes (c : Cfg) (s s' : St) (hc : c.osc = 1) (h : init c false s = (s', 0)) :
    getFreq (settle s') 0 = some c.pllo ∧ ∃ s1, pll c.plliclk c.pllo { s with posc := c.posc } = some s1 ∧ hw c.posc (settle s') 0 = pllHz c.posc s1 := by
  obtain ⟨-, -, -, s1, hp, e1⟩ := init_zero c _ s s' h
  have t : s1.pllclk = c.pllo := by
    have hp2 := hp
    unfold pll at hp2
    obtain ⟨s2, _, h2⟩ := bind_some hp2
    obtain ⟨x, _, h2⟩ := map_some h2
    rw [← h2]
  refine ⟨?_, s1, hp, ?_⟩
  · have : getFreq (settle s') 0 = some (oscRec c.osc s1) := by rw [e1]; rfl
    rw [this, hc]; show some s1.pllclk = _; rw [t]
  · have : hw c.posc (settle s') 0 = sysHz c.posc { s1 with cosc := c.osc } := by rw [e1]; rfl
    rw [this, hc]; rfl

/-- the rest of the first division is lost: asked for 15999998 Hz of the internal oscillator, an input divider of 7 is found; told 15999998 Hz, made 16 MHz -/
theorem pll_rounds : ∃ s', init ⟨0, 1, 15999998, 1⟩ false reset = (s', 0) ∧ getFreq (settle s') 0 = some 15999998 ∧ ∃ n d, hw 0 (settle s') 0 = some (n, d) ∧ n / d = 16000000 := by
  obtain ⟨s1, h⟩ := pll_finds 1 15999998 { reset with posc := 0 } _ (1, 28, 7) rfl (in_cands 0 27 6 (by decide) (by decide) (by decide)) rfl
  obtain ⟨s', h'⟩ := init_of_pll ⟨0, 1, 15999998, 1⟩ reset s1 (by decide) (by decide) h
  obtain ⟨g1, s2, g2, g3⟩ := init_makes ⟨0, 1, 15999998, 1⟩ reset s' rfl h'
  refine ⟨s', h', g1, ?_⟩
  obtain ⟨⟨o, m, i⟩, hc, f, f1, f2, f3⟩ := pll_makes _ _ _ _ g2
  obtain ⟨c1, c2, c3, c4, c5, c6⟩ := mem_cands _ hc
  refine ⟨_, _, g3.trans f3, ?_⟩
  have hf : f = 8000000 ∨ f = 0 := by
    rw [f1]; cases s2.spll.getLsbD 7
    · exact Or.inr rfl
    · exact Or.inl rfl
  have f2 : f / i * m % 2 ^ 32 / 2 ^ o = 15999998 := f2
  have c1 : 1 ≤ o := c1
  have c2 : o ≤ 5 := c2
  have c3 : 1 ≤ m := c3
  have c4 : m ≤ 128 := c4
  have c5 : 1 ≤ i := c5
  have c6 : i ≤ 8 := c6
  show f * m / (i * 2 ^ o) = 16000000
  clear h h' g1 g2 g3 f1 f3 hc
  rcases hf with rfl | rfl
  · have hov : 8000000 / i * m < 2 ^ 32 := Nat.lt_of_le_of_lt (Nat.mul_le_mul (Nat.div_le_self _ _) c4) (by decide)
    rw [Nat.mod_eq_of_lt hov] at f2
    have hi : i = 1 ∨ i = 2 ∨ i = 3 ∨ i = 4 ∨ i = 5 ∨ i = 6 ∨ i = 7 ∨ i = 8 := by omega
    have ho : o = 1 ∨ o = 2 ∨ o = 3 ∨ o = 4 ∨ o = 5 := by omega
    rcases hi with rfl | rfl | rfl | rfl | rfl | rfl | rfl | rfl <;> rcases ho with rfl | rfl | rfl | rfl | rfl <;> omega
  · rw [Nat.zero_div, Nat.zero_mul, Nat.zero_mod, Nat.zero_div] at f2
    omega

theorem pb_right (x k d : Nat) (s s' : St) (h : pbEnable k d s = .ok s') (ht : Tells (getFreq s 0) (hw x s 0)) : Tells (getFreq s' k) (hw x s' k) := by
  unfold pbEnable at h
  by_cases hb : k < 4 ∨ 11 < k ∨ 128 ≤ d
  · rw [if_pos hb] at h; cases h
  rw [if_neg hb] at h
  by_cases h0 : d = 0
  · rw [if_pos h0] at h; cases h
  rw [if_neg h0] at h
  have h := S5.ok_inj h
  have a1 : s'.pb = Rp.set s.pb (k - 4) (bset 15 (BitVec.ofNat 32 (d - 1) &&& mask 32 7)) := by rw [← h]
  have a2 : s'.pbclk = Rp.set s.pbclk (k - 4) (s.sys / d) := by rw [← h]
  have a3 : sysHz x s' = sysHz x s := by rw [← h]; rfl
  have ht : Tells (some s.sys) (sysHz x s) := ht
  unfold getFreq hw
  rw [if_neg (show ¬ k = 0 by omega), if_neg (show ¬ k = 1 by omega), if_neg (show ¬ k = 2 by omega), if_neg (show ¬ k = 3 by omega), if_pos (show 4 ≤ k ∧ k < 12 by omega)]
  rw [if_neg (show ¬ k = 0 by omega), if_neg (show ¬ (k = 2 ∨ k = 3) by omega), if_pos (show 4 ≤ k ∧ k < 12 by omega)]
  rw [a1, a2, a3, Rp.set_same, Rp.set_same, if_pos (bset_same _ _ (by decide))]
  have e : (get 7 0 (bset 15 (BitVec.ofNat 32 (d - 1) &&& mask 32 7))).toNat = d - 1 := by
    rw [S5.get_bset_other _ _ _ _ (by decide)]
    have : Field.get 7 0 (BitVec.ofNat 32 (d - 1) &&& mask 32 7) = (BitVec.ofNat 32 (d - 1) &&& mask 32 7) &&& mask 32 7 := by
      unfold Field.get; rw [BitVec.ushiftRight_zero]
    rw [this, BitVec.and_assoc, BitVec.and_self]
    exact and_mask 32 7 (d - 1) (by decide) (by omega)
  rw [e, Nat.sub_add_cancel (by omega)]
  exact tells_div ht (by omega)

/-- a new initialisation leaves the frequencies told of the peripheral buses as they were, though the buses run from the new system clock -/
theorem pb_stale (c : Cfg) (s s' : St) (h : init c false s = (s', 0)) (k : Nat) (hk : 4 ≤ k) : getFreq (settle s') k = getFreq s k ∧ (settle s').pb = s.pb := by
  obtain ⟨-, -, -, s1, hp, e1⟩ := init_zero _ _ _ _ h
  obtain ⟨-, -, p3, p4⟩ := pll_posc _ _ _ _ hp
  have a : (settle s').pbclk = s.pbclk := by rw [e1]; exact p3
  refine ⟨?_, by rw [e1]; exact p4⟩
  unfold getFreq
  rw [if_neg (show ¬ k = 0 by omega), if_neg (show ¬ k = 1 by omega), if_neg (show ¬ k = 2 by omega), if_neg (show ¬ k = 3 by omega), if_neg (show ¬ k = 0 by omega), if_neg (show ¬ k = 1 by omega), if_neg (show ¬ k = 2 by omega), if_neg (show ¬ k = 3 by omega), a]

/-- a divider of 0 is not refused -/
theorem pb_zero (k : Nat) (s : St) (h : 4 ≤ k) (h' : k < 12) : pbEnable k 0 s = .undef := by
  unfold pbEnable
  rw [if_neg (show ¬ (k < 4 ∨ 11 < k ∨ 128 ≤ 0) by omega), if_pos rfl]

/-- the divider 128 of the hardware is refused -/
theorem pb_128 (k : Nat) (s : St) : pbEnable k 128 s = .fail := if_pos (Or.inr (Or.inr (Nat.le_refl _)))

def on (s : St) (k : Nat) : Bool := (s.pb (k - 4)).getLsbD 15

theorem pb_does (k d : Nat) (s s' : St) (h : pbEnable k d s = .ok s') : on s' k = true ∧ ∀ j, 4 ≤ j → j ≠ k → s'.pb (j - 4) = s.pb (j - 4) := by
  unfold pbEnable at h
  by_cases hb : k < 4 ∨ 11 < k ∨ 128 ≤ d
  · rw [if_pos hb] at h; cases h
  rw [if_neg hb] at h
  by_cases h0 : d = 0
  · rw [if_pos h0] at h; cases h
  rw [if_neg h0] at h
  have a1 : s'.pb = Rp.set s.pb (k - 4) (bset 15 (BitVec.ofNat 32 (d - 1) &&& mask 32 7)) := by rw [← S5.ok_inj h]
  refine ⟨by rw [on, a1, Rp.set_same]; exact bset_same _ _ (by decide), fun j hj hn => ?_⟩
  have ne : j - 4 ≠ k - 4 := by omega
  rw [a1, Rp.set_ne _ _ _ _ ne]

theorem pb_stops (k : Nat) (s s' : St) (h : pbDisable k s = .ok s') : on s' k = false ∧ ∀ j, 4 ≤ j → j ≠ k → s'.pb (j - 4) = s.pb (j - 4) := by
  unfold pbDisable at h
  by_cases hb : k < 4 ∨ 11 < k
  · rw [if_pos hb] at h; cases h
  rw [if_neg hb] at h
  have a1 : s'.pb = Rp.set s.pb (k - 4) (bclr 15 (s.pb (k - 4))) := by rw [← S5.ok_inj h]
  refine ⟨by rw [on, a1, Rp.set_same]; exact bclr_same _ _, fun j hj hn => ?_⟩
  have ne : j - 4 ≠ k - 4 := by omega
  rw [a1, Rp.set_ne _ _ _ _ ne]

theorem pb_accepted (k d : Nat) (s : St) (hk : 4 ≤ k) (hk' : k < 12) (hd : 0 < d) (hd' : d < 128) : (∃ s', pbEnable k d s = .ok s') ∧ ∃ s', pbDisable k s = .ok s' := by
  unfold pbEnable pbDisable
  rw [if_neg (show ¬ (k < 4 ∨ 11 < k ∨ 128 ≤ d) by omega), if_neg (show ¬ d = 0 by omega), if_neg (show ¬ (k < 4 ∨ 11 < k) by omega)]
  exact ⟨⟨_, rfl⟩, ⟨_, rfl⟩⟩

end Pic
end Pico.Clock
