import Verif.Drivers.Clock5
import Verif.Drivers.ClockProps11
/-
Clocks (C95, C96): ch32v003, ch552, lgt8fx8p, mc9s08ptxx, stc12c5axx.
-/
namespace Pico.Clock
open Field

namespace Ch

theorem code_ok (d v : Nat) (h : divCode d = some v) : v < 16 ∧ divOf v = d ∧ 0 < d := by
  unfold divCode at h
  split at h <;> first | (cases h; decide) | cases h

theorem switch_ok (k : Nat) (w : Bool) (s s' : St) (h : switchTo k w s = some s') :
    s'.ctlr = s.ctlr ∧ s'.cfgr = orIn 2 0 (BitVec.ofNat 32 k) (clear 2 0 s.cfgr) ∧ s'.sysclk = (if k = 0 then 24000000 else if k = 1 then s.hse else s.pll) := by
  unfold switchTo at h
  by_cases hw : w = false
  · rw [if_pos hw] at h; cases h
  rw [if_neg hw] at h
  split at h
  · rw [Option.some.injEq] at h; rw [← h]; exact ⟨rfl, rfl, rfl⟩
  · rw [Option.some.injEq] at h; rw [← h]; exact ⟨rfl, rfl, rfl⟩
  · rw [Option.some.injEq] at h; rw [← h]; exact ⟨rfl, rfl, rfl⟩
  · cases h

/-- the system clock as told, at the switch -/
theorem source_ok (c : Cfg) (e : Env) (s s3 : St) (h2 : c.sysclk < 3) (h3 : c.pllsrc < 2)
    (h : ((if c.sysclk = 1 ∨ c.pllsrc = 1 then hseOn c.hse e.hse { s with sysclk := 24000000 } else some { s with sysclk := 24000000 }).bind fun s =>
      (if c.sysclk = 2 then pllOn c.pllsrc e.pll s else some s).bind fun s => switchTo c.sysclk e.sw s) = some s3) : Tells (some s3.sysclk) (sysHz c.hse s3) := by
  obtain ⟨s1, e1, h⟩ := Siu.bind_ok h
  obtain ⟨s2, e2, h⟩ := Siu.bind_ok h
  obtain ⟨a1, a2, a3⟩ := switch_ok _ _ _ _ h
  have hsw : (get 2 0 s3.cfgr).toNat = c.sysclk := by
    rw [a2]
    exact get_orIn_zero _ _ _ _ (by omega) (by omega) (get_clear_same _ _ _)
  have hon : c.sysclk = 1 ∨ c.pllsrc = 1 → s1.ctlr.getLsbD 16 = true ∧ s1.hse = c.hse := by
    intro hc
    rw [if_pos hc] at e1
    unfold hseOn at e1
    by_cases hz : c.hse < 4000000 ∨ 25000000 < c.hse
    · rw [if_pos hz] at e1; cases e1
    rw [if_neg hz] at e1
    cases hb : e.hse with
    | false => rw [hb] at e1; cases e1
    | true =>
      rw [hb, if_pos rfl, Option.some.injEq] at e1
      rw [← e1]
      exact ⟨bset_same _ _ (by omega), rfl⟩
  have hcase : c.sysclk = 0 ∨ c.sysclk = 1 ∨ c.sysclk = 2 := by omega
  unfold sysHz
  rw [hsw]
  rcases hcase with hc | hc | hc
  · rw [a3, hc]; exact tells_self _
  · rw [a3, hc]
    rw [if_neg (by omega), Option.some.injEq] at e2
    obtain ⟨b1, b2⟩ := hon (Or.inl hc)
    show Tells (some s2.hse) (hseHz c.hse s3)
    unfold hseHz
    rw [a1, ← e2, b1, if_pos rfl, b2]; exact tells_self _
  · rw [a3, hc]
    rw [if_pos hc] at e2
    show Tells (some s2.pll) (pllHz c.hse s3)
    have hb16 : s3.cfgr.getLsbD 16 = s2.cfgr.getLsbD 16 := by
      rw [a2, orIn_bit _ _ _ _ _ (by omega), clear_bit]
      simp
    unfold pllHz
    rw [a1, hb16]
    have hp : c.pllsrc = 0 ∨ c.pllsrc = 1 := by omega
    unfold pllOn at e2
    rcases hp with hp | hp
    · rw [hp] at e2
      have e2 : (if e.pll then some { s1 with ctlr := bset 24 s1.ctlr, cfgr := bclr 16 s1.cfgr, pll := 24000000 * 2 } else none) = some s2 := e2
      cases hb : e.pll with
      | false => rw [hb] at e2; cases e2
      | true =>
        rw [hb, if_pos rfl, Option.some.injEq] at e2
        rw [← e2]
        rw [show (bset 24 s1.ctlr).getLsbD 24 = true from bset_same _ _ (by omega), show (bclr 16 s1.cfgr).getLsbD 16 = false from bclr_same _ _]
        exact tells_self _
    · obtain ⟨b1, b2⟩ := hon (Or.inr hp)
      rw [hp] at e2
      have e2 : (if e.pll then some { s1 with ctlr := bset 24 s1.ctlr, cfgr := bset 16 s1.cfgr, pll := s1.hse * 2 } else none) = some s2 := e2
      cases hb : e.pll with
      | false => rw [hb] at e2; cases e2
      | true =>
        rw [hb, if_pos rfl, Option.some.injEq] at e2
        unfold hseHz
        rw [a1, ← e2]
        rw [show (bset 24 s1.ctlr).getLsbD 24 = true from bset_same _ _ (by omega), show (bset 16 s1.cfgr).getLsbD 16 = true from bset_same _ _ (by omega),
          show (bset 24 s1.ctlr).getLsbD 16 = true by rw [bset_ne _ _ _ (by omega)]; exact b1, if_pos rfl, if_pos rfl, if_pos rfl]
        refine ⟨2 * c.hse, 1, rfl, by omega, ?_⟩
        show some (s1.hse * 2) = _
        rw [b2, Nat.div_one, Nat.mul_comm]

/-- **C95, ch32v003**: from any previous state, HCLK and the clock of the window watchdog are as told.  Missing: the independent watchdog (`iwdg_wrong`), the ADC (never told) -/
theorem freq_partial (c : Cfg) (e : Env) (s s' : St) (h : init c e s = some s') (k : Nat) (hk : k = 0 ∨ k = 3) : Tells (getFreq s' k) (hw c.hse s' k) := by
  unfold init at h
  by_cases h0 : 3 ≤ c.sysclk ∨ 2 ≤ c.pllsrc
  · rw [if_pos h0] at h; cases h
  rw [if_neg h0] at h
  obtain ⟨s1, e1, h⟩ := Siu.bind_ok h
  obtain ⟨s2, e2, h⟩ := Siu.bind_ok h
  obtain ⟨s3, e3, h⟩ := Siu.bind_ok h
  have hs : Tells (some s3.sysclk) (sysHz c.hse s3) := by
    apply source_ok c e s s3 (by omega) (by omega)
    rw [e1, Option.bind_some, e2, Option.bind_some, e3]
  obtain ⟨v, hv, h⟩ := Siu.map_ok h
  obtain ⟨v1, v2, v3⟩ := code_ok _ _ hv
  have f1 : (get 4 4 s'.cfgr).toNat = v := by
    rw [← h]
    exact get_orIn_zero _ _ _ _ (by omega) (by omega) (get_clear_same _ _ _)
  have f2 : sysHz c.hse s' = sysHz c.hse s3 := by
    unfold sysHz pllHz hseHz
    have g1 : get 2 0 s'.cfgr = get 2 0 s3.cfgr := by
      rw [← h]
      show get 2 0 (orIn 4 4 _ (clear 4 4 _)) = _
      rw [get_orIn_other _ _ _ _ _ _ (by omega), get_clear_other _ _ _ _ _ (by omega)]
    have g2 : s'.cfgr.getLsbD 16 = s3.cfgr.getLsbD 16 := by
      rw [← h]
      show (orIn 4 4 _ (clear 4 4 _)).getLsbD 16 = _
      rw [orIn_bit _ _ _ _ _ (by omega), clear_bit]; simp
    have g3 : s'.ctlr = s3.ctlr := by rw [← h]
    rw [g1, g2, g3]
  have hh : Tells (some s'.hclk) (hclkHz c.hse s') := by
    unfold hclkHz
    rw [f1, f2, v2]
    have : s'.hclk = s3.sysclk / c.hclkDiv := by rw [← h]
    rw [this]
    exact tells_div hs v3
  rcases hk with rfl | rfl
  · exact hh
  · exact tells_div hh (by omega)

def reset : St := ⟨0x83#32, 0x20#32, fun _ => 0#32, 0, 0, 0, 0⟩
theorem sample : (init ⟨2, 1, 24000000, 3⟩ ⟨true, true, true⟩ reset).map (fun s => (getFreq s 0, getFreq s 3, hw 24000000 s 0)) = some (some 16000000, some 3906, some (48000000, 3)) := by decide +kernel

/-- **C95 refuted, ch32v003**: the clock of the independent watchdog is told ten times too fast, always -/
theorem iwdg_wrong (x : Nat) (s : St) : getFreq s 1 = some 1280000 ∧ hw x s 1 = some (128000, 1) ∧ ¬ Tells (getFreq s 1) (hw x s 1) := by
  refine ⟨rfl, rfl, ?_⟩
  rintro ⟨n, d, e1, -, e2⟩
  cases e1
  have e2 : some 1280000 = some (128000 / 1) := e2
  revert e2; decide

/-- **C96, ch32v003** -/
theorem enable_does (k : Nat) (s s' : St) (h : enable k s = some s') : ∀ j, runs s' j = (decide (j = k) || runs s j) := by
  unfold enable at h
  by_cases h0 : 0x5d ≤ k
  · rw [if_pos h0] at h; cases h
  rw [if_neg h0, if_pos (show k / 32 < 3 by omega), Option.some.injEq] at h
  intro j
  rw [← h]
  exact gset_bit _ _ _
theorem disable_does (k : Nat) (s s' : St) (h : disable k s = some s') : ∀ j, runs s' j = (!decide (j = k) && runs s j) := by
  unfold disable at h
  by_cases h0 : 0x5d ≤ k
  · rw [if_pos h0] at h; cases h
  rw [if_neg h0, if_pos (show k / 32 < 3 by omega), Option.some.injEq] at h
  intro j
  rw [← h]
  exact gclr_bit _ _ _
theorem gates_accepted (k : Nat) (h : k ∈ gates) (s : St) : (enable k s).isSome ∧ (disable k s).isSome := by
  have h1 : ∀ k ∈ gates, k < 0x5d := by decide
  have := h1 k h
  unfold enable disable
  rw [if_neg (show ¬ 0x5d ≤ k by omega), if_neg (show ¬ 0x5d ≤ k by omega), if_pos (show k / 32 < 3 by omega), if_pos (show k / 32 < 3 by omega)]
  exact ⟨rfl, rfl⟩

end Ch

namespace Ch5

theorem reg_fields : ∀ r : BitVec 8, ∀ sel, sel < 7 → (get 3 0 (orIn 3 0 (BitVec.ofNat 8 sel) (clear 3 0 r))).toNat = sel ∧ (orIn 3 0 (BitVec.ofNat 8 sel) (clear 3 0 r)).getLsbD 7 = r.getLsbD 7 ∧
    (orIn 3 0 (BitVec.ofNat 8 sel) (clear 3 0 r)).getLsbD 6 = r.getLsbD 6 ∧ (bset 4 r).getLsbD 7 = r.getLsbD 7 ∧ (bset 4 r).getLsbD 6 = r.getLsbD 6 ∧
    (bclr 7 (bset 6 r)).getLsbD 7 = false ∧ (bclr 7 (bset 6 r)).getLsbD 6 = true := by decide +kernel

/-- the oscillator that runs: the crystal, or the internal one where it was in use -/
theorem init_makes (osc sel : Nat) (s s' : St) (h : init osc sel s = some s') : sel < 7 ∧ (get 3 0 s'.cfg).toNat = sel ∧ fsysOf sel = some s'.fsys ∧
    s'.cfg.getLsbD 7 = (if osc = 1 then false else s.cfg.getLsbD 7) ∧ s'.cfg.getLsbD 6 = (if osc = 1 then true else s.cfg.getLsbD 6) := by
  unfold init at h
  by_cases h0 : 2 ≤ osc ∨ 7 ≤ sel
  · rw [if_pos h0] at h; cases h
  rw [if_neg h0] at h
  dsimp only at h
  obtain ⟨f, hf, h⟩ := Siu.map_ok h
  have hs : sel < 7 := by omega
  rw [← h]
  dsimp only
  refine ⟨hs, (reg_fields _ sel hs).1, hf, ?_, ?_⟩
  · rw [(reg_fields _ sel hs).2.1]
    by_cases c : sel < 5
    · rw [if_pos c, (reg_fields _ sel hs).2.2.2.1]
      by_cases o : osc = 1
      · rw [if_pos o, if_pos o]; exact (reg_fields s.cfg sel hs).2.2.2.2.2.1
      · rw [if_neg o, if_neg o]
    · rw [if_neg c]
      by_cases o : osc = 1
      · rw [if_pos o, if_pos o]; exact (reg_fields s.cfg sel hs).2.2.2.2.2.1
      · rw [if_neg o, if_neg o]
  · rw [(reg_fields _ sel hs).2.2.1]
    by_cases c : sel < 5
    · rw [if_pos c, (reg_fields _ sel hs).2.2.2.2.1]
      by_cases o : osc = 1
      · rw [if_pos o, if_pos o]; exact (reg_fields s.cfg sel hs).2.2.2.2.2.2
      · rw [if_neg o, if_neg o]
    · rw [if_neg c]
      by_cases o : osc = 1
      · rw [if_pos o, if_pos o]; exact (reg_fields s.cfg sel hs).2.2.2.2.2.2
      · rw [if_neg o, if_neg o]

/-- **C95, ch552**: the record (given to the kernel, and told for every identifier but FSYS) is the frequency made, with a crystal of 24 MHz or from the internal oscillator when it was in use (as at reset).
Missing: another crystal (`xt_wrong`), and FSYS itself is never told (`never_told`) -/
theorem record_partial (x osc sel : Nat) (s s' : St) (h : init osc sel s = some s') (hx : osc = 1 → x = 24000000) (hi : osc ≠ 1 → s.cfg.getLsbD 7 = true) :
    Tells (some s'.fsys) (fsysHz x s') ∧ ∀ k, k ≠ 0 → getFreq s' k = some s'.fsys := by
  obtain ⟨h1, h2, h3, h4, h5⟩ := init_makes osc sel s s' h
  refine ⟨?_, ?_⟩
  · have hd : ∃ d, divOf sel = some d ∧ 0 < d ∧ fsysOf sel = some (96000000 / d) := by
      have : sel = 0 ∨ sel = 1 ∨ sel = 2 ∨ sel = 3 ∨ sel = 4 ∨ sel = 5 ∨ sel = 6 := by omega
      rcases this with rfl | rfl | rfl | rfl | rfl | rfl | rfl <;> exact ⟨_, rfl, by decide, by decide⟩
    obtain ⟨d, d1, d2, d3⟩ := hd
    unfold fsysHz
    rw [h2, d1, h4, h5]
    rw [h3, Option.some.injEq] at d3
    rw [d3]
    refine ⟨96000000, d, ?_, d2, rfl⟩
    by_cases o : osc = 1
    · rw [if_pos o, if_pos o, hx o]; rfl
    · rw [if_neg o, hi o]; rfl
  · intro k hk
    unfold getFreq
    rw [if_neg (by omega)]

def reset : St := ⟨0x83#8, 0⟩
theorem sample : (init 1 6 reset).map (fun s => (s.fsys, fsysHz 24000000 s, getFreq s 0, getFreq s 1)) = some (24000000, some (96000000, 4), none, some 24000000) := by decide +kernel

/-- **C95 refuted, ch552**: the only clock there is is refused, every clock that doesn't exist is told -/
theorem never_told (s : St) : getFreq s 0 = none ∧ ∀ k, k ≠ 0 → getFreq s k = some s.fsys := by
  refine ⟨rfl, ?_⟩
  intro k hk
  unfold getFreq
  rw [if_neg (by omega)]

/-- **refuted**: the record doesn't know the crystal -/
theorem xt_wrong : (init 1 6 reset).map (fun s => (s.fsys, fsysHz 12000000 s)) = some (24000000, some (48000000, 4)) := by decide +kernel

/-- **refuted**: the internal oscillator asked after the crystal isn't taken -/
theorem int_stays (x sel sel' : Nat) (s s1 s2 : St) (h1 : init 1 sel s = some s1) (h2 : init 0 sel' s1 = some s2) : s2.cfg.getLsbD 7 = false ∧ s2.cfg.getLsbD 6 = true ∧
    fsysHz x s2 = (divOf sel').map fun d => (4 * x, d) := by
  obtain ⟨-, -, -, a4, a5⟩ := init_makes _ _ _ _ h1
  obtain ⟨-, b2, -, b4, b5⟩ := init_makes _ _ _ _ h2
  rw [if_neg (by omega), a4, if_pos rfl] at b4
  rw [if_neg (by omega), a5, if_pos rfl] at b5
  refine ⟨b4, b5, ?_⟩
  unfold fsysHz
  rw [b2, b4, b5]
  cases divOf sel' <;> rfl

end Ch5

namespace Lg

theorem main_fields (c : Cfg) (r : BitVec 8) (m : BitVec 8 × Nat) (h : main c (clear 2 5 r) = some m) :
    c.mclk < 4 ∧ (get 2 5 (dog c m.1).1).toNat = c.mclk ∧ (c.mclk = 0 → m.2 = 32000000 ∧ (dog c m.1).1.getLsbD 0 = true) ∧ (c.mclk = 1 → m.2 = c.erc ∧ (dog c m.1).1.getLsbD 2 = true) ∧
    (c.mclk = 2 → m.2 = 32000 ∧ (dog c m.1).1.getLsbD 1 = true) ∧ (c.mclk = 3 → m.2 = c.erc ∧ (dog c m.1).1.getLsbD 3 = true) := by
  have key : ∀ r : BitVec 8, (get 2 5 (bset 0 (bclr 4 (bset 0 (orIn 2 5 0#8 (clear 2 5 r)))))).toNat = 0 ∧ (get 2 5 (bset 1 (bset 4 (bset 0 (orIn 2 5 0#8 (clear 2 5 r)))))).toNat = 0 ∧
      (bset 0 (bclr 4 (bset 0 (orIn 2 5 0#8 (clear 2 5 r))))).getLsbD 0 = true ∧ (bset 1 (bset 4 (bset 0 (orIn 2 5 0#8 (clear 2 5 r))))).getLsbD 0 = true ∧
      (get 2 5 (bset 0 (bclr 4 (bset 3 (orIn 2 5 1#8 (bset 2 (clear 2 5 r))))))).toNat = 1 ∧ (get 2 5 (bset 1 (bset 4 (bset 3 (orIn 2 5 1#8 (bset 2 (clear 2 5 r))))))).toNat = 1 ∧
      (bset 0 (bclr 4 (bset 3 (orIn 2 5 1#8 (bset 2 (clear 2 5 r)))))).getLsbD 2 = true ∧ (bset 1 (bset 4 (bset 3 (orIn 2 5 1#8 (bset 2 (clear 2 5 r)))))).getLsbD 2 = true ∧
      (get 2 5 (bset 0 (bclr 4 (bset 1 (orIn 2 5 2#8 (clear 2 5 r)))))).toNat = 2 ∧ (get 2 5 (bset 1 (bset 4 (bset 1 (orIn 2 5 2#8 (clear 2 5 r)))))).toNat = 2 ∧
      (bset 0 (bclr 4 (bset 1 (orIn 2 5 2#8 (clear 2 5 r))))).getLsbD 1 = true ∧ (bset 1 (bset 4 (bset 1 (orIn 2 5 2#8 (clear 2 5 r))))).getLsbD 1 = true ∧
      (get 2 5 (bset 0 (bclr 4 (bset 3 (orIn 2 5 3#8 (clear 2 5 r)))))).toNat = 3 ∧ (get 2 5 (bset 1 (bset 4 (bset 3 (orIn 2 5 3#8 (clear 2 5 r)))))).toNat = 3 ∧
      (bset 0 (bclr 4 (bset 3 (orIn 2 5 3#8 (clear 2 5 r))))).getLsbD 3 = true ∧ (bset 1 (bset 4 (bset 3 (orIn 2 5 3#8 (clear 2 5 r))))).getLsbD 3 = true := by decide +kernel
  obtain ⟨k1, k2, k3, k4, k5, k6, k7, k8, k9, k10, k11, k12, k13, k14, k15, k16⟩ := key r
  have hd : ∀ x, dog c x = (if c.wdclks ≠ 1 then (bset 0 (bclr 4 x), 32000000 / 16) else (bset 1 (bset 4 x), 32000)) := fun _ => rfl
  unfold main at h
  split at h
  · rename_i hm
    rw [Option.some.injEq] at h
    rw [← h, hd]
    by_cases hw : c.wdclks ≠ 1
    · rw [if_pos hw]; exact ⟨by omega, by rw [hm]; exact k1, fun _ => ⟨rfl, k3⟩, fun q => by omega, fun q => by omega, fun q => by omega⟩
    · rw [if_neg hw]; exact ⟨by omega, by rw [hm]; exact k2, fun _ => ⟨rfl, k4⟩, fun q => by omega, fun q => by omega, fun q => by omega⟩
  · rename_i hm
    by_cases he : c.erc = 0
    · rw [if_pos he] at h; cases h
    rw [if_neg he, Option.some.injEq] at h
    rw [← h, hd]
    by_cases hw : c.wdclks ≠ 1
    · rw [if_pos hw]; exact ⟨by omega, by rw [hm]; exact k5, fun q => by omega, fun _ => ⟨rfl, k7⟩, fun q => by omega, fun q => by omega⟩
    · rw [if_neg hw]; exact ⟨by omega, by rw [hm]; exact k6, fun q => by omega, fun _ => ⟨rfl, k8⟩, fun q => by omega, fun q => by omega⟩
  · rename_i hm
    rw [Option.some.injEq] at h
    rw [← h, hd]
    by_cases hw : c.wdclks ≠ 1
    · rw [if_pos hw]; exact ⟨by omega, by rw [hm]; exact k9, fun q => by omega, fun q => by omega, fun _ => ⟨rfl, k11⟩, fun q => by omega⟩
    · rw [if_neg hw]; exact ⟨by omega, by rw [hm]; exact k10, fun q => by omega, fun q => by omega, fun _ => ⟨rfl, k12⟩, fun q => by omega⟩
  · rename_i hm
    by_cases he : c.erc = 0
    · rw [if_pos he] at h; cases h
    rw [if_neg he, Option.some.injEq] at h
    rw [← h, hd]
    by_cases hw : c.wdclks ≠ 1
    · rw [if_pos hw]; exact ⟨by omega, by rw [hm]; exact k13, fun q => by omega, fun q => by omega, fun q => by omega, fun _ => ⟨rfl, k15⟩⟩
    · rw [if_neg hw]; exact ⟨by omega, by rw [hm]; exact k14, fun q => by omega, fun q => by omega, fun q => by omega, fun _ => ⟨rfl, k16⟩⟩
  · cases h

theorem dog_fields (c : Cfg) (r : BitVec 8) : ((dog c r).2 = 2000000 ∧ (dog c r).1.getLsbD 4 = false ∧ (dog c r).1.getLsbD 0 = true) ∨ ((dog c r).2 = 32000 ∧ (dog c r).1.getLsbD 4 = true ∧ (dog c r).1.getLsbD 1 = true) := by
  have key : ∀ r : BitVec 8, (bset 0 (bclr 4 r)).getLsbD 4 = false ∧ (bset 0 (bclr 4 r)).getLsbD 0 = true ∧ (bset 1 (bset 4 r)).getLsbD 4 = true ∧ (bset 1 (bset 4 r)).getLsbD 1 = true := by decide +kernel
  obtain ⟨k1, k2, k3, k4⟩ := key r
  unfold dog
  by_cases hw : c.wdclks ≠ 1
  · rw [if_pos hw]; exact Or.inl ⟨rfl, k1, k2⟩
  · rw [if_neg hw]; exact Or.inr ⟨rfl, k3, k4⟩

/-- **C95, lgt8fx8p**: every clock is as told -/
theorem freq_right (c : Cfg) (s s' : St) (h : init c s = some s') (k : Nat) (hk : k < 5) : Tells (getFreq s' k) (hw c.erc s' k) := by
  unfold init at h
  by_cases h0 : 4 ≤ c.mclk ∨ 2 ≤ c.wdclks
  · rw [if_pos h0] at h; cases h
  rw [if_neg h0] at h
  obtain ⟨m, hm, h⟩ := Siu.bind_ok h
  obtain ⟨s1, h1, h⟩ := Siu.map_ok h
  unfold setClkps at h1
  by_cases hp : 9 ≤ c.ps
  · rw [if_pos hp] at h1; cases h1
  rw [if_neg hp, Option.some.injEq] at h1
  obtain ⟨f0, f1, f2, f3, f4, f5⟩ := main_fields c s.pmcr m hm
  have g1 : s'.pmcr = (dog c m.1).1 := by rw [← h]
  have g2 : (get 4 0 s'.clkpr).toNat = 0 := by
    rw [← h, ← h1]
    show (get 4 0 (clear 4 0 s.clkpr)).toNat = 0
    rw [get_clear_same]; rfl
  have g3 : s'.mclk = m.2 := by rw [← h, ← h1]
  have g4 : s'.wdt = (dog c m.1).2 := by rw [← h, ← h1]
  unfold getFreq hw
  by_cases hk4 : k < 4
  · rw [if_pos hk4, if_pos hk4, g2, if_pos (show (0 : Nat) < 9 by omega), g3]
    have : Tells (some m.2) (mainHz c.erc s') := by
      unfold mainHz
      rw [g1, f1]
      have hc : c.mclk = 0 ∨ c.mclk = 1 ∨ c.mclk = 2 ∨ c.mclk = 3 := by omega
      rcases hc with hc | hc | hc | hc
      · obtain ⟨a, b⟩ := f2 hc; rw [hc, a, b]; exact tells_self _
      · obtain ⟨a, b⟩ := f3 hc; rw [hc, a, b]; exact tells_self _
      · obtain ⟨a, b⟩ := f4 hc; rw [hc, a, b]; exact tells_self _
      · obtain ⟨a, b⟩ := f5 hc; rw [hc, a, b]; exact tells_self _
    have := tells_div this (show 0 < 2 ^ 0 by omega)
    rw [Nat.pow_zero, Nat.div_one] at this
    exact this
  · rw [if_neg hk4, if_neg hk4, if_pos (show k = 4 by omega), if_pos (show k = 4 by omega), g1, g4]
    rcases dog_fields c m.1 with ⟨a, b, d⟩ | ⟨a, b, d⟩
    · rw [a, b, d]; exact ⟨32000000, 16, rfl, by omega, rfl⟩
    · rw [a, b, d]; exact tells_self _

def reset : St := ⟨0x01#8, 0x03#8, 0, 0⟩
theorem sample : (init ⟨0, 0, 3, 1⟩ reset).map (fun s => (getFreq s 0, getFreq s 4, hw 0 s 0)) = some (some 32000000, some 32000, some (32000000, 1)) := by decide +kernel

/-- **C95 refuted, lgt8fx8p**: the prescaler asked is not made: the divider is 1 whatever was asked (told rightly) -/
theorem ps_ignored (c : Cfg) (s s' : St) (h : init c s = some s') : (get 4 0 s'.clkpr).toNat = 0 ∧ ∀ p, p < 9 → init { c with ps := p } s = some s' := by
  have h' := h
  unfold init at h
  by_cases h0 : 4 ≤ c.mclk ∨ 2 ≤ c.wdclks
  · rw [if_pos h0] at h; cases h
  rw [if_neg h0] at h
  obtain ⟨m, hm, h⟩ := Siu.bind_ok h
  obtain ⟨s1, h1, h⟩ := Siu.map_ok h
  unfold setClkps at h1
  by_cases hp : 9 ≤ c.ps
  · rw [if_pos hp] at h1; cases h1
  rw [if_neg hp, Option.some.injEq] at h1
  refine ⟨?_, ?_⟩
  · rw [← h, ← h1]
    show (get 4 0 (clear 4 0 s.clkpr)).toNat = 0
    rw [get_clear_same]; rfl
  · intro p hp9
    unfold init
    rw [if_neg h0]
    have e1 : main { c with ps := p } (clear 2 5 s.pmcr) = some m := hm
    rw [e1, Option.bind_some]
    unfold setClkps
    dsimp only
    rw [if_neg (show ¬ 9 ≤ p by omega), Option.map_some, ← h, ← h1]
    rfl

end Lg

namespace Mc9

theorem trim_ok (f : Nat) (s s' : St) (h : sctrim f s = some s') : 31250 ≤ f ∧ f ≤ 39062 ∧ s'.c1 = s.c1 ∧ s'.c2 = s.c2 ∧ s'.c3 = BitVec.ofNat 8 (0x50 + (39062 - f) / 122) ∧ s'.icsir = f ∧ s'.ext = s.ext := by
  unfold sctrim at h
  by_cases h0 : 39062 < f ∨ f < 31250
  · rw [if_pos h0] at h; cases h
  rw [if_neg h0, Option.some.injEq] at h
  rw [← h]
  exact ⟨by omega, by omega, rfl, rfl, rfl, rfl, rfl⟩

theorem c1_fields : ∀ r : BitVec 8, (bset 2 (clear 2 6 r)).getLsbD 2 = true ∧ (get 2 6 (bset 2 (clear 2 6 r))).toNat = 0 ∧ (get 2 6 (orIn 2 6 1#8 (clear 2 6 r))).toNat = 1 ∧ (get 2 6 (orIn 2 6 2#8 (clear 2 6 r))).toNat = 2 ∧
    ∀ v, v < 6 → (bclr 2 (clear 2 6 (orIn 3 3 (BitVec.ofNat 8 v) (clear 3 3 r)))).getLsbD 2 = false ∧ (get 2 6 (bclr 2 (clear 2 6 (orIn 3 3 (BitVec.ofNat 8 v) (clear 3 3 r))))).toNat = 0 ∧
      (get 3 3 (bclr 2 (clear 2 6 (orIn 3 3 (BitVec.ofNat 8 v) (clear 3 3 r))))).toNat = v := by decide +kernel

/-- what FEI leaves: the bus runs at 512 times the internal reference, as the trim sets it -/
theorem fei_makes (irc : BitVec 8 → Nat) (c : Cfg) (w : Bool) (s s' : St) (hm : c.mode = 0) (h : init c w s = some s') : 31250 ≤ c.freq / 512 % 2 ^ 16 ∧ c.freq / 512 % 2 ^ 16 ≤ 39062 ∧ s'.bus = c.freq ∧ s'.icsir = c.freq / 512 % 2 ^ 16 ∧
    s'.c3 = BitVec.ofNat 8 (0x50 + (39062 - c.freq / 512 % 2 ^ 16) / 122) ∧ busHz irc c.xosc s' = some (512 * irc s'.c3, 1) := by
  unfold init at h
  rw [hm] at h
  obtain ⟨s1, h1, h⟩ := Siu.map_ok h
  obtain ⟨a1, a2, a3, a4, a5, a6, a7⟩ := trim_ok _ _ _ h1
  refine ⟨a1, a2, by rw [← h], by rw [← h]; exact a6, by rw [← h]; exact a5, ?_⟩
  have g1 : s'.c1 = bset 2 (clear 2 6 s.c1) := by rw [← h]; exact a3
  have g2 : s'.c2 = 0#8 := by rw [← h]; exact a4
  unfold busHz refHz
  obtain ⟨q1, q2, -⟩ := c1_fields s.c1
  rw [g1, g2, q1, q2]
  rfl

/-- **C95, mc9s08ptxx, FLL on the internal reference**: a chip whose reference is trimmed as the driver supposes has a bus as told, when the frequency is a multiple of 512 Hz (below 2^25 Hz).  Missing: the trim has steps of
122 Hz, 62 kHz on the bus, that the record doesn't know (`fei_steps`); the other modes (`fee_wrong`, `fbe_stale`) -/
theorem fei_partial (irc : BitVec 8 → Nat) (c : Cfg) (w : Bool) (s s' : St) (hm : c.mode = 0) (h : init c w s = some s') (hf : c.freq < 2 ^ 25) (hd : c.freq % 512 = 0)
    (hi : irc s'.c3 = c.freq / 512) : Tells (getFreq s' 0) (busHz irc c.xosc s') ∧ Tells (getFreq s' 2) (some (irc s'.c3, 1)) := by
  obtain ⟨a1, a2, a3, a4, a5, a6⟩ := fei_makes irc c w s s' hm h
  have e : c.freq / 512 % 2 ^ 16 = c.freq / 512 := Nat.mod_eq_of_lt (by omega)
  refine ⟨?_, ?_⟩
  · rw [a6, hi]
    refine ⟨_, _, rfl, by omega, ?_⟩
    show some s'.bus = _
    rw [a3, Nat.div_one, Option.some.injEq]; omega
  · show Tells (some s'.icsir) _
    rw [a4, e, hi]; exact tells_self _

/-- the internal reference, bypassing the FLL -/
theorem fbi_partial (irc : BitVec 8 → Nat) (c : Cfg) (w : Bool) (s s' : St) (hm : c.mode = 1) (h : init c w s = some s') (hf : c.freq < 2 ^ 16) (hi : irc s'.c3 = c.freq) :
    Tells (getFreq s' 0) (busHz irc c.xosc s') ∧ Tells (getFreq s' 2) (some (irc s'.c3, 1)) := by
  unfold init at h
  rw [hm] at h
  obtain ⟨s1, h1, h⟩ := Siu.map_ok h
  obtain ⟨a1, a2, a3, a4, a5, a6, a7⟩ := trim_ok _ _ _ h1
  have g1 : s'.c1 = orIn 2 6 1#8 (clear 2 6 s.c1) := by rw [← h]; exact a3
  have g2 : s'.c2 = 0#8 := by rw [← h]; exact a4
  have g3 : s'.bus = c.freq := by rw [← h]
  have g4 : s'.icsir = c.freq := by rw [← h]; show s1.icsir = _; rw [a6, Nat.mod_eq_of_lt hf]
  refine ⟨?_, ?_⟩
  · unfold busHz
    obtain ⟨-, -, q3, -⟩ := c1_fields s.c1
    rw [g1, g2, q3]
    show Tells (some s'.bus) (Hz.div (some (irc s'.c3, 1)) 1)
    rw [hi, g3]
    exact ⟨c.freq, 1, rfl, by omega, by rw [Nat.div_one]⟩
  · show Tells (some s'.icsir) _
    rw [g4, hi]; exact tells_self _

def reset : St := ⟨0x04#8, 0x20#8, 0x80#8, false, 0#8, 0, 0, 0⟩
theorem sample : (init ⟨0, 0, 16000000⟩ true reset).map (fun s => (getFreq s 0, getFreq s 2, s.c3)) = some (some 16000000, some 31250, 0x90#8) := by decide +kernel

/-- **C95 refuted, mc9s08ptxx**: 16002560 Hz and 16064512 Hz leave the same registers (so the same clock) and are told differently, with success -/
theorem fei_steps : (init ⟨0, 0, 16002560⟩ true reset).map (fun s => (s.c1, s.c2, s.c3, s.fine, s.oscsc)) = (init ⟨0, 0, 16064512⟩ true reset).map (fun s => (s.c1, s.c2, s.c3, s.fine, s.oscsc)) ∧
    (init ⟨0, 0, 16002560⟩ true reset).map (fun s => getFreq s 0) = some (some 16002560) ∧ (init ⟨0, 0, 16064512⟩ true reset).map (fun s => getFreq s 0) = some (some 16064512) := by decide +kernel

/-- **refuted**: with the crystal and the FLL, the frequency told is the one asked, whatever it is; the one made depends on the crystal only -/
theorem fee_wrong (irc : BitVec 8 → Nat) (c : Cfg) (w : Bool) (s s' : St) (hm : c.mode = 2) (h : init c w s = some s') :
    getFreq s' 0 = some c.freq ∧ ∃ r, r < 6 ∧ busHz irc c.xosc s' = some (512 * c.xosc, 2 ^ (r + 5)) ∧ 16000000 ≤ 512 * c.xosc / 2 ^ (r + 5) ∧ 512 * c.xosc / 2 ^ (r + 5) < 20000256 := by
  unfold init at h
  rw [hm] at h
  have h : fee c w { s with ext := c.xosc } = some s' := h
  unfold fee at h
  by_cases h0 : c.xosc < 4000000 ∨ 20000000 < c.xosc ∨ w = false
  · rw [if_pos h0] at h; cases h
  rw [if_neg h0] at h
  obtain ⟨r, hr, h⟩ := Siu.map_ok h
  have key : r < 6 ∧ 31250 ≤ c.xosc / 2 ^ (r + 5) ∧ c.xosc / 2 ^ (r + 5) ≤ 39062 := by
    have gen : ∀ n k x, rdivOf n k x = some r → k ≤ r ∧ r < k + n ∧ 31250 ≤ x / 2 ^ (r - k) ∧ x / 2 ^ (r - k) ≤ 39062 := by
      intro n
      induction n with
      | zero => intro k x hx; cases hx
      | succ n ih =>
        intro k x hx
        unfold rdivOf at hx
        by_cases hc : x ≤ 39062 ∧ 31250 ≤ x
        · rw [if_pos hc, Option.some.injEq] at hx
          subst hx
          rw [Nat.sub_self, Nat.pow_zero, Nat.div_one]
          exact ⟨by omega, by omega, hc.2, hc.1⟩
        · rw [if_neg hc] at hx
          obtain ⟨i1, i2, i3, i4⟩ := ih _ _ hx
          rw [Nat.div_div_eq_div_mul, show 2 * 2 ^ (r - (k + 1)) = 2 ^ (r - k) by rw [show r - k = r - (k + 1) + 1 by omega, Nat.pow_succ, Nat.mul_comm]] at i3 i4
          exact ⟨by omega, by omega, i3, i4⟩
    obtain ⟨i1, i2, i3, i4⟩ := gen _ _ _ hr
    rw [Nat.sub_zero, Nat.div_div_eq_div_mul, show 32 * 2 ^ r = 2 ^ (r + 5) by rw [Nat.pow_add, Nat.mul_comm]] at i3 i4
    exact ⟨by omega, i3, i4⟩
  obtain ⟨k1, k2, k3⟩ := key
  have g1 : s'.c1 = bclr 2 (clear 2 6 (orIn 3 3 (BitVec.ofNat 8 r) (clear 3 3 s.c1))) := by rw [← h]
  have g2 : s'.c2 = 0#8 := by rw [← h]
  have g3 : s'.bus = c.freq := by rw [← h]
  have o : ∀ b : BitVec 8, (bset 7 (bset 4 (bset 2 b))).getLsbD 7 = true ∧ (bset 7 (bset 4 (bset 2 b))).getLsbD 2 = true := by decide +kernel
  have g4 : s'.oscsc = bset 7 (bset 4 (bset 2 s.oscsc)) := by rw [← h]
  obtain ⟨-, -, -, -, q⟩ := c1_fields s.c1
  obtain ⟨q1, q2, q3⟩ := q r k1
  refine ⟨by show some s'.bus = _; rw [g3], r, k1, ?_, ?_, ?_⟩
  · unfold busHz refHz extHz
    rw [g1, g2, g4, q1, q2, q3, (o _).1, (o _).2]
    have e : Hz.div ((if false = true then some (irc s'.c3, 1) else if r < 6 ∧ true = true then Hz.div (if true = true then some (c.xosc, 1) else none) (2 ^ (r + 5)) else none).map fun f => (512 * f.1, f.2)) (2 ^ 0)
        = some (512 * c.xosc, 2 ^ (r + 5)) := by
      rw [if_neg (by decide), if_pos ⟨k1, rfl⟩, if_pos rfl]
      show some (512 * c.xosc, 1 * 2 ^ (r + 5) * 2 ^ 0) = _
      rw [Nat.one_mul, Nat.pow_zero, Nat.mul_one]
    exact e
  · have hp : 0 < 2 ^ (r + 5) := Nat.two_pow_pos _
    rw [Nat.le_div_iff_mul_le hp] at k2 ⊢
    omega
  · have hp : 0 < 2 ^ (r + 5) := Nat.two_pow_pos _
    have k3 : c.xosc / 2 ^ (r + 5) < 39063 := by omega
    rw [Nat.div_lt_iff_lt_mul hp] at k3 ⊢
    omega

theorem fee_sample : (init ⟨2, 8000000, 8000000⟩ true reset).map (fun s => (getFreq s 0, busHz (fun _ => 0) 8000000 s)) = some (some 8000000, some (4096000000, 256)) ∧ 4096000000 / 256 = 16000000 := by decide +kernel

/-- **refuted**: on the crystal without the FLL, the bus told is the one of the last setting, and the crystal isn't started -/
theorem fbe_stale (irc : BitVec 8 → Nat) (c : Cfg) (w : Bool) (s : St) (hm : c.mode = 3) : ∃ s', init c w s = some s' ∧ getFreq s' 0 = getFreq s 0 ∧ s'.oscsc = s.oscsc ∧
    busHz irc c.xosc s' = (if s.oscsc.getLsbD 7 then some (c.xosc, 1) else none) := by
  unfold init
  rw [hm]
  refine ⟨_, rfl, rfl, rfl, ?_⟩
  unfold busHz extHz
  obtain ⟨-, -, -, q4, -⟩ := c1_fields s.c1
  dsimp only
  rw [q4]
  cases s.oscsc.getLsbD 7 <;> rfl

end Mc9

namespace Stc

theorem bits : ∀ r : BitVec 8, (bclr 6 r).getLsbD 6 = false ∧ (bset 6 r).getLsbD 6 = true ∧ (bclr 2 (bclr 6 r)).getLsbD 6 = false ∧ (bclr 2 (bset 6 r)).getLsbD 6 = true ∧ (bclr 2 (bclr 6 r)).getLsbD 2 = false ∧
    (bclr 2 (bset 6 r)).getLsbD 2 = false ∧ (bset 6 (bclr 6 r)).getLsbD 6 = true ∧ (bset 6 (bset 6 r)).getLsbD 6 = true ∧ (bset 6 (bclr 6 r)).getLsbD 2 = r.getLsbD 2 ∧ (bset 6 (bset 6 r)).getLsbD 2 = r.getLsbD 2 := by decide +kernel

/-- **C95, stc12c5axx**: every clock is as told when the baud rate timer isn't asked at full speed.  Missing: that case (`brt_wrong`) -/
theorem freq_partial (f t1 : Nat) (s s' : St) (h : init f t1 0 s = some s') (k : Nat) (hk : k < 3) : Tells (getFreq f s' k) (hw f s' k) := by
  unfold init at h
  by_cases h0 : 2 ≤ t1 ∨ 2 ≤ 0
  · rw [if_pos h0] at h; cases h
  rw [if_neg h0] at h
  dsimp only at h
  rw [if_pos rfl, Option.some.injEq] at h
  obtain ⟨b1, b2, b3, b4, b5, b6, -⟩ := bits s.auxr
  have hc : k = 0 ∨ k = 1 ∨ k = 2 := by omega
  by_cases ht : t1 = 0
  · rw [if_pos ht] at h
    rw [← h]
    rcases hc with rfl | rfl | rfl
    · exact tells_self _
    · show Tells (some (f / 12)) (some (f, if (bclr 2 (bclr 6 s.auxr)).getLsbD 6 then 1 else 12))
      rw [b3]; exact ⟨f, 12, rfl, by omega, rfl⟩
    · show Tells (some (f / 12)) (some (f, if (bclr 2 (bclr 6 s.auxr)).getLsbD 2 then 1 else 12))
      rw [b5]; exact ⟨f, 12, rfl, by omega, rfl⟩
  · rw [if_neg ht] at h
    rw [← h]
    rcases hc with rfl | rfl | rfl
    · exact tells_self _
    · show Tells (some f) (some (f, if (bclr 2 (bset 6 s.auxr)).getLsbD 6 then 1 else 12))
      rw [b4]; exact tells_self _
    · show Tells (some (f / 12)) (some (f, if (bclr 2 (bset 6 s.auxr)).getLsbD 2 then 1 else 12))
      rw [b6]; exact ⟨f, 12, rfl, by omega, rfl⟩

/-- **C95 refuted, stc12c5axx**: the baud rate timer asked at full speed is told so; what runs at full speed is timer 1, and the baud rate timer keeps what it had (a twelfth at reset) -/
theorem brt_wrong (f t1 : Nat) (s s' : St) (h : init f t1 1 s = some s') :
    getFreq f s' 2 = some f ∧ hw f s' 2 = hw f s 2 ∧ hw f s' 1 = some (f, 1) ∧ (t1 = 0 → getFreq f s' 1 = some (f / 12)) := by
  unfold init at h
  by_cases h0 : 2 ≤ t1 ∨ 2 ≤ 1
  · rw [if_pos h0] at h; cases h
  rw [if_neg h0] at h
  dsimp only at h
  rw [if_neg (show ¬ 1 = 0 by omega), Option.some.injEq] at h
  obtain ⟨-, -, -, -, -, -, b7, b8, b9, b10⟩ := bits s.auxr
  by_cases ht : t1 = 0
  · rw [if_pos ht] at h
    rw [← h]
    refine ⟨rfl, ?_, ?_, fun _ => rfl⟩
    · show some (f, if (bset 6 (bclr 6 s.auxr)).getLsbD 2 then 1 else 12) = _
      rw [b9]; rfl
    · show some (f, if (bset 6 (bclr 6 s.auxr)).getLsbD 6 then 1 else 12) = _
      rw [b7]; rfl
  · rw [if_neg ht] at h
    rw [← h]
    refine ⟨rfl, ?_, ?_, fun q => absurd q ht⟩
    · show some (f, if (bset 6 (bset 6 s.auxr)).getLsbD 2 then 1 else 12) = _
      rw [b10]; rfl
    · show some (f, if (bset 6 (bset 6 s.auxr)).getLsbD 6 then 1 else 12) = _
      rw [b8]; rfl

theorem sample : (init 11059200 1 0 ⟨0#8, 0, 0⟩).map (fun s => (getFreq 11059200 s 1, getFreq 11059200 s 2, hw 11059200 s 2)) = some (some 11059200, some 921600, some (11059200, 12)) ∧
    (init 11059200 0 1 ⟨0#8, 0, 0⟩).map (fun s => (getFreq 11059200 s 2, hw 11059200 s 2)) = some (some 11059200, some (11059200, 12)) := by decide +kernel

end Stc
end Pico.Clock
