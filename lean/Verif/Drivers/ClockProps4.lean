import Verif.Drivers.Clock2
import Verif.Drivers.ClockProps3
/-
C95, C96: renesas_ra4, atmel_pmc.
-/
namespace Pico.Clock
open Field

theorem gset_bit (en : Nat → BitVec 32) (k j : Nat) : gbit (gset en k) j = (decide (j = k) || gbit en j) := by
  unfold gbit gset
  by_cases hb : j / 32 = k / 32
  · rw [hb, Rp.set_same, bset_bit _ _ _ (by omega)]
    congr 1
    exact decide_eq_decide.2 (by omega)
  · rw [Rp.set_ne _ _ _ _ hb, decide_eq_false (by omega), Bool.false_or]

theorem gclr_bit (en : Nat → BitVec 32) (k j : Nat) : gbit (gclr en k) j = (!decide (j = k) && gbit en j) := by
  unfold gbit gclr
  by_cases hb : j / 32 = k / 32
  · rw [hb, Rp.set_same, bclr_bit]
    congr 2
    exact decide_eq_decide.2 (by omega)
  · rw [Rp.set_ne _ _ _ _ hb, decide_eq_false (by omega), Bool.not_false, Bool.true_and]

/-- a field written in a value where it is 0 -/
theorem get_orIn_zero (w t v : Nat) (r : BitVec 32) (h : t + w ≤ 32) (hv : v < 2 ^ w) (h0 : get w t r = 0) : (get w t (orIn w t (BitVec.ofNat 32 v) r)).toNat = v := by
  rw [get_orIn_same _ _ _ _ h h0, and_mask _ _ _ (by omega) hv]

theorem get_zero (w t : Nat) : get w t 0#32 = 0 := by
  apply BitVec.eq_of_getLsbD_eq
  intro i hi
  rw [get_bit]
  simp

namespace Ra4

theorem divReg_fields (c : Cfg) (h : ¬ (7 ≤ c.fck ∨ 7 ≤ c.ick ∨ 7 ≤ c.pcka ∨ 7 ≤ c.pckb ∨ 7 ≤ c.pckc ∨ 7 ≤ c.pckd)) :
    (get 3 28 (divReg c)).toNat = c.fck ∧ (get 3 24 (divReg c)).toNat = c.ick ∧ (get 3 12 (divReg c)).toNat = c.pcka ∧ (get 3 8 (divReg c)).toNat = c.pckb ∧
    (get 3 4 (divReg c)).toNat = c.pckc ∧ (get 3 0 (divReg c)).toNat = c.pckd := by
  unfold divReg
  refine ⟨?_, ?_, ?_, ?_, ?_, ?_⟩
  · rw [get_orIn_other _ _ _ _ _ _ (by decide), get_orIn_other _ _ _ _ _ _ (by decide), get_orIn_other _ _ _ _ _ _ (by decide), get_orIn_other _ _ _ _ _ _ (by decide),
      get_orIn_other _ _ _ _ _ _ (by decide), get_orIn_zero _ _ _ _ (by decide) (by omega) (get_zero _ _)]
  · rw [get_orIn_other _ _ _ _ _ _ (by decide), get_orIn_other _ _ _ _ _ _ (by decide), get_orIn_other _ _ _ _ _ _ (by decide), get_orIn_other _ _ _ _ _ _ (by decide),
      get_orIn_zero _ _ _ _ (by decide) (by omega)]
    rw [get_orIn_other _ _ _ _ _ _ (by decide), get_zero]
  · rw [get_orIn_other _ _ _ _ _ _ (by decide), get_orIn_other _ _ _ _ _ _ (by decide), get_orIn_other _ _ _ _ _ _ (by decide), get_orIn_zero _ _ _ _ (by decide) (by omega)]
    rw [get_orIn_other _ _ _ _ _ _ (by decide), get_orIn_other _ _ _ _ _ _ (by decide), get_zero]
  · rw [get_orIn_other _ _ _ _ _ _ (by decide), get_orIn_other _ _ _ _ _ _ (by decide), get_orIn_zero _ _ _ _ (by decide) (by omega)]
    rw [get_orIn_other _ _ _ _ _ _ (by decide), get_orIn_other _ _ _ _ _ _ (by decide), get_orIn_other _ _ _ _ _ _ (by decide), get_zero]
  · rw [get_orIn_other _ _ _ _ _ _ (by decide), get_orIn_zero _ _ _ _ (by decide) (by omega)]
    rw [get_orIn_other _ _ _ _ _ _ (by decide), get_orIn_other _ _ _ _ _ _ (by decide), get_orIn_other _ _ _ _ _ _ (by decide), get_orIn_other _ _ _ _ _ _ (by decide), get_zero]
  · rw [get_orIn_zero _ _ _ _ (by decide) (by omega)]
    rw [get_orIn_other _ _ _ _ _ _ (by decide), get_orIn_other _ _ _ _ _ _ (by decide), get_orIn_other _ _ _ _ _ _ (by decide), get_orIn_other _ _ _ _ _ _ (by decide),
      get_orIn_other _ _ _ _ _ _ (by decide), get_zero]

/-- what an accepted initialisation leaves: the source is as told, the fields and the records -/
theorem init_ok (ofs : Nat) (c : Cfg) (w : Bool) (s s' : St) (h : init ofs c w s = some s') (mos sos : Bool) (hm : c.cksel = 3 → mos = true) (hs : c.cksel = 4 → sos = true) :
    Tells (some s'.main) (srcHz c.mosc ofs mos sos s') ∧
    (get 3 28 s'.divcr).toNat = c.fck ∧ (get 3 24 s'.divcr).toNat = c.ick ∧ (get 3 12 s'.divcr).toNat = c.pcka ∧ (get 3 8 s'.divcr).toNat = c.pckb ∧
    (get 3 4 s'.divcr).toNat = c.pckc ∧ (get 3 0 s'.divcr).toNat = c.pckd ∧
    s'.fck = s'.main / 2 ^ c.fck ∧ s'.ick = s'.main / 2 ^ c.ick ∧ s'.pcka = s'.main / 2 ^ c.pcka ∧ s'.pckb = s'.main / 2 ^ c.pckb ∧
    s'.pckc = s'.main / 2 ^ c.pckc ∧ s'.pckd = s'.main / 2 ^ c.pckd := by
  unfold init at h
  by_cases h0 : 7 ≤ c.fck ∨ 7 ≤ c.ick ∨ 7 ≤ c.pcka ∨ 7 ≤ c.pckb ∨ 7 ≤ c.pckc ∨ 7 ≤ c.pckd
  · rw [if_pos h0] at h; cases h
  rw [if_neg h0] at h
  obtain ⟨hf, e1, h⟩ := bind_some h
  obtain ⟨s1, e2, h⟩ := bind_some h
  obtain ⟨s2, e3, h⟩ := map_some h
  unfold mainOsc at e2
  by_cases h1 : 2 ≤ c.mosel ∨ 20000000 < c.mosc
  · rw [if_pos h1] at e2; cases e2
  rw [if_neg h1, Option.some.injEq] at e2
  have q1 : s1.divcr = divReg c ∧ s1.hoco = hf ∧ s1.mosc = c.mosc := by rw [← e2]; exact ⟨rfl, rfl, rfl⟩
  obtain ⟨q1, q2, q3⟩ := q1
  have k : s2.divcr = divReg c ∧ Tells (some s2.main) (srcHz c.mosc ofs mos sos s2) := by
    unfold source at e3
    split at e3
    · cases w
      · cases e3
      · have e3 : some _ = some s2 := e3
        rw [Option.some.injEq] at e3
        subst e3
        refine ⟨q1, ?_⟩
        unfold srcHz
        show Tells (some s1.hoco) (hocoHz ofs)
        rw [q2]
        unfold hocoFreq at e1
        split at e1 <;> first | (cases e1; exact tells_self _) | cases e1
    · rw [Option.some.injEq] at e3; subst e3; exact ⟨q1, tells_self _⟩
    · rw [Option.some.injEq] at e3; subst e3; exact ⟨q1, tells_self _⟩
    · rename_i hc
      rw [Option.some.injEq] at e3; subst e3
      refine ⟨q1, ?_⟩
      unfold srcHz
      show Tells (some s1.mosc) (if mos then some (c.mosc, 1) else none)
      rw [hm hc, q3]; exact tells_self _
    · rename_i hc
      rw [Option.some.injEq] at e3; subst e3
      refine ⟨q1, ?_⟩
      unfold srcHz
      show Tells (some 32768) (if sos then some (32768, 1) else none)
      rw [hs hc]; exact tells_self _
    · cases e3
  obtain ⟨k1, k2⟩ := k
  obtain ⟨f1, f2, f3, f4, f5, f6⟩ := divReg_fields c h0
  have hd : s'.divcr = divReg c := by rw [← h]; exact k1
  have hsrc : srcHz c.mosc ofs mos sos s' = srcHz c.mosc ofs mos sos s2 := by rw [← h]; rfl
  refine ⟨?_, by rw [hd]; exact f1, by rw [hd]; exact f2, by rw [hd]; exact f3, by rw [hd]; exact f4, by rw [hd]; exact f5, by rw [hd]; exact f6, ?_⟩
  · rw [hsrc, ← h]; exact k2
  · rw [← h]; exact ⟨rfl, rfl, rfl, rfl, rfl, rfl⟩

/-- **C95, renesas_ra4**: FCLK, ICLK, PCLKA and PCLKB are as told.  What is missing: PCLKC, PCLKD (pclk_wrong), IWDTCLK (iwdt_wrong), the crystals when nothing started them (mosc_stopped) -/
theorem freq_partial (ofs : Nat) (c : Cfg) (w : Bool) (s s' : St) (h : init ofs c w s = some s') (mos sos : Bool) (hm : c.cksel = 3 → mos = true) (hs : c.cksel = 4 → sos = true)
    (i : Nat) (hi : i ≤ 3) : Tells (getFreq s' i) (hw c.mosc ofs mos sos s' i) := by
  obtain ⟨k, f1, f2, f3, f4, -, -, g1, g2, g3, g4, -, -⟩ := init_ok _ _ _ _ _ h mos sos hm hs
  match i, hi with
  | 0, _ =>
    show Tells (some s'.ick) (Hz.div _ (2 ^ (get 3 24 s'.divcr).toNat))
    rw [f2, g2]; exact tells_div k (Nat.two_pow_pos _)
  | 1, _ =>
    show Tells (some s'.fck) (Hz.div _ (2 ^ (get 3 28 s'.divcr).toNat))
    rw [f1, g1]; exact tells_div k (Nat.two_pow_pos _)
  | 2, _ =>
    show Tells (some s'.pcka) (Hz.div _ (2 ^ (get 3 12 s'.divcr).toNat))
    rw [f3, g3]; exact tells_div k (Nat.two_pow_pos _)
  | 3, _ =>
    show Tells (some s'.pckb) (Hz.div _ (2 ^ (get 3 8 s'.divcr).toNat))
    rw [f4, g4]; exact tells_div k (Nat.two_pow_pos _)

/-- settings that are accepted: those of the Arduino UNO R4, HOCO at 48 MHz -/
def uno : Cfg := ⟨0, 0, 0, 0, 1, 0, 0, 1, 0, 0⟩
def reset : St := ⟨0x44044444#32, 1, fun _ => 0xffffffff#32, 0, 0, 0, 0, 0, 0, 0, 0, 0⟩

/-- **C95 refuted, renesas_ra4**: PCLKC is told as PCLKB -/
theorem pclk_wrong : ∃ s', init 4 uno true reset = some s' ∧ getFreq s' 3 = some 24000000 ∧ hw 0 4 false false s' 3 = some (48000000, 1 * 2 ^ 1) ∧
    getFreq s' 4 = some 24000000 ∧ hw 0 4 false false s' 4 = some (48000000, 1 * 2 ^ 0) := by
  refine ⟨_, rfl, ?_, ?_, ?_, ?_⟩ <;> decide

/-- **C95 refuted, renesas_ra4**: PCLKD is told as PCLKC, whatever the settings -/
theorem pclkd_wrong (ofs : Nat) (c : Cfg) (w : Bool) (s s' : St) (h : init ofs c w s = some s') (mos sos : Bool) (hm : c.cksel = 3 → mos = true) (hs : c.cksel = 4 → sos = true) :
    Tells (getFreq s' 5) (hw c.mosc ofs mos sos s' 4) ∧ Tells (getFreq s' 4) (hw c.mosc ofs mos sos s' 3) := by
  obtain ⟨k, -, -, -, f4, f5, -, -, -, -, g4, g5, -⟩ := init_ok _ _ _ _ _ h mos sos hm hs
  constructor
  · show Tells (some s'.pckc) (Hz.div _ (2 ^ (get 3 4 s'.divcr).toNat))
    rw [f5, g5]; exact tells_div k (Nat.two_pow_pos _)
  · show Tells (some s'.pckb) (Hz.div _ (2 ^ (get 3 8 s'.divcr).toNat))
    rw [f4, g4]; exact tells_div k (Nat.two_pow_pos _)

/-- **C95 refuted, renesas_ra4**: IWDTCLK is told as 15 MHz, it is 15 kHz -/
theorem iwdt_wrong (x ofs : Nat) (mos sos : Bool) (s : St) : getFreq s 14 = some 15000000 ∧ hw x ofs mos sos s 14 = some (15000, 1) := ⟨rfl, rfl⟩

/-- **C95 refuted, renesas_ra4**: the main crystal is chosen and told though nothing starts it -/
theorem mosc_stopped : ∃ s', init 4 ⟨0, 16000000, 3, 0, 0, 0, 0, 0, 0, 0⟩ true reset = some s' ∧ getFreq s' 0 = some 16000000 ∧ hw 16000000 4 false false s' 0 = none := by
  refine ⟨_, rfl, ?_, ?_⟩ <;> decide

/-- **C96, renesas_ra4** -/
theorem start_does (m : Nat) (s s' : St) (h : start m s = some s') : ∀ j, on s' j = (decide (j = m) || on s j) := by
  unfold start at h
  by_cases h0 : 127 < m
  · rw [if_pos h0] at h; cases h
  rw [if_neg h0, Option.some.injEq] at h
  subst h
  intro j
  unfold on
  rw [gclr_bit]
  cases decide (j = m) <;> cases gbit s.mstp j <;> rfl

theorem stop_does (m : Nat) (s s' : St) (h : stop m s = some s') : ∀ j, on s' j = (!decide (j = m) && on s j) := by
  unfold stop at h
  by_cases h0 : 127 < m
  · rw [if_pos h0] at h; cases h
  rw [if_neg h0, Option.some.injEq] at h
  subst h
  intro j
  unfold on
  rw [gset_bit]
  cases decide (j = m) <;> cases gbit s.mstp j <;> rfl

theorem gates_accepted (m : Nat) (h : m < 128) (s : St) : (∃ s', start m s = some s') ∧ ∃ s', stop m s = some s' := by
  unfold start stop
  rw [if_neg (by omega), if_neg (by omega)]
  exact ⟨⟨_, rfl⟩, ⟨_, rfl⟩⟩

end Ra4

namespace Pmc

/-- the search never wraps: a multiplier that gives back the frequency gives it exactly -/
theorem mula_exact (p m d : Nat) (hp : p < 2 ^ 32) (hd : 0 < d) (h : mula p m d * m % 2 ^ 32 / d = p) : mula p m d * m / d = p := by
  have h1 : mula p m d * m ≤ p * d % 2 ^ 32 := Nat.div_mul_le_self _ _
  have h2 : p * d % 2 ^ 32 < 2 ^ 32 := Nat.mod_lt _ (by decide)
  rw [Nat.mod_eq_of_lt (by omega)] at h
  exact h

theorem mula_pos (p m d : Nat) (hd : 0 < d) (hp : 0 < p) (h : mula p m d * m / d = p) : 0 < mula p m d := by
  apply Nat.pos_of_ne_zero
  intro h0
  rw [h0, Nat.zero_mul, Nat.zero_div] at h
  omega

/-- the records of the three sources, and what the registers say -/
def Good (x32 : Bool) (x : Nat) (s : St) (css : Nat) : Prop := Tells (some (srcRec css s)) (srcHz x32 x s css)

theorem slow_good (x32 : Bool) : Tells (some (if x32 then 32768 else 32000)) (slowHz x32) := by cases x32 <;> exact tells_self _

theorem rcf_code (f v : Nat) (h : rcf f = some v) : v < 3 ∧ rcHz v = some (f, 1) := by
  unfold rcf at h
  split at h <;> first | (cases h; exact ⟨by decide, rfl⟩) | cases h

theorem mor_rc (v : Nat) (hv : v < 3) : (orIn 3 4 (BitVec.ofNat 32 v) (bset 3 0#32)).getLsbD 24 = false ∧ (get 3 4 (orIn 3 4 (BitVec.ofNat 32 v) (bset 3 0#32))).toNat = v := by
  match v, hv with
  | 0, _ => decide
  | 1, _ => decide
  | 2, _ => decide

theorem main_step (c : Cfg) (w : Bool) (s s' : St) (h : mainck c w s = some s') :
    Tells (some s'.mainck) (mainHz c.mosc s') ∧ 0 < s'.mainck ∧ s'.mainck = c.mosc ∧ s' = { s with mor := s'.mor, mainck := s'.mainck } := by
  unfold mainck at h
  by_cases h0 : 2 ≤ c.mainck
  · rw [if_pos h0] at h; cases h
  rw [if_neg h0] at h
  by_cases h1 : c.mainck = 0
  · rw [if_pos h1] at h
    obtain ⟨v, e1, h⟩ := bind_some h
    cases w
    · cases h
    have h : some _ = some s' := h
    rw [Option.some.injEq] at h
    obtain ⟨r1, r2⟩ := rcf_code _ _ e1
    obtain ⟨m1, m2⟩ := mor_rc v r1
    have a1 : s'.mor = orIn 3 4 (BitVec.ofNat 32 v) (bset 3 0#32) := by rw [← h]
    have a2 : s'.mainck = c.mosc := by rw [← h]
    refine ⟨?_, ?_, a2, by rw [← h]⟩
    · unfold mainHz
      rw [a1, m1, m2, a2]
      show Tells _ (rcHz v)
      rw [r2]
      exact tells_self _
    · rw [a2]
      unfold rcf at e1
      split at e1 <;> first | omega | cases e1
  rw [if_neg h1] at h
  by_cases h2 : c.mosc = 0
  · rw [if_pos h2] at h; cases h
  rw [if_neg h2] at h
  cases w
  · cases h
  have h : some _ = some s' := h
  rw [Option.some.injEq] at h
  have a1 : s'.mor = bclr 3 (bset 24 (bset 0 (bset 3 0#32))) := by rw [← h]
  have a2 : s'.mainck = c.mosc := by rw [← h]
  refine ⟨?_, by omega, a2, by rw [← h]⟩
  unfold mainHz
  rw [a1, a2, show (bclr 3 (bset 24 (bset 0 (bset 3 (0#32 : BitVec 32))))).getLsbD 24 = true by decide, show (bclr 3 (bset 24 (bset 0 (bset 3 (0#32 : BitVec 32))))).getLsbD 0 = true by decide]
  exact tells_self _

/-- the fields of CKGR_PLLAR -/
def pllReg (d m : Nat) : BitVec 32 := orIn 8 0 (BitVec.ofNat 32 d) (orIn 11 16 (BitVec.ofNat 32 m - 1#32) (orIn 6 8 0x3f#32 (bset 29 0#32)))

theorem sub_one (m : Nat) (h : 0 < m) (h2 : m < 2 ^ 32) : BitVec.ofNat 32 m - 1#32 = BitVec.ofNat 32 (m - 1) := by
  apply BitVec.eq_of_toNat_eq
  rw [BitVec.toNat_sub, BitVec.toNat_ofNat, BitVec.toNat_ofNat, BitVec.toNat_ofNat, Nat.mod_eq_of_lt h2, Nat.mod_eq_of_lt (show m - 1 < 2 ^ 32 by omega)]
  omega

theorem pllReg_fields (d m : Nat) (hd : d < 256) (hm : 0 < m) (hm2 : m < 2048) : (get 8 0 (pllReg d m)).toNat = d ∧ (get 11 16 (pllReg d m)).toNat = m - 1 := by
  unfold pllReg
  rw [sub_one m hm (by omega)]
  constructor
  · rw [get_orIn_zero _ _ _ _ (by decide) (by omega)]
    rw [get_orIn_other _ _ _ _ _ _ (by decide)]
    decide
  · rw [get_orIn_other _ _ _ _ _ _ (by decide), get_orIn_zero _ _ _ _ (by decide) (by omega)]
    decide

theorem plla_step (c : Cfg) (w : Bool) (x : Nat) (s s' : St) (h : plla c w s = some s') (hp : c.plla < 2 ^ 32) (hm : 0 < s.mainck) (hx : mainHz x s = some (s.mainck, 1)) :
    Tells (some s'.pllack) (pllaHz x s') ∧ s' = { s with pllar := s'.pllar, pllack := s'.pllack } := by
  unfold plla at h
  by_cases h0 : c.plla / 2 < s.mainck
  · rw [if_pos h0] at h; cases h
  rw [if_neg h0] at h
  obtain ⟨d, e1, h⟩ := bind_some h
  by_cases h1 : 2048 ≤ mula c.plla s.mainck d
  · rw [if_pos h1] at h; cases h
  rw [if_neg h1] at h
  cases w
  · cases h
  have h : some _ = some s' := h
  rw [Option.some.injEq] at h
  have hd := List.mem_of_find?_eq_some e1
  have he := List.find?_some e1
  simp only [decide_eq_true_eq] at he
  simp only [List.mem_map, List.mem_range] at hd
  obtain ⟨j, hj, hd⟩ := hd
  have he := mula_exact _ _ _ hp (by omega) he
  have hpos := mula_pos _ _ _ (by omega) (show 0 < c.plla by omega) he
  -- a multiplier of 1 is not reachable: the frequency is at least twice the source
  have h2 : 2 ≤ mula c.plla s.mainck d := by
    rcases Nat.lt_or_ge (mula c.plla s.mainck d) 2 with hlt | hge
    · have h3 : mula c.plla s.mainck d = 1 := by omega
      rw [h3, Nat.one_mul] at he
      have := Nat.div_le_self s.mainck d
      omega
    · exact hge
  obtain ⟨f1, f2⟩ := pllReg_fields d (mula c.plla s.mainck d) (by omega) hpos (by omega)
  have a1 : s'.pllar = pllReg d (mula c.plla s.mainck d) := by rw [← h]; rfl
  have a2 : s'.pllack = c.plla := by rw [← h]
  have a3 : mainHz x s' = mainHz x s := by rw [← h]; rfl
  refine ⟨?_, by rw [← h]⟩
  unfold pllaHz
  rw [a1, f1, f2, if_neg (by omega), a3, hx, a2]
  refine ⟨_, _, rfl, by show 0 < 1 * d; omega, ?_⟩
  show some c.plla = some (s.mainck * (mula c.plla s.mainck d - 1 + 1) / (1 * d))
  rw [Nat.sub_add_cancel hpos, Nat.one_mul, Nat.mul_comm, he]

theorem upll_step (c : Cfg) (w : Bool) (s s' : St) (h : upll c w s = some s') :
    (c.upll ≠ 0 → Tells (some s'.upll) (upllHz s')) ∧ (∀ k, k ≠ 13 → s'.mckr.getLsbD k = s.mckr.getLsbD k) ∧ s' = { s with mckr := s'.mckr, upll := s'.upll, uen := s'.uen } := by
  unfold upll at h
  by_cases h0 : 3 ≤ c.upll
  · rw [if_pos h0] at h; cases h
  rw [if_neg h0] at h
  by_cases h1 : c.upll = 0
  · rw [if_pos h1, Option.some.injEq] at h
    exact ⟨fun hc => absurd h1 hc, by intro k _; rw [← h], by rw [← h]⟩
  rw [if_neg h1] at h
  cases w
  · cases h
  have h : some _ = some s' := h
  rw [Option.some.injEq] at h
  by_cases h2 : c.upll = 2
  · rw [if_pos h2] at h
    have a1 : s'.mckr = bset 13 s.mckr := by rw [← h]
    refine ⟨fun _ => ?_, by intro k hk; rw [a1, bset_ne _ _ _ hk], by rw [← h]⟩
    have a2 : s'.upll = 240000000 := by rw [← h]
    have a3 : s'.uen = true := by rw [← h]
    unfold upllHz
    rw [a1, a2, a3, bset_same _ _ (by decide)]
    exact ⟨480000000, 2, rfl, by decide, rfl⟩
  · rw [if_neg h2] at h
    have a1 : s'.mckr = bclr 13 s.mckr := by rw [← h]
    refine ⟨fun _ => ?_, by intro k hk; rw [a1, bclr_ne _ _ _ hk], by rw [← h]⟩
    have a2 : s'.upll = 480000000 := by rw [← h]
    have a3 : s'.uen = true := by rw [← h]
    unfold upllHz
    rw [a1, a2, a3, bclr_same _ _]
    exact ⟨480000000, 1, rfl, by decide, rfl⟩

theorem pres_code (d v : Nat) (h : presCode d = some v) : v < 8 ∧ presDiv v = d ∧ 0 < d := by
  unfold presCode at h
  split at h <;> first | (cases h; decide) | cases h
theorem mdiv_code (d v : Nat) (h : mdivCode d = some v) : v < 4 ∧ mdivDiv v = d ∧ 0 < d := by
  unfold mdivCode at h
  split at h <;> first | (cases h; decide) | cases h

/-- the last step: what it writes, and that the sources do not move -/
theorem hclk_step (c : Cfg) (w : Bool) (x32 : Bool) (x : Nat) (s s' : St) (h : hclk c w s = some s') :
    c.css < 4 ∧ 0 < c.pres ∧ 0 < c.mdiv ∧ (get 2 0 s'.mckr).toNat = c.css ∧ presDiv (get 3 4 s'.mckr).toNat = c.pres ∧ mdivDiv (get 2 8 s'.mckr).toNat = c.mdiv ∧
    s'.hclk = srcRec c.css s / c.pres ∧ s'.mck = srcRec c.css s / (c.pres * c.mdiv) ∧ (∀ k, srcRec k s' = srcRec k s) ∧ (∀ k, srcHz x32 x s' k = srcHz x32 x s k) ∧ s'.slck = s.slck := by
  unfold hclk at h
  by_cases h0 : 4 ≤ c.css
  · rw [if_pos h0] at h; cases h
  rw [if_neg h0] at h
  obtain ⟨p, e1, h⟩ := bind_some h
  obtain ⟨m, e2, h⟩ := bind_some h
  cases w
  · cases h
  have h : some _ = some s' := h
  rw [Option.some.injEq] at h
  obtain ⟨p1, p2, p3⟩ := pres_code _ _ e1
  obtain ⟨m1, m2, m3⟩ := mdiv_code _ _ e2
  have a1 : s'.mckr = put 2 0 (BitVec.ofNat 32 c.css) (put 2 8 (BitVec.ofNat 32 m) (put 3 4 (BitVec.ofNat 32 p) s.mckr)) := by rw [← h]
  have a13 : s'.mckr.getLsbD 13 = s.mckr.getLsbD 13 := by
    rw [a1, put_bit _ _ _ _ _ (by decide), put_bit _ _ _ _ _ (by decide), put_bit _ _ _ _ _ (by decide)]
  refine ⟨by omega, p3, m3, ?_, ?_, ?_, by rw [← h], by rw [← h], ?_, ?_, by rw [← h]⟩
  · rw [a1, get_put_nat _ _ _ _ (by decide) (by omega)]
  · rw [a1, get_put_other _ _ _ _ _ _ (by decide), get_put_other _ _ _ _ _ _ (by decide), get_put_nat _ _ _ _ (by decide) (by omega)]; exact p2
  · rw [a1, get_put_other _ _ _ _ _ _ (by decide), get_put_nat _ _ _ _ (by decide) (by omega)]; exact m2
  · intro k; rw [← h]; unfold srcRec; rfl
  · intro k
    unfold srcHz
    split
    · rfl
    · rw [← h]; rfl
    · rw [← h]; rfl
    · unfold upllHz; rw [a13, ← h]

/-- **C95, atmel_pmc**: what an accepted initialisation leaves, for the sources it sets -/
theorem init_good (x32 : Bool) (c : Cfg) (w : Nat → Bool) (s s' : St) (h : init x32 c w s = some s') (hp : c.plla < 2 ^ 32) :
    (Tells (some s'.hclk) (hclkHz x32 c.mosc s') ∨ (c.css = 2 ∧ c.plla = 0) ∨ (c.css = 3 ∧ c.upll = 0)) ∧
    s'.slck = (if x32 then 32768 else 32000) ∧ s'.mck = s'.hclk / c.mdiv ∧ mdivDiv (get 2 8 s'.mckr).toNat = c.mdiv ∧ 0 < c.mdiv ∧
    (∀ k, k < 4 → (k = 2 → c.plla ≠ 0) → (k = 3 → c.upll ≠ 0) → Good x32 c.mosc s' k) := by
  obtain ⟨s1, e1, h⟩ := bind_some h
  obtain ⟨s2, e2, h⟩ := bind_some h
  obtain ⟨s3, e3, h⟩ := bind_some h
  obtain ⟨m1, m2, m3, m4⟩ := main_step _ _ _ _ e1
  have hx : mainHz c.mosc s1 = some (s1.mainck, 1) := by
    unfold mainHz
    obtain ⟨n, d, r1, r2, r3⟩ := m1
    unfold mainHz at r1
    unfold mainck at e1
    by_cases h0 : 2 ≤ c.mainck
    · rw [if_pos h0] at e1; cases e1
    rw [if_neg h0] at e1
    by_cases h1 : c.mainck = 0
    · rw [if_pos h1] at e1
      obtain ⟨v, e0, e1⟩ := bind_some e1
      cases hw0 : w 0 <;> rw [hw0] at e1
      · cases e1
      have e1 : some _ = some s1 := e1
      rw [Option.some.injEq] at e1
      obtain ⟨q1, q2⟩ := rcf_code _ _ e0
      obtain ⟨q3, q4⟩ := mor_rc v q1
      have a1 : s1.mor = orIn 3 4 (BitVec.ofNat 32 v) (bset 3 0#32) := by rw [← e1]
      rw [a1, q3, q4, m3]
      exact q2
    · rw [if_neg h1] at e1
      by_cases h2 : c.mosc = 0
      · rw [if_pos h2] at e1; cases e1
      rw [if_neg h2] at e1
      cases hw0 : w 0 <;> rw [hw0] at e1
      · cases e1
      have e1 : some _ = some s1 := e1
      rw [Option.some.injEq] at e1
      have a1 : s1.mor = bclr 3 (bset 24 (bset 0 (bset 3 0#32))) := by rw [← e1]
      rw [a1, m3, show (bclr 3 (bset 24 (bset 0 (bset 3 (0#32 : BitVec 32))))).getLsbD 24 = true by decide, show (bclr 3 (bset 24 (bset 0 (bset 3 (0#32 : BitVec 32))))).getLsbD 0 = true by decide]
      rfl
  have p : (c.plla ≠ 0 → Tells (some s2.pllack) (pllaHz c.mosc s2)) ∧ s2 = { s1 with pllar := s2.pllar, pllack := s2.pllack } := by
    by_cases hz : c.plla ≠ 0
    · rw [if_pos hz] at e2
      obtain ⟨p1, p2⟩ := plla_step c (w 1) c.mosc s1 s2 e2 hp m2 hx
      exact ⟨fun _ => p1, p2⟩
    · rw [if_neg hz, Option.some.injEq] at e2
      exact ⟨fun h => absurd h hz, by rw [← e2]⟩
  obtain ⟨p1, p2⟩ := p
  obtain ⟨u1, u2, u3⟩ := upll_step _ _ _ _ e3
  obtain ⟨t0, t1, t2, t3, t4, t5, t6, t7, t8, t9, t10⟩ := hclk_step c (w 3) x32 c.mosc s3 s' h
  have b1 : s3.mainck = s1.mainck := by rw [u3, p2]
  have b2 : s3.pllack = s2.pllack := by rw [u3]
  have b3 : mainHz c.mosc s3 = mainHz c.mosc s1 := by rw [u3, p2]; rfl
  have b4 : pllaHz c.mosc s3 = pllaHz c.mosc s2 := by rw [u3]; rfl
  have b5 : s3.slck = (if x32 then 32768 else 32000) := by rw [u3, p2, m4]; rfl
  have good : ∀ k, k < 4 → (k = 2 → c.plla ≠ 0) → (k = 3 → c.upll ≠ 0) → Good x32 c.mosc s' k := by
    intro k hk g2 g3
    unfold Good
    rw [t8, t9]
    match k, hk with
    | 0, _ =>
      show Tells (some s3.slck) (slowHz x32)
      rw [b5]; exact slow_good x32
    | 1, _ =>
      show Tells (some s3.mainck) (mainHz c.mosc s3)
      rw [b1, b3]; exact m1
    | 2, _ =>
      show Tells (some s3.pllack) (pllaHz c.mosc s3)
      rw [b2, b4]; exact p1 (g2 rfl)
    | 3, _ => exact u1 (g3 rfl)
  refine ⟨?_, by rw [t10, b5], ?_, t5, t2, good⟩
  · by_cases c2 : c.css = 2 ∧ c.plla = 0
    · exact .inr (.inl c2)
    by_cases c3 : c.css = 3 ∧ c.upll = 0
    · exact .inr (.inr c3)
    left
    have := good c.css t0 (fun e hz => c2 ⟨e, hz⟩) (fun e hz => c3 ⟨e, hz⟩)
    unfold hclkHz
    rw [t3, t4, t6, ← t8]
    exact tells_div this t1
  · rw [t7, t6, Nat.div_div_eq_div_mul]

/-- **C95, atmel_pmc**: HCLK, SCLK, SYSTICK and MCK are as told, when the source chosen was set by the same initialisation -/
theorem freq_partial (x32 : Bool) (c : Cfg) (w : Nat → Bool) (s s' : St) (h : init x32 c w s = some s') (hp : c.plla < 2 ^ 32) (h2 : c.css = 2 → c.plla ≠ 0) (h3 : c.css = 3 → c.upll ≠ 0)
    (i : Nat) (hi : i = 0 ∨ i = 1 ∨ i = 2 ∨ i = 4) : Tells (getFreq s' i) (hw x32 c.mosc s' i) := by
  obtain ⟨g1, g2, g3, g4, g5, -⟩ := init_good _ _ _ _ _ h hp
  have g1 : Tells (some s'.hclk) (hclkHz x32 c.mosc s') := by
    rcases g1 with g | ⟨a, b⟩ | ⟨a, b⟩
    · exact g
    · exact absurd b (h2 a)
    · exact absurd b (h3 a)
  rcases hi with rfl | rfl | rfl | rfl
  · exact g1
  · show Tells (some s'.slck) (slowHz x32)
    rw [g2]; exact slow_good x32
  · exact tells_div g1 (by decide)
  · show Tells (some s'.mck) (Hz.div _ (mdivDiv (get 2 8 s'.mckr).toNat))
    rw [g3, g4]; exact tells_div g1 g5

/-- **C95, atmel_pmc**: a programmable clock is as told when it is set up -/
theorem pck_right (x32 : Bool) (c : Cfg) (w : Nat → Bool) (s s1 s' : St) (h : init x32 c w s = some s1) (hp : c.plla < 2 ^ 32) (hu : c.upll ≠ 0) (hpl : c.plla ≠ 0) (i presc css : Nat)
    (h' : pckEnable i presc css s1 = some s') : Tells (getFreq s' (16 + i)) (hw x32 c.mosc s' (16 + i)) ∧ s'.pckOn i = true ∧ (∀ j, j ≠ i → s'.pckOn j = s1.pckOn j ∧ s'.pck j = s1.pck j ∧ s'.pckr j = s1.pckr j) := by
  obtain ⟨-, -, -, -, -, g⟩ := init_good _ _ _ _ _ h hp
  unfold pckEnable at h'
  by_cases h0 : 8 ≤ i ∨ presc = 0 ∨ 256 < presc ∨ 5 ≤ css
  · rw [if_pos h0] at h'; cases h'
  rw [if_neg h0, Option.some.injEq] at h'
  have a1 : s'.pckr = Rp.set s1.pckr i (orIn 3 0 (BitVec.ofNat 32 css) (orIn 8 4 (BitVec.ofNat 32 (presc - 1)) 0#32)) := by rw [← h']
  have a2 : s'.pck = Rp.set s1.pck i ((if css = 4 then s1.mck else srcRec css s1) / presc) := by rw [← h']
  have a3 : s'.pckOn = Rp.set s1.pckOn i true := by rw [← h']
  refine ⟨?_, by rw [a3, Rp.set_same], fun j hj => ⟨by rw [a3, Rp.set_ne _ _ _ _ hj], by rw [a2, Rp.set_ne _ _ _ _ hj], by rw [a1, Rp.set_ne _ _ _ _ hj]⟩⟩
  have e1 : getFreq s' (16 + i) = some (s'.pck i) := by
    unfold getFreq
    rw [if_neg (by omega), if_neg (by omega), if_neg (by omega), if_neg (by omega), if_pos (by omega), Nat.add_sub_cancel_left]
  have e2 : hw x32 c.mosc s' (16 + i) = pckHz x32 c.mosc s' i := by
    unfold hw
    rw [if_neg (by omega), if_neg (by omega), if_neg (by omega), if_neg (by omega), if_pos (by omega), Nat.add_sub_cancel_left]
  have f1 : (get 3 0 (s'.pckr i)).toNat = css := by
    rw [a1, Rp.set_same, get_orIn_zero _ _ _ _ (by decide) (by omega)]
    rw [get_orIn_other _ _ _ _ _ _ (by decide), get_zero]
  have f2 : (get 8 4 (s'.pckr i)).toNat = presc - 1 := by
    rw [a1, Rp.set_same, get_orIn_other _ _ _ _ _ _ (by decide), get_orIn_zero _ _ _ _ (by decide) (by omega) (get_zero _ _)]
  rw [e1, e2, a2, Rp.set_same]
  unfold pckHz
  show Tells _ (if 5 ≤ (get 3 0 (s'.pckr i)).toNat then none else Hz.div (if (get 3 0 (s'.pckr i)).toNat = 4 then mckHz x32 c.mosc s' else srcHz x32 c.mosc s' (get 3 0 (s'.pckr i)).toNat) ((get 8 4 (s'.pckr i)).toNat + 1))
  rw [f1, f2, if_neg (show ¬ 5 ≤ css by omega), Nat.sub_add_cancel (show 1 ≤ presc by omega)]
  refine tells_div ?_ (show 0 < presc by omega)
  by_cases h4 : css = 4
  · rw [if_pos h4, if_pos h4]
    have hm : mckHz x32 c.mosc s' = mckHz x32 c.mosc s1 := by rw [← h']; rfl
    rw [hm]
    exact freq_partial x32 c w s s1 h hp (fun _ => hpl) (fun _ => hu) 4 (by decide)
  · rw [if_neg h4, if_neg h4]
    have hm : srcHz x32 c.mosc s' css = srcHz x32 c.mosc s1 css := by rw [← h']; rfl
    rw [hm]
    exact g css (by omega) (fun _ => hpl) (fun _ => hu)

def reset : St := ⟨8#32, 0x3f00#32, false, 1#32, fun _ => 0#32, fun _ => false, fun _ => false, 0, 0, 0, 0, 0, 0, fun _ => 0⟩

/-- 300 MHz from a crystal of 12 MHz, 150 MHz for MCK: the settings of a SAM E70 Xplained -/
theorem sample : (init true ⟨1, 12000000, 300000000, 1, 2, 1, 2⟩ (fun _ => true) reset).map (fun s => (getFreq s 0, getFreq s 4, pllaHz 12000000 s)) =
    some (some 300000000, some 150000000, some (12000000 * 25, 1 * 1)) := by decide +kernel

/-- **C95 refuted, atmel_pmc**: UPLL chosen but disabled: after an initialisation that enabled it the old frequency is told, of a clock that is stopped -/
theorem upll_stale : ∃ s1 s2, init true ⟨1, 12000000, 0, 1, 3, 2, 2⟩ (fun _ => true) reset = some s1 ∧ init true ⟨1, 12000000, 0, 0, 3, 2, 2⟩ (fun _ => true) s1 = some s2 ∧
    getFreq s2 0 = some 240000000 ∧ hw true 12000000 s2 0 = none := by
  refine ⟨_, _, rfl, rfl, ?_, ?_⟩ <;> decide

/-- **C96, atmel_pmc**: for the peripherals below 64 -/
theorem enable_partial (n pid : Nat) (s s' : St) (h : enable n pid s = some s') (hp : pid < 64) : ∀ j, s'.pidOn j = (decide (j = pid) || s.pidOn j) := by
  unfold enable at h
  by_cases h0 : n ≤ pid
  · rw [if_pos h0] at h; cases h
  rw [if_neg h0, Option.some.injEq] at h
  subst h
  intro j
  show Rp.set s.pidOn (pid % 64) true j = _
  rw [Nat.mod_eq_of_lt hp]
  by_cases hj : j = pid
  · rw [hj, Rp.set_same, decide_eq_true rfl]; rfl
  · rw [Rp.set_ne _ _ _ _ hj, decide_eq_false hj]; rfl

theorem disable_partial (n pid : Nat) (s s' : St) (h : disable n pid s = some s') (hp : pid < 64) : ∀ j, s'.pidOn j = (!decide (j = pid) && s.pidOn j) := by
  unfold disable at h
  by_cases h0 : n ≤ pid
  · rw [if_pos h0] at h; cases h
  rw [if_neg h0, Option.some.injEq] at h
  subst h
  intro j
  show Rp.set s.pidOn (pid % 64) false j = _
  rw [Nat.mod_eq_of_lt hp]
  by_cases hj : j = pid
  · rw [hj, Rp.set_same, decide_eq_true rfl]; rfl
  · rw [Rp.set_ne _ _ _ _ hj, decide_eq_false hj]; rfl

/-- **C96 refuted, atmel_pmc**: the SAM x7x has peripherals up to 73 (mach-atsamx7x/picoRTOS_device.h: DEVICE_PID_COUNT 74), the identifier is cut to 6 bits: enabling 69 enables 5 -/
theorem pid_wrong (s : St) : ∃ s', enable 74 69 s = some s' ∧ s'.pidOn 5 = true ∧ s'.pidOn 69 = s.pidOn 69 :=
  ⟨_, rfl, Rp.set_same s.pidOn 5 true, Rp.set_ne s.pidOn 5 69 true (by decide)⟩

/-- **C96 refuted, atmel_pmc**: a programmable clock is never stopped -/
theorem pck_runs (i : Nat) (s s' : St) (h : pckDisable i s = some s') : s'.pckOn = s.pckOn := by
  unfold pckDisable at h
  by_cases h0 : 8 ≤ i
  · rw [if_pos h0] at h; cases h
  · rw [if_neg h0, Option.some.injEq] at h; rw [h]

end Pmc

end Pico.Clock
