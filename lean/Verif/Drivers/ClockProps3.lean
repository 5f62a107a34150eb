import Verif.Drivers.ClockProps2
/-
C95, C96: tinyavr, f28379x, stm8.
-/
namespace Pico.Clock
open Field

namespace Tiny

theorem osc_hz (fuse : BitVec 8) (f : Nat) (h : osc fuse = some f) : oscHz fuse = some (f, 1) := by
  have e : get 2 0 fuse = fuse &&& 3#8 := by
    unfold Field.get
    rw [BitVec.ushiftRight_zero]
    rfl
  unfold osc at h
  unfold oscHz
  rw [e]
  by_cases h1 : (fuse &&& 3#8) = 1#8
  · rw [if_pos h1] at h; cases h; rw [h1]; rfl
  rw [if_neg h1] at h
  by_cases h2 : (fuse &&& 3#8) = 2#8
  · rw [if_pos h2] at h; cases h; rw [h2]; rfl
  · rw [if_neg h2] at h; cases h

theorem pdiv_code (p d : Nat) (h : pdivs p = some d) : presHw (orIn 4 1 (BitVec.ofNat 8 p) 1#8) = some d ∧ 0 < d := by
  unfold pdivs at h
  split at h <;> first | cases h; decide | cases h

theorem wrA_open (v : BitVec 8) (s : St) (h : s.lock = false) : wrA v s = { s with a := v } := by rw [wrA, h]; rfl
theorem wrB_open (v : BitVec 8) (s : St) (h : s.lock = false) : wrB v s = { s with b := v } := by rw [wrB, h]; rfl

theorem main0 (fuse : BitVec 8) (s : St) (h : s.a = 0#8) : mainHz fuse s = oscHz fuse := by
  unfold mainHz
  rw [h, show (Field.get 2 0 0#8).toNat = 0 by decide]
  rfl
theorem main1 (fuse : BitVec 8) (s : St) (h : s.a = 1#8) : mainHz fuse s = some (32768, 1) := by
  unfold mainHz
  rw [h, show (Field.get 2 0 1#8).toNat = 1 by decide]
  rfl

theorem prescaler_step (c : Cfg) (s s' : St) (h : prescaler c s = some s') (hl : s.lock = false) :
    presHw s'.b = some s'.div ∧ 0 < s'.div ∧ s'.a = s.a ∧ s'.main = s.main ∧ s'.freqsel = s.freqsel ∧ s'.lock = false := by
  unfold prescaler at h
  cases hp : c.presc <;> rw [hp] at h
  · have h : some _ = some s' := h
    rw [Option.some.injEq] at h
    subst h
    rw [wrB_open _ _ hl]
    exact ⟨(show presHw 0#8 = some 1 by decide), Nat.one_pos, rfl, rfl, rfl, hl⟩
  · have h : (pdivs c.pdiv).map _ = some s' := h
    obtain ⟨d, hd, rfl⟩ := map_some h
    obtain ⟨h1, h2⟩ := pdiv_code _ _ hd
    rw [wrB_open _ _ hl]
    exact ⟨h1, h2, rfl, rfl, rfl, hl⟩

/-- **C95, tinyavr**: as long as the registers are not locked, every clock is as told -/
theorem freq_right (fuse : BitVec 8) (c : Cfg) (s s' : St) (h : init fuse c s = some s') (hl : s.lock = false) (i : Nat) (hi : i ≤ 3) : Tells (getFreq s' i) (hw fuse s' i) := by
  obtain ⟨f, hf, h⟩ := bind_some h
  obtain ⟨s1, e1, h⟩ := bind_some h
  obtain ⟨s2, e2, h⟩ := map_some h
  have ho := osc_hz fuse f hf
  -- the source
  have k1 : s1.lock = false ∧ s1.freqsel = f ∧ Tells (some s1.main) (mainHz fuse s1) ∧ (get 2 0 s1.a).toNat < 2 := by
    unfold select at e1
    by_cases h0 : c.clksel = 0
    · rw [if_pos h0, Option.some.injEq] at e1
      subst e1
      rw [wrA_open 0#8 { s with freqsel := f } hl]
      refine ⟨hl, rfl, ?_, (show (Field.get 2 0 0#8).toNat < 2 by decide)⟩
      rw [main0 fuse _ rfl, ho]
      exact tells_self _
    rw [if_neg h0] at e1
    by_cases h1 : c.clksel = 1
    · rw [if_pos h1, Option.some.injEq] at e1
      subst e1
      rw [wrA_open 1#8 { s with freqsel := f } hl]
      refine ⟨hl, rfl, ?_, (show (Field.get 2 0 1#8).toNat < 2 by decide)⟩
      rw [main1 fuse _ rfl]
      exact tells_self _
    · rw [if_neg h1] at e1; cases e1
  obtain ⟨l1, l2, l3, l4⟩ := k1
  -- the output
  have k2 : ∀ b : Bool, (if b then wrA (bset 7 s1.a) s1 else s1).lock = false ∧ (if b then wrA (bset 7 s1.a) s1 else s1).freqsel = f ∧
      (if b then wrA (bset 7 s1.a) s1 else s1).main = s1.main ∧ get 2 0 (if b then wrA (bset 7 s1.a) s1 else s1).a = get 2 0 s1.a := by
    intro b
    cases b
    · exact ⟨l1, l2, rfl, rfl⟩
    · show (wrA (bset 7 s1.a) s1).lock = false ∧ _ ∧ _ ∧ get 2 0 (wrA (bset 7 s1.a) s1).a = _
      rw [wrA_open _ _ l1]
      exact ⟨l1, l2, rfl, get_bset_other _ _ _ _ (by decide)⟩
  obtain ⟨m1, m2, m3, m4⟩ := k2 c.clkout
  obtain ⟨n1, n2, n3, n4, n5, n6⟩ := prescaler_step _ _ _ e2 m1
  have fin : ∀ t : St, t.a = s2.a → t.b = s2.b → t.main = s2.main → t.div = s2.div → t.freqsel = s2.freqsel → Tells (getFreq t i) (hw fuse t i) := by
    intro t a1 a2 a3 a4 a5
    match i, hi with
    | 0, _ =>
      show Tells (some (t.main / t.div)) ((presHw t.b).bind fun d => Hz.div (mainHz fuse t) d)
      rw [a2, n1, a3, a4, n4, m3]
      refine tells_div ?_ n2
      have : mainHz fuse t = mainHz fuse s1 := by unfold mainHz; rw [a1, n3, m4]
      rw [this]
      exact l3
    | 1, _ => exact tells_self _
    | 2, _ => exact ⟨32768, 32, rfl, by decide, rfl⟩
    | 3, _ =>
      show Tells (some t.freqsel) (oscHz fuse)
      rw [a5, n5, m2, ho]
      exact tells_self _
  cases hc : c.lock <;> rw [hc] at h
  · exact fin s' (by rw [← h]; rfl) (by rw [← h]; rfl) (by rw [← h]; rfl) (by rw [← h]; rfl) (by rw [← h]; rfl)
  · exact fin s' (by rw [← h]; rfl) (by rw [← h]; rfl) (by rw [← h]; rfl) (by rw [← h]; rfl) (by rw [← h]; rfl)

/-- a state, and settings that are accepted -/
def reset : St := ⟨0#8, 0x11#8, false, 0, 0, 1⟩
theorem sample : (init 2#8 ⟨0, true, true, 8, false⟩ reset).map (fun s => (getFreq s 0, hw 2#8 s 0)) = some (some 3333333, some (20000000, 6)) := by decide

/-- **C95 refuted, tinyavr**: after an initialisation that locked the registers, a second one changes nothing in the hardware, returns 0 and is told -/
theorem locked_wrong : ∃ s1 s2, init 2#8 ⟨0, false, false, 0, true⟩ reset = some s1 ∧ init 2#8 ⟨0, false, true, 5, false⟩ s1 = some s2 ∧
    getFreq s2 0 = some 312500 ∧ hw 2#8 s2 0 = some (20000000, 1) := by
  refine ⟨_, _, rfl, rfl, ?_, ?_⟩ <;> decide

end Tiny

namespace F28

/-- the candidates with a divider of 2 -/
def low : List (Nat × Nat) := (List.range 127).map fun i => (2, i + 1)

theorem cands_low : ∃ m, cands = low ++ m := by
  have h1 : List.range 62 = 0 :: (List.range 61).map (· + 1) := by rw [List.range_succ_eq_map]
  unfold cands low
  rw [h1, List.flatMap_cons]
  exact ⟨_, rfl⟩

/-- **C95, f28379x**: for the rates that are half a multiple of the source, every clock is as told.  What is missing: the other rates (div3_wrong), and INTOSC2 after the crystal (intosc_stale) -/
theorem freq_partial (c : Cfg) (w : Bool) (s s' : St) (h : init c w s = some s') (hs : c.clksrc = 0 → s.xtal = false) (hf : c.freq ≤ 33000000)
    (hr : ∃ k, 1 ≤ k ∧ k ≤ 127 ∧ c.pll = (if c.clksrc = 1 then c.freq else 10000000) * k / 2) (i : Nat) (hi : i ≤ 4) : Tells (getFreq s' i) (hw c.freq s' i) := by
  obtain ⟨k, k1, k2, hk⟩ := hr
  unfold init at h
  by_cases h0 : 2 ≤ c.clksrc
  · rw [if_pos h0] at h; cases h
  rw [if_neg h0] at h
  -- the source
  generalize hsrc : (if c.clksrc = 1 then { s with clksrc := c.freq, xtal := true } else { s with clksrc := 10000000 } : St) = s1 at h
  have p1 : s1.clksrc = (if c.clksrc = 1 then c.freq else 10000000) ∧ (if s1.xtal then c.freq else 10000000) = s1.clksrc ∧ s1.clksrc ≤ 33000000 := by
    by_cases hc : c.clksrc = 1
    · rw [if_pos hc] at hsrc; rw [← hsrc, if_pos hc]; exact ⟨rfl, rfl, hf⟩
    · rw [if_neg hc] at hsrc
      have := hs (by omega)
      rw [← hsrc, if_neg hc]
      refine ⟨rfl, ?_, (show 10000000 ≤ 33000000 by decide)⟩
      show (if s.xtal then c.freq else 10000000) = 10000000
      rw [this]; rfl
  obtain ⟨p2, p3, p4⟩ := p1
  rw [← p2] at hk
  obtain ⟨⟨d, m⟩, e1, h⟩ := bind_some h
  have hb : ∀ m, m ≤ 127 → s1.clksrc * m % 2 ^ 32 = s1.clksrc * m := by
    intro m hm
    apply Nat.mod_eq_of_lt
    calc s1.clksrc * m ≤ 33000000 * 127 := Nat.mul_le_mul p4 hm
      _ < 2 ^ 32 := by decide
  obtain ⟨r, hr⟩ := cands_low
  have hin : (d, m) ∈ low := by
    rw [hr, List.find?_append] at e1
    cases hl : low.find? (fun c_1 => decide (c.pll = s1.clksrc * c_1.2 % 2 ^ 32 / c_1.1)) with
    | none =>
      have := List.find?_eq_none.1 hl (2, k) (by unfold low; exact List.mem_map.2 ⟨k - 1, List.mem_range.2 (by omega), by rw [Nat.sub_add_cancel k1]⟩)
      exact absurd (by simp only [decide_eq_true_eq]; rw [hb k k2]; exact hk) this
    | some q =>
      rw [hl] at e1
      have e1 : some q = some (d, m) := e1
      rw [Option.some.injEq] at e1
      rw [← e1]
      exact List.mem_of_find?_eq_some hl
  have he := List.find?_some e1
  simp only [decide_eq_true_eq] at he
  unfold low at hin
  simp only [List.mem_map, List.mem_range, Prod.mk.injEq] at hin
  obtain ⟨j, hj, hd, hm⟩ := hin
  cases w
  · cases h
  have h : some _ = some s' := h
  rw [Option.some.injEq] at h
  have hsys : Tells (some s'.cpuclk) (sysHz c.freq s') := by
    rw [← h]
    unfold sysHz
    show Tells (some c.pll) (some ((if s1.xtal then c.freq else 10000000) * (m % 128), if (d - 1) % 64 = 0 then 1 else 2 * ((d - 1) % 64)))
    rw [p3, Nat.mod_eq_of_lt (show m < 128 by omega), ← hd]
    refine ⟨_, _, rfl, by decide, ?_⟩
    rw [he, hb m (by omega), ← hd]
    rfl
  match i, hi with
  | 0, _ => exact hsys
  | 1, _ => exact tells_self _
  | 2, _ => exact tells_self _
  | 3, _ => exact tells_div hsys (by decide)
  | 4, _ => exact tells_div hsys (by decide)

/-- 200 MHz from a crystal of 10 MHz, or of 20 MHz, meets the hypothesis -/
theorem sample : (200000000 = 10000000 * 40 / 2) ∧ (200000000 = 20000000 * 20 / 2) := by decide

/-- **C95 refuted, f28379x**: a divider of 3 is written as 2, which is a division by 4: 50 MHz/3 from 10 MHz is told as asked, the clock is at 12.5 MHz -/
theorem div3_wrong (s : St) (hs : s.xtal = false) : ∃ s', init ⟨0, 0, 16666666⟩ true s = some s' ∧ getFreq s' 0 = some 16666666 ∧ sysHz 0 s' = some (50000000, 4) := by
  have hf : (cands.find? fun c => 16666666 = 10000000 * c.2 % 2 ^ 32 / c.1) = some (3, 5) := by decide +kernel
  refine ⟨{ s with clksrc := 10000000, cpuclk := 16666666, imult := 5, divsel := 2 }, ?_, rfl, ?_⟩
  · unfold init pll
    simp only [show ¬ 2 ≤ 0 by decide, if_false, show ¬ (0 = 1) by decide]
    rw [hf]
    rfl
  · unfold sysHz
    simp only [hs]
    rfl

/-- **C95 refuted, f28379x**: INTOSC2 asked for after the crystal is told but not selected -/
theorem intosc_stale (c : Cfg) (s s' : St) (h : init c true s = some s') (hc : c.clksrc = 0) : s'.xtal = s.xtal ∧ s'.clksrc = 10000000 := by
  unfold init at h
  rw [hc] at h
  simp only [show ¬ 2 ≤ 0 by decide, if_false, show ¬ (0 = 1) by decide] at h
  obtain ⟨_, _, h⟩ := bind_some h
  have h : some _ = some s' := h
  rw [Option.some.injEq] at h
  rw [← h]
  exact ⟨rfl, rfl⟩

/-- **C96, f28379x** -/
theorem enable_does (n k : Nat) (s s' : St) (h : enable n k s = some s') : ∀ j, on s' j = (decide (j = k) || on s j) := by
  unfold enable at h
  by_cases h0 : n ≤ k
  · rw [if_pos h0] at h; cases h
  rw [if_neg h0, Option.some.injEq] at h
  subst h
  intro j
  unfold on
  show (Rp.set s.pclk (k / 32) (bset (k % 32) (s.pclk (k / 32))) (j / 32)).getLsbD (j % 32) = _
  by_cases hb : j / 32 = k / 32
  · rw [hb, Rp.set_same, bset_bit _ _ _ (by omega)]
    congr 1
    exact decide_eq_decide.2 (by omega)
  · rw [Rp.set_ne _ _ _ _ hb, decide_eq_false (by omega), Bool.false_or]

theorem disable_does (n k : Nat) (s s' : St) (h : disable n k s = some s') : ∀ j, on s' j = (!decide (j = k) && on s j) := by
  unfold disable at h
  by_cases h0 : n ≤ k
  · rw [if_pos h0] at h; cases h
  rw [if_neg h0, Option.some.injEq] at h
  subst h
  intro j
  unfold on
  show (Rp.set s.pclk (k / 32) (bclr (k % 32) (s.pclk (k / 32))) (j / 32)).getLsbD (j % 32) = _
  by_cases hb : j / 32 = k / 32
  · rw [hb, Rp.set_same, bclr_bit _ _ _]
    congr 2
    exact decide_eq_decide.2 (by omega)
  · rw [Rp.set_ne _ _ _ _ hb, decide_eq_false (by omega), Bool.not_false, Bool.true_and]

example (s : St) : ∃ s', enable 0x161 0x140 s = some s' := ⟨_, rfl⟩

end F28

namespace Stm8

/-- **C95, stm8**: when the initialisation succeeds every clock is as told -/
theorem freq_right (c : Cfg) (w : Bool) (s s' : St) (h : init c w s = some s') (i : Nat) (hi : i ≤ 2) : Tells (getFreq s' i) (hw c.hse s' i) := by
  unfold init at h
  by_cases h0 : 8 ≤ c.cpudiv
  · rw [if_pos h0] at h; cases h
  rw [if_neg h0] at h
  obtain ⟨s1, e1, h⟩ := map_some h
  have k : Tells (some s1.master) (masterHz c.hse s1) := by
    unfold master at e1
    by_cases c0 : c.ckm = 0
    · rw [if_pos c0] at e1
      by_cases d0 : 4 ≤ c.hsidiv ∨ w = false
      · rw [if_pos d0] at e1; cases e1
      rw [if_neg d0] at e1
      obtain ⟨s2, e2, rfl⟩ := map_some e1
      unfold switch at e2
      by_cases d1 : s.cmsr = 0xe1#8 ∨ s.swen = true
      · rw [if_pos d1, Option.some.injEq] at e2
        subst e2
        unfold masterHz
        show Tells (some (16000000 / 2 ^ c.hsidiv)) (if 0xe1#8 = 0xe1#8 then some (16000000, 2 ^ (get 2 3 (put 2 3 (BitVec.ofNat 8 c.hsidiv) s.ckdivr)).toNat) else _)
        rw [if_pos rfl, get_put_nat _ _ _ _ (by decide) (by omega)]
        exact ⟨_, _, rfl, Nat.two_pow_pos _, rfl⟩
      · rw [if_neg d1] at e2; cases e2
    rw [if_neg c0] at e1
    by_cases c1 : c.ckm = 1
    · rw [if_pos c1] at e1
      by_cases d0 : c.hse < 1000000 ∨ 24000000 < c.hse ∨ w = false
      · rw [if_pos d0] at e1; cases e1
      rw [if_neg d0] at e1
      obtain ⟨s2, e2, rfl⟩ := map_some e1
      unfold switch at e2
      by_cases d1 : s.cmsr = 0xb4#8 ∨ s.swen = true
      · rw [if_pos d1, Option.some.injEq] at e2
        subst e2
        exact tells_self _
      · rw [if_neg d1] at e2; cases e2
    rw [if_neg c1] at e1
    by_cases c2 : c.ckm = 2
    · rw [if_pos c2] at e1
      by_cases d0 : w = false
      · rw [if_pos d0] at e1; cases e1
      rw [if_neg d0] at e1
      obtain ⟨s2, e2, rfl⟩ := map_some e1
      unfold switch at e2
      by_cases d1 : s.cmsr = 0xd2#8 ∨ s.swen = true
      · rw [if_pos d1, Option.some.injEq] at e2
        subst e2
        exact tells_self _
      · rw [if_neg d1] at e2; cases e2
    · rw [if_neg c2] at e1; cases e1
  have hm : masterHz c.hse s' = masterHz c.hse s1 := by
    rw [← h]
    unfold masterHz
    show (if s1.cmsr = _ then some (16000000, 2 ^ (get 2 3 (put 3 0 (BitVec.ofNat 8 c.cpudiv) s1.ckdivr)).toNat) else _) = _
    rw [get_put_other _ _ _ _ _ _ (by decide)]
  have hms : s'.master = s1.master := by rw [← h]
  match i, hi with
  | 0, _ =>
    show Tells (some s'.cpu) (Hz.div (masterHz c.hse s') (2 ^ (get 3 0 s'.ckdivr).toNat))
    rw [hm, ← h]
    show Tells (some (s1.master / 2 ^ c.cpudiv)) (Hz.div _ (2 ^ (get 3 0 (put 3 0 (BitVec.ofNat 8 c.cpudiv) s1.ckdivr)).toNat))
    rw [get_put_nat _ _ _ _ (by decide) (by omega)]
    exact tells_div k (Nat.two_pow_pos _)
  | 1, _ =>
    show Tells (some s'.master) (masterHz c.hse s')
    rw [hm, hms]; exact k
  | 2, _ => exact tells_self _

/-- after a reset: HSI divided by 8 -/
def reset : St := ⟨0xe1#8, false, 0x18#8, 0xff#8, 0xff#8, 0, 0⟩

theorem sample : (init ⟨0, 0, 1, 2⟩ true reset).map (fun s => (getFreq s 0, hw 0 s 0)) = some (some 2000000, some (16000000, 2 * 4)) := by decide

/-- **C95 refuted, stm8**: SWEN is never set, so that from the reset no clock but HSI can be selected: the initialisation fails, whatever the crystal -/
theorem hse_never (c : Cfg) (w : Bool) (s : St) (hs : s.cmsr = 0xe1#8) (he : s.swen = false) (hc : c.ckm ≠ 0) : init c w s = none := by
  unfold init
  by_cases h0 : 8 ≤ c.cpudiv
  · rw [if_pos h0]
  rw [if_neg h0]
  have hsw : ∀ v, v ≠ 0xe1#8 → switch v s = none := by
    intro v hv
    unfold switch
    rw [if_neg]
    rintro (h | h)
    · exact hv (by rw [← h, hs])
    · rw [he] at h; cases h
  unfold master
  rw [if_neg hc, hsw 0xb4#8 (by decide), hsw 0xd2#8 (by decide)]
  by_cases c1 : c.ckm = 1
  · rw [if_pos c1]
    by_cases d0 : c.hse < 1000000 ∨ 24000000 < c.hse ∨ w = false
    · rw [if_pos d0]; rfl
    · rw [if_neg d0]; rfl
  · rw [if_neg c1]
    by_cases c2 : c.ckm = 2
    · rw [if_pos c2]
      by_cases d0 : w = false
      · rw [if_pos d0]; rfl
      · rw [if_neg d0]; rfl
    · rw [if_neg c2]; rfl

/-- **C96, stm8** -/
theorem enable_does (k : Nat) (s s' : St) (h : enable k s = some s') : ∀ j, j < 16 → on s' j = (decide (j = k) || on s j) := by
  unfold enable at h
  by_cases h0 : 16 ≤ k
  · rw [if_pos h0] at h; cases h
  rw [if_neg h0] at h
  intro j hj
  by_cases h1 : k ≤ 7
  · rw [if_pos h1, Option.some.injEq] at h
    subst h
    unfold on
    by_cases hj8 : j < 8
    · rw [if_pos hj8, if_pos hj8]; exact bset_bit _ _ _ hj8
    · rw [if_neg hj8, if_neg hj8, decide_eq_false (by omega), Bool.false_or]
  · rw [if_neg h1, Option.some.injEq] at h
    subst h
    unfold on
    by_cases hj8 : j < 8
    · rw [if_pos hj8, if_pos hj8, decide_eq_false (by omega), Bool.false_or]
    · rw [if_neg hj8, if_neg hj8]
      show (bset (k % 8) s.pcken2).getLsbD (j - 8) = _
      rw [bset_bit _ _ _ (by omega)]
      congr 1
      exact decide_eq_decide.2 (by omega)

theorem disable_does (k : Nat) (s s' : St) (h : disable k s = some s') : ∀ j, j < 16 → on s' j = (!decide (j = k) && on s j) := by
  unfold disable at h
  by_cases h0 : 16 ≤ k
  · rw [if_pos h0] at h; cases h
  rw [if_neg h0] at h
  intro j hj
  by_cases h1 : k ≤ 7
  · rw [if_pos h1, Option.some.injEq] at h
    subst h
    unfold on
    by_cases hj8 : j < 8
    · rw [if_pos hj8, if_pos hj8]; exact bclr_bit _ _ _
    · rw [if_neg hj8, if_neg hj8, decide_eq_false (by omega), Bool.not_false, Bool.true_and]
  · rw [if_neg h1, Option.some.injEq] at h
    subst h
    unfold on
    by_cases hj8 : j < 8
    · rw [if_pos hj8, if_pos hj8, decide_eq_false (by omega), Bool.not_false, Bool.true_and]
    · rw [if_neg hj8, if_neg hj8]
      show (bclr (k % 8) s.pcken2).getLsbD (j - 8) = _
      rw [bclr_bit]
      congr 2
      exact decide_eq_decide.2 (by omega)

example : (enable 10 reset).isSome = true ∧ (disable 0 reset).isSome = true := by decide

end Stm8
end Pico.Clock
