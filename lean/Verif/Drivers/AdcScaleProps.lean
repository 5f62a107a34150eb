/-
The ADC drivers (C87): theorems.
-/
import Verif.Drivers.AdcScale
namespace Pico.AdcScale

theorem fits_iff (w : Nat) (x : Int) : fits w x = true ↔ -(2 ^ (w - 1)) ≤ x ∧ x < 2 ^ (w - 1) := by simp [fits]

/-- the conversion to int changes nothing below 2^(w-1) -/
theorem toInt_small (w raw : Nat) (hw : 0 < w) (h : raw < 2 ^ (w - 1)) : toInt w raw = raw := by
  have e : 2 ^ w = 2 * 2 ^ (w - 1) := by rw [← Nat.pow_succ', Nat.succ_eq_add_one, Nat.sub_add_cancel hw]
  unfold toInt
  rw [BitVec.toInt_eq_toNat_cond, BitVec.toNat_ofNat, Nat.mod_eq_of_lt (by omega), if_pos (by omega)]

/-- specification: the result times the multiplier over the divider, rounded towards zero, plus the offset, in the integers -/
def Phys (raw : Nat) (m d o v : Int) : Prop :=
  ∃ q : Int, v = q + o ∧ (raw * m - q * d).natAbs < d.natAbs ∧ (q * d).natAbs ≤ (raw * m).natAbs

theorem phys_tdiv (raw : Nat) (m d o : Int) (hd : d ≠ 0) : Phys raw m d o ((raw * m).tdiv d + o) := by
  refine ⟨_, rfl, ?_, ?_⟩
  · have : (raw : Int) * m - (raw * m : Int).tdiv d * d = (raw * m : Int).tmod d := by
      have := Int.tmod_add_tdiv_mul (raw * m : Int) d
      omega
    rw [this, Int.natAbs_tmod]
    exact Nat.mod_lt _ (Int.natAbs_pos.2 hd)
  · rw [Int.natAbs_mul, Int.natAbs_tdiv]
    exact Nat.div_mul_le_self _ _

/-- **C87**: with a divider that is not 0, and when the product, the quotient and the sum fit in an int: the value asked -/
theorem scale_ok (w raw : Nat) (m d o : Int) (hw : 0 < w) (hr : raw < 2 ^ (w - 1)) (hd : d ≠ 0) (h1 : fits w (raw * m) = true) (h2 : fits w ((raw * m : Int).tdiv d) = true)
    (h3 : fits w ((raw * m : Int).tdiv d + o) = true) : ∃ v, scale w raw m d o = some v ∧ Phys raw m d o v := by
  refine ⟨(raw * m : Int).tdiv d + o, ?_, phys_tdiv raw m d o hd⟩
  simp [scale, toInt_small w raw hw hr, cmul, cdiv, cadd, h1, h2, h3, hd]

/-- and a value that is given is the one asked, if the result is below 2^(w-1) -/
theorem scale_some (w raw : Nat) (m d o v : Int) (hw : 0 < w) (hr : raw < 2 ^ (w - 1)) (h : scale w raw m d o = some v) : Phys raw m d o v := by
  simp only [scale, toInt_small w raw hw hr, cmul, Option.bind_eq_bind] at h
  by_cases c1 : fits w (raw * m) = true
  · rw [if_pos c1, Option.bind_some] at h
    by_cases c2 : d = 0
    · simp [cdiv, c2] at h
    · by_cases c3 : fits w ((raw * m : Int).tdiv d) = true
      · rw [cdiv, if_neg c2, if_pos c3, Option.bind_some, cadd] at h
        split at h
        · cases h; exact phys_tdiv raw m d o c2
        · cases h
      · simp [cdiv, c2, c3] at h
  · rw [if_neg c1] at h; cases h

/-- the specification determines the value -/
theorem phys_unique (raw : Nat) (m d o v v' : Int) (h : Phys raw m d o v) (h' : Phys raw m d o v') : v = v' := by
  have key : ∀ q : Int, (raw * m - q * d).natAbs < d.natAbs → (q * d).natAbs ≤ (raw * m : Int).natAbs → q = (raw * m : Int).tdiv d := by
    intro q h1 h2
    generalize hx : (raw * m : Int) = x at h1 h2 ⊢
    have hd : d ≠ 0 := by rintro rfl; simp at h1
    have e1 := Int.tmod_add_tdiv_mul x d
    have e2 : (x.tmod d).natAbs < d.natAbs := by rw [Int.natAbs_tmod]; exact Nat.mod_lt _ (Int.natAbs_pos.2 hd)
    have e3 : (x.tdiv d * d).natAbs ≤ x.natAbs := by rw [Int.natAbs_mul, Int.natAbs_tdiv]; exact Nat.div_mul_le_self _ _
    generalize x.tdiv d = p at *
    generalize x.tmod d = r at *
    -- both multiples lie between 0 and x, less than |d| away from x
    have e4 : ((p - q) * d).natAbs < d.natAbs := by
      rw [Int.sub_mul]
      generalize p * d = pd at *
      generalize q * d = qd at *
      omega
    rw [Int.natAbs_mul] at e4
    have : (p - q).natAbs = 0 := by
      rcases Nat.eq_zero_or_pos (p - q).natAbs with h | h
      · exact h
      · have := Nat.le_mul_of_pos_left d.natAbs h
        omega
    omega
  obtain ⟨q, rfl, h1, h2⟩ := h
  obtain ⟨q', rfl, h1', h2'⟩ := h'
  rw [key q h1 h2, key q' h1' h2']

theorem tdiv_mono (a b d : Int) (hd : 0 < d) (h : a ≤ b) : a.tdiv d ≤ b.tdiv d := Int.tdiv_le_tdiv hd h

/-- **C87**: a larger result never gives a smaller value, for a multiplier and a divider that are not negative -/
theorem scale_mono (w r1 r2 : Nat) (m d o v1 v2 : Int) (hw : 0 < w) (hm : 0 ≤ m) (hd : 0 < d) (h : r1 ≤ r2) (h2 : r2 < 2 ^ (w - 1)) (e1 : scale w r1 m d o = some v1)
    (e2 : scale w r2 m d o = some v2) : v1 ≤ v2 := by
  have hne : d ≠ 0 := by omega
  rw [phys_unique _ _ _ _ _ _ (scale_some w r1 m d o v1 hw (by omega) e1) (phys_tdiv r1 m d o hne), phys_unique _ _ _ _ _ _ (scale_some w r2 m d o v2 hw h2 e2) (phys_tdiv r2 m d o hne)]
  have := tdiv_mono (r1 * m) (r2 * m) d hd (Int.mul_le_mul_of_nonneg_right (by omega) hm)
  omega

/-- **C87**: an object that was initialised and not set up gives the result itself; a set-up replaces the one before -/
theorem default_raw (w raw : Nat) (hw : 1 < w) (hr : raw < 2 ^ (w - 1)) : value w init raw = some raw := by
  have hf : fits w (raw : Int) = true := by
    rw [fits_iff]
    have : ((2 ^ (w - 1) : Nat) : Int) = 2 ^ (w - 1) := by simp
    omega
  simp [value, init, scale, toInt_small w raw (by omega) hr, cmul, cdiv, cadd, hf, Int.tdiv_one]

/-- on 32 bits every result of 16 bits or less -/
theorem default_32 (raw : Nat) (hr : raw < 2 ^ 16) : value 32 init raw = some raw := default_raw 32 raw (by decide) (by omega)

theorem setup_last (a b c : Set) : setup (setup a b) c = c := rfl

/-- **C87, avr (left_adjust_result) and ti_type4 (16-bit results), refuted**: results from 2^15 on, that is in the upper half of the range, come out negative -/
theorem half_negative (raw : Nat) (h1 : 2 ^ 15 ≤ raw) (h2 : raw < 2 ^ 16) : ∃ v, value 16 init raw = some v ∧ v = raw - 2 ^ 16 ∧ v < 0 := by
  have e : toInt 16 raw = raw - 2 ^ 16 := by
    unfold toInt
    rw [BitVec.toInt_eq_toNat_cond, BitVec.toNat_ofNat, Nat.mod_eq_of_lt h2, if_neg (by omega)]
    rfl
  have hf : fits 16 ((raw : Int) - 2 ^ 16) = true := by rw [fits_iff]; omega
  refine ⟨_, ?_, rfl, by omega⟩
  simp only [value, init, scale, e, cmul, Int.mul_one, hf, if_true, Option.bind_eq_bind, Option.bind_some, cdiv, Int.tdiv_one, cadd, Int.add_zero]
  rw [if_neg (by decide), Option.bind_some, if_pos hf]

/-- **C87, refuted**: a divider of 0 is accepted, and no value can be read afterwards; on mc9s08ptxx an object in static memory is in that state until adc_setup -/
theorem divider_zero (w raw : Nat) (m o : Int) (s : Set) : value w (setup s ⟨m, 0, o⟩) raw = none := by
  by_cases c : fits w (toInt w raw * m) = true <;> simp [value, setup, scale, cmul, cdiv, c]

theorem mc9s08_default (w raw : Nat) : value w (initMc ⟨0, 0, 0⟩) raw = none := divider_zero w raw 0 0 ⟨0, 0, 0⟩

/-- **C87, refuted**: on 16 bits, a result of 10 bits in mV (5000 / 1023) overflows from 7 on -/
theorem mV_overflow (raw : Nat) (h : 7 ≤ raw) (h2 : raw < 1024) : value 16 ⟨5000, 1023, 0⟩ raw = none := by
  have hf : fits 16 ((raw : Int) * 5000) = false := by
    rw [Bool.eq_false_iff]
    intro hc
    rw [fits_iff] at hc
    have := hc.2
    rw [show ((2 : Int) ^ (16 - 1)) = 32768 by decide] at this
    omega
  simp [value, scale, toInt_small 16 raw (by decide) (by omega : raw < 2 ^ 15), cmul, hf]

/-! ### How many values -/

/-- specification: the ranges given are inside 0..15, and no two overlap -/
def Disjoint (l : List (Nat × Nat)) : Prop := (∀ r ∈ l, r.1 ≤ r.2 ∧ r.2 < 16) ∧ l.Pairwise (fun a b => a.2 < b.1 ∨ b.2 < a.1)

/-- all the calls that succeed -/
def tiInits : List Nat → Nat × List (Nat × Nat) → Option (Nat × List (Nat × Nat))
  | [], s => some s
  | n :: l, s => (tiInit s n).bind (tiInits l)

/-- **C87, ti_type4**: whatever the objects initialised, their units are their own, as many as they asked for -/
theorem ti_units (l : List Nat) (s : Nat × List (Nat × Nat)) (h : tiInits l (0, []) = some s) :
    Disjoint s.2 ∧ s.2.reverse.map (fun r => r.2 + 1 - r.1) = l := by
  have key : ∀ (l : List Nat) (s0 : Nat × List (Nat × Nat)), Disjoint s0.2 → (∀ r ∈ s0.2, r.2 < s0.1) → tiInits l s0 = some s →
      Disjoint s.2 ∧ s.2.reverse.map (fun r => r.2 + 1 - r.1) = s0.2.reverse.map (fun r => r.2 + 1 - r.1) ++ l := by
    intro l
    induction l with
    | nil => intro s0 h1 _ h3; cases h3; exact ⟨h1, by simp⟩
    | cons n l ih =>
      intro s0 h1 h2 h3
      simp only [tiInits] at h3
      by_cases c : n = 0 ∨ 16 < n ∨ 16 < s0.1 + n
      · rw [tiInit, if_pos c] at h3; cases h3
      · rw [tiInit, if_neg c, Option.bind_some] at h3
        obtain ⟨h4, h5⟩ := ih _ (by
          refine ⟨?_, ?_⟩
          · intro r hr
            rcases List.mem_cons.1 hr with rfl | hr
            · show s0.1 ≤ s0.1 + n - 1 ∧ s0.1 + n - 1 < 16; omega
            · exact h1.1 r hr
          · refine List.pairwise_cons.2 ⟨fun r hr => .inr (h2 r hr), h1.2⟩) (by
          intro r hr
          rcases List.mem_cons.1 hr with rfl | hr
          · show s0.1 + n - 1 < s0.1 + n; omega
          · have := h2 r hr; show r.2 < s0.1 + n; omega) h3
        refine ⟨h4, ?_⟩
        rw [h5]
        simp only [List.reverse_cons, List.map_append, List.map_cons, List.map_nil, List.append_assoc, List.singleton_append]
        rw [show s0.1 + n - 1 + 1 - s0.1 = n by omega]
  have := key l (0, []) ⟨by simp, by simp⟩ (by simp) h
  simpa using this

/-- **C87, ti_type4**: the software trigger starts the units of the object, and no other -/
theorem ti_trigger : ∀ start stop : Fin 16, start ≤ stop → ∀ k : Fin 16, (tiTrig start stop).getLsbD k = decide (start ≤ k ∧ k ≤ stop) := by decide +kernel

/-- **C87, ti_type4**: the values are the results of the units of the object, in order, as many as asked if there are so many -/
theorem ti_values (start stop n : Nat) (res : Nat → Nat) (h : start ≤ stop) (hn : 0 < n) (hn2 : n ≤ 16) :
    ∃ c, tiMultiple start stop n res = some ((List.range (min n (stop + 1 - start))).map (fun k => res (start + k)), c) := by
  refine ⟨if start < min (stop + 1) (start + n) then min (stop + 1) (start + n) else start, ?_⟩
  simp only [tiMultiple]
  rw [if_neg (by omega), show min (stop + 1) (start + n) - start = min n (stop + 1 - start) by omega, List.range'_eq_map_range, List.map_map]
  rfl

/-- **C87, ti_type4, refuted**: the number returned is the number of values only for the first object of the block; for the others it is too large -/
theorem ti_count (start stop n : Nat) (res : Nat → Nat) (h : start ≤ stop) (hn : 0 < n) (hn2 : n ≤ 16) (vs : List Nat) (c : Nat)
    (hr : tiMultiple start stop n res = some (vs, c)) : c = start + vs.length ∧ (c = vs.length ↔ start = 0) := by
  simp only [tiMultiple] at hr
  rw [if_neg (by omega), if_pos (by omega)] at hr
  simp only [Option.some.injEq, Prod.mk.injEq] at hr
  obtain ⟨rfl, rfl⟩ := hr
  simp only [List.length_map, List.length_range']
  omega

/-- a case: adc_read on the second object returns 2, with one value -/
example : tiInits [1, 1] (0, []) = some (2, [(1, 1), (0, 0)]) ∧ tiMultiple 1 1 1 (fun k => 100 + k) = some ([101], 2) := by decide

/-- the other drivers -/
theorem other_count (n res : Nat) (hn : 0 < n) : ∃ vs c, otherMultiple n res = some (vs, c) ∧ c = vs.length ∧ c ≤ n ∧ vs = [res] :=
  ⟨[res], 1, by simp [otherMultiple, Nat.ne_of_gt hn], rfl, hn, rfl⟩

end Pico.AdcScale
