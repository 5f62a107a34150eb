import Verif.Drivers.CanTiming
/-
C71: when can_setup succeeds the controller runs at exactly the bit rate asked, for every clock frequency and bit rate.
-/
namespace Pico.Can

theorem e1 (s x : Nat) : fld 0x3 s x = x % 4 * 2 ^ s := fld_eq 2 s x
theorem e3 (s x : Nat) : fld 0x7 s x = x % 8 * 2 ^ s := fld_eq 3 s x
theorem e4 (s x : Nat) : fld 0xf s x = x % 16 * 2 ^ s := fld_eq 4 s x
theorem e5 (s x : Nat) : fld 0x1f s x = x % 32 * 2 ^ s := fld_eq 5 s x
theorem e6 (s x : Nat) : fld 0x3f s x = x % 64 * 2 ^ s := fld_eq 6 s x
theorem e7 (s x : Nat) : fld 0x7f s x = x % 128 * 2 ^ s := fld_eq 7 s x
theorem e8 (s x : Nat) : fld 0xff s x = x % 256 * 2 ^ s := fld_eq 8 s x
theorem e9 (s x : Nat) : fld 0x1ff s x = x % 512 * 2 ^ s := fld_eq 9 s x
theorem e10 (s x : Nat) : fld 0x3ff s x = x % 1024 * 2 ^ s := fld_eq 10 s x
theorem e11 (s x : Nat) : fld 0x7ff s x = x % 2048 * 2 ^ s := fld_eq 11 s x

theorem no_wrap {brp brpMax bitrate mult : Nat} (hb : brp ≤ brpMax) (h : brpMax * bitrate * mult < 2 ^ 32) (hm : 0 < mult) :
    brp * bitrate % 2 ^ 32 * mult % 2 ^ 32 = brp * bitrate * mult := by
  have h1 : brp * bitrate * mult ≤ brpMax * bitrate * mult := Nat.mul_le_mul_right _ (Nat.mul_le_mul_right _ hb)
  have h2 : brp * bitrate ≤ brp * bitrate * mult := Nat.le_mul_of_pos_right _ hm
  rw [Nat.mod_eq_of_lt (a := brp * bitrate) (by omega), Nat.mod_eq_of_lt (by omega)]

/-- the search finds a divider and a number of quanta that give the rate exactly and that the segments accept -/
theorem search_sound {α : Type} {mult tqMin tqMax freq bitrate brpMax : Nat} {segs : Nat → Nat → Option α} {r : α}
    (h : brpMax * bitrate * mult < 2 ^ 32) (hm : 0 < mult) :
    ∀ fuel brp, brp + fuel ≤ brpMax + 1 → search mult tqMin tqMax segs freq bitrate fuel brp = some r →
      ∃ b tq, brp ≤ b ∧ b ≤ brpMax ∧ tqMin ≤ tq ∧ tq ≤ tqMax ∧ freq = b * bitrate * mult * tq ∧ segs b tq = some r := by
  intro fuel
  induction fuel with
  | zero => intro brp _ hr; simp [search] at hr
  | succ n ih =>
    intro brp hb hr
    have hrec := ih (brp + 1) (by omega)
    have key : search mult tqMin tqMax segs freq bitrate n (brp + 1) = some r → ∃ b tq, brp ≤ b ∧ b ≤ brpMax ∧ tqMin ≤ tq ∧ tq ≤ tqMax ∧
        freq = b * bitrate * mult * tq ∧ segs b tq = some r := by
      intro he
      obtain ⟨b, tq, h1, h2⟩ := hrec he
      exact ⟨b, tq, by omega, h2⟩
    rw [search, no_wrap (by omega) h hm] at hr
    split at hr
    · exact key hr
    · rename_i h1
      split at hr
      · exact key hr
      · rename_i h2
        split at hr
        · rename_i r' h3
          injection hr with hr; subst hr
          refine ⟨brp, freq / (brp * bitrate * mult), by omega, by omega, by omega, by omega, ?_, h3⟩
          have := Nat.div_add_mod freq (brp * bitrate * mult)
          omega
        · exact key hr

/-- the search succeeds whenever there is such a divider -/
theorem search_complete {α : Type} {mult tqMin tqMax freq bitrate brpMax : Nat} {segs : Nat → Nat → Option α}
    (h : brpMax * bitrate * mult < 2 ^ 32) (hm : 0 < mult) {b tq : Nat} (hb2 : b ≤ brpMax)
    (ht1 : tqMin ≤ tq) (ht2 : tq ≤ tqMax) (hf : freq = b * bitrate * mult * tq) (hpos : 0 < b * bitrate * mult) (hs : (segs b tq).isSome) :
    ∀ fuel brp, brp ≤ b → b < brp + fuel → brp + fuel ≤ brpMax + 1 → (search mult tqMin tqMax segs freq bitrate fuel brp).isSome := by
  intro fuel
  induction fuel with
  | zero => intro brp h1 h2; omega
  | succ n ih =>
    intro brp h1 h2 h3
    rw [search, no_wrap (by omega) h hm]
    by_cases he : brp = b
    · subst he
      have hd : freq / (brp * bitrate * mult) = tq := by rw [hf]; exact Nat.mul_div_cancel_left _ hpos
      have hm' : freq % (brp * bitrate * mult) = 0 := by rw [hf]; exact Nat.mul_mod_right _ _
      rw [hd, hm']
      have : ¬(tq < tqMin ∨ tqMax < tq) := by omega
      simp only [this, if_false, ne_eq, not_true_eq_false]
      obtain ⟨r, hr⟩ := Option.isSome_iff_exists.1 hs
      simp [hr]
    · have := ih (brp + 1) (by omega) (by omega) (by omega)
      split
      · exact this
      · split
        · exact this
        · split
          · simp
          · exact this

theorem setBitrate_iff {α : Type} {last : Err} {brpMax mult tqMin tqMax freq bitrate : Nat} {segs : Nat → Nat → Option α}
    (h : brpMax * bitrate * mult < 2 ^ 32) (hm : 0 < mult) (hb : 0 < bitrate) :
    (∃ r, setBitrate last brpMax mult tqMin tqMax segs freq bitrate = .ok r) ↔
      ∃ b tq, 1 ≤ b ∧ b ≤ brpMax ∧ tqMin ≤ tq ∧ tq ≤ tqMax ∧ freq = b * bitrate * mult * tq ∧ (segs b tq).isSome := by
  constructor
  · rintro ⟨r, hr⟩
    unfold setBitrate at hr
    rw [if_neg (by omega)] at hr
    split at hr
    · cases hr
    · split at hr
      · rename_i r' hs
        obtain ⟨b, tq, h1, h2, h3, h4, h5, h6⟩ := search_sound h hm _ _ (by omega) hs
        exact ⟨b, tq, h1, h2, h3, h4, h5, by simp [h6]⟩
      · cases hr
  · rintro ⟨b, tq, h1, h2, h3, h4, h5, h6⟩
    have hp : 0 < b * bitrate * mult := Nat.mul_pos (Nat.mul_pos (by omega) hb) hm
    have := search_complete h hm h2 h3 h4 h5 hp h6 brpMax 1 h1 (by omega) (by omega)
    obtain ⟨r, hr⟩ := Option.isSome_iff_exists.1 this
    refine ⟨r, ?_⟩
    unfold setBitrate
    rw [if_neg (by omega), if_neg, hr]
    have : freq = bitrate * (b * mult * tq) := by rw [h5]; simp [Nat.mul_comm, Nat.mul_left_comm]
    rw [this, Nat.mul_mod_right]
    simp

theorem setBitrate_ok {α : Type} {last : Err} {brpMax mult tqMin tqMax freq bitrate : Nat} {segs : Nat → Nat → Option α} {r : α}
    (h : brpMax * bitrate * mult < 2 ^ 32) (hm : 0 < mult) (hr : setBitrate last brpMax mult tqMin tqMax segs freq bitrate = .ok r) :
    ∃ b tq, 1 ≤ b ∧ b ≤ brpMax ∧ tqMin ≤ tq ∧ tq ≤ tqMax ∧ freq = b * bitrate * mult * tq ∧ segs b tq = some r := by
  unfold setBitrate at hr
  split at hr
  · cases hr
  split at hr
  · cases hr
  · split at hr
    · rename_i r' hs
      injection hr with hr; subst hr
      exact search_sound h hm _ _ (by omega) hs
    · cases hr

theorem mcan_regs {brp tq d n : Nat} (h1 : 1 ≤ brp) (h2 : brp ≤ 32) (h : mcanRegs brp tq = some (d, n)) :
    mcanHwN n = ⟨brp, tq, 1 + seg87 (tq - 1)⟩ ∧ mcanHwD d = ⟨brp, tq, 1 + seg87 (tq - 1)⟩ ∧ SampleOk (mcanHwN n) := by
  unfold mcanRegs at h
  simp only [] at h
  split at h
  · cases h
  · rename_i hc
    injection h with h; injection h with hd hn
    generalize ht : seg87 (tq - 1) = t1 at *
    have hq : t1 = ((tq - 1) * 64 + 36) / 73 := by rw [← ht]; rfl
    generalize hj : (tq - 1 - t1 + 2 ^ 32 - 1) % 2 ^ 32 = sjw at *
    have hjv : sjw = tq - 1 - t1 - 1 := by omega
    have hdd : d = (brp - 1) * 2 ^ 16 + ((t1 - 1) * 2 ^ 8 + ((tq - 1 - t1 - 1) * 2 ^ 4 + (sjw - 1))) := by
      rw [← hd, e5, e5, e4, e4, Nat.or_assoc, Nat.or_assoc, or_mul_two_pow 4 _ _ (by omega), or_mul_two_pow 8 _ _ (by omega), or_mul_two_pow 16 _ _ (by omega)]
      omega
    have hnn : n = (sjw - 1) * 2 ^ 25 + ((brp - 1) * 2 ^ 16 + ((t1 - 1) * 2 ^ 8 + (tq - 1 - t1 - 1))) := by
      rw [← hn, e7, e9, e8, e7, Nat.or_assoc, Nat.or_assoc, or_mul_two_pow 8 _ _ (by omega), or_mul_two_pow 16 _ _ (by omega), or_mul_two_pow 25 _ _ (by omega)]
      omega
    have ha : mcanHwN n = ⟨brp, tq, 1 + t1⟩ := by
      simp only [mcanHwN, Timing.mk.injEq]
      rw [hnn, bits_low _ 25 _ 16 9 (by omega), bits_low _ 25 _ 8 8 (by omega), bits_low _ 25 _ 0 7 (by omega), bits_top _ 16 _ _ (by omega),
        bits_low _ 16 _ 8 8 (by omega), bits_low _ 16 _ 0 7 (by omega), bits_top _ 8 _ _ (by omega), bits_low _ 8 _ 0 7 (by omega), bits_all _ _ (by omega)]
      omega
    refine ⟨ha, ?_, ?_⟩
    · simp only [mcanHwD, Timing.mk.injEq]
      rw [hdd, bits_top _ 16 _ _ (by omega), bits_low _ 16 _ 8 5 (by omega), bits_low _ 16 _ 4 4 (by omega), bits_top _ 8 _ _ (by omega),
        bits_low _ 8 _ 4 4 (by omega), bits_top _ 4 _ _ (by omega)]
      omega
    · rw [ha]; show 7 * tq ≤ 8 * (1 + t1) + 8 ∧ 8 * (1 + t1) ≤ 7 * tq + 8 ∧ 1 + t1 < tq
      omega

/-- **C71, drivers/can/can-bosch_mcan.c**: on success the nominal and the data phases run at exactly the bit rate asked, sampled near 87.5 %. -/
theorem mcan_bitrate {freq bitrate d n : Nat} (hb : bitrate < 2 ^ 27) (h : mcanSetBitrate freq bitrate = .ok (d, n)) :
    Exact (mcanHwN n) freq bitrate ∧ Exact (mcanHwD d) freq bitrate ∧ SampleOk (mcanHwN n) := by
  obtain ⟨b, tq, h1, h2, h3, h4, h5, h6⟩ := setBitrate_ok (by omega) (by omega) h
  obtain ⟨ha, hd, hs⟩ := mcan_regs h1 (by omega) h6
  refine ⟨?_, ?_, hs⟩
  · rw [ha]; show freq = b * tq * bitrate; rw [h5, Nat.mul_one, Nat.mul_right_comm]
  · rw [hd]; show freq = b * tq * bitrate; rw [h5, Nat.mul_one, Nat.mul_right_comm]

/-- which numbers of quanta the segments accept -/
theorem mcan_regs_iff (brp tq : Nat) : (mcanRegs brp tq).isSome ↔ 14 ≤ tq ∧ tq ≤ 38 := by
  unfold mcanRegs
  simp only []
  have hq : seg87 (tq - 1) = ((tq - 1) * 64 + 36) / 73 := rfl
  generalize seg87 (tq - 1) = t at *
  by_cases h1 : 1 ≤ tq - 1 - t ∧ tq - 1 - t < 2 ^ 32
  · rw [wsub _ _ h1.1 h1.2]
    split
    · simp only [Option.isSome_none, Bool.false_eq_true, false_iff]; omega
    · simp only [Option.isSome_some, true_iff]; omega
  · rw [if_pos (by omega)]
    simp only [Option.isSome_none, Bool.false_eq_true, false_iff]; omega

/-- it succeeds for exactly the rates `freq / (brp * tq)` with 1 ≤ brp ≤ 32 and 14 ≤ tq ≤ 38 -/
theorem mcan_bitrate_iff {freq bitrate : Nat} (hb : bitrate < 2 ^ 27) (hb0 : 0 < bitrate) :
    (∃ r, mcanSetBitrate freq bitrate = .ok r) ↔ ∃ b tq, 1 ≤ b ∧ b ≤ 32 ∧ 14 ≤ tq ∧ tq ≤ 38 ∧ freq = b * tq * bitrate := by
  unfold mcanSetBitrate
  rw [setBitrate_iff (by omega) (by omega) hb0]
  constructor
  · rintro ⟨b, tq, h1, h2, h3, h4, h5, h6⟩
    have := (mcan_regs_iff b tq).1 h6
    exact ⟨b, tq, h1, h2, this.1, this.2, by rw [h5, Nat.mul_one, Nat.mul_right_comm]⟩
  · rintro ⟨b, tq, h1, h2, h3, h4, h5⟩
    exact ⟨b, tq, h1, h2, by omega, by omega, by rw [h5, Nat.mul_one, Nat.mul_right_comm], (mcan_regs_iff b tq).2 ⟨h3, h4⟩⟩

/-! ### can-nxp_flexcan.c -/

theorem flexcan_regs {c brp tq w : Nat} (hc : c ≤ 1) (h1 : 1 ≤ brp) (h2 : brp ≤ 256) (ht1 : 16 ≤ tq) (ht2 : tq ≤ 25) (h : flexcanRegs c brp tq = some w) :
    flexcanHw w = ⟨brp, tq, 1 + seg87 (tq - 1)⟩ ∧ bits w 13 1 = c ∧ SampleOk (flexcanHw w) ∧ tq ≤ 19 := by
  unfold flexcanRegs at h
  simp only [] at h
  have hq : seg87 (tq - 1) = ((tq - 1) * 64 + 36) / 73 := rfl
  generalize seg87 (tq - 1) = p at *
  have hp : p > 8 := by omega
  simp only [if_pos hp] at h
  split at h
  · cases h
  · rename_i h8
    rw [wsub _ _ (by omega) (by omega)] at h
    split at h
    · cases h
    · rename_i hs
      injection h with h
      have hw : w = (brp - 1) * 2 ^ 24 + ((p - (p - 8) - 1) * 2 ^ 19 + ((tq - 1 - (p - 8 + (p - (p - 8))) - 1) * 2 ^ 16 + (c * 2 ^ 13 + (p - 8 - 1)))) := by
        rw [← h, e8, e1, e3, e3, e3, Nat.shiftLeft_eq]
        have z : 0 % 4 * 2 ^ 22 = 0 := by simp
        rw [z, Nat.or_zero]; clear z
        rw [Nat.or_assoc, Nat.or_assoc, Nat.or_comm (_ * 2 ^ 13), Nat.or_comm ((p - 8 - 1) % 8 * 2 ^ 0), Nat.or_assoc, Nat.or_assoc, Nat.or_assoc,
          or_mul_two_pow' 13 c _ (by omega), or_mul_two_pow 16 _ _ (by omega), or_mul_two_pow 19 _ _ (by omega), or_mul_two_pow 24 _ _ (by omega)]
        omega
      have ha : flexcanHw w = ⟨brp, tq, 1 + p⟩ := by
        simp only [flexcanHw, Timing.mk.injEq]
        rw [hw, bits_top _ 24 _ _ (by omega), bits_low _ 24 _ 0 3 (by omega), bits_low _ 24 _ 19 3 (by omega), bits_low _ 24 _ 16 3 (by omega),
          bits_low _ 19 _ 0 3 (by omega), bits_top _ 19 _ _ (by omega), bits_low _ 19 _ 16 3 (by omega), bits_low _ 16 _ 0 3 (by omega), bits_top _ 16 _ _ (by omega),
          bits_low _ 13 _ 0 3 (by omega), bits_all _ _ (by omega)]
        omega
      refine ⟨ha, ?_, ?_, by omega⟩
      · rw [hw, bits_low _ 24 _ 13 1 (by omega), bits_low _ 19 _ 13 1 (by omega), bits_low _ 16 _ 13 1 (by omega), bits_top _ 13 _ _ (by omega)]; omega
      · rw [ha]; show 7 * tq ≤ 8 * (1 + p) + 8 ∧ 8 * (1 + p) ≤ 7 * tq + 8 ∧ 1 + p < tq
        omega

/-- **C71, drivers/can/can-nxp_flexcan.c** (`c`: the clock source bit, which is kept). -/
theorem flexcan_bitrate {c freq bitrate w : Nat} (hc : c ≤ 1) (hb : bitrate < 2 ^ 24) (h : flexcanSetBitrate c freq bitrate = .ok w) :
    Exact (flexcanHw w) freq bitrate ∧ SampleOk (flexcanHw w) ∧ bits w 13 1 = c := by
  obtain ⟨b, tq, h1, h2, h3, h4, h5, h6⟩ := setBitrate_ok (by omega) (by omega) h
  obtain ⟨ha, hb, hs, _⟩ := flexcan_regs hc h1 (by omega) h3 h4 h6
  refine ⟨?_, hs, hb⟩
  rw [ha]; show freq = b * tq * bitrate; rw [h5, Nat.mul_one, Nat.mul_right_comm]

theorem flexcan_regs_some (c brp tq : Nat) (ht1 : 16 ≤ tq) (ht2 : tq ≤ 19) : (flexcanRegs c brp tq).isSome := by
  unfold flexcanRegs
  simp only []
  have hq : seg87 (tq - 1) = ((tq - 1) * 64 + 36) / 73 := rfl
  generalize seg87 (tq - 1) = p at *
  have hp : p > 8 := by omega
  simp only [if_pos hp]
  rw [if_neg (by omega), wsub _ _ (by omega) (by omega), if_neg (by omega)]
  rfl

/-- it succeeds for exactly the rates `freq / (brp * tq)` with 1 ≤ brp ≤ 256 and 16 ≤ tq ≤ 19 -/
theorem flexcan_bitrate_iff {c freq bitrate : Nat} (hc : c ≤ 1) (hb : bitrate < 2 ^ 24) (hb0 : 0 < bitrate) :
    (∃ r, flexcanSetBitrate c freq bitrate = .ok r) ↔ ∃ b tq, 1 ≤ b ∧ b ≤ 256 ∧ 16 ≤ tq ∧ tq ≤ 19 ∧ freq = b * tq * bitrate := by
  unfold flexcanSetBitrate
  rw [setBitrate_iff (by omega) (by omega) hb0]
  constructor
  · rintro ⟨b, tq, h1, h2, h3, h4, h5, h6⟩
    obtain ⟨w, hw⟩ := Option.isSome_iff_exists.1 h6
    have := flexcan_regs hc h1 (by omega) h3 h4 hw
    exact ⟨b, tq, h1, h2, h3, this.2.2.2, by rw [h5, Nat.mul_one, Nat.mul_right_comm]⟩
  · rintro ⟨b, tq, h1, h2, h3, h4, h5⟩
    exact ⟨b, tq, h1, h2, by omega, by omega, by rw [h5, Nat.mul_one, Nat.mul_right_comm], flexcan_regs_some c b tq h3 h4⟩

/-! ### can-sam3x.c -/

theorem sam3x_regs {brp tq w : Nat} (h1 : 1 ≤ brp) (h2 : brp ≤ 128) (ht1 : 8 ≤ tq) (ht2 : tq ≤ 25) (h : sam3xRegs brp tq = some w) :
    sam3xHw w = ⟨brp, tq, 1 + seg87 (tq - 1)⟩ ∧ SampleOk (sam3xHw w) ∧ 11 ≤ tq ∧ tq ≤ 19 := by
  unfold sam3xRegs at h
  simp only [] at h
  have hq : seg87 (tq - 1) = ((tq - 1) * 64 + 36) / 73 := rfl
  generalize seg87 (tq - 1) = p at *
  by_cases hp : p > 8
  · simp only [if_pos hp] at h
    split at h
    · cases h
    · rename_i h8
      rw [wsub _ _ (by omega) (by omega)] at h
      split at h
      · cases h
      · rename_i hs
        injection h with h
        have hw : w = (brp - 1) * 2 ^ 16 + ((p - 8 - 1) * 2 ^ 8 + ((p - (p - 8) - 1) * 2 ^ 4 + (tq - 1 - (p - 8 + (p - (p - 8))) - 1))) := by
          rw [← h, e7, e1, e3, e3, e3]
          have z : 0 % 4 * 2 ^ 12 = 0 := by simp
          rw [z, Nat.or_zero]; clear z
          rw [Nat.or_assoc, Nat.or_assoc, or_mul_two_pow 4 _ _ (by omega), or_mul_two_pow 8 _ _ (by omega), or_mul_two_pow 16 _ _ (by omega)]
          omega
        have ha : sam3xHw w = ⟨brp, tq, 1 + p⟩ := by
          simp only [sam3xHw, Timing.mk.injEq]
          rw [hw, bits_top _ 16 _ _ (by omega), bits_low _ 16 _ 8 3 (by omega), bits_low _ 16 _ 4 3 (by omega), bits_low _ 16 _ 0 3 (by omega),
            bits_top _ 8 _ _ (by omega), bits_low _ 8 _ 4 3 (by omega), bits_low _ 8 _ 0 3 (by omega), bits_top _ 4 _ _ (by omega),
            bits_low _ 4 _ 0 3 (by omega), bits_all _ _ (by omega)]
          omega
        refine ⟨ha, ?_, by omega, by omega⟩
        rw [ha]; show 7 * tq ≤ 8 * (1 + p) + 8 ∧ 8 * (1 + p) ≤ 7 * tq + 8 ∧ 1 + p < tq
        omega
  · simp only [if_neg hp] at h
    rw [if_neg (by omega), if_pos (by omega)] at h
    cases h

/-- **C71, drivers/can/can-sam3x.c** -/
theorem sam3x_bitrate {freq bitrate w : Nat} (hb : bitrate < 2 ^ 25) (h : sam3xSetBitrate freq bitrate = .ok w) :
    Exact (sam3xHw w) freq bitrate ∧ SampleOk (sam3xHw w) := by
  obtain ⟨b, tq, h1, h2, h3, h4, h5, h6⟩ := setBitrate_ok (by omega) (by omega) h
  obtain ⟨ha, hs, _⟩ := sam3x_regs h1 (by omega) h3 h4 h6
  refine ⟨?_, hs⟩
  rw [ha]; show freq = b * tq * bitrate; rw [h5, Nat.mul_one, Nat.mul_right_comm]

theorem sam3x_regs_some (brp tq : Nat) (ht1 : 11 ≤ tq) (ht2 : tq ≤ 19) : (sam3xRegs brp tq).isSome := by
  unfold sam3xRegs
  simp only []
  have hq : seg87 (tq - 1) = ((tq - 1) * 64 + 36) / 73 := rfl
  generalize seg87 (tq - 1) = p at *
  have hp : p > 8 := by omega
  simp only [if_pos hp]
  rw [if_neg (by omega), wsub _ _ (by omega) (by omega), if_neg (by omega)]
  rfl

/-- it succeeds for exactly the rates `freq / (brp * tq)` with 1 ≤ brp ≤ 128 and 11 ≤ tq ≤ 19 -/
theorem sam3x_bitrate_iff {freq bitrate : Nat} (hb : bitrate < 2 ^ 25) (hb0 : 0 < bitrate) :
    (∃ r, sam3xSetBitrate freq bitrate = .ok r) ↔ ∃ b tq, 1 ≤ b ∧ b ≤ 128 ∧ 11 ≤ tq ∧ tq ≤ 19 ∧ freq = b * tq * bitrate := by
  unfold sam3xSetBitrate
  rw [setBitrate_iff (by omega) (by omega) hb0]
  constructor
  · rintro ⟨b, tq, h1, h2, h3, h4, h5, h6⟩
    obtain ⟨w, hw⟩ := Option.isSome_iff_exists.1 h6
    have := sam3x_regs h1 (by omega) h3 h4 hw
    exact ⟨b, tq, h1, h2, this.2.2.1, this.2.2.2, by rw [h5, Nat.mul_one, Nat.mul_right_comm]⟩
  · rintro ⟨b, tq, h1, h2, h3, h4, h5⟩
    exact ⟨b, tq, h1, h2, by omega, by omega, by rw [h5, Nat.mul_one, Nat.mul_right_comm], sam3x_regs_some b tq h3 h4⟩

/-! ### can-pic32mx.c -/

theorem pic32mx_regs {brp tq w : Nat} (h1 : 1 ≤ brp) (h2 : brp ≤ 64) (ht1 : 8 ≤ tq) (ht2 : tq ≤ 25) (h : pic32mxRegs brp tq = some w) :
    pic32mxHw w = ⟨2 * brp, tq, 1 + seg87 (tq - 1)⟩ ∧ SampleOk (pic32mxHw w) := by
  unfold pic32mxRegs at h
  simp only [] at h
  have hq : seg87 (tq - 1) = ((tq - 1) * 64 + 36) / 73 := rfl
  generalize seg87 (tq - 1) = p at *
  by_cases hp : p > 8
  · simp only [if_pos hp] at h
    split at h
    · cases h
    · rename_i h8
      rw [wsub _ _ (by omega) (by omega)] at h
      split at h
      · cases h
      · rename_i hs
        injection h with h
        have hw : w = (tq - 1 - (p - 8 + (p - (p - 8))) - 1) * 2 ^ 16 + (1 * 2 ^ 15 + ((p - (p - 8) - 1) * 2 ^ 11 + ((p - 8 - 1) * 2 ^ 8 + (brp - 1)))) := by
          rw [← h, e6, e1, e3, e3, e3, Nat.shiftLeft_eq]
          have z : 0 % 4 * 2 ^ 6 = 0 := by simp
          rw [z, Nat.or_zero]; clear z
          rw [or_mul_two_pow' 8 _ _ (by omega), or_mul_two_pow' 11 _ _ (by omega), or_mul_two_pow' 15 _ _ (by omega), or_mul_two_pow' 16 _ _ (by omega)]
          omega
        have ha : pic32mxHw w = ⟨2 * brp, tq, 1 + p⟩ := by
          simp only [pic32mxHw, Timing.mk.injEq]
          rw [hw, bits_low _ 16 _ 0 6 (by omega), bits_low _ 16 _ 8 3 (by omega), bits_low _ 16 _ 11 3 (by omega), bits_top _ 16 _ _ (by omega),
            bits_low _ 15 _ 0 6 (by omega), bits_low _ 15 _ 8 3 (by omega), bits_low _ 15 _ 11 3 (by omega),
            bits_low _ 11 _ 0 6 (by omega), bits_low _ 11 _ 8 3 (by omega), bits_top _ 11 _ _ (by omega),
            bits_low _ 8 _ 0 6 (by omega), bits_top _ 8 _ _ (by omega), bits_all _ _ (by omega)]
          omega
        refine ⟨ha, ?_⟩
        rw [ha]; show 7 * tq ≤ 8 * (1 + p) + 8 ∧ 8 * (1 + p) ≤ 7 * tq + 8 ∧ 1 + p < tq
        omega
  · simp only [if_neg hp] at h
    rw [if_neg (by omega), if_pos (by omega)] at h
    cases h

/-- **C71, staging/drivers/can/can-pic32mx.c** -/
theorem pic32mx_bitrate {freq bitrate w : Nat} (hb : bitrate < 2 ^ 25) (h : pic32mxSetBitrate freq bitrate = .ok w) :
    Exact (pic32mxHw w) freq bitrate ∧ SampleOk (pic32mxHw w) := by
  obtain ⟨b, tq, h1, h2, h3, h4, h5, h6⟩ := setBitrate_ok (by omega) (by omega) h
  obtain ⟨ha, hs⟩ := pic32mx_regs h1 (by omega) h3 h4 h6
  refine ⟨?_, hs⟩
  rw [ha]; show freq = 2 * b * tq * bitrate; rw [h5]; ac_rfl

/-! ### can-ti_dcan.c: right for the dividers up to 32 only -/

theorem dcan_regs {brp tq w : Nat} (h1 : 1 ≤ brp) (h2 : brp ≤ 1024) (ht1 : 8 ≤ tq) (ht2 : tq ≤ 25) (h : dcanRegs brp tq = some w) :
    dcanHw w = ⟨(brp - 1) / 32 % 16 * 64 + (brp - 1) % 64 + 1, tq, seg87 (tq - 1) - 2⟩ := by
  unfold dcanRegs at h
  simp only [] at h
  have hq : seg87 (tq - 1) = ((tq - 1) * 64 + 36) / 73 := rfl
  generalize seg87 (tq - 1) = p at *
  rw [wsub p 3 (by omega) (by omega), wsub _ _ (by omega) (by omega)] at h
  split at h
  · cases h
  · rename_i hs
    injection h with h
    have hw : w = ((brp - 1) / 32 % 16) * 2 ^ 16 + ((tq - 1 - (p - 3) - 1) * 2 ^ 12 + ((p - 3 - 1) * 2 ^ 8 + (3 * 2 ^ 6 + (brp - 1) % 64))) := by
      rw [← h, e4, e3, e4, e1, e6, Nat.shiftRight_eq_div_pow, Nat.or_assoc, Nat.or_assoc, Nat.or_assoc, or_mul_two_pow 6 _ _ (by omega),
        or_mul_two_pow 8 _ _ (by omega), or_mul_two_pow 12 _ _ (by omega), or_mul_two_pow 16 _ _ (by omega)]
      omega
    simp only [dcanHw, Timing.mk.injEq]
    rw [hw, bits_top _ 16 _ _ (by omega), bits_low _ 16 _ 0 6 (by omega), bits_low _ 16 _ 8 4 (by omega), bits_low _ 16 _ 12 3 (by omega),
      bits_low _ 12 _ 0 6 (by omega), bits_low _ 12 _ 8 4 (by omega), bits_top _ 12 _ _ (by omega), bits_low _ 8 _ 0 6 (by omega), bits_top _ 8 _ _ (by omega),
      bits_low _ 6 _ 0 6 (by omega), bits_all _ _ (by omega)]
    omega

/-- the divider programmed is the one computed exactly when it is at most 32 (or at least 993) -/
theorem dcan_presc_iff (brp : Nat) (h1 : 1 ≤ brp) (h2 : brp ≤ 1024) : (brp - 1) / 32 % 16 * 64 + (brp - 1) % 64 + 1 = brp ↔ brp ≤ 32 ∨ 993 ≤ brp := by
  generalize hx : (brp - 1) / 32 = x
  have hx2 : (brp - 1) % 64 = brp - 1 - 64 * (x / 2) := by omega
  rw [hx2]
  constructor
  · intro h
    rcases Nat.lt_or_ge x 16 with h' | h'
    · rw [Nat.mod_eq_of_lt h'] at h; omega
    · have : x % 16 = x - 16 := by omega
      rw [this] at h; omega
  · rintro (h | h)
    · have : x = 0 := by omega
      subst this; omega
    · have : x = 31 := by omega
      subst this; omega

/-- **C71 (partial), drivers/can/can-ti_dcan.c**: exact when the divider found is at most 32, which is the case when the clock is at most 256 times the bit rate.
Missing: greater dividers, for which the rate is always wrong (`dcan_wrong`), and the sample point (`dcan_sample`). -/
theorem dcan_bitrate_partial {freq bitrate w : Nat} (hb : bitrate < 2 ^ 22) (hf : freq < 33 * 8 * bitrate) (h : dcanSetBitrate freq bitrate = .ok w) :
    Exact (dcanHw w) freq bitrate := by
  obtain ⟨b, tq, h1, h2, h3, h4, h5, h6⟩ := setBitrate_ok (by omega) (by omega) h
  have ha := dcan_regs h1 (by omega) h3 h4 h6
  have hb32 : b ≤ 32 := by
    rcases Nat.lt_or_ge b 33 with hlt | hge
    · omega
    · have a1 : 33 * bitrate ≤ b * bitrate := Nat.mul_le_mul_right _ hge
      have a2 : 33 * bitrate * 8 ≤ b * bitrate * tq := Nat.mul_le_mul a1 h3
      rw [Nat.mul_one] at h5
      omega
  rw [ha, (dcan_presc_iff b h1 h2).2 (Or.inl hb32)]
  show freq = b * tq * bitrate
  rw [h5, Nat.mul_one, Nat.mul_right_comm]

/-- when the clock is more than 32 * 25 times the bit rate (and less than 993 * 8 times), can_setup succeeds with a rate that is always wrong -/
theorem dcan_wrong {freq bitrate w : Nat} (hb : bitrate < 2 ^ 22) (hf : 32 * 25 * bitrate < freq) (hf2 : freq < 993 * 8 * bitrate) (h : dcanSetBitrate freq bitrate = .ok w) :
    ¬ Exact (dcanHw w) freq bitrate := by
  obtain ⟨b, tq, h1, h2, h3, h4, h5, h6⟩ := setBitrate_ok (by omega) (by omega) h
  have ha := dcan_regs h1 (by omega) h3 h4 h6
  have hbr : 0 < bitrate := by
    rcases Nat.eq_zero_or_pos bitrate with h0 | h0
    · subst h0; simp at h5; omega
    · exact h0
  rw [Nat.mul_one] at h5
  have hb32 : ¬ (b ≤ 32 ∨ 993 ≤ b) := by
    rintro (hle | hle)
    · have a1 : b * bitrate ≤ 32 * bitrate := Nat.mul_le_mul_right _ hle
      have a2 : b * bitrate * tq ≤ 32 * bitrate * 25 := Nat.mul_le_mul a1 h4
      omega
    · have a1 : 993 * bitrate ≤ b * bitrate := Nat.mul_le_mul_right _ hle
      have a2 : 993 * bitrate * 8 ≤ b * bitrate * tq := Nat.mul_le_mul a1 h3
      omega
  rw [ha]
  intro (he : freq = ((b - 1) / 32 % 16 * 64 + (b - 1) % 64 + 1) * tq * bitrate)
  apply hb32
  rw [← dcan_presc_iff b h1 h2]
  have e : ((b - 1) / 32 % 16 * 64 + (b - 1) % 64 + 1) * (tq * bitrate) = b * (tq * bitrate) := by
    rw [← Nat.mul_assoc, ← he, h5, Nat.mul_right_comm, Nat.mul_assoc]
  exact Nat.eq_of_mul_eq_mul_right (Nat.mul_pos (by omega) hbr) e

/-- LAUNCHXL-F28379D (200 MHz) at 125 kbit/s: can_setup returns 0 and the controller runs at 200 MHz / (144 * 20), 69.4 kbit/s -/
theorem dcan_125k : ∃ w, dcanSetBitrate 200000000 125000 = .ok w ∧ dcanHw w = ⟨144, 20, 15⟩ := by
  refine ⟨_, rfl, ?_⟩
  decide

/-- the sample point is two to four quanta early, whatever the rate (between 50 % and 77 % instead of 87.5 %) -/
theorem dcan_sample {freq bitrate w : Nat} (hb : bitrate < 2 ^ 22) (h : dcanSetBitrate freq bitrate = .ok w) :
    8 * (dcanHw w).sample + 19 ≤ 7 * (dcanHw w).quanta ∧ 7 * (dcanHw w).quanta ≤ 8 * (dcanHw w).sample + 26 ∧ ¬ SampleOk (dcanHw w) := by
  obtain ⟨b, tq, h1, h2, h3, h4, h5, h6⟩ := setBitrate_ok (by omega) (by omega) h
  have ha := dcan_regs h1 (by omega) h3 h4 h6
  have hq : seg87 (tq - 1) = ((tq - 1) * 64 + 36) / 73 := rfl
  rw [ha]
  refine ⟨?_, ?_, ?_⟩
  · show 8 * (seg87 (tq - 1) - 2) + 19 ≤ 7 * tq; omega
  · show 7 * tq ≤ 8 * (seg87 (tq - 1) - 2) + 26; omega
  · intro (hs : 7 * tq ≤ 8 * (seg87 (tq - 1) - 2) + 8 ∧ _)
    omega

/-! ### can-gd32vf103.c: the prescaler is one too many -/

theorem gd32_regs {psc tq w : Nat} (h2 : psc ≤ 1023) (ht1 : 8 ≤ tq) (ht2 : tq ≤ 25) (h : gd32Regs psc tq = some w) :
    gd32Hw w = ⟨psc + 1, tq, 1 + seg87 (tq - 1)⟩ := by
  unfold gd32Regs at h
  simp only [] at h
  have hq : seg87 (tq - 1) = ((tq - 1) * 64 + 36) / 73 := rfl
  generalize seg87 (tq - 1) = p at *
  split at h
  · cases h
  rename_i hp
  rw [wsub _ _ (by omega) (by omega)] at h
  split at h
  · cases h
  · rename_i hs
    injection h with h
    have hw : w = 1 * 2 ^ 24 + ((tq - 1 - p - 1) * 2 ^ 20 + ((p - 1) * 2 ^ 16 + psc)) := by
      rw [← h, e1, e4, e3, e10, Nat.or_assoc, Nat.or_assoc, Nat.or_comm ((p - 1) % 16 * 2 ^ 16), Nat.or_assoc, or_mul_two_pow' 16 _ _ (by omega),
        or_mul_two_pow 20 _ _ (by omega), or_mul_two_pow 24 _ _ (by omega)]
      omega
    simp only [gd32Hw, Timing.mk.injEq]
    rw [hw, bits_low _ 24 _ 0 10 (by omega), bits_low _ 24 _ 16 4 (by omega), bits_low _ 24 _ 20 3 (by omega), bits_low _ 20 _ 0 10 (by omega),
      bits_low _ 20 _ 16 4 (by omega), bits_top _ 20 _ _ (by omega), bits_low _ 16 _ 0 10 (by omega), bits_top _ 16 _ _ (by omega), bits_all _ _ (by omega)]
    omega

/-- staging/drivers/can/can-gd32vf103.c: every time can_setup succeeds the rate is wrong (BAUDPSC is the prescaler minus one) -/
theorem gd32_always_wrong {freq bitrate w : Nat} (hb : bitrate < 2 ^ 22) (hf : 0 < freq) (h : gd32SetBitrate freq bitrate = .ok w) :
    ¬ Exact (gd32Hw w) freq bitrate := by
  obtain ⟨b, tq, h1, h2, h3, h4, h5, h6⟩ := setBitrate_ok (by omega) (by omega) h
  have ha := gd32_regs h2 h3 h4 h6
  rw [ha]
  intro (he : freq = (b + 1) * tq * bitrate)
  rw [Nat.mul_one, Nat.mul_right_comm] at h5
  have : (b + 1) * tq * bitrate = b * tq * bitrate + tq * bitrate := by rw [Nat.add_mul, Nat.add_mul, Nat.one_mul]
  have h0 : tq * bitrate = 0 := by omega
  rw [Nat.mul_assoc, h0] at h5
  omega

/-! ### Non-vacuity: what the boards of the demos ask for -/

example : (mcanSetBitrate 40000000 500000).toOption.map (fun r => mcanHwN r.2) = some ⟨4, 20, 18⟩ := by decide
example : (flexcanSetBitrate 0 40000000 500000).toOption.map flexcanHw = some ⟨5, 16, 14⟩ := by decide
example : (sam3xSetBitrate 84000000 500000).toOption.map sam3xHw = some ⟨12, 14, 12⟩ := by decide
example : (pic32mxSetBitrate 80000000 500000).toOption.map pic32mxHw = some ⟨10, 16, 14⟩ := by decide
example : (dcanSetBitrate 200000000 500000).toOption.map dcanHw = some ⟨20, 20, 15⟩ := by decide
example : (gd32SetBitrate 54000000 500000).toOption.map gd32Hw = some ⟨7, 18, 16⟩ := by decide

end Pico.Can
