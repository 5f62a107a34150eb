import Verif.Drivers.MiscCfg
/-
C122: settings of the bus matrix, the DMA request multiplexer, the input glitch filter, the resets.
-/
namespace Pico.MiscCfg

/-- **the specification**: the register at `a` becomes such that P, and no other register changes -/
def Only (a : Nat) (P : Word → Prop) (m m' : Mem) : Prop := P (m' a) ∧ ∀ i, i ≠ a → m' i = m i

theorem put_only (m : Mem) (a : Nat) (v : Word) (P : Word → Prop) (h : P v) : Only a P m (put m a v) := ⟨by simp [put, h], fun i hi => by simp [put, hi]⟩

/-! ### the bus matrix of the SAM x7 (DS60001527 "Bus Matrix": MATRIX_MCFGx at 4 x, x < 13; MATRIX_SCFGx at 0x40 + 4 x, x < 9; CCFG_CAN0 at 0x110, CCFG_SYSIO at 0x114) -/

/-- **C122**: a burst type is set for the master asked, and nothing else -/
theorem mcfg_partial (i u : Nat) (m m' : Mem) (h : Matrix.setMcfg i u m = some m') : Only (4 * i) (fun v => v.toNat = u) m m' ∧ i < 13 ∧ u < 8 := by
  unfold Matrix.setMcfg at h
  split at h
  · split at h
    · rename_i hi hu
      cases h
      refine ⟨put_only _ _ _ _ ?_, by omega, hu⟩
      have : u % 4294967296 = u := Nat.mod_eq_of_lt (by omega)
      rw [BitVec.toNat_and, BitVec.toNat_ofNat, show (2 : Nat) ^ 32 = 4294967296 from rfl, this, show (7#32).toNat = 2 ^ 3 - 1 from rfl, Nat.and_two_pow_sub_one_eq_mod]
      exact Nat.mod_eq_of_lt hu
    · cases h
  · cases h

theorem mcfg_accepts (i u : Nat) (m : Mem) (hi : i < 12) (hu : u < 8) : ∃ m', Matrix.setMcfg i u m = some m' := ⟨_, by rw [Matrix.setMcfg, if_pos hi, if_pos hu]⟩

/-- **C122 refuted**: the last of the masters can't be configured, nor the last of the slaves -/
theorem last_refused (u f t s : Nat) (m : Mem) : Matrix.setMcfg 12 u m = none ∧ Matrix.setScfg 8 f t s m = none := by simp [Matrix.setMcfg, Matrix.setScfg]

theorem scfg_value (f t s : Nat) (hf : f ≤ 15) (ht : t < 3) (hs : s ≤ 511) :
    ((BitVec.ofNat 32 f &&& 0xf#32) <<< 18 ||| (BitVec.ofNat 32 t &&& 3#32) <<< 16 ||| (BitVec.ofNat 32 s &&& 0x1ff#32) <<< 1).toNat = f * 262144 + t * 65536 + s * 2 := by
  have e : ∀ n k, n < 2 ^ k → k ≤ 32 → (BitVec.ofNat 32 n &&& BitVec.ofNat 32 (2 ^ k - 1)).toNat = n := by
    intro n k hn hk
    have h2 : 2 ^ k ≤ 2 ^ 32 := Nat.pow_le_pow_right (by decide) hk
    rw [BitVec.toNat_and, BitVec.toNat_ofNat, BitVec.toNat_ofNat, Nat.mod_eq_of_lt (show n < 2 ^ 32 by omega), Nat.mod_eq_of_lt (show 2 ^ k - 1 < 2 ^ 32 by omega), Nat.and_two_pow_sub_one_eq_mod]
    exact Nat.mod_eq_of_lt hn
  have ef := e f 4 (by omega) (by decide)
  have et := e t 2 (by omega) (by decide)
  have es := e s 9 (by omega) (by decide)
  rw [show BitVec.ofNat 32 (2 ^ 4 - 1) = 0xf#32 from rfl] at ef
  rw [show BitVec.ofNat 32 (2 ^ 2 - 1) = 3#32 from rfl] at et
  rw [show BitVec.ofNat 32 (2 ^ 9 - 1) = 0x1ff#32 from rfl] at es
  rw [BitVec.toNat_or, BitVec.toNat_or, BitVec.toNat_shiftLeft, BitVec.toNat_shiftLeft, BitVec.toNat_shiftLeft, ef, et, es]
  simp only [Nat.shiftLeft_eq]
  rw [Nat.mod_eq_of_lt (by omega), Nat.mod_eq_of_lt (by omega), Nat.mod_eq_of_lt (by omega)]
  have h1 : f * 2 ^ 18 ||| t * 2 ^ 16 = f * 2 ^ 18 + t * 2 ^ 16 := by
    rw [Nat.mul_comm f, Nat.two_pow_add_eq_or_of_lt (show t * 2 ^ 16 < 2 ^ 18 by omega)]
  rw [h1, show f * 2 ^ 18 + t * 2 ^ 16 = 2 ^ 16 * (f * 4 + t) by omega, ← Nat.two_pow_add_eq_or_of_lt (show s * 2 ^ 1 < 2 ^ 16 by omega)]

/-- **C122**: the default master (bits 21-18), its type (17-16) are those asked, for the slave asked, and nothing else changes; the grant duration is at bits 9-1 -/
theorem scfg_partial (i f t s : Nat) (m m' : Mem) (h : Matrix.setScfg i f t s m = some m') :
    Only (0x40 + 4 * i) (fun v => v.extractLsb' 18 4 = BitVec.ofNat 4 f ∧ v.extractLsb' 16 2 = BitVec.ofNat 2 t ∧ v.extractLsb' 1 9 = BitVec.ofNat 9 s ∧ v.extractLsb' 0 9 = BitVec.ofNat 9 (2 * s)) m m' ∧
    i < 9 ∧ f < 16 ∧ t < 3 ∧ s < 512 := by
  unfold Matrix.setScfg at h
  split at h
  · split at h
    · split at h
      · split at h
        · rename_i hi hf ht hs
          cases h
          have e : Matrix.scfg i = 0x40 + 4 * i := by simp only [Matrix.scfg]; omega
          rw [e]
          refine ⟨put_only _ _ _ _ ?_, by omega, by omega, ht, by omega⟩
          have hv := scfg_value f t s hf ht hs
          generalize (BitVec.ofNat 32 f &&& 0xf#32) <<< 18 ||| (BitVec.ofNat 32 t &&& 3#32) <<< 16 ||| (BitVec.ofNat 32 s &&& 0x1ff#32) <<< 1 = v at hv
          refine ⟨?_, ?_, ?_, ?_⟩ <;> apply BitVec.eq_of_toNat_eq <;> simp only [BitVec.extractLsb'_toNat, hv, BitVec.toNat_ofNat, Nat.shiftRight_eq_div_pow] <;> omega
        · cases h
      · cases h
    · cases h
  · cases h

theorem scfg_accepts (i f t s : Nat) (m : Mem) (hi : i < 8) (hf : f < 16) (ht : t < 3) (hs : s < 512) : ∃ m', Matrix.setScfg i f t s m = some m' :=
  ⟨_, by rw [Matrix.setScfg, if_pos hi, if_pos (by omega), if_pos ht, if_pos (by omega)]⟩

/-- **C122 refuted** (the datasheet has SLOT_CYCLE at bits 8-0): the number of cycles set is twice the one asked, modulo 512 -/
theorem scfg_slot : (Matrix.setScfg 0 0 0 300 (fun _ => 0)).map (fun m => ((m 0x40).extractLsb' 0 9).toNat) = some 88 := by decide

theorem ones16 (j : Nat) : (65535#32).getLsbD j = decide (j < 16) := by
  by_cases h : j < 32
  · revert j; decide +kernel
  · rw [BitVec.getLsbD_of_ge _ _ (by omega)]; simp; omega

theorem dma_set (r : Nat) (a : BitVec 16) (m : Mem) : Only r (fun v => v.extractLsb' 16 16 = a ∧ v.extractLsb' 0 16 = (m r).extractLsb' 0 16) m (Matrix.setDma r a m) := by
  refine ⟨?_, fun i hi => ?_⟩
  · have e : Matrix.setDma r a m r = (m r &&& ~~~((65535#32) <<< 16)) ||| (a.setWidth 32 &&& 65535#32) <<< 16 := by simp [Matrix.setDma, put]
    rw [e]
    constructor
    · apply BitVec.eq_of_getLsbD_eq
      intro i hi
      simp only [BitVec.getLsbD_extractLsb', BitVec.getLsbD_or, BitVec.getLsbD_and, BitVec.getLsbD_not, BitVec.getLsbD_shiftLeft, BitVec.getLsbD_setWidth, ones16]
      simp [hi, show 16 + i < 32 by omega, show i < 32 by omega, show ¬ 16 + i < 16 by omega]
    · apply BitVec.eq_of_getLsbD_eq
      intro i hi
      simp only [BitVec.getLsbD_extractLsb', BitVec.getLsbD_or, BitVec.getLsbD_and, BitVec.getLsbD_not, BitVec.getLsbD_shiftLeft, BitVec.getLsbD_setWidth, ones16]
      simp [hi, show i < 32 by omega]
  · simp [Matrix.setDma, put, hi]

/-- **C122**: the upper halves of the addresses of the two CAN are set, the other bits and registers are as before -/
theorem can0_set (a : BitVec 16) (m : Mem) : Only 0x110 (fun v => v.extractLsb' 16 16 = a ∧ v.extractLsb' 0 16 = (m 0x110).extractLsb' 0 16) m (Matrix.setCan0 a m) := dma_set 0x110 a m
theorem can1_set (a : BitVec 16) (m : Mem) : Only 0x114 (fun v => v.extractLsb' 16 16 = a ∧ v.extractLsb' 0 16 = (m 0x114).extractLsb' 0 16) m (Matrix.setCan1 a m) := dma_set 0x114 a m

theorem bit32 (k i : Nat) (hk : k < 32) : (1#32 <<< k).getLsbD i = decide (i = k) := by
  rw [BitVec.getLsbD_shiftLeft]
  by_cases h : i = k
  · subst h; simp [hk]
  · by_cases h2 : i < k
    · simp [h, h2]
    · have : (1#32).getLsbD (i - k) = false := by
        rw [show (1#32) = BitVec.ofNat 32 1 from rfl, BitVec.getLsbD_one]; simp; omega
      simp [h, this]

theorem set_bit (k : Nat) (hk : k < 32) (r : Word) : (r ||| 1#32 <<< k).getLsbD k = true ∧ ∀ i, i ≠ k → (r ||| 1#32 <<< k).getLsbD i = r.getLsbD i := by
  refine ⟨by rw [BitVec.getLsbD_or, bit32 k k hk]; simp, fun i hi => by rw [BitVec.getLsbD_or, bit32 k i hk]; simp [hi]⟩

theorem clr_bit (k : Nat) (hk : k < 32) (r : Word) : (r &&& ~~~(1#32 <<< k)).getLsbD k = false ∧ ∀ i, i ≠ k → (r &&& ~~~(1#32 <<< k)).getLsbD i = r.getLsbD i := by
  refine ⟨by rw [BitVec.getLsbD_and, BitVec.getLsbD_not, bit32 k k hk]; simp, fun i hi => ?_⟩
  rw [BitVec.getLsbD_and, BitVec.getLsbD_not, bit32 k i hk]
  by_cases h : i < 32
  · simp [hi, h]
  · rw [BitVec.getLsbD_of_ge _ _ (by omega)]; simp

theorem and_bit (k : Nat) (hk : k < 32) (v : Word) : v &&& 1#32 <<< k ≠ 0 ↔ v.getLsbD k = true := by
  constructor
  · intro h
    cases c : v.getLsbD k with
    | true => rfl
    | false =>
      refine absurd ?_ h
      apply BitVec.eq_of_getLsbD_eq
      intro i hi
      rw [BitVec.getLsbD_and, bit32 k i hk]
      by_cases e : i = k
      · subst e; simp [c]
      · simp [e]
  · intro h e
    have := congrArg (fun x => x.getLsbD k) e
    simp only [BitVec.getLsbD_and, bit32 k k hk, h] at this
    simp at this

/-! ### the DMA request multiplexer of the STM32H7 (RM0433: DMAMUX_CxCR at 4 x, x < 16, DMAREQ_ID at bits 6-0) -/

/-- **C122**: channels 0 to 15 and requests 0 to 127 are accepted, no others; the request is set for that channel, only -/
theorem dmamux_set (ch id : Nat) (m : Mem) :
    (Dmamux.init ch = if ch < 16 then some ch else none) ∧
    (id < 128 → ∃ m', Dmamux.setReq ch id m = some m' ∧ Only (4 * ch) (fun v => v.toNat = id) m m') ∧ (128 ≤ id → Dmamux.setReq ch id m = none) := by
  refine ⟨rfl, fun h => ⟨_, if_pos (by omega), put_only _ _ _ _ ?_⟩, fun h => if_neg (by omega)⟩
  have : id % 4294967296 = id := Nat.mod_eq_of_lt (by omega)
  rw [BitVec.toNat_and, BitVec.toNat_ofNat, show (2 : Nat) ^ 32 = 4294967296 from rfl, this, show (0x7f#32).toNat = 2 ^ 7 - 1 from rfl, Nat.and_two_pow_sub_one_eq_mod]
  exact Nat.mod_eq_of_lt h

/-! ### the input glitch filter -/

/-- two channels have two registers -/
theorem igf_distinct (a b : Nat) (ha : a < 46) (hb : b < 46) (h : Igf.mcr a = Igf.mcr b) : a = b := by
  unfold Igf.mcr at h
  split at h <;> split at h <;> (repeat' split at h) <;> omega

/-- **C122**: the 46 channels are accepted; a channel is initialised to the bypass (bit 6, only) and inverted (bit 7) as asked, the other bits and the other channels are as before -/
theorem igf_set (ch : Nat) (hc : ch < 46) (inv : Bool) (m : Mem) :
    (∃ m', Igf.init ch m = some (ch, m') ∧ Only (Igf.mcr ch) (fun v => v = 64#32) m m') ∧
    Only (Igf.mcr ch) (fun v => v.getLsbD 7 = inv ∧ ∀ i, i ≠ 7 → v.getLsbD i = (m (Igf.mcr ch)).getLsbD i) m (Igf.setup ch inv m) ∧
    ∀ c, c < 46 → c ≠ ch → Igf.setup ch inv m (Igf.mcr c) = m (Igf.mcr c) := by
  have h2 : Only (Igf.mcr ch) (fun v => v.getLsbD 7 = inv ∧ ∀ i, i ≠ 7 → v.getLsbD i = (m (Igf.mcr ch)).getLsbD i) m (Igf.setup ch inv m) := by
    refine put_only _ _ _ _ ?_
    cases inv with
    | true => exact set_bit 7 (by decide) _
    | false => exact clr_bit 7 (by decide) _
  refine ⟨⟨_, if_pos hc, put_only _ _ _ _ (by decide)⟩, h2, fun c hcc hne => h2.2 _ fun e => hne (igf_distinct c ch hcc hc e)⟩

theorem igf_refused (ch : Nat) (h : 46 ≤ ch) (m : Mem) : Igf.init ch m = none := if_neg (by omega)

/-- **C122 refuted**, if the channels are 0x40 bytes apart, as the struct has it for the channels 0 and 32: from channel 2 on the register is another one -/
theorem igf_layout (ch : Nat) : Igf.mcr ch = 0x40 * ch ↔ ch ≤ 1 := by
  unfold Igf.mcr
  split
  · omega
  · split
    · omega
    · split <;> omega

/-! ### the resets of the RP2040 -/

/-- **C122**: rp2040_reset_init resets all of them but the six that the program runs from -/
theorem rp_init (i : Nat) (h : i < 25) : Rp.init.getLsbD i = !(i == 6 || i == 9 || i == 12 || i == 13 || i == 18 || i == 24) := by
  revert i; decide +kernel

/-- **C122**: a reset is asserted, the others are as before -/
theorem rp_reset (ss : Nat) (r r' : Word) (h : Rp.reset ss r = some r') : ss < 25 ∧ r'.getLsbD ss = true ∧ ∀ i, i ≠ ss → r'.getLsbD i = r.getLsbD i := by
  unfold Rp.reset at h
  split at h
  · rename_i hs
    cases h
    exact ⟨hs, set_bit ss (by omega) r⟩
  · cases h

theorem wait_iff (mask : Word) (d : Nat → Word) : ∀ n i, Rp.wait mask d n i = true ↔ ∃ k, k ≤ n ∧ d (i + k) &&& mask ≠ 0 := by
  intro n
  induction n with
  | zero =>
    intro i
    unfold Rp.wait
    by_cases c : d i &&& mask = 0
    · simp [c]
    · simp [c]
  | succ n ih =>
    intro i
    unfold Rp.wait
    by_cases c : d i &&& mask = 0
    · simp only [c, if_true]
      rw [ih]
      constructor
      · rintro ⟨k, hk, h⟩; exact ⟨k + 1, by omega, by rwa [show i + (k + 1) = i + 1 + k by omega]⟩
      · rintro ⟨k, hk, h⟩
        cases k with
        | zero => exact absurd c h
        | succ k => exact ⟨k, by omega, by rwa [show i + 1 + k = i + (k + 1) by omega]⟩
    · simp only [c, if_false, true_iff]
      exact ⟨0, Nat.zero_le _, c⟩

/-- **C122**: it is released, the others are as before, and 0 is returned when the hardware says that it is out of reset, within CONFIG_DEADLOCK_COUNT + 1 reads: after 0 the block can be used -/
theorem rp_unreset (limit ss : Nat) (hs : ss < 25) (d : Nat → Word) (r : Word) : ∃ r' ok, Rp.unreset limit d ss r = some (r', ok) ∧
    r'.getLsbD ss = false ∧ (∀ i, i ≠ ss → r'.getLsbD i = r.getLsbD i) ∧ (ok = true ↔ ∃ k, k ≤ limit ∧ (d k).getLsbD ss = true) := by
  refine ⟨_, _, if_pos hs, (clr_bit ss (by omega) r).1, (clr_bit ss (by omega) r).2, ?_⟩
  rw [wait_iff]
  constructor
  · rintro ⟨k, hk, h⟩; exact ⟨k, hk, (and_bit ss (by omega) _).1 (by simpa using h)⟩
  · rintro ⟨k, hk, h⟩; exact ⟨k, hk, by simpa using (and_bit ss (by omega) _).2 h⟩

theorem rp_refused (limit ss : Nat) (hs : 25 ≤ ss) (d : Nat → Word) (r : Word) : Rp.reset ss r = none ∧ Rp.unreset limit d ss r = none := ⟨if_neg (by omega), if_neg (by omega)⟩

/-- cases: settings that are accepted; a block that is out of reset at the third read -/
example : (Matrix.setMcfg 11 5 (fun _ => 0)).map (fun m => (m 44, m 40)) = some (5, 0) := by decide
example : (Matrix.setScfg 7 15 2 511 (fun _ => 0)).map (fun m => m 0x5c) = some 0x3e03fe := by decide
example : Rp.unreset 5 (fun k => if k < 2 then 0 else 8) 3 0xff = some (0xf7, true) := by decide
example : Rp.unreset 1 (fun k => if k < 2 then 0 else 8) 3 0xff = some (0xf7, false) := by decide

end Pico.MiscCfg
