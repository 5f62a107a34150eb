import Verif.Arch.Intc
/-
C59: enabling and disabling an interrupt does that, to that interrupt only.
-/
namespace Pico.Intc

theorem and31 (i : Nat) : 0x1f &&& i = i % 32 := by
  rw [Nat.and_comm]; exact Nat.and_two_pow_sub_one_eq_mod i 5
theorem shr5 (i : Nat) : i >>> 5 = i / 32 := by rw [Nat.shiftRight_eq_div_pow]

/-! ## Cortex-M -/
namespace Nvic

theorem enable_eq (i : Nat) (s : S) : enable i s = upd s (i / 32) (s (i / 32) ||| (1#32 <<< (i % 32))) := by
  simp only [enable, writeISER, read, and31, shr5, ← BitVec.or_assoc, BitVec.or_self]

/-- no bit a disable writes is new: the register ignores it -/
theorem or_and_self (v w : BitVec 32) : v ||| (v &&& w) = v := by
  ext b; simp; intro h _; exact h

/-- armv7-m, armv7e-m: enabling works, for every interrupt number and every register content. -/
theorem enable_ok (I : Nat → Prop) : ctl.EnableOk I := by
  intro s i _
  simp only [ctl, enable_eq, delivers]
  refine ⟨?_, fun j _ hj => ?_⟩
  · rw [upd_same, bit_set _ _ _ (Nat.mod_lt _ (by decide))]; simp
  · by_cases hw : j / 32 = i / 32
    · rw [hw, upd_same, bit_set _ _ _ (Nat.mod_lt _ (by decide))]
      simp [word_ne hj hw]
    · rw [upd_ne _ _ hw]

/-- armv7-m, armv7e-m: disabling has no effect at all, whatever the interrupt and the registers
(counterexample to C59). -/
theorem disable_no_effect (i : Nat) (s : S) : ctl.disable i s = s := by
  show disable i s = s
  funext w
  simp only [disable, writeISER, read, or_and_self]
  by_cases h : w = i >>> 5
  · rw [h, upd_same]
  · rw [upd_ne _ _ h]

/-- ... so an interrupt once enabled is delivered after it is disabled. -/
theorem disable_wrong (i : Nat) (s : S) :
    ctl.delivers (ctl.disable i (ctl.enable i s)) i = true := by
  rw [disable_no_effect]; exact (enable_ok (fun _ => True) s i trivial).1

/-- armv6-m (single register): the same for the interrupts it has (below 32; rp2040 has 26). -/
theorem enable6_eq (i : Nat) (h : i < 32) : enable6 i = enable i ∧ disable6 i = disable i := by
  have h1 : 0x1f &&& i = i := by rw [and31, Nat.mod_eq_of_lt h]
  have h2 : i >>> 5 = 0 := by rw [shr5]; omega
  constructor <;> funext s <;> simp only [enable6, enable, disable6, disable, h1, h2]

theorem enable6_ok (n : Nat) (hn : n ≤ 32) : ctl6.EnableOk (· < n) := by
  intro s i hi
  have : enable6 i = enable i := (enable6_eq i (Nat.lt_of_lt_of_le hi hn)).1
  show delivers (enable6 i s) i = true ∧ ∀ j, j < n → j ≠ i → delivers (enable6 i s) j = delivers s j
  rw [this]; exact enable_ok (· < n) s i hi

theorem disable6_wrong (i : Nat) (s : S) (hi : i < 32) :
    ctl6.delivers (ctl6.disable i (ctl6.enable i s)) i = true := by
  show delivers (disable6 i (enable6 i s)) i = true
  rw [(enable6_eq i hi).1, (enable6_eq i hi).2]; exact disable_wrong i s

/-- a concrete state: interrupt 37 enabled among others, then "disabled", is still delivered -/
example : ctl.delivers (ctl.disable 37 (ctl.enable 37 (fun _ => 0x80000001#32))) 37 = true := by decide

end Nvic

/-! ## rv32ec -/
namespace Pfic

/-- enabling works for the 48 interrupts of the two registers (the ch32v003 has 23), whatever reads return -/
theorem enable_ok : ctl.EnableOk (· < 48) := by
  intro s i hi
  simp only [ctl, delivers, enable]
  have key : ∀ w b, b < 32 → ∀ w' b', b' < 32 → (w = w' → b = b' → False) ∨ (w = w' ∧ b = b') →
      ((writeIENR s w (s.rd (s.en w) ||| (1#32 <<< b))).en w').getLsbD b' =
        (decide (w = w' ∧ b = b') || (s.en w').getLsbD b') := by
    intro w b hb w' b' hb' _
    simp only [writeIENR]
    by_cases hw : w' = w
    · subst hw
      rw [upd_same, BitVec.getLsbD_or, bit_set _ _ _ hb']
      have := s.rd_sub (s.en w') b'
      cases h1 : (s.rd (s.en w')).getLsbD b' with
      | true => rw [this h1]; simp
      | false => by_cases hbb : b' = b
                 · subst hbb; simp
                 · have : ¬ b = b' := fun e => hbb e.symm
                   simp [hbb, this]
    · rw [upd_ne _ _ hw]
      have : ¬ w = w' := fun e => hw e.symm
      simp [this]
  have em : ∀ w b w' b' : Nat, (w = w' → b = b' → False) ∨ (w = w' ∧ b = b') := fun w b w' b' => by
    by_cases h : w = w' <;> by_cases h2 : b = b' <;> simp [h, h2]
  by_cases h : i < 16
  · rw [if_pos h]
    refine ⟨?_, fun j hj hji => ?_⟩
    · rw [key _ _ (by omega) _ _ (Nat.mod_lt _ (by decide)) (em ..)]
      have : (0 = (i + 16) / 32 ∧ i + 16 = (i + 16) % 32) := by omega
      simp [← this.1, ← this.2]
    · rw [key _ _ (by omega) _ _ (Nat.mod_lt _ (by decide)) (em ..)]
      have : ¬ (0 = (j + 16) / 32 ∧ i + 16 = (j + 16) % 32) := by omega
      simp [this]
  · rw [if_neg h]
    refine ⟨?_, fun j hj hji => ?_⟩
    · rw [key _ _ (by omega) _ _ (Nat.mod_lt _ (by decide)) (em ..)]
      have : (1 = (i + 16) / 32 ∧ i - 16 = (i + 16) % 32) := by omega
      simp [← this.1, ← this.2]
    · rw [key _ _ (by omega) _ _ (Nat.mod_lt _ (by decide)) (em ..)]
      have : ¬ (1 = (j + 16) / 32 ∧ i - 16 = (j + 16) % 32) := by omega
      simp [this]

/-- disabling has no effect at all (counterexample to C59) -/
theorem disable_no_effect (i : Nat) (s : S) : ctl.disable i s = s := by
  show disable i s = s
  have key : ∀ w m, writeIENR s w (s.rd (s.en w) &&& m) = s := by
    intro w m
    have : upd s.en w (s.en w ||| (s.rd (s.en w) &&& m)) = s.en := by
      funext x
      by_cases hx : x = w
      · subst hx; rw [upd_same]
        apply BitVec.eq_of_getLsbD_eq
        intro b _
        rw [BitVec.getLsbD_or, BitVec.getLsbD_and]
        have := s.rd_sub (s.en x) b
        cases h1 : (s.rd (s.en x)).getLsbD b with
        | true => rw [this h1]; simp
        | false => simp
      · rw [upd_ne _ _ hx]
    simp only [writeIENR, this]
  unfold disable
  split <;> exact key _ _

theorem disable_wrong (i : Nat) (s : S) (hi : i < 48) :
    ctl.delivers (ctl.disable i (ctl.enable i s)) i = true := by
  rw [disable_no_effect]; exact (enable_ok s i hi).1

/-- the two usual readings of the register are among those covered -/
example : ∃ s : S, s.rd = id := ⟨⟨fun _ => 0, id, fun _ _ h => h⟩, rfl⟩
example : ∃ s : S, s.rd = fun _ => 0 := ⟨⟨fun _ => 0, fun _ => 0, fun _ _ h => by simp at h⟩, rfl⟩

end Pfic

/-! ## rv32imac -/
namespace Eclic

theorem enable_ok (I : Nat → Prop) : ctl.EnableOk I := by
  intro s i _
  simp only [ctl, delivers, enable]
  refine ⟨?_, fun j _ hj => ?_⟩
  · rw [upd_ne _ _ (by omega), upd_same]; decide
  · rw [upd_ne _ _ (by omega), upd_ne _ _ (by omega)]

theorem disable_ok (I : Nat → Prop) : ctl.DisableOk I := by
  intro s i _
  simp only [ctl, delivers, disable]
  refine ⟨?_, fun j _ hj => ?_⟩
  · rw [upd_same]; decide
  · rw [upd_ne _ _ (by omega)]

end Eclic

/-! ## pic32mz -/
namespace Pic32

/-- disabling works, for every interrupt number and every register content -/
theorem disable_ok (I : Nat → Prop) : ctl.DisableOk I := by
  intro s i _
  simp only [ctl, delivers, disable, and31, shr5, prio]
  refine ⟨?_, fun j _ hj => ?_⟩
  · rw [upd_same, bit_clear _ _ _ (Nat.mod_lt _ (by decide))]; simp
  · by_cases hw : j / 32 = i / 32
    · rw [hw, upd_same, bit_clear _ _ _ (Nat.mod_lt _ (by decide))]
      simp [word_ne hj hw]
    · rw [upd_ne _ _ hw]

theorem shr6 (i : Nat) : i >>> 6 = i / 64 := by rw [Nat.shiftRight_eq_div_pow]
theorem and1 (i : Nat) : 0x1 &&& i = i % 2 := by
  rw [Nat.and_comm]; exact Nat.and_two_pow_sub_one_eq_mod i 1

/-- what enabling does to the enable bits: exactly the interrupt asked for -/
theorem enable_iec (i j : Nat) (s : S) :
    ((enable i s).iec (j / 32)).getLsbD (j % 32) = (decide (j = i) || (s.iec (j / 32)).getLsbD (j % 32)) := by
  simp only [enable, and31, shr5]
  by_cases hw : j / 32 = i / 32
  · rw [hw, upd_same, bit_set _ _ _ (Nat.mod_lt _ (by decide))]
    by_cases h : j = i
    · simp [h]
    · simp [h, word_ne h hw]
  · rw [upd_ne _ _ hw]
    have : j ≠ i := fun h => hw (by rw [h])
    simp [this]

/-- the interrupt whose priority is set when `i` is enabled: not `i` unless `i = 0` -/
def victim (i : Nat) : Nat := 4 * (i / 64) + 2 * (i % 2)

theorem victim_eq (i : Nat) : victim i = i ↔ i = 0 := by unfold victim; omega

theorem dist3 (v c : BitVec 32) (n : Nat) :
    (v ||| c) >>> n &&& 7#32 = (v >>> n &&& 7#32) ||| (c >>> n &&& 7#32) := by
  ext b; simp [Bool.and_or_distrib_right]

/-- what enabling does to the priorities: that of `victim i` becomes non-zero, all others are kept -/
theorem enable_prio (i j : Nat) (s : S) :
    prio (enable i s) j = if j = victim i then prio s j ||| 1#32 else prio s j := by
  simp only [prio, enable, shr6, and1]
  have hv : j = victim i ↔ (j / 4 = i / 64 ∧ j % 4 = 2 * (i % 2)) := by unfold victim; omega
  by_cases hw : j / 4 = i / 64
  · rw [hw, upd_same]
    generalize s.ipc (i / 64) = v
    have h4 : j % 4 < 4 := Nat.mod_lt _ (by decide)
    have h2 : i % 2 < 2 := Nat.mod_lt _ (by decide)
    simp only [hv, hw, true_and]
    generalize j % 4 = a at *
    generalize i % 2 = b at *
    have : (a = 0 ∨ a = 1 ∨ a = 2 ∨ a = 3) ∧ (b = 0 ∨ b = 1) := by omega
    obtain ⟨ha | ha | ha | ha, hb | hb⟩ := this <;> subst ha <;> subst hb <;>
      rw [dist3] <;> simp
  · rw [upd_ne _ _ hw, if_neg (fun h => hw (hv.mp h).1)]

/-- Enabling works for an interrupt whose priority was set by other means; the other interrupts are
unaffected unless `victim i` was enabled with priority 0. -/
theorem enable_ok_partial (s : S) (i : Nat) (hp : i = 0 ∨ prio s i ≠ 0#32) :
    ctl.delivers (ctl.enable i s) i = true ∧
    ∀ j, j ≠ i → (j = victim i → prio s j ≠ 0#32) → ctl.delivers (ctl.enable i s) j = ctl.delivers s j := by
  have or1 : ∀ v : BitVec 32, v ||| 1#32 ≠ 0#32 := by
    intro v h
    have : (v ||| 1#32).getLsbD 0 = false := by rw [h]; rfl
    simp at this
  simp only [ctl, delivers, enable_iec, enable_prio]
  constructor
  · simp only [decide_true, Bool.true_or, Bool.true_and, bne_iff_ne, ne_eq]
    by_cases h : i = victim i
    · rw [if_pos h]; exact or1 _
    · rw [if_neg h]
      exact hp.resolve_left (fun h0 => h ((victim_eq i).mpr h0).symm)
  · intro j hj hv
    simp only [hj, decide_false, Bool.false_or]
    by_cases h : j = victim i
    · rw [if_pos h]
      have h1 : (prio s j ||| 1#32 != 0#32) = true := by simpa using or1 _
      have h2 : (prio s j != 0#32) = true := by simpa using hv h
      rw [h1, h2]
    · rw [if_neg h]

/-- From reset (all priorities 0) no interrupt but 0 can be enabled: whatever the enable registers, a call
of picoRTOS_enable_interrupt leaves interrupt `i` undelivered (counterexample to C59). -/
theorem enable_wrong (s : S) (i : Nat) (hi : i ≠ 0) (hp : prio s i = 0#32) :
    ctl.delivers (ctl.enable i s) i = false := by
  simp only [ctl, delivers, enable_prio]
  have : ¬ i = victim i := fun h => hi ((victim_eq i).mp h.symm)
  rw [if_neg this, hp]; simp

/-- reset state -/
example : ∃ s : S, ∀ i, prio s i = 0#32 := ⟨⟨fun _ => 0, fun _ => 0, fun _ => 0⟩, fun i => by simp [prio]⟩

/-- and enabling one interrupt can let another one through: enabling 3 delivers 2 -/
example : ∃ s : S, ctl.delivers s 2 = false ∧ ctl.delivers (ctl.enable 3 s) 2 = true :=
  ⟨⟨fun _ => 0, fun _ => 4, fun _ => 0⟩, by decide, by decide⟩

end Pic32

/-! ## c28x -/
namespace Pie

/-- INTx.9 to INTx.16 (numbers 128 to 223): enabling and disabling are right, and do not disturb any
interrupt, INTx.1 to INTx.8 included. -/
theorem loc_hi (i : Nat) (h1 : 128 ≤ i) (h2 : i < 224) : loc i = ((i - 128) / 8, 8 + (i - 128) % 8) := by
  have a : 0x7f &&& i = i % 128 := by rw [Nat.and_comm]; exact Nat.and_two_pow_sub_one_eq_mod i 7
  have b : 0x7 &&& i = i % 8 := by rw [Nat.and_comm]; exact Nat.and_two_pow_sub_one_eq_mod i 3
  simp only [loc, a, b]
  rw [if_neg (by omega), Nat.shiftRight_eq_div_pow]
  apply Prod.ext <;> simp only <;> omega

/-- position of the enable bit of interrupt `j` -/
def pos (j : Nat) : Nat × Nat :=
  if j < 128 then (2 * ((j - 32) / 8), (j - 32) % 8) else (2 * ((j - 128) / 8), 8 + (j - 128) % 8)

theorem delivers_pos (s : S) (j : Nat) : delivers s j = (s (pos j).1).getLsbD (pos j).2 := by
  unfold delivers pos; split <;> rfl

theorem pos_lt (j : Nat) (h1 : 32 ≤ j) (h2 : j < 224) : (pos j).1 < 24 ∧ (pos j).2 < 16 := by
  unfold pos; split <;> simp only <;> omega

theorem pos_inj (i j : Nat) (hi : 32 ≤ i ∧ i < 224) (hj : 32 ≤ j ∧ j < 224) (h : pos i = pos j) : i = j := by
  unfold pos at h
  split at h <;> split at h <;> simp only [Prod.mk.injEq] at h <;> omega

theorem enable_ok_partial (s : S) (i : Nat) (h1 : 128 ≤ i) (h2 : i < 224) :
    ctl.delivers (ctl.enable i s) i = true ∧
    ∀ j, 32 ≤ j → j < 224 → j ≠ i → ctl.delivers (ctl.enable i s) j = ctl.delivers s j := by
  have hp : pos i = (2 * (loc i).1, (loc i).2) := by
    rw [loc_hi i h1 h2]; unfold pos; rw [if_neg (by omega)]
  have hpi := pos_lt i (by omega) h2
  simp only [ctl, delivers_pos]
  constructor
  · simp only [enable, hp, upd_same]
    rw [bit_set _ _ _ (by rw [hp] at hpi; exact hpi.2)]; simp
  · intro j hj1 hj2 hj
    simp only [enable]
    by_cases hw : (pos j).1 = 2 * (loc i).1
    · rw [hw, upd_same, bit_set _ _ _ (pos_lt j hj1 hj2).2]
      have : (pos j).2 ≠ (loc i).2 := fun h => hj
        (pos_inj j i ⟨hj1, hj2⟩ ⟨by omega, h2⟩ (by rw [hp]; exact Prod.ext hw h))
      simp [this]
    · rw [upd_ne _ _ hw]

theorem disable_ok_partial (s : S) (i : Nat) (h1 : 128 ≤ i) (h2 : i < 224) :
    ctl.delivers (ctl.disable i s) i = false ∧
    ∀ j, 32 ≤ j → j < 224 → j ≠ i → ctl.delivers (ctl.disable i s) j = ctl.delivers s j := by
  have hp : pos i = (2 * (loc i).1, (loc i).2) := by
    rw [loc_hi i h1 h2]; unfold pos; rw [if_neg (by omega)]
  have hpi := pos_lt i (by omega) h2
  simp only [ctl, delivers_pos]
  constructor
  · simp only [disable, hp, upd_same]
    rw [bit_clear _ _ _ (by rw [hp] at hpi; exact hpi.2)]; simp
  · intro j hj1 hj2 hj
    simp only [disable]
    by_cases hw : (pos j).1 = 2 * (loc i).1
    · rw [hw, upd_same, bit_clear _ _ _ (pos_lt j hj1 hj2).2]
      have : (pos j).2 ≠ (loc i).2 := fun h => hj
        (pos_inj j i ⟨hj1, hj2⟩ ⟨by omega, h2⟩ (by rw [hp]; exact Prod.ext hw h))
      simp [this]
    · rw [upd_ne _ _ hw]

/-- INTx.1 to INTx.8 (numbers 32 to 127): the subtraction of 128 instead of 32 wraps, and the access lands
more than 16000 words beyond the 24 registers of the PIE - neither call changes any interrupt's delivery
(counterexample to C59), and memory that is none of the controller's is written. -/
theorem low_wrong (s : S) (i : Nat) (h1 : 32 ≤ i) (h2 : i < 128) :
    (∀ j, 32 ≤ j → j < 224 → ctl.delivers (ctl.enable i s) j = ctl.delivers s j ∧
      ctl.delivers (ctl.disable i s) j = ctl.delivers s j) ∧
    ∃ a, 16000 < a ∧ ∃ b, b < 16 ∧ (ctl.enable i s a).getLsbD b = true ∧ (ctl.disable i s a).getLsbD b = false := by
  have hl : loc i = ((i + 65408) / 8, i % 8) := by
    have hk : (i + 65536 - 128) % 65536 = i + 65408 := by omega
    simp only [loc, if_pos h2, hk]
    have b : 0x7 &&& (i + 65408) = (i + 65408) % 8 := by
      rw [Nat.and_comm]; exact Nat.and_two_pow_sub_one_eq_mod _ 3
    rw [b, Nat.shiftRight_eq_div_pow]
    apply Prod.ext <;> simp only <;> omega
  constructor
  · intro j hj1 hj2
    have hp := (pos_lt j hj1 hj2).1
    have hne : (pos j).1 ≠ 2 * (loc i).1 := by rw [hl]; simp only; omega
    simp only [ctl, delivers_pos, enable, disable]
    rw [upd_ne _ _ hne, upd_ne _ _ hne]; exact ⟨rfl, rfl⟩
  · refine ⟨2 * (loc i).1, by rw [hl]; simp only; omega, (loc i).2, by rw [hl]; simp only; omega, ?_, ?_⟩
    · show (enable i s _).getLsbD _ = true
      simp only [enable]
      rw [upd_same, bit_set _ _ _ (by rw [hl]; simp only; omega)]; simp
    · show (disable i s _).getLsbD _ = false
      simp only [disable]
      rw [upd_same, bit_clear _ _ _ (by rw [hl]; simp only; omega)]; simp

/-- a case of each: INT3.12 is 147, INT2.3 is 42 -/
example : ctl.delivers (ctl.enable 147 (fun _ => 0)) 147 = true := by decide
example : ctl.delivers (ctl.enable 42 (fun _ => 0)) 42 = false := by decide

end Pie

/-! ## e200z4 -/
namespace Siul2

theorem shr_bit (c : Nat) (hc : c < 3) : 0x8000#16 >>> c = 1#16 <<< (15 - c) := by
  have : c = 0 ∨ c = 1 ∨ c = 2 := by omega
  rcases this with h | h | h <;> subst h <;> decide

theorem pri_bits (v : BitVec 16) (c : Nat) (hc : c < 3) :
    ((1#16 <<< (15 - c) ||| 1#16) &&& 0xf#16) ≠ 0#16 ∧ (1#16 <<< (15 - c) ||| 1#16).getLsbD (15 - c) = true := by
  have : c = 0 ∨ c = 1 ∨ c = 2 := by omega
  rcases this with h | h | h <;> subst h <;> decide

/-- On each core, for that core: enabling and disabling are right for every interrupt and every content of
the registers. -/
theorem enable_ok (c : Nat) (hc : c < 3) (I : Nat → Prop) : (ctl c).EnableOk I := by
  intro s i _
  simp only [ctl, delivers, enable]
  refine ⟨?_, fun j _ hj => ?_⟩
  · rw [upd_same, shr_bit c hc]
    have h := pri_bits 0 c hc
    simp only [h.2, Bool.true_and, bne_iff_ne]
    exact h.1
  · rw [upd_ne _ _ hj]

theorem disable_ok (c : Nat) (hc : c < 3) (I : Nat → Prop) : (ctl c).DisableOk I := by
  intro s i _
  simp only [ctl, delivers, disable]
  refine ⟨?_, fun j _ hj => ?_⟩
  · rw [upd_same, shr_bit c hc, bit_clear _ _ _ (by omega)]; simp
  · rw [upd_ne _ _ hj]

/-- which core selection bits a mask stands for -/
theorem sel_bit (m k : Nat) (hk : k < 3) : (sel m).getLsbD (15 - k) = m.testBit k := by
  have t : ∀ b, b < 3 → ((2 ^ b &&& m ≠ 0) ↔ m.testBit b = true) := by
    intro b _
    rw [Nat.testBit_eq_decide_div_mod_eq]
    constructor
    · intro h
      apply Classical.byContradiction
      intro hn
      apply h
      apply Nat.eq_of_testBit_eq
      intro x
      rw [Nat.testBit_and, Nat.testBit_two_pow]
      by_cases hx : b = x
      · subst hx; rw [Nat.testBit_eq_decide_div_mod_eq]; simpa using hn
      · simp [hx]
    · intro h h0
      have := congrArg (fun v => Nat.testBit v b) h0
      simp only [Nat.testBit_and, Nat.testBit_two_pow, decide_true, Bool.true_and, Nat.zero_testBit] at this
      rw [Nat.testBit_eq_decide_div_mod_eq] at this
      simp at h this; omega
  have t0 := t 0 (by decide); have t1 := t 1 (by decide); have t2 := t 2 (by decide)
  simp only [Nat.reducePow] at t0 t1 t2
  unfold sel
  simp only [t0, t1, t2]
  have : k = 0 ∨ k = 1 ∨ k = 2 := by omega
  cases h0 : m.testBit 0 <;> cases h1 : m.testBit 1 <;> cases h2 : m.testBit 2 <;>
    rcases this with h | h | h <;> subst h <;> simp [h0, h1, h2]

theorem sel_pri (m : Nat) : (sel m ||| 1#16) &&& 0xf#16 ≠ 0#16 := by
  unfold sel
  split <;> split <;> split <;> decide

theorem sel_keeps_pri (v : BitVec 16) (m : Nat) : (v &&& ~~~(sel m)) &&& 0xf#16 = v &&& 0xf#16 := by
  have : ∀ x : BitVec 16, ~~~x &&& 0xf#16 = 0xf#16 → (v &&& ~~~x) &&& 0xf#16 = v &&& 0xf#16 := by
    intro x hx; rw [BitVec.and_assoc, hx]
  apply this
  unfold sel
  split <;> split <;> split <;> decide

/-- SMP: disabling on a set of cores is right -/
theorem smp_disable_ok (n : Nat) : smp.DisableOk n 3 := by
  intro s i m _ _ _
  simp only [smp, delivers, smpDisable]
  refine ⟨fun k hk => ?_, fun j k hj => ?_⟩
  · rw [upd_same, sel_keeps_pri, BitVec.getLsbD_and, BitVec.getLsbD_not, sel_bit m k hk]
    have : 15 - k < 16 := by omega
    simp [this]
    cases m.testBit k <;> simp
  · rw [upd_ne _ _ hj]

/-- SMP: enabling on a set of cores delivers to exactly that set: right for the cores named and for the
other interrupts... -/
theorem smp_enable_ok_partial (s : S) (i m : Nat) :
    (∀ k, k < 3 → smp.delivers (smp.enable i m s) k i = m.testBit k) ∧
    ∀ j k, j ≠ i → smp.delivers (smp.enable i m s) k j = smp.delivers s k j := by
  simp only [smp, delivers, smpEnable]
  refine ⟨fun k hk => ?_, fun j k hj => ?_⟩
  · rw [upd_same, BitVec.getLsbD_or, sel_bit m k hk]
    have h1 : (1#16).getLsbD (15 - k) = false := by
      have : k = 0 ∨ k = 1 ∨ k = 2 := by omega
      rcases this with h | h | h <;> subst h <;> decide
    have h2 := sel_pri m
    simp [h1, h2]
  · rw [upd_ne _ _ hj]

/-- ... but it takes the interrupt away from the cores that are not named: every core outside the mask
loses it, so `SmpCtl.EnableOk` fails. -/
theorem smp_enable_wrong (s : S) (i m k : Nat) (hk : k < 3) (hm : m.testBit k = false) :
    smp.delivers (smp.enable i m s) k i = false := by
  rw [(smp_enable_ok_partial s i m).1 k hk, hm]

/-- a core that loses it: enabled on core 0, then on core 1 -/
example : smp.delivers (smp.enable 5 2 (smp.enable 5 1 (fun _ => 0))) 0 5 = false ∧
    smp.delivers (smp.enable 5 1 (fun _ => 0)) 0 5 = true := by decide

end Siul2

/-! ## e200z7 -/
namespace Siu

theorem enable_ok (c : Nat) (hc : c < 2) (I : Nat → Prop) : (ctl c).EnableOk I := by
  intro s i _
  simp only [ctl, delivers, enable]
  refine ⟨?_, fun j _ hj => ?_⟩
  · rw [upd_same]
    have : c = 0 ∨ c = 1 := by omega
    rcases this with h | h <;> subst h <;> decide
  · rw [upd_ne _ _ hj]

theorem disable_ok (c : Nat) (I : Nat → Prop) : (ctl c).DisableOk I := by
  intro s i _
  simp only [ctl, delivers, disable]
  refine ⟨?_, fun j _ hj => ?_⟩
  · rw [upd_same]
    have : (s i &&& ~~~0xf#8) &&& 0xf#8 = 0#8 := by
      rw [BitVec.and_assoc]; exact BitVec.and_zero
    rw [this]; simp
  · rw [upd_ne _ _ hj]

/-- a PSR as the port can leave it: selection 0, 1 or 3, priority 0 or 1 -/
def Sane (p : BitVec 8) : Prop := p = 0#8 ∨ p = 1#8 ∨ p = 0x40#8 ∨ p = 0x41#8 ∨ p = 0xc0#8 ∨ p = 0xc1#8

/-- reset gives 0, and every call keeps it -/
theorem sane_all (p : BitVec 8) (m c : Nat) (hm : m < 4) (hp : Sane p) :
    Sane (enPsr p m) ∧ Sane (disPsr p m) ∧ Sane ((if c ≠ 0 then 0xc0#8 else 0#8) ||| 1#8) ∧
    Sane (p &&& ~~~0xf#8) := by
  have : m = 0 ∨ m = 1 ∨ m = 2 ∨ m = 3 := by omega
  refine ⟨?_, ?_, ?_, ?_⟩
  · rcases this with h | h | h | h <;> subst h <;>
      rcases hp with h | h | h | h | h | h <;> subst h <;> unfold Sane <;> decide
  · rcases this with h | h | h | h <;> subst h <;>
      rcases hp with h | h | h | h | h | h <;> subst h <;> unfold Sane <;> decide
  · unfold Sane; split <;> decide
  · rcases hp with h | h | h | h | h | h <;> subst h <;> unfold Sane <;> decide

/-- delivery as a function of the PSR -/
def dl (p : BitVec 8) (c : Nat) : Bool :=
  (p >>> 6 == 1#8 || (p >>> 6 == 0#8 && c == 0) || (p >>> 6 == 3#8 && c == 1)) && (p &&& 0xf#8) != 0#8

/-- SMP enable is right (the registers holding what the port puts there). -/
theorem smp_enable_ok (s : S) (hs : ∀ i, Sane (s i)) (i m : Nat) (hm0 : m ≠ 0) (hm : m < 2 ^ 2) :
    (∀ k, k < 2 → smp.delivers (smp.enable i m s) k i = (m.testBit k || smp.delivers s k i)) ∧
    ∀ j k, j ≠ i → smp.delivers (smp.enable i m s) k j = smp.delivers s k j := by
  refine ⟨fun k hk => ?_, fun j k hj => ?_⟩
  · show dl (upd s i (enPsr (s i) m) i) k = (m.testBit k || dl (s i) k)
    rw [upd_same]
    have h1 : m = 1 ∨ m = 2 ∨ m = 3 := by omega
    have h2 : k = 0 ∨ k = 1 := by omega
    have h3 := hs i
    generalize s i = p at h3
    rcases h1 with h | h | h <;> subst h <;> rcases h2 with h | h <;> subst h <;>
      rcases h3 with h | h | h | h | h | h <;> subst h <;> decide
  · show dl (upd s i (enPsr (s i) m) j) k = dl (s j) k
    rw [upd_ne _ _ hj]

/-- SMP disable is right only when it leaves another core running the interrupt: enabled on both cores,
one is named. -/
theorem smp_disable_ok_partial (s : S) (hs : ∀ i, Sane (s i)) (i m : Nat) (hm : m = 1 ∨ m = 2)
    (hb : ∀ k, k < 2 → smp.delivers s k i = true) :
    (∀ k, k < 2 → smp.delivers (smp.disable i m s) k i = (!m.testBit k && smp.delivers s k i)) ∧
    ∀ j k, j ≠ i → smp.delivers (smp.disable i m s) k j = smp.delivers s k j := by
  refine ⟨fun k hk => ?_, fun j k hj => ?_⟩
  · have b0 := hb 0 (by decide); have b1 := hb 1 (by decide)
    have h2 : k = 0 ∨ k = 1 := by omega
    have h3 := hs i
    change dl (s i) 0 = true at b0; change dl (s i) 1 = true at b1
    show dl (upd s i (disPsr (s i) m) i) k = (!m.testBit k && dl (s i) k)
    rw [upd_same]
    generalize s i = p at h3 b0 b1
    rcases h3 with h | h | h | h | h | h <;> subst h <;>
      first | exact absurd b0 (by decide) | exact absurd b1 (by decide) | skip
    rcases hm with h | h <;> subst h <;> rcases h2 with h | h <;> subst h <;> decide
  · show dl (upd s i (disPsr (s i) m) j) k = dl (s j) k
    rw [upd_ne _ _ hj]

/-- SMP disable never takes an interrupt away from its last core: whatever cores are named, an interrupt that
is delivered somewhere still is (counterexample to C59). -/
theorem smp_disable_wrong (s : S) (hs : ∀ i, Sane (s i)) (i m : Nat) (hm : m < 4) (k : Nat) (hk : k < 2)
    (hd : smp.delivers s k i = true) : ∃ k', k' < 2 ∧ smp.delivers (smp.disable i m s) k' i = true := by
  have key : dl (upd s i (disPsr (s i) m) i) 0 = true ∨ dl (upd s i (disPsr (s i) m) i) 1 = true := by
    change dl (s i) k = true at hd
    rw [upd_same]
    have h1 : m = 0 ∨ m = 1 ∨ m = 2 ∨ m = 3 := by omega
    have h2 : k = 0 ∨ k = 1 := by omega
    have h3 := hs i
    generalize s i = p at h3 hd
    rcases h3 with h | h | h | h | h | h <;> subst h <;> rcases h2 with h | h <;> subst h <;>
      first
      | exact absurd hd (by decide)
      | (rcases h1 with h | h | h | h <;> subst h <;> decide)
  rcases key with h | h
  · exact ⟨0, by decide, h⟩
  · exact ⟨1, by decide, h⟩

/-- and it can ENABLE one: disabling on core 1 an interrupt that is disabled everywhere delivers it to
core 0 -/
theorem smp_disable_enables :
    smp.delivers (fun _ => 0#8) 0 7 = false ∧ smp.delivers (smp.disable 7 2 (fun _ => 0#8)) 0 7 = true := by
  decide

/-- the hypotheses of smp_disable_ok_partial are met by what the port itself produces -/
example : (∀ k, k < 2 → smp.delivers (smp.enable 7 3 (fun _ => 0#8)) k 7 = true) ∧
    ∀ i, Sane (smp.enable 7 3 (fun _ => 0#8) i) := by
  refine ⟨?_, fun i => ?_⟩
  · intro k hk
    have : k = 0 ∨ k = 1 := by omega
    rcases this with h | h <;> subst h <;> decide
  · show Sane (upd (fun _ => 0#8) 7 (enPsr 0#8 3) i)
    unfold upd Sane; split
    · decide
    · exact Or.inl rfl

end Siu

/-! ## 8051 derivatives -/
namespace Mcs51

/-- the numbers the machine's `switch` knows, with the register and bit it uses, agree with the data sheet -/
def Agrees (hw : Nat → Option (Nat × Nat)) (t : Table) (I : Nat → Prop) : Prop :=
  ∀ i, I i → ∃ r b, t[i]? = some (some (r, b)) ∧ hw i = some (r, b) ∧ b < 8

def Inj (hw : Nat → Option (Nat × Nat)) : Prop := ∀ i j p, hw i = some p → hw j = some p → i = j

theorem enable_of (hw : Nat → Option (Nat × Nat)) (t : Table) (I : Nat → Prop) (ha : Agrees hw t I)
    (hi : Inj hw) : (ctl hw t).EnableOk I := by
  intro s i hI
  obtain ⟨r, b, e1, e2, hb⟩ := ha i hI
  simp only [ctl, delivers, enable, e1]
  refine ⟨?_, fun j hJ hj => ?_⟩
  · simp only [e2]
    rw [upd_same, bit_set _ _ _ hb]; simp
  · obtain ⟨r', b', _, e2', hb'⟩ := ha j hJ
    simp only [e2']
    by_cases hr : r' = r
    · subst hr
      rw [upd_same, bit_set _ _ _ hb']
      have : b' ≠ b := fun h => hj (hi j i _ e2' (by rw [e2, h]))
      simp [this]
    · rw [upd_ne _ _ hr]

theorem disable_of (hw : Nat → Option (Nat × Nat)) (t : Table) (I : Nat → Prop) (ha : Agrees hw t I)
    (hi : Inj hw) : (ctl hw t).DisableOk I := by
  intro s i hI
  obtain ⟨r, b, e1, e2, hb⟩ := ha i hI
  simp only [ctl, delivers, disable, e1]
  refine ⟨?_, fun j hJ hj => ?_⟩
  · simp only [e2]
    rw [upd_same, bit_clear _ _ _ hb]; simp
  · obtain ⟨r', b', _, e2', hb'⟩ := ha j hJ
    simp only [e2']
    by_cases hr : r' = r
    · subst hr
      rw [upd_same, bit_clear _ _ _ hb']
      have : b' ≠ b := fun h => hj (hi j i _ e2' (by rw [e2, h]))
      simp [this]
    · rw [upd_ne _ _ hr]

theorem n76_inj : Inj hwN76e003 := by
  intro i j p h1 h2
  have bound : ∀ k q, hwN76e003 k = some q → k < 18 := by
    intro k q h; unfold hwN76e003 at h; split at h <;> first | omega | cases h
  have bi := bound i p h1; have bj := bound j p h2
  have key : ∀ a : Fin 18, ∀ b : Fin 18, hwN76e003 a.1 = hwN76e003 b.1 → a.1 = b.1 := by decide
  exact key ⟨i, bi⟩ ⟨j, bj⟩ (by rw [h1, h2])

theorem n76_agrees : Agrees hwN76e003 n76e003 (· < 18) := by
  intro i hi
  have key : ∀ a : Fin 18, ∃ r, ∃ b, n76e003[a.1]? = some (some (r, b)) ∧ hwN76e003 a.1 = some (r, b) ∧ b < 8 := by
    intro a
    have c : ∀ a : Fin 18, n76e003[a.1]? = some (hwN76e003 a.1) ∧ (hwN76e003 a.1).isSome = true ∧
        ((hwN76e003 a.1).getD (0, 9)).2 < 8 := by decide
    obtain ⟨c1, c2, c3⟩ := c a
    cases h : hwN76e003 a.1 with
    | none => rw [h] at c2; exact absurd c2 (by decide)
    | some p => rw [h] at c1 c3; exact ⟨p.1, p.2, c1, rfl, c3⟩
  exact key ⟨i, hi⟩

theorem n76e003_ok : (ctl hwN76e003 n76e003).EnableOk (· < 18) ∧ (ctl hwN76e003 n76e003).DisableOk (· < 18) :=
  ⟨enable_of _ _ _ n76_agrees n76_inj, disable_of _ _ _ n76_agrees n76_inj⟩

theorem ch552_inj : Inj hwCh552 := by
  intro i j p h1 h2
  have bound : ∀ k q, hwCh552 k = some q → k < 14 := by
    intro k q h; unfold hwCh552 at h
    split at h; · omega
    split at h; · omega
    cases h
  have key : ∀ a : Fin 14, ∀ b : Fin 14, hwCh552 a.1 = hwCh552 b.1 → a.1 = b.1 := by decide
  exact key ⟨i, bound i p h1⟩ ⟨j, bound j p h2⟩ (by rw [h1, h2])

theorem ch552_agrees : Agrees hwCh552 ch552 (· < 14) := by
  intro i hi
  have c : ∀ a : Fin 14, ch552[a.1]? = some (hwCh552 a.1) ∧ (hwCh552 a.1).isSome = true ∧
      ((hwCh552 a.1).getD (0, 9)).2 < 8 := by decide
  obtain ⟨c1, c2, c3⟩ := c ⟨i, hi⟩
  simp only at c1 c2 c3
  cases h : hwCh552 i with
  | none => rw [h] at c2; exact absurd c2 (by decide)
  | some p => rw [h] at c1 c3; exact ⟨p.1, p.2, c1, rfl, c3⟩

theorem ch552_ok : (ctl hwCh552 ch552).EnableOk (· < 14) ∧ (ctl hwCh552 ch552).DisableOk (· < 14) :=
  ⟨enable_of _ _ _ ch552_agrees ch552_inj, disable_of _ _ _ ch552_agrees ch552_inj⟩

theorem stc12_inj : Inj hwStc12 := by
  intro i j p h1 h2
  have bound : ∀ k q, hwStc12 k = some q → k < 10 := by
    intro k q h; unfold hwStc12 at h
    split at h; · omega
    split at h; · omega
    split at h; · omega
    cases h
  have key : ∀ a : Fin 10, ∀ b : Fin 10, hwStc12 a.1 = hwStc12 b.1 → a.1 = b.1 := by decide
  exact key ⟨i, bound i p h1⟩ ⟨j, bound j p h2⟩ (by rw [h1, h2])

theorem stc12_agrees : Agrees hwStc12 stc12c5axx (fun i => i < 10 ∧ i ≠ 7) := by
  intro i hi
  have c : ∀ a : Fin 10, a.1 ≠ 7 → stc12c5axx[a.1]? = some (hwStc12 a.1) ∧ (hwStc12 a.1).isSome = true ∧
      ((hwStc12 a.1).getD (0, 9)).2 < 8 := by decide
  obtain ⟨c1, c2, c3⟩ := c ⟨i, hi.1⟩ hi.2
  simp only at c1 c2 c3
  cases h : hwStc12 i with
  | none => rw [h] at c2; exact absurd c2 (by decide)
  | some p => rw [h] at c1 c3; exact ⟨p.1, p.2, c1, rfl, c3⟩

/-- all but the PCA interrupt (7), which neither call touches -/
theorem stc12_ok_partial :
    (ctl hwStc12 stc12c5axx).EnableOk (fun i => i < 10 ∧ i ≠ 7) ∧
    (ctl hwStc12 stc12c5axx).DisableOk (fun i => i < 10 ∧ i ≠ 7) ∧
    ∀ s, (ctl hwStc12 stc12c5axx).enable 7 s = s ∧ (ctl hwStc12 stc12c5axx).disable 7 s = s :=
  ⟨enable_of _ _ _ stc12_agrees stc12_inj, disable_of _ _ _ stc12_agrees stc12_inj, fun _ => ⟨rfl, rfl⟩⟩

theorem cy7c_inj : Inj hwCy7c := by
  intro i j p h1 h2
  have bound : ∀ k q, hwCy7c k = some q → k < 13 := by
    intro k q h; unfold hwCy7c at h
    split at h; · omega
    split at h; · omega
    split at h; · omega
    split at h; · omega
    cases h
  have key : ∀ a : Fin 13, ∀ b : Fin 13, hwCy7c a.1 = hwCy7c b.1 → a.1 = b.1 := by decide
  exact key ⟨i, bound i p h1⟩ ⟨j, bound j p h2⟩ (by rw [h1, h2])

theorem cy7c_agrees : Agrees hwCy7c cy7c6801xa (fun i => i < 13 ∧ i ≠ 6) := by
  intro i hi
  have c : ∀ a : Fin 13, a.1 ≠ 6 → cy7c6801xa[a.1]? = some (hwCy7c a.1) ∧ (hwCy7c a.1).isSome = true ∧
      ((hwCy7c a.1).getD (0, 9)).2 < 8 := by decide
  obtain ⟨c1, c2, c3⟩ := c ⟨i, hi.1⟩ hi.2
  simp only at c1 c2 c3
  cases h : hwCy7c i with
  | none => rw [h] at c2; exact absurd c2 (by decide)
  | some p => rw [h] at c1 c3; exact ⟨p.1, p.2, c1, rfl, c3⟩

/-- all but the resume interrupt (6), which neither call touches -/
theorem cy7c_ok_partial :
    (ctl hwCy7c cy7c6801xa).EnableOk (fun i => i < 13 ∧ i ≠ 6) ∧
    (ctl hwCy7c cy7c6801xa).DisableOk (fun i => i < 13 ∧ i ≠ 6) ∧
    ∀ s, (ctl hwCy7c cy7c6801xa).enable 6 s = s ∧ (ctl hwCy7c cy7c6801xa).disable 6 s = s :=
  ⟨enable_of _ _ _ cy7c_agrees cy7c_inj, disable_of _ _ _ cy7c_agrees cy7c_inj, fun _ => ⟨rfl, rfl⟩⟩

end Mcs51
end Pico.Intc
