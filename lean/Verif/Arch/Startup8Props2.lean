import Verif.Arch.Startup8Props
/-
C98: HCS08 and 8051.
-/
namespace Pico.Startup8

/-! ### HCS08 -/

theorem x_ne (n : Nat) (len : A) (h : n < len.toNat) : ¬ BitVec.ofNat 16 n = len := by
  intro c
  have := congrArg BitVec.toNat c
  rw [BitVec.toNat_ofNat] at this
  have := len.isLt
  omega

theorem x_eq (len : A) : BitVec.ofNat 16 len.toNat = len := by rw [BitVec.ofNat_toNat, BitVec.setWidth_eq]

theorem hcs08_copy_loop (base start len : A) (ram : A → B) (hd : ∀ x, Within start len x → Within base len x → False) :
    ∀ (r n : Nat) (s : St), n + r = len.toNat → s.pc = 1 → s.x = BitVec.ofNat 16 n → s.ram = filled ram start (fun o => ram (base + o)) 0 n →
      ∃ s', Steps (copyHcs08 base start len) s s' ∧ s'.pc = 7 ∧ s'.rom = s.rom ∧ s'.ram = filled ram start (fun o => ram (base + o)) 0 len.toNat := by
  intro r
  induction r with
  | zero =>
    intro n ⟨r2, r3, r4, r5, r6, r7, a, dpl, dph, c, x, z, pc, rom, mem⟩ hn h1 h2 h3
    cases h1
    have h2 : x = _ := h2
    have h3 : mem = _ := h3
    rw [show n = len.toNat by omega] at h2 h3
    rw [x_eq] at h2
    refine ⟨⟨r2, r3, r4, r5, r6, r7, a, dpl, dph, c, x, decide (x = len), 7, rom, mem⟩, ?_, rfl, rfl, h3⟩
    refine .next _ ⟨r2, r3, r4, r5, r6, r7, a, dpl, dph, c, x, decide (x = len), 2, rom, mem⟩ _ rfl ?_
    exact .one (congrArg some (sel_true h2 _ _))
  | succ r ih =>
    intro n ⟨r2, r3, r4, r5, r6, r7, a, dpl, dph, c, x, z, pc, rom, mem⟩ hn h1 h2 h3
    have hl := len.isLt
    cases h1
    have h2 : x = _ := h2
    have h3 : mem = _ := h3
    have rd : mem (base + x) = ram (base + BitVec.ofNat 16 n) := by
      rw [h3, h2]
      apply filled_out
      intro c2
      refine hd (base + BitVec.ofNat 16 n) (show (base + BitVec.ofNat 16 n - start).toNat < len.toNat by omega) ?_
      unfold Within
      rw [(off_of _ base n (by omega)).2 rfl]; omega
    have wr : put mem (start + x) (mem (base + x)) = filled ram start (fun o => ram (base + o)) 0 (n + 1) := by
      rw [rd, h3, h2]
      exact filled_up ram start (fun o => ram (base + o)) n (by omega)
    have ex : x + 1#16 = BitVec.ofNat 16 (n + 1) := by
      rw [h2]; apply BitVec.eq_of_toNat_eq; rw [BitVec.toNat_add]; simp only [BitVec.toNat_ofNat]; omega
    obtain ⟨s', st, o1, o2, o3⟩ := ih (n + 1) ⟨r2, r3, r4, r5, r6, r7, mem (base + x), dpl, dph, c, x + 1#16, decide (mem (base + x) = 0#8), 1, rom, put mem (start + x) (mem (base + x))⟩
      (by omega) rfl ex wr
    refine ⟨s', Steps.trans ?_ st, o1, o2, o3⟩
    refine .next _ ⟨r2, r3, r4, r5, r6, r7, a, dpl, dph, c, x, decide (x = len), 2, rom, mem⟩ _ rfl ?_
    refine .next _ ⟨r2, r3, r4, r5, r6, r7, a, dpl, dph, c, x, decide (x = len), 3, rom, mem⟩ _ (congrArg some (sel_false (by rw [h2]; exact x_ne n len (by omega)) _ _)) ?_
    refine .next _ ⟨r2, r3, r4, r5, r6, r7, mem (base + x), dpl, dph, c, x, decide (mem (base + x) = 0#8), 4, rom, mem⟩ _ rfl ?_
    refine .next _ ⟨r2, r3, r4, r5, r6, r7, mem (base + x), dpl, dph, c, x, decide (mem (base + x) = 0#8), 5, rom, put mem (start + x) (mem (base + x))⟩ _ rfl ?_
    refine .next _ ⟨r2, r3, r4, r5, r6, r7, mem (base + x), dpl, dph, c, x + 1#16, decide (mem (base + x) = 0#8), 6, rom, put mem (start + x) (mem (base + x))⟩ _ rfl ?_
    exact .one rfl

theorem hcs08_copy (base start len : A) (rom ram : A → B) (hd : ∀ x, Within start len x → Within base len x → False) :
    Runs (copyHcs08 base start len) rom ram (filled ram start (fun o => ram (base + o)) 0 len.toNat) := by
  intro ⟨r2, r3, r4, r5, r6, r7, a, dpl, dph, c, x, z, pc, rom', mem⟩ ⟨h1, h2, h3⟩
  cases h1; cases h2; cases h3
  obtain ⟨s', st, o1, o2, o3⟩ := hcs08_copy_loop base start len mem hd len.toNat 0 ⟨r2, r3, r4, r5, r6, r7, a, dpl, dph, c, 0#16, decide (0#16 = 0#16), 1, rom', mem⟩
    (Nat.zero_add _) rfl rfl (filled_none _ _ _ _).symm
  exact ⟨s', .next _ _ _ rfl st, o1, o2, o3⟩

theorem hcs08_zero_loop (start len : A) (ram : A → B) :
    ∀ (r n : Nat) (s : St), n + r = len.toNat → s.pc = 2 → s.a = 0#8 → s.x = BitVec.ofNat 16 n → s.ram = filled ram start (fun _ => 0#8) 0 n →
      ∃ s', Steps (zeroHcs08 start len) s s' ∧ s'.pc = 7 ∧ s'.rom = s.rom ∧ s'.ram = filled ram start (fun _ => 0#8) 0 len.toNat := by
  intro r
  induction r with
  | zero =>
    intro n ⟨r2, r3, r4, r5, r6, r7, a, dpl, dph, c, x, z, pc, rom, mem⟩ hn h1 ha h2 h3
    cases h1; cases ha
    have h2 : x = _ := h2
    have h3 : mem = _ := h3
    rw [show n = len.toNat by omega] at h2 h3
    rw [x_eq] at h2
    refine ⟨⟨r2, r3, r4, r5, r6, r7, 0#8, dpl, dph, c, x, decide (x = len), 7, rom, mem⟩, ?_, rfl, rfl, h3⟩
    refine .next _ ⟨r2, r3, r4, r5, r6, r7, 0#8, dpl, dph, c, x, decide (x = len), 3, rom, mem⟩ _ rfl ?_
    exact .one (congrArg some (sel_true h2 _ _))
  | succ r ih =>
    intro n ⟨r2, r3, r4, r5, r6, r7, a, dpl, dph, c, x, z, pc, rom, mem⟩ hn h1 ha h2 h3
    have hl := len.isLt
    cases h1; cases ha
    have h2 : x = _ := h2
    have h3 : mem = _ := h3
    have wr : put mem (start + x) 0#8 = filled ram start (fun _ => 0#8) 0 (n + 1) := by
      rw [h3, h2]
      exact filled_up ram start (fun _ => 0#8) n (by omega)
    have ex : x + 1#16 = BitVec.ofNat 16 (n + 1) := by
      rw [h2]; apply BitVec.eq_of_toNat_eq; rw [BitVec.toNat_add]; simp only [BitVec.toNat_ofNat]; omega
    obtain ⟨s', st, o1, o2, o3⟩ := ih (n + 1) ⟨r2, r3, r4, r5, r6, r7, 0#8, dpl, dph, c, x + 1#16, decide (0#8 = 0#8), 2, rom, put mem (start + x) 0#8⟩
      (by omega) rfl rfl ex wr
    refine ⟨s', Steps.trans ?_ st, o1, o2, o3⟩
    refine .next _ ⟨r2, r3, r4, r5, r6, r7, 0#8, dpl, dph, c, x, decide (x = len), 3, rom, mem⟩ _ rfl ?_
    refine .next _ ⟨r2, r3, r4, r5, r6, r7, 0#8, dpl, dph, c, x, decide (x = len), 4, rom, mem⟩ _ (congrArg some (sel_false (by rw [h2]; exact x_ne n len (by omega)) _ _)) ?_
    refine .next _ ⟨r2, r3, r4, r5, r6, r7, 0#8, dpl, dph, c, x, decide (0#8 = 0#8), 5, rom, put mem (start + x) 0#8⟩ _ rfl ?_
    refine .next _ ⟨r2, r3, r4, r5, r6, r7, 0#8, dpl, dph, c, x + 1#16, decide (0#8 = 0#8), 6, rom, put mem (start + x) 0#8⟩ _ rfl ?_
    exact .one rfl

theorem hcs08_zero (start len : A) (rom ram : A → B) : Runs (zeroHcs08 start len) rom ram (filled ram start (fun _ => 0#8) 0 len.toNat) := by
  intro ⟨r2, r3, r4, r5, r6, r7, a, dpl, dph, c, x, z, pc, rom', mem⟩ ⟨h1, h2, h3⟩
  cases h1; cases h2; cases h3
  obtain ⟨s', st, o1, o2, o3⟩ := hcs08_zero_loop start len mem len.toNat 0 ⟨r2, r3, r4, r5, r6, r7, 0#8, dpl, dph, c, 0#16, true, 2, rom', mem⟩
    (Nat.zero_add _) rfl rfl rfl (filled_none _ _ _ _).symm
  refine ⟨s', Steps.trans ?_ st, o1, o2, o3⟩
  refine .next _ ⟨r2, r3, r4, r5, r6, r7, a, dpl, dph, c, 0#16, decide (0#16 = 0#16), 1, rom', mem⟩ _ rfl ?_
  exact .one rfl

/-! ### 8051 -/

theorem join_toNat (h l : B) : (join h l).toNat = h.toNat * 256 + l.toNat := by
  unfold join
  rw [BitVec.toNat_append, ← Nat.shiftLeft_add_eq_or_of_lt l.isLt, Nat.shiftLeft_eq]

theorem hiB_toNat (v : A) : (hiB v).toNat = v.toNat / 256 := by
  unfold hiB
  rw [BitVec.toNat_setWidth, BitVec.toNat_ushiftRight, Nat.shiftRight_eq_div_pow]
  have := v.isLt
  omega

theorem loB_toNat (v : A) : (loB v).toNat = v.toNat % 256 := by
  unfold loB; rw [BitVec.toNat_setWidth]

theorem join_split (v : A) : join (hiB v) (loB v) = v := by
  apply BitVec.eq_of_toNat_eq
  rw [join_toNat, hiB_toNat, loB_toNat]
  omega

/-- the two subtractions take one from the 16-bit count -/
theorem sub_lo (v : A) : loB v - 1#8 - (if false then 1#8 else 0#8) = loB (v - 1#16) := by
  apply BitVec.eq_of_toNat_eq
  have := v.isLt
  simp only [Bool.false_eq_true, if_false]
  rw [BitVec.toNat_sub, BitVec.toNat_sub, loB_toNat, loB_toNat, BitVec.toNat_sub]
  simp only [BitVec.toNat_ofNat]
  omega

theorem sub_hi (v : A) : hiB v - 0#8 - (if decide ((loB v).toNat < (1#8).toNat + (if false then 1 else 0)) then 1#8 else 0#8) = hiB (v - 1#16) := by
  apply BitVec.eq_of_toNat_eq
  have := v.isLt
  simp only [Bool.false_eq_true, if_false]
  rw [loB_toNat, show (1#8).toNat + 0 = 1 from rfl]
  by_cases h : v.toNat % 256 < 1
  · rw [decide_eq_true h, if_pos rfl, BitVec.toNat_sub, BitVec.toNat_sub, hiB_toNat, hiB_toNat, BitVec.toNat_sub]
    simp only [BitVec.toNat_ofNat]
    omega
  · rw [decide_eq_false h, if_neg (by decide), BitVec.toNat_sub, BitVec.toNat_sub, hiB_toNat, hiB_toNat, BitVec.toNat_sub]
    simp only [BitVec.toNat_ofNat]
    omega

theorem split_zero (v : A) : (loB v = 0#8 ∧ hiB v = 0#8) ↔ v = 0#16 := by
  constructor
  · rintro ⟨h1, h2⟩
    rw [← join_split v, h1, h2]; rfl
  · rintro rfl; exact ⟨rfl, rfl⟩

end Pico.Startup8
