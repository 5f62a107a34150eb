import Verif.Arch.Startup8
/-
C98: the loops of the 8-bit startups.
-/
namespace Pico.Startup8

theorem Steps.trans {code : List I} {a b c : St} (h1 : Steps code a b) (h2 : Steps code b c) : Steps code a c := by
  induction h1 with
  | refl _ => exact h2
  | next s s1 _ e _ ih => exact .next s s1 c e (ih h2)

theorem Steps.one {code : List I} {a b : St} (h : step code a = some b) : Steps code a b := .next a b b h (.refl b)

theorem sel_true {c : Prop} [Decidable c] (h : c) (a b : St) : sel (decide c) a b = a := by unfold sel; rw [decide_eq_true h]; rfl
theorem sel_false {c : Prop} [Decidable c] (h : ¬ c) (a b : St) : sel (decide c) a b = b := by unfold sel; rw [decide_eq_false h]; rfl

theorem stuck (code : List I) (s : St) (h : s.pc = code.length) : step code s = none := by
  unfold step; rw [h, List.getElem?_eq_none (Nat.le_refl _)]; rfl

theorem Steps.det {code : List I} {a b c : St} (h1 : Steps code a b) (h2 : Steps code a c) (hb : step code b = none) (hc : step code c = none) : b = c := by
  induction h1 with
  | refl s =>
    cases h2 with
    | refl _ => rfl
    | next _ s1 _ e _ => rw [hb] at e; cases e
  | next s s1 s2 e _ ih =>
    cases h2 with
    | refl _ => rw [e] at hc; cases hc
    | next _ s1' _ e' r =>
      have : s1 = s1' := by rw [e] at e'; exact Option.some.inj e'
      subst this
      exact ih r hb

/-! ### the memory -/

/-- bytes `lo` to `hi - 1` of the section have the values of `f` -/
def filled (ram : A → B) (start : A) (f : A → B) (lo hi : Nat) : A → B := fun x => if lo ≤ (x - start).toNat ∧ (x - start).toNat < hi then f (x - start) else ram x

theorem filled_none (ram : A → B) (start : A) (f : A → B) (n : Nat) : filled ram start f n n = ram := by
  funext x; unfold filled; rw [if_neg (by omega)]

theorem off_of (x start : A) (n : Nat) (hn : n < 2 ^ 16) : (x - start).toNat = n ↔ x = start + BitVec.ofNat 16 n := by
  constructor
  · intro h
    have e : x - start = BitVec.ofNat 16 n := by
      apply BitVec.eq_of_toNat_eq; rw [h, BitVec.toNat_ofNat, Nat.mod_eq_of_lt hn]
    rw [← e]; bv_omega
  · intro h
    rw [h]
    have e : start + BitVec.ofNat 16 n - start = BitVec.ofNat 16 n := by bv_omega
    rw [e, BitVec.toNat_ofNat, Nat.mod_eq_of_lt hn]

theorem filled_up (ram : A → B) (start : A) (f : A → B) (n : Nat) (hn : n < 2 ^ 16) :
    put (filled ram start f 0 n) (start + BitVec.ofNat 16 n) (f (BitVec.ofNat 16 n)) = filled ram start f 0 (n + 1) := by
  funext x
  have h := off_of x start n hn
  unfold put
  by_cases e : x = start + BitVec.ofNat 16 n
  · have hz := h.2 e
    rw [if_pos e]
    unfold filled
    rw [if_pos (by omega), e]
    congr 1; bv_omega
  · have hz : (x - start).toNat ≠ n := fun c => e (h.1 c)
    rw [if_neg e]
    unfold filled
    by_cases hw : 0 ≤ (x - start).toNat ∧ (x - start).toNat < n
    · rw [if_pos hw, if_pos (by omega)]
    · rw [if_neg hw, if_neg (by omega)]

theorem filled_down (ram : A → B) (start : A) (f : A → B) (n N : Nat) (hn : n < N) (hN : N < 2 ^ 16) :
    put (filled ram start f (n + 1) N) (start + BitVec.ofNat 16 n) (f (BitVec.ofNat 16 n)) = filled ram start f n N := by
  funext x
  have h := off_of x start n (by omega)
  unfold put
  by_cases e : x = start + BitVec.ofNat 16 n
  · have hz := h.2 e
    rw [if_pos e]
    unfold filled
    rw [if_pos (by omega), e]
    congr 1; bv_omega
  · have hz : (x - start).toNat ≠ n := fun c => e (h.1 c)
    rw [if_neg e]
    unfold filled
    by_cases hw : n + 1 ≤ (x - start).toNat ∧ (x - start).toNat < N
    · rw [if_pos hw, if_pos (by omega)]
    · rw [if_neg hw, if_neg (by omega)]

/-- what is outside the section is as before -/
theorem filled_out (ram : A → B) (start : A) (f : A → B) (lo hi : Nat) (x : A) (h : ¬ (x - start).toNat < hi) : filled ram start f lo hi x = ram x := by
  unfold filled; rw [if_neg (by omega)]

/-- the macro ends, whatever the registers are, with this memory -/
def Runs (code : List I) (rom ram ram' : A → B) : Prop := ∀ s, Begin rom ram s → ∃ s', Steps code s s' ∧ s'.pc = code.length ∧ s'.rom = rom ∧ s'.ram = ram'

/-! ### STM8 -/

theorem add_sub_one (v x : A) : v - 1#16 + x = v + (x - 1#16) := by bv_omega

theorem stm8_copy_loop (base start len : A) (ram : A → B) (hd : ∀ x, Within start len x → Within base len x → False) :
    ∀ (n : Nat) (s : St), n < len.toNat → s.pc = 2 → s.x = BitVec.ofNat 16 (n + 1) → s.ram = filled ram start (fun o => ram (base + o)) (n + 1) len.toNat →
      ∃ s', Steps (copyStm8 base start len) s s' ∧ s'.pc = 6 ∧ s'.rom = s.rom ∧ s'.ram = filled ram start (fun o => ram (base + o)) 0 len.toNat := by
  intro n
  induction n with
  | zero =>
    intro ⟨r2, r3, r4, r5, r6, r7, a, dpl, dph, c, x, z, pc, rom, mem⟩ hn h1 h2 h3
    have hl := len.isLt
    cases h1
    have h2 : x = 1#16 := h2
    have h3 : mem = _ := h3
    have rd : mem (base - 1#16 + x) = ram (base + BitVec.ofNat 16 0) := by
      rw [h2, h3, show base - 1#16 + 1#16 = base + BitVec.ofNat 16 0 by bv_omega]
      apply filled_out
      intro c2
      refine hd _ c2 ?_
      unfold Within
      rw [(off_of _ base 0 (by omega)).2 rfl]; exact hn
    have wr : put mem (start - 1#16 + x) (mem (base - 1#16 + x)) = filled ram start (fun o => ram (base + o)) 0 len.toNat := by
      rw [rd, h3, h2, show start - 1#16 + 1#16 = start + BitVec.ofNat 16 0 by bv_omega]
      exact filled_down ram start (fun o => ram (base + o)) 0 len.toNat (by omega) hl
    refine ⟨⟨r2, r3, r4, r5, r6, r7, mem (base - 1#16 + x), dpl, dph, c, x - 1#16, decide (x - 1#16 = 0#16), 6, rom, put mem (start - 1#16 + x) (mem (base - 1#16 + x))⟩, ?_, rfl, rfl, wr⟩
    refine .next _ ⟨r2, r3, r4, r5, r6, r7, mem (base - 1#16 + x), dpl, dph, c, x, decide (mem (base - 1#16 + x) = 0#8), 3, rom, mem⟩ _ rfl ?_
    refine .next _ ⟨r2, r3, r4, r5, r6, r7, mem (base - 1#16 + x), dpl, dph, c, x, decide (mem (base - 1#16 + x) = 0#8), 4, rom, put mem (start - 1#16 + x) (mem (base - 1#16 + x))⟩ _ rfl ?_
    refine .next _ ⟨r2, r3, r4, r5, r6, r7, mem (base - 1#16 + x), dpl, dph, c, x - 1#16, decide (x - 1#16 = 0#16), 5, rom, put mem (start - 1#16 + x) (mem (base - 1#16 + x))⟩ _ rfl ?_
    exact .one (congrArg some (sel_true (show x - 1#16 = 0#16 by rw [h2]; rfl) _ _))
  | succ n ih =>
    intro ⟨r2, r3, r4, r5, r6, r7, a, dpl, dph, c, x, z, pc, rom, mem⟩ hn h1 h2 h3
    have hl := len.isLt
    cases h1
    have h2 : x = BitVec.ofNat 16 (n + 1 + 1) := h2
    have h3 : mem = _ := h3
    have ex : x - 1#16 = BitVec.ofNat 16 (n + 1) := by
      rw [h2]; apply BitVec.eq_of_toNat_eq; rw [BitVec.toNat_sub]; simp only [BitVec.toNat_ofNat]; omega
    have rd : mem (base - 1#16 + x) = ram (base + BitVec.ofNat 16 (n + 1)) := by
      rw [h3, add_sub_one, ex]
      apply filled_out
      intro c2
      refine hd _ c2 ?_
      unfold Within
      rw [(off_of _ base (n + 1) (by omega)).2 rfl]; exact hn
    have wr : put mem (start - 1#16 + x) (mem (base - 1#16 + x)) = filled ram start (fun o => ram (base + o)) (n + 1) len.toNat := by
      rw [rd, h3, add_sub_one, ex]
      exact filled_down ram start (fun o => ram (base + o)) (n + 1) len.toNat (by omega) hl
    obtain ⟨s', st, o1, o2, o3⟩ := ih ⟨r2, r3, r4, r5, r6, r7, mem (base - 1#16 + x), dpl, dph, c, x - 1#16, decide (x - 1#16 = 0#16), 2, rom, put mem (start - 1#16 + x) (mem (base - 1#16 + x))⟩
      (by omega) rfl ex wr
    refine ⟨s', Steps.trans ?_ st, o1, o2, o3⟩
    refine .next _ ⟨r2, r3, r4, r5, r6, r7, mem (base - 1#16 + x), dpl, dph, c, x, decide (mem (base - 1#16 + x) = 0#8), 3, rom, mem⟩ _ rfl ?_
    refine .next _ ⟨r2, r3, r4, r5, r6, r7, mem (base - 1#16 + x), dpl, dph, c, x, decide (mem (base - 1#16 + x) = 0#8), 4, rom, put mem (start - 1#16 + x) (mem (base - 1#16 + x))⟩ _ rfl ?_
    refine .next _ ⟨r2, r3, r4, r5, r6, r7, mem (base - 1#16 + x), dpl, dph, c, x - 1#16, decide (x - 1#16 = 0#16), 5, rom, put mem (start - 1#16 + x) (mem (base - 1#16 + x))⟩ _ rfl ?_
    refine .one (congrArg some (sel_false (show ¬ x - 1#16 = 0#16 from ?_) _ _))
    rw [ex]; intro c
    have := congrArg BitVec.toNat c
    rw [BitVec.toNat_ofNat] at this
    simp only [BitVec.toNat_ofNat] at this
    omega

theorem len_zero {l : A} : l = 0#16 ↔ l.toNat = 0 := by
  constructor
  · intro h; rw [h]; rfl
  · intro h; apply BitVec.eq_of_toNat_eq; rw [h]; rfl

theorem stm8_copy (base start len : A) (rom ram : A → B) (hd : ∀ x, Within start len x → Within base len x → False) :
    Runs (copyStm8 base start len) rom ram (filled ram start (fun o => ram (base + o)) 0 len.toNat) := by
  intro ⟨r2, r3, r4, r5, r6, r7, a, dpl, dph, c, x, z, pc, rom', mem⟩ ⟨h1, h2, h3⟩
  cases h1; cases h2; cases h3
  by_cases hz : len = 0#16
  · refine ⟨⟨r2, r3, r4, r5, r6, r7, a, dpl, dph, c, len, decide (len = 0#16), 6, rom', mem⟩, ?_, rfl, rfl, ?_⟩
    · refine .next _ ⟨r2, r3, r4, r5, r6, r7, a, dpl, dph, c, len, decide (len = 0#16), 1, rom', mem⟩ _ rfl ?_
      exact .one (congrArg some (sel_true hz _ _))
    · rw [len_zero.1 hz, filled_none]
  · have hp : 0 < len.toNat := Nat.pos_of_ne_zero (fun c => hz (len_zero.2 c))
    obtain ⟨s', st, o1, o2, o3⟩ := stm8_copy_loop base start len mem hd (len.toNat - 1) ⟨r2, r3, r4, r5, r6, r7, a, dpl, dph, c, len, decide (len = 0#16), 2, rom', mem⟩
      (by omega) rfl (by show len = _; rw [show len.toNat - 1 + 1 = len.toNat by omega, BitVec.ofNat_toNat, BitVec.setWidth_eq])
      (by show mem = _; rw [show len.toNat - 1 + 1 = len.toNat by omega, filled_none])
    refine ⟨s', Steps.trans ?_ st, o1, o2, o3⟩
    refine .next _ ⟨r2, r3, r4, r5, r6, r7, a, dpl, dph, c, len, decide (len = 0#16), 1, rom', mem⟩ _ rfl ?_
    exact .one (congrArg some (sel_false hz _ _))

theorem stm8_zero_loop (start len : A) (ram : A → B) :
    ∀ (n : Nat) (s : St), n < len.toNat → s.pc = 2 → s.x = BitVec.ofNat 16 (n + 1) → s.ram = filled ram start (fun _ => 0#8) (n + 1) len.toNat →
      ∃ s', Steps (zeroStm8 start len) s s' ∧ s'.pc = 5 ∧ s'.rom = s.rom ∧ s'.ram = filled ram start (fun _ => 0#8) 0 len.toNat := by
  intro n
  induction n with
  | zero =>
    intro ⟨r2, r3, r4, r5, r6, r7, a, dpl, dph, c, x, z, pc, rom, mem⟩ hn h1 h2 h3
    have hl := len.isLt
    cases h1
    have h2 : x = 1#16 := h2
    have h3 : mem = _ := h3
    have wr : put mem (start - 1#16 + x) 0#8 = filled ram start (fun _ => 0#8) 0 len.toNat := by
      rw [h3, h2, show start - 1#16 + 1#16 = start + BitVec.ofNat 16 0 by bv_omega]
      exact filled_down ram start (fun _ => 0#8) 0 len.toNat (by omega) hl
    refine ⟨⟨r2, r3, r4, r5, r6, r7, a, dpl, dph, c, x - 1#16, decide (x - 1#16 = 0#16), 5, rom, put mem (start - 1#16 + x) 0#8⟩, ?_, rfl, rfl, wr⟩
    refine .next _ ⟨r2, r3, r4, r5, r6, r7, a, dpl, dph, c, x, true, 3, rom, put mem (start - 1#16 + x) 0#8⟩ _ rfl ?_
    refine .next _ ⟨r2, r3, r4, r5, r6, r7, a, dpl, dph, c, x - 1#16, decide (x - 1#16 = 0#16), 4, rom, put mem (start - 1#16 + x) 0#8⟩ _ rfl ?_
    exact .one (congrArg some (sel_true (show x - 1#16 = 0#16 by rw [h2]; rfl) _ _))
  | succ n ih =>
    intro ⟨r2, r3, r4, r5, r6, r7, a, dpl, dph, c, x, z, pc, rom, mem⟩ hn h1 h2 h3
    have hl := len.isLt
    cases h1
    have h2 : x = BitVec.ofNat 16 (n + 1 + 1) := h2
    have h3 : mem = _ := h3
    have ex : x - 1#16 = BitVec.ofNat 16 (n + 1) := by
      rw [h2]; apply BitVec.eq_of_toNat_eq; rw [BitVec.toNat_sub]; simp only [BitVec.toNat_ofNat]; omega
    have wr : put mem (start - 1#16 + x) 0#8 = filled ram start (fun _ => 0#8) (n + 1) len.toNat := by
      rw [h3, add_sub_one, ex]
      exact filled_down ram start (fun _ => 0#8) (n + 1) len.toNat (by omega) hl
    obtain ⟨s', st, o1, o2, o3⟩ := ih ⟨r2, r3, r4, r5, r6, r7, a, dpl, dph, c, x - 1#16, decide (x - 1#16 = 0#16), 2, rom, put mem (start - 1#16 + x) 0#8⟩
      (by omega) rfl ex wr
    refine ⟨s', Steps.trans ?_ st, o1, o2, o3⟩
    refine .next _ ⟨r2, r3, r4, r5, r6, r7, a, dpl, dph, c, x, true, 3, rom, put mem (start - 1#16 + x) 0#8⟩ _ rfl ?_
    refine .next _ ⟨r2, r3, r4, r5, r6, r7, a, dpl, dph, c, x - 1#16, decide (x - 1#16 = 0#16), 4, rom, put mem (start - 1#16 + x) 0#8⟩ _ rfl ?_
    refine .one (congrArg some (sel_false (show ¬ x - 1#16 = 0#16 from ?_) _ _))
    rw [ex]; intro c
    have := congrArg BitVec.toNat c
    simp only [BitVec.toNat_ofNat] at this
    omega

theorem stm8_zero (start len : A) (rom ram : A → B) : Runs (zeroStm8 start len) rom ram (filled ram start (fun _ => 0#8) 0 len.toNat) := by
  intro ⟨r2, r3, r4, r5, r6, r7, a, dpl, dph, c, x, z, pc, rom', mem⟩ ⟨h1, h2, h3⟩
  cases h1; cases h2; cases h3
  by_cases hz : len = 0#16
  · refine ⟨⟨r2, r3, r4, r5, r6, r7, a, dpl, dph, c, len, decide (len = 0#16), 5, rom', mem⟩, ?_, rfl, rfl, ?_⟩
    · refine .next _ ⟨r2, r3, r4, r5, r6, r7, a, dpl, dph, c, len, decide (len = 0#16), 1, rom', mem⟩ _ rfl ?_
      exact .one (congrArg some (sel_true hz _ _))
    · rw [len_zero.1 hz, filled_none]
  · have hp : 0 < len.toNat := Nat.pos_of_ne_zero (fun c => hz (len_zero.2 c))
    obtain ⟨s', st, o1, o2, o3⟩ := stm8_zero_loop start len mem (len.toNat - 1) ⟨r2, r3, r4, r5, r6, r7, a, dpl, dph, c, len, decide (len = 0#16), 2, rom', mem⟩
      (by omega) rfl (by show len = _; rw [show len.toNat - 1 + 1 = len.toNat by omega, BitVec.ofNat_toNat, BitVec.setWidth_eq])
      (by show mem = _; rw [show len.toNat - 1 + 1 = len.toNat by omega, filled_none])
    refine ⟨s', Steps.trans ?_ st, o1, o2, o3⟩
    refine .next _ ⟨r2, r3, r4, r5, r6, r7, a, dpl, dph, c, len, decide (len = 0#16), 1, rom', mem⟩ _ rfl ?_
    exact .one (congrArg some (sel_false hz _ _))

end Pico.Startup8
