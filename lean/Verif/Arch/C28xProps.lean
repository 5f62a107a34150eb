import Verif.Arch.C28x
/-
The c28x port saves and restores contexts (C54), but for the floating-point registers.
-/
namespace Pico.C28x

open Pico.Ctx8 (upd upd_same upd_ne)
open R

/-! ### addresses -/

theorem toNat_add_lit (x : W) (n : Nat) : (x + BitVec.ofNat 16 n).toNat = (x.toNat + n) % 65536 := by
  rw [BitVec.toNat_add, BitVec.toNat_ofNat]; omega

theorem ev_toNat (x : W) : (ev x).toNat = x.toNat / 2 * 2 := by
  have := x.isLt
  unfold ev
  rw [BitVec.toNat_ofNat]; omega

theorem ev_add2 (x : W) : ev (x + 2) = ev x + 2 := by
  apply BitVec.eq_of_toNat_eq
  have := x.isLt
  rw [ev_toNat, show x + 2 = x + BitVec.ofNat 16 2 from rfl, show ev x + 2 = ev x + BitVec.ofNat 16 2 from rfl,
    toNat_add_lit, toNat_add_lit, ev_toNat]
  omega

theorem ev_sub2 (x : W) : ev (x - 2) = ev x - 2 := by
  have h := ev_add2 (x - 2)
  rw [show x - 2 + 2 = x by grind] at h
  rw [h]; grind

theorem ev_even {x : W} (h : x.toNat % 2 = 0) : ev x = x := by
  apply BitVec.eq_of_toNat_eq; rw [ev_toNat]; omega

theorem ev_odd {x : W} (h : x.toNat % 2 = 1) : ev x = x - 1 := by
  apply BitVec.eq_of_toNat_eq
  have := x.isLt
  rw [ev_toNat, BitVec.toNat_sub, show (1 : W).toNat = 1 by decide]; omega

theorem add_sub_toNat (p : W) (n : Nat) (h : n < 65536) : (p + BitVec.ofNat 16 n - p).toNat = n := by
  rw [show p + BitVec.ofNat 16 n - p = BitVec.ofNat 16 n by grind, BitVec.toNat_ofNat, Nat.mod_eq_of_lt h]

/-! ### blocks of memory -/

/-- the words `l` written from `p` up -/
def store (x : W → W) (p : W) (l : List W) : W → W := fun y => if (y - p).toNat < l.length then l.getD (y - p).toNat 0 else x y

/-- `n` words read from `p` up -/
def load (x : W → W) (p : W) (n : Nat) : List W := (List.range n).map fun i => x (p + BitVec.ofNat 16 i)

theorem load_length (x : W → W) (p : W) (n : Nat) : (load x p n).length = n := by simp [load]

theorem store_cons (x : W → W) (p v : W) (l : List W) (h : l.length < 65535) :
    store (upd x p v) (p + 1) l = store x p (v :: l) := by
  funext y
  unfold store
  by_cases e : y = p
  · subst e
    have : (y - (y + 1)).toNat = 65535 := by
      rw [show y - (y + 1) = (-1 : W) by grind]; decide
    rw [this, if_neg (by omega), upd_same]
    simp
  · have h1 : (y - (p + 1)).toNat + 1 = (y - p).toNat := by
      have hne : y - p ≠ 0 := fun hz => e (by grind)
      rw [show y - (p + 1) = (y - p) - 1 by grind]
      generalize y - p = d at hne
      have hd : d.toNat ≠ 0 := fun hz => hne (BitVec.eq_of_toNat_eq hz)
      have := d.isLt
      rw [BitVec.toNat_sub, show (1 : W).toNat = 1 by decide]
      omega
    rw [← h1]
    simp only [List.length_cons, Nat.add_lt_add_iff_right, upd_ne x v e, List.getD_cons_succ]

theorem store_nil (x : W → W) (p : W) : store x p [] = x := by funext y; unfold store; simp

theorem store_in (x : W → W) (p : W) (l : List W) (i : Nat) (hi : i < l.length) (hl : l.length ≤ 65536) :
    store x p l (p + BitVec.ofNat 16 i) = l.getD i 0 := by
  unfold store
  rw [show p + BitVec.ofNat 16 i - p = BitVec.ofNat 16 i by grind, BitVec.toNat_ofNat, Nat.mod_eq_of_lt (by omega), if_pos hi]

theorem store_out (x : W → W) (p : W) (l : List W) (y : W) (h : ¬ (y - p).toNat < l.length) : store x p l y = x y := if_neg h

theorem load_store (x : W → W) (p : W) (l : List W) (hl : l.length ≤ 65536) : load (store x p l) p l.length = l := by
  apply List.ext_getElem
  · simp [load]
  · intro i h1 h2
    simp only [load, List.getElem_map, List.getElem_range]
    rw [store_in x p l i h2 hl]
    simp [h2]

theorem load_congr (x y : W → W) (p : W) (n : Nat) (h : ∀ i, i < n → x (p + BitVec.ofNat 16 i) = y (p + BitVec.ofNat 16 i)) :
    load x p n = load y p n := by
  unfold load
  apply List.map_congr_left
  intro i hi
  exact h i (List.mem_range.mp hi)

theorem load_succ (x : W → W) (p : W) (n : Nat) : load x p (n + 1) = load x p n ++ [x (p + BitVec.ofNat 16 n)] := by
  simp [load, List.range_succ]

/-- the first words of a block -/
theorem load_take (x : W → W) (p : W) (n m : Nat) (l k : List W) (h : load x p (n + m) = l ++ k) (hl : l.length = n) :
    load x p n = l ∧ load x (p + BitVec.ofNat 16 n) m = k := by
  have e : load x p (n + m) = load x p n ++ load x (p + BitVec.ofNat 16 n) m := by
    unfold load
    rw [List.range_add, List.map_append, List.map_map]
    congr 1
    apply List.map_congr_left
    intro i _
    show x (p + BitVec.ofNat 16 (n + i)) = x (p + BitVec.ofNat 16 n + BitVec.ofNat 16 i)
    rw [BitVec.ofNat_add]; congr 1; grind
  rw [e] at h
  have := List.append_inj h (by rw [load_length, hl])
  exact this

/-- one block does not disturb another -/
theorem load_store_apart (x : W → W) (p q : W) (l : List W) (n : Nat)
    (h : ∀ i, i < n → ¬ (q + BitVec.ofNat 16 i - p).toNat < l.length) : load (store x p l) q n = load x q n :=
  load_congr _ _ _ _ fun i hi => store_out _ _ _ _ (h i hi)

/-! ### pairs -/

/-- the words of pairs, low word first -/
def words (L : List (R × R)) (V : R → W) : List W := L.flatMap fun p => [V p.2, V p.1]
def halves (L : List (R × R)) : List R := L.flatMap fun p => [p.2, p.1]

theorem words_length (L : List (R × R)) (V : R → W) : (words L V).length = 2 * L.length := by
  induction L with
  | nil => rfl
  | cons p L ih =>
    show (V p.2 :: V p.1 :: words L V).length = _
    rw [List.length_cons, List.length_cons, List.length_cons, ih]; omega

theorem words_append (L M : List (R × R)) (V : R → W) : words (L ++ M) V = words L V ++ words M V := by simp [words]

theorem words_map (L : List (R × R)) (V : R → W) : words L V = (halves L).map V := by
  induction L with
  | nil => rfl
  | cons p L ih =>
    show V p.2 :: V p.1 :: words L V = V p.2 :: V p.1 :: (halves L).map V
    rw [ih]

theorem pushes2_eff : ∀ (L : List (R × R)) (s : St), 2 * L.length < 65535 →
    pushes2 L s = { s with mem := store s.mem (ev s.sp) (words L s.reg), sp := s.sp + BitVec.ofNat 16 (2 * L.length) } := by
  intro L
  induction L with
  | nil =>
    intro s _
    show s = _
    rw [show words [] s.reg = [] from rfl, store_nil]
    have : s.sp + BitVec.ofNat 16 (2 * ([] : List (R × R)).length) = s.sp := by simp
    rw [this]
  | cons p L ih =>
    intro s h
    rw [List.length_cons] at h
    show pushes2 L (push2 p s) = _
    rw [ih (push2 p s) (by omega)]
    have hl := words_length L s.reg
    have h1 : store (push2 p s).mem (ev (push2 p s).sp) (words L (push2 p s).reg) = store s.mem (ev s.sp) (words (p :: L) s.reg) := by
      show store (upd (upd s.mem (ev s.sp) (s.reg p.2)) (ev s.sp + 1) (s.reg p.1)) (ev (s.sp + 2)) (words L s.reg) = _
      rw [ev_add2, show ev s.sp + 2 = ev s.sp + 1 + 1 by grind, store_cons _ _ _ _ (by omega),
        store_cons _ _ _ _ (by rw [List.length_cons]; omega)]
      rfl
    have h2 : (push2 p s).sp + BitVec.ofNat 16 (2 * L.length) = s.sp + BitVec.ofNat 16 (2 * (p :: L).length) := by
      show s.sp + 2 + _ = _
      rw [List.length_cons, show 2 * (L.length + 1) = 2 * L.length + 2 by omega, BitVec.ofNat_add]
      exact (show ∀ x y : W, x + 2 + y = x + (y + 2#16) by intros; grind) _ _
    rw [h1, h2]; rfl

theorem pops2_eff (V : R → W) : ∀ (M : List (R × R)) (s : St), (halves M).Nodup →
    load s.mem (ev s.sp - BitVec.ofNat 16 (2 * M.length)) (2 * M.length) = words M.reverse V →
    (pops2 M s).mem = s.mem ∧ (pops2 M s).sp = s.sp - BitVec.ofNat 16 (2 * M.length) ∧
    ∀ r, (pops2 M s).reg r = if r ∈ halves M then V r else s.reg r := by
  intro M
  induction M with
  | nil => intro s _ _; exact ⟨rfl, by show s.sp = s.sp - 0#16; simp, fun r => by simp [halves, pops2]⟩
  | cons p M ih =>
    intro s hn h
    have hn' : p.2 ≠ p.1 ∧ p.2 ∉ halves M ∧ p.1 ∉ halves M ∧ (halves M).Nodup := by
      have : (p.2 :: p.1 :: halves M).Nodup := hn
      rw [List.nodup_cons, List.nodup_cons, List.mem_cons, not_or] at this
      exact ⟨this.1.1, this.1.2, this.2.1, this.2.2⟩
    have hb : ev s.sp - BitVec.ofNat 16 (2 * (p :: M).length) = ev (s.sp - 2) - BitVec.ofNat 16 (2 * M.length) := by
      rw [ev_sub2, List.length_cons, show 2 * (M.length + 1) = 2 * M.length + 2 by omega, BitVec.ofNat_add]
      exact (show ∀ x y : W, x - (y + 2#16) = x - 2 - y by intros; grind) _ _
    rw [hb, List.reverse_cons, words_append, List.length_cons, show 2 * (M.length + 1) = 2 * M.length + 2 by omega] at h
    obtain ⟨h1, h2⟩ := load_take _ _ _ _ _ _ h (by rw [words_length, List.length_reverse])
    rw [show ev (s.sp - 2) - BitVec.ofNat 16 (2 * M.length) + BitVec.ofNat 16 (2 * M.length) = ev (s.sp - 2) by grind] at h2
    have h3 : [s.mem (ev (s.sp - 2) + 0#16), s.mem (ev (s.sp - 2) + 1#16)] = [V p.2, V p.1] := h2
    injection h3 with h4 h5
    injection h5 with h5 _
    rw [show ev (s.sp - 2) + 0#16 = ev (s.sp - 2) by simp] at h4
    obtain ⟨i1, i2, i3⟩ := ih (pop2 p s) hn'.2.2.2 h1
    refine ⟨i1, ?_, fun r => ?_⟩
    · show (pops2 M (pop2 p s)).sp = _
      rw [i2]
      show s.sp - 2 - _ = _
      rw [List.length_cons, show 2 * (M.length + 1) = 2 * M.length + 2 by omega, BitVec.ofNat_add]
      exact (show ∀ x y : W, x - 2 - y = x - (y + 2#16) by intros; grind) _ _
    · show (pops2 M (pop2 p s)).reg r = _
      rw [i3]
      show (if r ∈ halves M then V r else upd (upd s.reg p.2 (s.mem (ev (s.sp - 2)))) p.1 (s.mem (ev (s.sp - 2) + 1)) r) =
        if r ∈ p.2 :: p.1 :: halves M then V r else s.reg r
      by_cases hr : r ∈ halves M
      · rw [if_pos hr, if_pos (by simp [hr])]
      · rw [if_neg hr]
        by_cases e1 : r = p.1
        · subst e1; rw [upd_same, if_pos (by simp)]; exact h5
        · rw [upd_ne _ _ e1]
          by_cases e2 : r = p.2
          · subst e2; rw [upd_same, if_pos (by simp)]; exact h4
          · rw [upd_ne _ _ e2, if_neg (by simp [hr, e1, e2])]

end Pico.C28x
