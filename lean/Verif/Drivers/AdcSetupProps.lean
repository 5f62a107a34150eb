/-
The ADC drivers (C88): theorems.
-/
import Verif.Drivers.AdcSetup
namespace Pico.AdcSetup
open Field

theorem upd_same {α : Type} (f : Nat → α) (i : Nat) (v : α) : upd f i v i = v := by simp [upd]
theorem upd_other {α : Type} (f : Nat → α) (i j : Nat) (v : α) (h : j ≠ i) : upd f i v j = f j := by simp [upd, h]

/-! ### stm32h7xx -/

theorem stmSlot_eq : ∀ k : Fin 16, stmSlot k.val = some ((k.val + 1) / 5, 6 * ((k.val + 1) % 5)) := by decide

def stmField (sqr : Nat → BitVec 32) (j : Nat) : Nat := (get 5 (6 * ((j + 1) % 5)) (sqr ((j + 1) / 5))).toNat

def StmI (s : Stm) (l : List Nat) : Prop :=
  s.count = l.length ∧ (∀ j, j < 16 → l.length ≤ j → get 5 (6 * ((j + 1) % 5)) (s.sqr ((j + 1) / 5)) = 0) ∧
  (∀ j (h : j < l.length), stmField s.sqr j = l[j]) ∧ (l ≠ [] → (get 4 0 (s.sqr 0)).toNat + 1 = l.length) ∧ s.bytes = 4 * l.length

theorem stm_step (s s' : Stm) (l : List Nat) (c : Nat) (hI : StmI s l) (h : stmInit s c = some s') : StmI s' (l ++ [c]) := by
  obtain ⟨h1, h2, h3, h4, h5⟩ := hI
  unfold stmInit at h
  by_cases hc : c < 20
  · rw [if_pos hc] at h
    by_cases hk : s.count < 16
    · have e : stmSlot s.count = some ((s.count + 1) / 5, 6 * ((s.count + 1) % 5)) := stmSlot_eq ⟨s.count, hk⟩
      rw [e] at h
      simp only [Option.map_some, Option.some.injEq] at h
      subst h
      have old : ∀ j, j < 16 → j ≠ s.count → get 5 (6 * ((j + 1) % 5))
          (upd (upd s.sqr ((s.count + 1) / 5) (orIn 5 (6 * ((s.count + 1) % 5)) (BitVec.ofNat 32 c) (s.sqr ((s.count + 1) / 5)))) 0
            (put 4 0 (BitVec.ofNat 32 s.count) (upd s.sqr ((s.count + 1) / 5) (orIn 5 (6 * ((s.count + 1) % 5)) (BitVec.ofNat 32 c) (s.sqr ((s.count + 1) / 5))) 0)) ((j + 1) / 5)) =
          get 5 (6 * ((j + 1) % 5)) (s.sqr ((j + 1) / 5)) := by
        intro j hj hne
        have mid : get 5 (6 * ((j + 1) % 5)) (upd s.sqr ((s.count + 1) / 5) (orIn 5 (6 * ((s.count + 1) % 5)) (BitVec.ofNat 32 c) (s.sqr ((s.count + 1) / 5))) ((j + 1) / 5)) =
            get 5 (6 * ((j + 1) % 5)) (s.sqr ((j + 1) / 5)) := by
          by_cases er : (j + 1) / 5 = (s.count + 1) / 5
          · rw [er, upd_same, get_orIn_other _ _ _ _ _ _ (by omega)]
          · rw [upd_other _ _ _ _ er]
        by_cases e0 : (j + 1) / 5 = 0
        · rw [e0, upd_same, get_put_other _ _ _ _ _ _ (.inr (by omega))]
          rw [e0] at mid
          exact mid
        · rw [upd_other _ _ _ _ e0, mid]
      have new : get 5 (6 * ((s.count + 1) % 5))
          (upd (upd s.sqr ((s.count + 1) / 5) (orIn 5 (6 * ((s.count + 1) % 5)) (BitVec.ofNat 32 c) (s.sqr ((s.count + 1) / 5)))) 0
            (put 4 0 (BitVec.ofNat 32 s.count) (upd s.sqr ((s.count + 1) / 5) (orIn 5 (6 * ((s.count + 1) % 5)) (BitVec.ofNat 32 c) (s.sqr ((s.count + 1) / 5))) 0)) ((s.count + 1) / 5)) =
          BitVec.ofNat 32 c &&& mask 32 5 := by
        have mid := get_orIn_same 5 (6 * ((s.count + 1) % 5)) (BitVec.ofNat 32 c) (s.sqr ((s.count + 1) / 5)) (by omega) (h2 s.count hk (by omega))
        by_cases e0 : (s.count + 1) / 5 = 0
        · rw [e0, upd_same, get_put_other _ _ _ _ _ _ (.inr (by omega)), upd_same, ← mid, e0]
        · rw [upd_other _ _ _ _ e0, upd_same, mid]
      refine ⟨by simp [h1], ?_, ?_, ?_, by simp [h1]; omega⟩
      · intro j hj hl
        simp only [List.length_append, List.length_singleton] at hl
        rw [old j hj (by omega)]
        exact h2 j hj (by omega)
      · intro j hj
        simp only [List.length_append, List.length_singleton] at hj
        by_cases ej : j = s.count
        · subst ej
          unfold stmField
          dsimp only
          rw [new, and_mask 32 5 c (by decide) (by omega), List.getElem_append_right (by omega)]
          simp
        · unfold stmField
          dsimp only
          rw [old j (by omega) ej, List.getElem_append_left (by omega)]
          exact h3 j (by omega)
      · intro _
        dsimp only
        rw [upd_same, get_put_same _ _ _ _ (by decide), and_mask 32 4 s.count (by decide) (by omega)]
        simp [h1]
    · have e : stmSlot s.count = none := by
        unfold stmSlot
        split <;> first | omega | rfl
      rw [e] at h; cases h
  · rw [if_neg hc] at h; cases h

theorem stm_inits (l : List Nat) : ∀ (m : List Nat) (s s' : Stm), StmI s m → stmInits l s = some s' → StmI s' (m ++ l) := by
  induction l with
  | nil => intro m s s' h1 h2; cases h2; simpa using h1
  | cons c l ih =>
    intro m s s' h1 h2
    simp only [stmInits] at h2
    obtain ⟨s1, h3, h4⟩ := Option.bind_eq_some_iff.1 h2
    have := ih (m ++ [c]) s1 s' (stm_step s s1 m c h1 h3) h4
    simpa using this

theorem stm0_I : StmI stm0 [] := by
  refine ⟨rfl, fun j _ _ => ?_, fun j h => absurd h (Nat.not_lt_zero j), fun h => absurd rfl h, rfl⟩
  show get 5 _ (0#32) = 0
  simp [Field.get]

/-- **C88, stm32h7xx**: the channels converted are those of the objects, in the order of their initialisation, so that the k-th object finds its result at its index; the DMA takes as many -/
theorem stm_seq (l : List Nat) (hl : l ≠ []) (s : Stm) (h : stmInits l stm0 = some s) : stmSeq s.sqr = l ∧ s.bytes = 4 * l.length := by
  obtain ⟨h1, h2, h3, h4, h5⟩ := stm_inits l [] stm0 s stm0_I h
  rw [List.nil_append] at h3 h4 h5
  refine ⟨?_, h5⟩
  unfold stmSeq
  rw [h4 hl]
  apply List.ext_getElem
  · simp
  · intro j hj hj'
    simp only [List.getElem_map, List.getElem_range]
    exact h3 j hj'

/-- and every list of up to 16 channels is accepted -/
theorem stm_accepts (l : List Nat) (h : ∀ c ∈ l, c < 20) : ∀ (s : Stm), s.count + l.length ≤ 16 → ∃ s', stmInits l s = some s' := by
  induction l with
  | nil => intro s _; exact ⟨s, rfl⟩
  | cons c l ih =>
    intro s hs
    simp only [List.length_cons] at hs
    have e : stmSlot s.count = some ((s.count + 1) / 5, 6 * ((s.count + 1) % 5)) := stmSlot_eq ⟨s.count, by omega⟩
    simp only [stmInits, stmInit, if_pos (h c List.mem_cons_self), e, Option.map_some, Option.bind_some]
    exact ih (fun c hc => h c (List.mem_cons_of_mem _ hc)) _ (by dsimp only; omega)

/-- **C88, stm32h7xx, channels 0 to 8**: the sampling time is that of the channel, the others do not change -/
theorem stm_smp_partial (ch smp : Nat) (hc : ch < 9) (s s' : BitVec 32 × BitVec 32) (h : stmSetup ch smp s = some s') :
    stmSmp ch s' = smp ∧ ∀ c, c < 20 → c ≠ ch → stmSmp c s' = stmSmp c s := by
  unfold stmSetup at h
  by_cases hs : smp < 8
  · rw [if_pos hs, if_pos hc] at h
    cases h
    refine ⟨?_, fun c h20 hne => ?_⟩
    · rw [stmSmp, if_pos (by omega), get_put_same _ _ _ _ (by omega), and_mask 32 3 smp (by decide) hs]
    · unfold stmSmp
      by_cases c10 : c < 10
      · rw [if_pos c10, if_pos c10]; dsimp only; rw [get_put_other _ _ _ _ _ _ (by omega)]
      · rw [if_neg c10, if_neg c10]
  · rw [if_neg hs] at h; cases h

/-- **C88, stm32h7xx, refuted for the channels 9 to 18**: the sampling time of the channel does not change, that of the next one does -/
theorem stm_smp_wrong (ch smp : Nat) (h9 : 9 ≤ ch) (hc : ch ≤ 18) (s s' : BitVec 32 × BitVec 32) (h : stmSetup ch smp s = some s') :
    stmSmp ch s' = stmSmp ch s ∧ stmSmp (ch + 1) s' = smp := by
  unfold stmSetup at h
  by_cases hs : smp < 8
  · rw [if_pos hs, if_neg (by omega)] at h
    cases h
    constructor
    · unfold stmSmp
      by_cases c10 : ch < 10
      · rw [if_pos c10, if_pos c10]
      · rw [if_neg c10, if_neg c10]; dsimp only; rw [get_put_other _ _ _ _ _ _ (.inl (by omega))]
    · rw [stmSmp, if_neg (by omega)]
      dsimp only
      rw [show ch + 1 - 10 = ch - 9 by omega, get_put_same _ _ _ _ (by omega), and_mask 32 3 smp (by decide) hs]
  · rw [if_neg hs] at h; cases h

/-! ### gd32vf103 -/

def GdI (s : Gd) (l : List Nat) : Prop :=
  s.count = l.length ∧ l.length ≤ 16 ∧ (∀ j (h : j < l.length), gdField s.rsq j = l[j]) ∧ (∀ j, j < 16 → l.length ≤ j → gdField s.rsq j = 0) ∧
  (l ≠ [] → (get 4 20 (s.rsq 0)).toNat = l.length % 16)

theorem gd_step (s s' : Gd) (l : List Nat) (c : Nat) (hI : GdI s l) (h : gdInit s c = some s') : GdI s' (l ++ [c]) := by
  obtain ⟨h1, h2, h3, h4, h5⟩ := hI
  unfold gdInit at h
  by_cases hc : c < 18 ∧ s.count < 16
  · rw [if_pos hc] at h
    simp only [Option.some.injEq] at h
    -- the three cases are one
    have one : ∀ k, k < 16 → (if k < 6 then upd s.rsq 2 (put 5 (k * 5) (BitVec.ofNat 32 c) (s.rsq 2))
        else if k < 12 then upd s.rsq 1 (put 5 ((k - 6) * 5) (BitVec.ofNat 32 c) (s.rsq 1))
        else upd s.rsq 0 (put 5 ((k - 12) * 5) (BitVec.ofNat 32 c) (s.rsq 0))) =
        upd s.rsq (2 - k / 6) (put 5 (k % 6 * 5) (BitVec.ofNat 32 c) (s.rsq (2 - k / 6))) := by
      intro k hk
      by_cases c1 : k < 6
      · rw [if_pos c1, show 2 - k / 6 = 2 by omega, show k % 6 = k by omega]
      · by_cases c2 : k < 12
        · rw [if_neg c1, if_pos c2, show 2 - k / 6 = 1 by omega, show k % 6 = k - 6 by omega]
        · rw [if_neg c1, if_neg c2, show 2 - k / 6 = 0 by omega, show k % 6 = k - 12 by omega]
    rw [one s.count hc.2] at h
    subst h
    have field : ∀ j, j < 16 → gdField (upd (upd s.rsq (2 - s.count / 6) (put 5 (s.count % 6 * 5) (BitVec.ofNat 32 c) (s.rsq (2 - s.count / 6)))) 0
        (put 4 20 (BitVec.ofNat 32 (s.count + 1)) (upd s.rsq (2 - s.count / 6) (put 5 (s.count % 6 * 5) (BitVec.ofNat 32 c) (s.rsq (2 - s.count / 6))) 0))) j =
        if j = s.count then c else gdField s.rsq j := by
      intro j hj
      unfold gdField
      have rl : ∀ f : Nat → BitVec 32, get 5 (j % 6 * 5) (upd f 0 (put 4 20 (BitVec.ofNat 32 (s.count + 1)) (f 0)) (2 - j / 6)) = get 5 (j % 6 * 5) (f (2 - j / 6)) := by
        intro f
        by_cases e0 : 2 - j / 6 = 0
        · rw [e0, upd_same, get_put_other _ _ _ _ _ _ (.inl (by omega))]
        · rw [upd_other _ _ _ _ e0]
      rw [rl]
      by_cases ej : j = s.count
      · subst ej
        rw [if_pos rfl, upd_same, get_put_same _ _ _ _ (by omega), and_mask 32 5 c (by decide) (by omega)]
      · rw [if_neg ej]
        by_cases er : 2 - j / 6 = 2 - s.count / 6
        · rw [er, upd_same, get_put_other _ _ _ _ _ _ (by omega)]
        · rw [upd_other _ _ _ _ er]
    refine ⟨by simp [h1], by simp; omega, ?_, ?_, ?_⟩
    · intro j hj
      simp only [List.length_append, List.length_singleton] at hj
      dsimp only
      rw [field j (by omega)]
      by_cases ej : j = s.count
      · rw [if_pos ej, List.getElem_append_right (by omega)]; simp
      · rw [if_neg ej, List.getElem_append_left (by omega)]; exact h3 j (by omega)
    · intro j hj hl
      simp only [List.length_append, List.length_singleton] at hl
      dsimp only
      rw [field j hj, if_neg (by omega)]
      exact h4 j hj (by omega)
    · intro _
      dsimp only
      rw [upd_same, get_put_same _ _ _ _ (by decide), mask, BitVec.toNat_and, BitVec.toNat_ofNat, BitVec.toNat_ofNat, show (2 ^ 4 - 1) % 2 ^ 32 = 2 ^ 4 - 1 by decide,
        Nat.and_two_pow_sub_one_eq_mod]
      simp only [List.length_append, List.length_singleton]
      omega
  · rw [if_neg hc] at h; cases h

theorem gd_inits (l : List Nat) : ∀ (m : List Nat) (s s' : Gd), GdI s m → gdInits l s = some s' → GdI s' (m ++ l) := by
  induction l with
  | nil => intro m s s' h1 h2; cases h2; simpa using h1
  | cons c l ih =>
    intro m s s' h1 h2
    simp only [gdInits] at h2
    obtain ⟨s1, h3, h4⟩ := Option.bind_eq_some_iff.1 h2
    have := ih (m ++ [c]) s1 s' (gd_step s s1 m c h1 h3) h4
    simpa using this

theorem gd0_I : GdI gd0 [] := by
  refine ⟨rfl, by decide, fun j h => absurd h (Nat.not_lt_zero j), fun j _ _ => ?_, fun h => absurd rfl h⟩
  show (get 5 _ (0#32)).toNat = 0
  simp [Field.get]

/-- **C88, gd32vf103, refuted**: the fields of the sequence are the channels of the objects, but one conversion too many is made (of the channel 0), which shifts the results in the DMA's
buffer at each scan; with 16 channels only the first is converted -/
theorem gd_seq_wrong (l : List Nat) (hl : l ≠ []) (s : Gd) (h : gdInits l gd0 = some s) : gdSeq s.rsq = if l.length = 16 then l.take 1 else l ++ [0] := by
  obtain ⟨h1, h2, h3, h4, h5⟩ := gd_inits l [] gd0 s gd0_I h
  rw [List.nil_append] at h1 h2 h3 h4 h5
  have hpos := List.length_pos_iff.2 hl
  unfold gdSeq
  rw [h5 hl]
  by_cases c : l.length = 16
  · rw [if_pos c, c]
    apply List.ext_getElem
    · simp; omega
    · intro j hj hj'
      simp only [List.getElem_map, List.getElem_range, List.getElem_take]
      exact h3 j (by simp only [List.length_take] at hj'; omega)
  · rw [if_neg c, Nat.mod_eq_of_lt (by omega)]
    apply List.ext_getElem
    · simp
    · intro j hj hj'
      simp only [List.getElem_map, List.getElem_range]
      simp only [List.length_append, List.length_singleton] at hj'
      by_cases cj : j < l.length
      · rw [List.getElem_append_left cj]; exact h3 j cj
      · rw [List.getElem_append_right (by omega)]
        simp only [List.getElem_singleton]
        exact h4 j (by omega) (by omega)

example : ∃ s, gdInits [3, 5] gd0 = some s ∧ gdSeq s.rsq = [3, 5, 0] := ⟨_, rfl, by decide⟩

/-! ### atmel_afec -/

def afField (s : Af) (j : Nat) : Nat := if j < 8 then (get 4 (j * 4) s.seq1).toNat else (get 4 ((j - 8) * 4) s.seq2).toNat

def AfI (s : Af) (l : List Nat) : Prop :=
  s.count = l.length ∧ l.length ≤ 12 ∧ (∀ j (h : j < l.length), afField s j = l[j]) ∧ ∀ j, s.chsr.getLsbD j = decide (j < l.length)

theorem one_shift_bit (n k j : Nat) (hk : k < n) : (1#n <<< k).getLsbD j = decide (j = k) := by
  rw [BitVec.getLsbD_shiftLeft, BitVec.getLsbD_one, Bool.eq_iff_iff]
  simp only [Bool.and_eq_true, Bool.not_eq_true', decide_eq_false_iff_not, decide_eq_true_eq]
  omega

theorem af_step (s s' : Af) (l : List Nat) (c : Nat) (hI : AfI s l) (h : afInit s c = some s') : AfI s' (l ++ [c]) := by
  obtain ⟨h1, h2, h3, h4⟩ := hI
  unfold afInit at h
  by_cases hc : c < 12 ∧ s.count < 12
  · rw [if_pos hc] at h
    have bits : ∀ j, (s.chsr ||| (1 <<< s.count)).getLsbD j = decide (j < (l ++ [c]).length) := by
      intro j
      rw [BitVec.getLsbD_or, h4, show (1 <<< s.count : BitVec 32) = 1#32 <<< s.count from rfl, one_shift_bit 32 _ _ (by omega), Bool.eq_iff_iff]
      simp only [Bool.or_eq_true, decide_eq_true_eq, List.length_append, List.length_singleton]
      omega
    have fin : ∀ (t : Af), t.count = s.count + 1 → (∀ j, j < 12 → afField t j = if j = s.count then c else afField s j) → (∀ j, t.chsr.getLsbD j = decide (j < (l ++ [c]).length)) → AfI t (l ++ [c]) := by
      intro t t1 t2 t3
      refine ⟨by simp [t1, h1], by simp; omega, fun j hj => ?_, t3⟩
      simp only [List.length_append, List.length_singleton] at hj
      rw [t2 j (by omega)]
      by_cases ej : j = s.count
      · rw [if_pos ej, List.getElem_append_right (by omega)]; simp
      · rw [if_neg ej, List.getElem_append_left (by omega)]; exact h3 j (by omega)
    by_cases c8 : s.count < 8
    · rw [if_pos c8] at h
      simp only [Option.some.injEq] at h
      subst h
      refine fin _ rfl (fun j hj => ?_) bits
      unfold afField
      dsimp only
      by_cases ej : j = s.count
      · subst ej
        rw [if_pos c8, if_pos rfl, get_put_same _ _ _ _ (by omega), and_mask 32 4 c (by decide) (by omega)]
      · rw [if_neg ej]
        by_cases j8 : j < 8
        · rw [if_pos j8, if_pos j8, get_put_other _ _ _ _ _ _ (by omega)]
        · rw [if_neg j8, if_neg j8]
    · rw [if_neg c8] at h
      simp only [Option.some.injEq] at h
      subst h
      refine fin _ rfl (fun j hj => ?_) bits
      unfold afField
      dsimp only
      by_cases ej : j = s.count
      · subst ej
        rw [if_neg c8, if_pos rfl, get_put_same _ _ _ _ (by omega), and_mask 32 4 c (by decide) (by omega)]
      · rw [if_neg ej]
        by_cases j8 : j < 8
        · rw [if_pos j8, if_pos j8]
        · rw [if_neg j8, if_neg j8, get_put_other _ _ _ _ _ _ (by omega)]
  · rw [if_neg hc] at h; cases h

theorem af_inits (l : List Nat) : ∀ (m : List Nat) (s s' : Af), AfI s m → afInits l s = some s' → AfI s' (m ++ l) := by
  induction l with
  | nil => intro m s s' h1 h2; cases h2; simpa using h1
  | cons c l ih =>
    intro m s s' h1 h2
    simp only [afInits] at h2
    obtain ⟨s1, h3, h4⟩ := Option.bind_eq_some_iff.1 h2
    have := ih (m ++ [c]) s1 s' (af_step s s1 m c h1 h3) h4
    simpa using this

theorem range_filter (k n : Nat) (h : k ≤ n) : (List.range n).filter (fun j => decide (j < k)) = List.range k := by
  obtain ⟨d, rfl⟩ := Nat.exists_eq_add_of_le h
  rw [List.range_add, List.filter_append, List.filter_eq_self.2 (by simp), List.filter_eq_nil_iff.2 (by simp), List.append_nil]

/-- **C88, atmel_afec**: the channels converted are those of the objects, in order -/
theorem af_seq (l : List Nat) (s : Af) (h : afInits l af0 = some s) : afSeq s = l := by
  obtain ⟨h1, h2, h3, h4⟩ := af_inits l [] af0 s ⟨rfl, by decide, fun j h => absurd h (Nat.not_lt_zero j), fun j => by simp [af0]⟩ h
  rw [List.nil_append] at h1 h2 h3 h4
  unfold afSeq
  rw [show (fun j => s.chsr.getLsbD j) = (fun j => decide (j < l.length)) from funext h4, range_filter _ _ h2]
  apply List.ext_getElem
  · simp
  · intro j hj hj'
    simp only [List.getElem_map, List.getElem_range]
    exact h3 j hj'

theorem af_accepts (l : List Nat) (h : ∀ c ∈ l, c < 12) : ∀ (s : Af), s.count + l.length ≤ 12 → ∃ s', afInits l s = some s' := by
  induction l with
  | nil => intro s _; exact ⟨s, rfl⟩
  | cons c l ih =>
    intro s hs
    simp only [List.length_cons] at hs
    simp only [afInits, afInit]
    rw [if_pos ⟨h c List.mem_cons_self, by omega⟩, Option.bind_some]
    exact ih (fun c hc => h c (List.mem_cons_of_mem _ hc)) _ (by dsimp only; omega)

/-- **C88, atmel_afec**: the AFE clock is in its range exactly if the clock of the block is 20 MHz or more (as a 32-bit number of Hz) -/
theorem af_clock (f : Nat) (hf : f < 2 ^ 31) : AfClockOk f ↔ 20000000 ≤ f := by
  unfold AfClockOk afPrescal
  omega

/-! ### avr -/

/-- **C88, avr**: the channel of the object is selected exactly if its code is one of the first 8 or one of 40 to 47: the channels 8 to 15 of the 2560 (codes 32 to 39), most of
the differential ones and the references select another channel -/
theorem avr_mux_partial (ch : Nat) (hc : ch ≤ 61) (s : BitVec 8 × BitVec 8) (h0 : s.1.getLsbD 4 = false) :
    avrSel (avrMux ch s) = ch ↔ ch < 8 ∨ (40 ≤ ch ∧ ch ≤ 47) := by
  have e : ∀ ch : Fin 64, ∀ m : BitVec 8, m.getLsbD 4 = false → (get 5 0 (orIn 4 0 (BitVec.ofNat 8 ch.val) (clear 4 0 m))).toNat = ch.val % 16 := by decide +kernel
  have e2 : ∀ ch : Fin 64, ∀ b : BitVec 8, ((b &&& ~~~ 8#8) ||| (8#8 &&& BitVec.ofNat 8 ch.val)).getLsbD 3 = decide (8 ≤ ch.val % 16) := by decide +kernel
  unfold avrSel avrMux
  dsimp only
  rw [e ⟨ch, by omega⟩ s.1 h0, e2 ⟨ch, by omega⟩ s.2]
  by_cases c : 8 ≤ ch % 16
  · simp only [c, decide_true, Bool.toNat_true]; omega
  · simp only [c, decide_false, Bool.toNat_false]; omega

/-- a case: the channel 8 of the 2560 (32) gives the channel 0 -/
example : avrSel (avrMux 32 (0, 0)) = 0 := by decide

/-! ### tinyavr -/

/-- **C88, tinyavr**: the ADC clock never exceeds the one asked by more than the clock over the factor; it does not exceed it at all unless the quotient is exactly a power of two with a remainder -/
theorem tiny_clock (clk f d : Nat) (hf : 0 < f) (hmax : clk / f ≤ 256) (h : tinyDiv clk f = some d) :
    (clk ≤ f * d ↔ ¬ (clk / f = d ∧ 0 < clk % f)) ∧ clk < f * (d + 1) ∧ f * d < 2 * (clk + f) := by
  have e := Nat.div_add_mod clk f
  have em := Nat.mod_lt clk hf
  have fm : ∀ a b : Nat, a ≤ b → f * a ≤ f * b := fun a b h => Nat.mul_le_mul_left f h
  have hd : clk / f ≤ d ∧ d < 2 * (clk / f) := by
    unfold tinyDiv at h
    dsimp only at h
    repeat' split at h
    all_goals first | (cases h; done) | (simp only [Option.some.injEq] at h; omega)
  generalize hq : clk / f = q at *
  have h1 := fm q d hd.1
  have h2 := fm (d + 1) (2 * q) (by omega)
  rw [Nat.mul_add, Nat.mul_one] at h2
  rw [Nat.mul_add, Nat.mul_one]
  rw [show f * (2 * q) = 2 * (f * q) by ac_rfl] at h2
  refine ⟨⟨fun hle hc => ?_, fun hc => ?_⟩, by omega, by omega⟩
  · rw [hc.1] at e; omega
  · by_cases hqd : q = d
    · subst hqd
      have : clk % f = 0 := by
        rcases Nat.eq_zero_or_pos (clk % f) with h | h
        · exact h
        · exact absurd ⟨rfl, h⟩ hc
      omega
    · have h3 := fm (q + 1) d (by omega)
      rw [Nat.mul_add, Nat.mul_one] at h3
      omega

/-- **C88, tinyavr, refuted**: at 3.333 MHz (20 MHz / 6, the reset value), 1.2 MHz are asked and 1.667 MHz are given, above the maximum of the converter; and a clock more than 256 times too
fast is accepted -/
theorem tiny_fast : tinyDiv 3333333 1200000 = some 2 ∧ 1500000 * 2 < 3333333 ∧ tinyDiv 20000000 50000 = some 256 ∧ 50000 * 256 < 20000000 := by decide

/-! ### renesas_ra4, nxp_sar -/

/-- **C88, renesas_ra4**: the channel is added to the scan, the others do not change (there is no channel 15) -/
theorem ra_scan (ch : Nat) (hc : ch ≠ 15) (s s' : BitVec 16 × BitVec 16) (h : raInit ch s = some s') (c : Nat) (h32 : c < 32) : raScan s' c = (raScan s c || decide (c = ch)) := by
  unfold raInit at h
  by_cases h28 : ch < 28
  · rw [if_pos h28] at h
    simp only [Option.some.injEq] at h
    subst h
    unfold raScan
    by_cases c1 : ch ≤ 14
    · rw [if_pos c1]
      by_cases c2 : c < 16
      · simp only [if_pos c2]
        rw [BitVec.getLsbD_or, show (1 <<< ch : BitVec 16) = 1#16 <<< ch from rfl, one_shift_bit 16 _ _ (by omega)]
      · simp only [if_neg c2]
        simp [show c ≠ ch by omega]
    · rw [if_neg c1]
      by_cases c2 : c < 16
      · simp only [if_pos c2]
        simp [show c ≠ ch by omega]
      · simp only [if_neg c2]
        rw [BitVec.getLsbD_or, show (1 <<< (ch % 16) : BitVec 16) = 1#16 <<< (ch % 16) from rfl, one_shift_bit 16 _ _ (by omega)]
        congr 1
        rw [Bool.eq_iff_iff]
        simp only [decide_eq_true_eq]
        omega
  · rw [if_neg h28] at h; cases h

/-- **C88, nxp_sar** -/
theorem sar_scan (ch : Nat) (s s' : Nat → BitVec 32) (h : sarInit ch s = some s') (c : Nat) : sarScan s' c = (sarScan s c || decide (c = ch)) := by
  unfold sarInit at h
  by_cases h96 : ch < 96
  · rw [if_pos h96] at h
    simp only [Option.some.injEq] at h
    subst h
    unfold sarScan
    by_cases e : c / 32 = ch / 32
    · rw [e, upd_same, BitVec.getLsbD_or, show (1 <<< (ch % 32) : BitVec 32) = 1#32 <<< (ch % 32) from rfl, one_shift_bit 32 _ _ (by omega)]
      congr 1
      rw [Bool.eq_iff_iff]
      simp only [decide_eq_true_eq]
      omega
    · rw [upd_other _ _ _ _ e]
      simp [show c ≠ ch by rintro rfl; exact e rfl]
  · rw [if_neg h96] at h; cases h

/-! ### pic32mx -/

/-- **C88, pic32mx, refuted**: from reset, no channel can be made both signed and differential: the numbers of the bits are used as masks -/
theorem pic_mode_wrong (ch : Nat) : ¬ (picSigned (picMode ch true true (fun _ => 0)) ch = true ∧ picDiff (picMode ch true true (fun _ => 0)) ch = true) := by
  have e : ∀ k : Fin 16, ¬ (((0#32 ||| BitVec.ofNat 32 (k.val * 2)) ||| BitVec.ofNat 32 (k.val * 2 + 1)).getLsbD (k.val * 2) = true ∧
      ((0#32 ||| BitVec.ofNat 32 (k.val * 2)) ||| BitVec.ofNat 32 (k.val * 2 + 1)).getLsbD (k.val * 2 + 1) = true) := by decide
  unfold picSigned picDiff picMode
  dsimp only
  rw [upd_same]
  simp only [if_true]
  exact e ⟨ch % 16, Nat.mod_lt _ (by decide)⟩

/-- what happens instead: the set-up of the channel 1 makes the channel 0 signed and differential, and the channel 3 makes it so for 0 and 1 -/
theorem pic_mode_other : picSigned (picMode 1 true true (fun _ => 0)) 0 = true ∧ picDiff (picMode 1 true true (fun _ => 0)) 0 = true ∧
    picSigned (picMode 1 true true (fun _ => 0)) 1 = false ∧ picDiff (picMode 1 true true (fun _ => 0)) 1 = false ∧
    picSigned (picMode 3 true true (fun _ => 0)) 1 = true := by decide

/-- **C88, pic32mx**: the trigger source of the channel is the one asked -/
theorem pic_trig (ch src : Nat) (hs : src < 32) (s : Nat → BitVec 32) : picSrc (picTrig ch src s) ch = src := by
  have e : ∀ k : Fin 4, ∀ v : Fin 32, (Field.get 5 (k.val * 8) ((BitVec.ofNat 32 v.val &&& mask 32 5) <<< (k.val * 8))).toNat = v.val := by decide +kernel
  unfold picSrc picTrig
  rw [upd_same]
  exact e ⟨ch % 4, Nat.mod_lt _ (by decide)⟩ ⟨src, hs⟩

/-- **C88, pic32mx, refuted**: the other channels of the same register lose theirs, whatever it was -/
theorem pic_trig_wrong (ch src c : Nat) (hs : src < 32) (s : Nat → BitVec 32) (hr : c / 4 = ch / 4) (hc : c ≠ ch) : picSrc (picTrig ch src s) c = 0 := by
  have e : ∀ k j : Fin 4, ∀ v : Fin 32, k ≠ j → (Field.get 5 (j.val * 8) ((BitVec.ofNat 32 v.val &&& mask 32 5) <<< (k.val * 8))).toNat = 0 := by decide +kernel
  unfold picSrc picTrig
  rw [hr, upd_same]
  refine e ⟨ch % 4, Nat.mod_lt _ (by decide)⟩ ⟨c % 4, Nat.mod_lt _ (by decide)⟩ ⟨src, hs⟩ ?_
  intro h
  have : ch % 4 = c % 4 := congrArg Fin.val h
  omega

/-- a case: the channel 1, with the trigger 3, loses it when the channel 2 gets the trigger 5 -/
example : picSrc (picTrig 1 3 (fun _ => 0)) 1 = 3 ∧ picSrc (picTrig 2 5 (picTrig 1 3 (fun _ => 0))) 1 = 0 := by decide

end Pico.AdcSetup
