/-
The ADC drivers (C86): theorems.
-/
import Verif.Drivers.Adc
namespace Pico.Adc

theorem good_nil : Good [] := by
  intro a d b h
  simp at h

theorem good_snoc (out : List Del) (i t : Nat) (x : Sample) (h : Good out) (hx : Since out i x) : Good (out ++ [⟨i, t, x⟩]) := by
  intro a d b hab
  rcases List.eq_nil_or_concat b with rfl | ⟨b', y, rfl⟩
  · have := List.append_inj' hab rfl
    simp only [List.cons.injEq, and_true] at this
    obtain ⟨rfl, rfl⟩ := this
    exact hx
  · rw [List.concat_eq_append, ← List.cons_append, ← List.append_assoc] at hab
    have := List.append_inj' hab rfl
    exact h a d b' this.1

theorem since_now (out : List Del) (now i : Nat) (h0 : 0 < now) (h : ∀ d ∈ out, d.t < now) : Since out i ⟨i, now⟩ := ⟨rfl, h0, fun d hd _ => h d hd⟩

/-- everything before now, and good -/
def Ok {S : Type} (w : W S) : Prop := 0 < w.now ∧ (∀ d ∈ w.out, d.t < w.now) ∧ Good w.out

theorem ok_start {S : Type} (s : S) : Ok (start s) := ⟨Nat.one_pos, by simp [start], good_nil⟩

theorem ev_hw {S : Type} (step : Step S) (w : W S) (c : Nat) : ev step w (.hw c) = ⟨w.now + 1, (step w.now (.hw c) w.s).1, w.out⟩ := rfl

theorem ev_none {S : Type} (step : Step S) (w : W S) (i : Nat) (s' : S) (h : step w.now (.read i) w.s = (s', none)) : ev step w (.read i) = ⟨w.now + 1, s', w.out⟩ := by
  simp [ev, h]

theorem ev_some {S : Type} (step : Step S) (w : W S) (i : Nat) (s' : S) (x : Sample) (h : step w.now (.read i) w.s = (s', some x)) :
    ev step w (.read i) = ⟨w.now + 1, s', w.out ++ [⟨i, w.now, x⟩]⟩ := by
  simp [ev, h]

theorem ok_same {S : Type} (w : W S) (s' : S) (h : Ok w) : Ok (⟨w.now + 1, s', w.out⟩ : W S) :=
  ⟨Nat.succ_pos _, fun d hd => Nat.lt_succ_of_lt (h.2.1 d hd), h.2.2⟩

theorem ok_more {S : Type} (w : W S) (s' : S) (i : Nat) (x : Sample) (h : Ok w) (hx : Since w.out i x) : Ok (⟨w.now + 1, s', w.out ++ [⟨i, w.now, x⟩]⟩ : W S) := by
  refine ⟨Nat.succ_pos _, ?_, good_snoc _ _ _ _ h.2.2 hx⟩
  intro d hd
  rcases List.mem_append.1 hd with hd | hd
  · exact Nat.lt_succ_of_lt (h.2.1 d hd)
  · simp only [List.mem_singleton] at hd
    subst hd
    exact Nat.lt_succ_self _

/-- a step of a driver that keeps the invariant `J` (of the values delivered, and the state): the hardware; a call that waits; a call that delivers -/
structure Keeps {S : Type} (step : Step S) (A : Nat → Prop) (J : List Del → S → Prop) : Prop where
  hw : ∀ w c, Ok w → J w.out w.s → J w.out (step w.now (.hw c) w.s).1
  wait : ∀ w i s', A i → Ok w → J w.out w.s → step w.now (.read i) w.s = (s', none) → J w.out s'
  del : ∀ w i s' x, A i → Ok w → J w.out w.s → step w.now (.read i) w.s = (s', some x) → Since w.out i x ∧ J (w.out ++ [⟨i, w.now, x⟩]) s'

theorem keeps_run {S : Type} (step : Step S) (A : Nat → Prop) (J : List Del → S → Prop) (hk : Keeps step A J) (l : List Ev) (hA : ∀ i, .read i ∈ l → A i) :
    ∀ w, Ok w → J w.out w.s → Ok (run step w l) ∧ J (run step w l).out (run step w l).s := by
  induction l with
  | nil => intro w h1 h2; exact ⟨h1, h2⟩
  | cons e l ih =>
    intro w h1 h2
    have ih := ih (fun i hi => hA i (List.mem_cons_of_mem _ hi))
    show Ok (run step (ev step w e) l) ∧ _
    cases e with
    | hw c => exact ih _ (by rw [ev_hw]; exact ok_same w _ h1) (by rw [ev_hw]; exact hk.hw w c h1 h2)
    | read i =>
      have hi := hA i List.mem_cons_self
      cases hr : step w.now (.read i) w.s with
      | mk s' r =>
        cases r with
        | none => exact ih _ (by rw [ev_none _ _ _ _ hr]; exact ok_same w _ h1) (by rw [ev_none _ _ _ _ hr]; exact hk.wait w i s' hi h1 h2 hr)
        | some x =>
          obtain ⟨h3, h4⟩ := hk.del w i s' x hi h1 h2 hr
          exact ih _ (by rw [ev_some _ _ _ _ _ hr]; exact ok_more w _ i x h1 h3) (by rw [ev_some _ _ _ _ _ hr]; exact h4)

/-- the same, while the objects take turns: `J` knows who waits -/
structure KeepsT {S : Type} (step : Step S) (J : Option Nat → List Del → S → Prop) : Prop where
  hw : ∀ q w c, Ok w → J q w.out w.s → J q w.out (step w.now (.hw c) w.s).1
  wait : ∀ q w i s', Ok w → J q w.out w.s → (q = none ∨ q = some i) → step w.now (.read i) w.s = (s', none) → J (some i) w.out s'
  del : ∀ q w i s' x, Ok w → J q w.out w.s → (q = none ∨ q = some i) → step w.now (.read i) w.s = (s', some x) → Since w.out i x ∧ J none (w.out ++ [⟨i, w.now, x⟩]) s'

theorem run_append {S : Type} (step : Step S) (w : W S) (l m : List Ev) : run step w (l ++ m) = run step (run step w l) m := by simp [run, List.foldl_append]

theorem keepsT_app {S : Type} (step : Step S) (J : Option Nat → List Del → S → Prop) (hk : KeepsT step J) (m l : List Ev) :
    ∀ q w, Turns step q w (l ++ m) → Ok w → J q w.out w.s → Ok (run step w l) ∧ ∃ q', Turns step q' (run step w l) m ∧ J q' (run step w l).out (run step w l).s := by
  induction l with
  | nil => intro q w ht h1 h2; exact ⟨h1, q, ht, h2⟩
  | cons e l ih =>
    intro q w ht h1 h2
    show Ok (run step (ev step w e) l) ∧ _
    cases e with
    | hw c => exact ih q _ ht (by rw [ev_hw]; exact ok_same w _ h1) (by rw [ev_hw]; exact hk.hw q w c h1 h2)
    | read i =>
      obtain ⟨hq, ht⟩ := ht
      cases hr : step w.now (.read i) w.s with
      | mk s' r =>
        cases r with
        | none =>
          rw [hr] at ht
          exact ih _ _ ht (by rw [ev_none _ _ _ _ hr]; exact ok_same w _ h1) (by rw [ev_none _ _ _ _ hr]; exact hk.wait q w i s' h1 h2 hq hr)
        | some x =>
          rw [hr] at ht
          obtain ⟨h3, h4⟩ := hk.del q w i s' x h1 h2 hq hr
          exact ih _ _ ht (by rw [ev_some _ _ _ _ _ hr]; exact ok_more w _ i x h1 h3) (by rw [ev_some _ _ _ _ _ hr]; exact h4)

theorem keepsT_good {S : Type} (step : Step S) (J : Option Nat → List Del → S → Prop) (hk : KeepsT step J) (s : S) (h0 : J none [] s) (l : List Ev)
    (ht : Turns step none (start s) l) : Good (run step (start s) l).out :=
  (keepsT_app step J hk [] l none (start s) (by rw [List.append_nil]; exact ht) (ok_start s) h0).1.2.2

/-- a call, a step of the hardware and a call by the same object: a value is delivered -/
theorem keepsT_prog {S : Type} (step : Step S) (J : Option Nat → List Del → S → Prop) (hk : KeepsT step J)
    (hp : ∀ q w i c, J q w.out w.s → (q = none ∨ q = some i) → w.out.length < (run step w [.read i, .hw c, .read i]).out.length)
    (s : S) (h0 : J none [] s) (l : List Ev) (i c : Nat) (ht : Turns step none (start s) (l ++ [.read i, .hw c, .read i])) :
    (run step (start s) l).out.length < (run step (start s) (l ++ [.read i, .hw c, .read i])).out.length := by
  obtain ⟨_, q, h1, h2⟩ := keepsT_app step J hk [.read i, .hw c, .read i] l none (start s) ht (ok_start s) h0
  rw [run_append]
  exact hp q _ i c h2 h1.1

/-! ### A flag per channel -/

theorem set_same {α : Type} (f : Nat → α) (i : Nat) (v : α) : set f i v i = v := by simp [set]
theorem set_other {α : Type} (f : Nat → α) (i j : Nat) (v : α) (h : j ≠ i) : set f i v j = f j := by simp [set, h]

/-- the history grows: a sample made since the last delivery to `j` is still so after a delivery to another -/
theorem since_more (out : List Del) (i j t : Nat) (x y : Sample) (h : j ≠ i) (hs : Since out j y) : Since (out ++ [⟨i, t, x⟩]) j y := by
  refine ⟨hs.1, hs.2.1, fun d hd hj => ?_⟩
  rcases List.mem_append.1 hd with hd | hd
  · exact hs.2.2 d hd hj
  · simp only [List.mem_singleton] at hd
    subst hd
    exact absurd hj.symm h

theorem perChan_keeps : Keeps perChan (fun _ => True) (fun out s => ∀ i, s.flag i = true → Since out i (s.data i)) := by
  constructor
  · intro w c hok h i hi
    simp only [perChan] at hi ⊢
    by_cases e : i = c
    · subst e; rw [set_same]; exact since_now _ _ _ hok.1 hok.2.1
    · rw [set_other _ _ _ _ e] at hi ⊢; exact h i hi
  · intro w i s' _ hok h hr
    simp only [perChan] at hr
    by_cases c : w.s.flag i = true
    · rw [if_pos c] at hr; cases hr
    · rw [if_neg c] at hr; cases hr; exact h
  · intro w i s' x _ hok h hr
    simp only [perChan] at hr
    by_cases c : w.s.flag i = true
    · rw [if_pos c] at hr
      simp only [Prod.mk.injEq, Option.some.injEq] at hr
      obtain ⟨rfl, rfl⟩ := hr
      refine ⟨h i c, fun j hj => ?_⟩
      by_cases e : j = i
      · subst e
        have hj : set w.s.flag j false j = true := hj
        rw [set_same] at hj; cases hj
      · have hj : set w.s.flag i false j = true := hj
        rw [set_other _ _ _ _ e] at hj
        exact since_more _ _ _ _ _ _ e (h j hj)
    · rw [if_neg c] at hr; cases hr

/-- **C86, nxp_sar, atmel_afec, pic32mx, ti_type4**: whatever the history of conversions and calls, every value delivered is a conversion of the channel of the object,
made since the last value delivered to it -/
theorem perChan_good (l : List Ev) : Good (run perChan (start flags0) l).out :=
  (keeps_run perChan _ _ perChan_keeps l (fun _ _ => trivial) (start flags0) (ok_start _) (by intro i h; cases h)).1.2.2

/-- and a conversion that ended is delivered at the next call -/
theorem perChan_progress (w : W Flags) (i : Nat) : (ev perChan (ev perChan w (.hw i)) (.read i)).out = w.out ++ [⟨i, w.now + 1, ⟨i, w.now⟩⟩] := by
  simp [ev, perChan, set_same]

/-! ### sam3x -/

/-- **C86, sam3x, gd32vf103 in scan mode, refuted**: a value is delivered before any conversion, and the same one again and again -/
theorem sam3x_stale : ¬ Good (run sam3x (start flags0) [.read 0]).out ∧ ¬ Good (run sam3x (start flags0) [.hw 0, .read 0, .read 0]).out := by
  constructor
  · intro h
    have := h [] ⟨0, 1, ⟨0, 0⟩⟩ [] (by decide)
    exact absurd this.2.1 (by decide)
  · intro h
    have := h [⟨0, 2, ⟨0, 1⟩⟩] ⟨0, 3, ⟨0, 1⟩⟩ [] (by decide)
    exact absurd (this.2.2 _ (List.mem_singleton.2 rfl) rfl) (by decide)

/-- what is left: once each of its channels was converted, a value is a conversion of the right channel -/
theorem sam3x_own (s : Flags) (hs : ∀ i, (s.data i).ch = i) (l : List Ev) : Own (run sam3x (start s) l).out := by
  have key : ∀ l w, Own w.out → (∀ i, (w.s.data i).ch = i) → Own (run sam3x w l).out := by
    intro l
    induction l with
    | nil => intro w h _; exact h
    | cons e l ih =>
      intro w h1 h2
      show Own (run sam3x (ev sam3x w e) l).out
      cases e with
      | hw c =>
        refine ih _ h1 (fun i => ?_)
        show (set w.s.data c ⟨c, w.now⟩ i).ch = i
        by_cases e : i = c
        · subst e; rw [set_same]
        · rw [set_other _ _ _ _ e]; exact h2 i
      | read i =>
        refine ih _ ?_ h2
        intro d hd
        rcases List.mem_append.1 (show d ∈ w.out ++ [⟨i, w.now, w.s.data i⟩] from hd) with hd | hd
        · exact h1 d hd
        · simp only [List.mem_singleton] at hd
          subst hd
          exact h2 i
  exact key l _ (by intro d hd; cases hd) hs

/-! ### Sequences -/

/-- an object that waits, and whose channel is not to be converted any more in the scan, has its value -/
theorem renesas_keeps (seq : List Nat) : Keeps (renesas seq) (· ∈ seq) (fun out s => ∀ i, s.mark i = true → i ∈ s.rem ∨ Since out i (s.data i)) := by
  constructor
  · intro w c hok h i hi
    simp only [renesas, hwSq] at hi ⊢
    cases hr : w.s.rem with
    | nil => rw [hr] at hi; simp only at hi ⊢; rcases h i hi with h | h
             · rw [hr] at h; cases h
             · exact .inr h
    | cons a r =>
      rw [hr] at hi
      simp only at hi ⊢
      by_cases e : i = a
      · subst e; rw [set_same]; exact .inr (since_now _ _ _ hok.1 hok.2.1)
      · rw [set_other _ _ _ _ e]
        rcases h i hi with h | h
        · rw [hr] at h; rcases List.mem_cons.1 h with h | h
          · exact absurd h e
          · exact .inl h
        · exact .inr h
  · intro w i s' hi hok h hr
    simp only [renesas] at hr
    by_cases c1 : (!w.s.rem.isEmpty) = true
    · rw [if_pos c1] at hr; cases hr; exact h
    · rw [if_neg c1] at hr
      by_cases c2 : (!w.s.mark i) = true
      · rw [if_pos c2] at hr
        simp only [Prod.mk.injEq, and_true] at hr
        subst hr
        intro j hj
        have hj : set w.s.mark i true j = true := hj
        show j ∈ seq ∨ Since w.out j (w.s.data j)
        by_cases e : j = i
        · subst e; exact .inl hi
        · rw [set_other _ _ _ _ e] at hj
          rcases h j hj with h | h
          · simp only [Bool.not_eq_true', Bool.not_eq_false] at c1
            rw [List.isEmpty_iff.1 c1] at h; cases h
          · exact .inr h
      · rw [if_neg c2] at hr; cases hr
  · intro w i s' x hi hok h hr
    simp only [renesas] at hr
    by_cases c1 : (!w.s.rem.isEmpty) = true
    · rw [if_pos c1] at hr; cases hr
    · rw [if_neg c1] at hr
      by_cases c2 : (!w.s.mark i) = true
      · rw [if_pos c2] at hr; cases hr
      · rw [if_neg c2] at hr
        simp only [Prod.mk.injEq, Option.some.injEq] at hr
        obtain ⟨rfl, rfl⟩ := hr
        simp only [Bool.not_eq_true', Bool.not_eq_false] at c1 c2
        have all : ∀ j, w.s.mark j = true → Since w.out j (w.s.data j) := by
          intro j hj
          rcases h j hj with h | h
          · rw [List.isEmpty_iff.1 c1] at h; cases h
          · exact h
        refine ⟨all i c2, fun j hj => ?_⟩
        have hj : set w.s.mark i false j = true := hj
        by_cases e : j = i
        · subst e; rw [set_same] at hj; cases hj
        · rw [set_other _ _ _ _ e] at hj; exact .inr (since_more _ _ _ _ _ _ e (all j hj))

/-- **C86, renesas_ra4**: whatever the order in which the objects are read -/
theorem renesas_good (seq : List Nat) (l : List Ev) (hl : ∀ i, .read i ∈ l → i ∈ seq) : Good (run (renesas seq) (start sq0) l).out :=
  (keeps_run (renesas seq) _ _ (renesas_keeps seq) l hl (start sq0) (ok_start _) (by intro i h; cases h)).1.2.2

theorem renesas_drain (seq : List Nat) (i : Nat) : ∀ (r : List Nat) (w : W Sq), w.s.rem = r → w.s.mark i = true →
    (run (renesas seq) w (List.replicate r.length (.hw 0) ++ [.read i])).out.length = w.out.length + 1 := by
  intro r
  induction r with
  | nil => intro w h1 h2; simp [run, ev, renesas, h1, h2]
  | cons a r ih =>
    intro w h1 h2
    show (run (renesas seq) (ev (renesas seq) w (.hw 0)) (List.replicate r.length (.hw 0) ++ [.read i])).out.length = _
    rw [ih _ (by simp [ev, renesas, hwSq, h1]) (by simp [ev, renesas, hwSq, h1, h2])]
    rfl

/-- an object that is read when no scan runs and has no value gets one at the end of the scan -/
theorem renesas_progress (seq : List Nat) (w : W Sq) (i : Nat) (h1 : w.s.rem = []) (h2 : w.s.mark i = false) :
    (run (renesas seq) w (.read i :: (List.replicate seq.length (.hw 0) ++ [.read i]))).out.length = w.out.length + 1 := by
  show (run (renesas seq) (ev (renesas seq) w (.read i)) _).out.length = _
  rw [renesas_drain seq i seq _ (by simp [ev, renesas, h1, h2]) (by simp [ev, renesas, h1, h2, set_same])]
  simp [ev, renesas, h1, h2]

/-! ### stm32h7xx -/

def stmHas (s : Sq) (i : Nat) : Prop := (s.data i).ch = i

def stmJ (seq : List Nat) (s : Sq) : Prop :=
  (∀ i ∈ seq, stmHas s i) ∨ ((∀ i, s.mark i = false) ∧ s.eos = false ∧ (s.rem = [] ∨ ∀ i ∈ seq, i ∈ s.rem ∨ stmHas s i))

theorem stm_hw (seq : List Nat) (now : Nat) (s : Sq) (h : stmJ seq s) : stmJ seq (hwSq now s) := by
  unfold hwSq
  cases hr : s.rem with
  | nil => exact h
  | cons a r =>
    have step : ∀ i, stmHas s i ∨ i = a → stmHas { s with rem := r, data := set s.data a ⟨a, now⟩, eos := s.eos || r.isEmpty } i := by
      intro i hi
      show (set s.data a ⟨a, now⟩ i).ch = i
      by_cases e : i = a
      · subst e; rw [set_same]
      · rw [set_other _ _ _ _ e]; exact hi.resolve_right e
    rcases h with h | ⟨h1, h2, h3⟩
    · exact .inl fun i hi => step i (.inl (h i hi))
    · rw [hr] at h3
      have h3 := h3.resolve_left (by simp)
      cases r with
      | nil =>
        left
        intro i hi
        rcases h3 i hi with h | h
        · exact step i (.inr (by simpa using h))
        · exact step i (.inl h)
      | cons b r =>
        right
        refine ⟨h1, by simp [h2], .inr fun i hi => ?_⟩
        rcases h3 i hi with h | h
        · rcases List.mem_cons.1 h with h | h
          · exact .inr (step i (.inr h))
          · exact .inl h
        · exact .inr (step i (.inl h))

/-- **C86, stm32h7xx**: every value is a conversion of the channel of the object -/
theorem stm32_own_partial (seq : List Nat) (l : List Ev) (hl : ∀ i, .read i ∈ l → i ∈ seq) : Own (run (stm32 seq) (start sq0) l).out := by
  have key : ∀ l, (∀ i, .read i ∈ l → i ∈ seq) → ∀ w, Own w.out → stmJ seq w.s → Own (run (stm32 seq) w l).out := by
    intro l
    induction l with
    | nil => intro _ w h _; exact h
    | cons e l ih =>
      intro hl w h1 h2
      have ih := ih (fun i hi => hl i (List.mem_cons_of_mem _ hi))
      show Own (run (stm32 seq) (ev (stm32 seq) w e) l).out
      cases e with
      | hw c => exact ih _ h1 (stm_hw seq _ _ h2)
      | read i =>
        have hi := hl i List.mem_cons_self
        have deliver : ∀ s', (∀ i, s'.data i = w.s.data i) → stm32 seq w.now (.read i) w.s = (s', some (w.s.data i)) → (∀ i ∈ seq, stmHas w.s i) →
            Own (run (stm32 seq) (ev (stm32 seq) w (.read i)) l).out := by
          intro s' hd hs hall
          rw [ev_some _ _ _ _ _ hs]
          refine ih _ ?_ (.inl fun j hj => (by show (s'.data j).ch = j; rw [hd]; exact hall j hj))
          intro d hdm
          rcases List.mem_append.1 hdm with hdm | hdm
          · exact h1 d hdm
          · simp only [List.mem_singleton] at hdm
            subst hdm
            exact hall i hi
        by_cases c1 : w.s.mark i = true
        · refine deliver { w.s with mark := set w.s.mark i false } (fun _ => rfl) (by simp only [stm32, if_pos c1]) ?_
          rcases h2 with h | h
          · exact h
          · rw [h.1 i] at c1; cases c1
        · by_cases c2 : (!w.s.rem.isEmpty) = true
          · rw [ev_none (stm32 seq) w i w.s (by simp only [stm32, if_neg c1, if_pos c2])]
            exact ih _ h1 h2
          · by_cases c3 : (!w.s.eos) = true
            · rw [ev_none (stm32 seq) w i { w.s with rem := seq } (by simp only [stm32, if_neg c1, if_neg c2, if_pos c3])]
              refine ih _ h1 ?_
              rcases h2 with h | ⟨h3, h4, _⟩
              · exact .inl h
              · exact .inr ⟨h3, h4, .inr fun j hj => .inl hj⟩
            · refine deliver { w.s with eos := false, mark := set (fun _ => true) i false } (fun _ => rfl) (by simp only [stm32, if_neg c1, if_neg c2, if_neg c3]) ?_
              rcases h2 with h | h
              · exact h
              · rw [h.2.1] at c3; exact absurd rfl c3
  exact key l hl _ (by intro d hd; cases hd) (.inr ⟨fun _ => rfl, rfl, .inl rfl⟩)

/-- **C86, stm32h7xx, refuted**: with two channels, the same conversion is delivered twice to the same object -/
theorem stm32_twice : ¬ Good (run (stm32 [0, 1]) (start sq0) [.read 0, .hw 0, .hw 0, .read 0, .read 0, .hw 0, .hw 0, .read 1, .read 0, .read 1]).out := by
  intro h
  have := h [⟨0, 4, ⟨0, 2⟩⟩, ⟨1, 8, ⟨1, 7⟩⟩, ⟨0, 9, ⟨0, 6⟩⟩] ⟨1, 10, ⟨1, 7⟩⟩ [] (by decide)
  exact absurd (this.2.2 ⟨1, 8, ⟨1, 7⟩⟩ (by decide) rfl) (by decide)

theorem stm32_keeps1 (c : Nat) : Keeps (stm32 [c]) (· = c) (fun out s => s.mark c = false ∧ ((s.rem = [c] ∧ s.eos = false) ∨ (s.rem = [] ∧ (s.eos = true → Since out c (s.data c))))) := by
  constructor
  · intro w a hok ⟨h1, h2⟩
    show (hwSq w.now w.s).mark c = false ∧ _
    unfold stm32 hwSq
    rcases h2 with h2 | h2
    · simp only [h2.1, set_same]
      exact ⟨h1, .inr ⟨trivial, fun _ => since_now _ _ _ hok.1 hok.2.1⟩⟩
    · simp only [h2.1]
      exact ⟨h1, .inr ⟨trivial, h2.2⟩⟩
  · intro w i s' hi hok ⟨h1, h2⟩ hr
    subst hi
    rcases h2 with h2 | h2
    · simp [stm32, h1, h2.1] at hr
      subst hr
      exact ⟨h1, .inl h2⟩
    · by_cases c3 : w.s.eos = true
      · simp [stm32, h1, h2.1, c3] at hr
      · simp only [Bool.not_eq_true] at c3
        simp [stm32, h1, h2.1, c3] at hr
        subst hr
        exact ⟨h1, .inl ⟨rfl, rfl⟩⟩
  · intro w i s' x hi hok ⟨h1, h2⟩ hr
    subst hi
    rcases h2 with h2 | h2
    · simp [stm32, h1, h2.1] at hr
    · by_cases c3 : w.s.eos = true
      · simp [stm32, h1, h2.1, c3] at hr
        obtain ⟨rfl, rfl⟩ := hr
        exact ⟨h2.2 c3, (show set (fun _ => true) i false i = false from set_same _ _ _), .inr ⟨rfl, nofun⟩⟩
      · simp [stm32, h1, h2.1, c3] at hr

/-- **C86, stm32h7xx** with a single channel: every value is a new conversion -/
theorem stm32_single_partial (c : Nat) (l : List Ev) (hl : ∀ i, .read i ∈ l → i = c) : Good (run (stm32 [c]) (start sq0) l).out :=
  (keeps_run (stm32 [c]) _ _ (stm32_keeps1 c) l hl (start sq0) (ok_start _) ⟨rfl, .inr ⟨rfl, nofun⟩⟩).1.2.2

/-! ### One result register, objects that take turns -/

/-- who waits; the bits of the driver agree (`A`); the conversion that runs is the one of the object that waits, or its result is there -/
def oneJ (A : Option Nat → One → Prop) (q : Option Nat) (out : List Del) (s : One) : Prop :=
  A q s ∧ match q with
    | none => s.conv = none ∧ s.flag = false
    | some i => (s.conv = some i ∧ s.flag = false) ∨ (s.conv = none ∧ s.flag = true ∧ Since out i s.res)

theorem one_hw (A : Option Nat → One → Prop) (hA : ∀ q s c t, A q s → A q { s with conv := none, flag := true, res := ⟨c, t⟩ }) (q : Option Nat) (w : W One) (hok : Ok w)
    (h : oneJ A q w.out w.s) : oneJ A q w.out (hw1 w.now w.s) := by
  unfold hw1
  obtain ⟨h1, h2⟩ := h
  cases q with
  | none =>
    simp only at h2
    rw [h2.1]
    exact ⟨h1, h2⟩
  | some i =>
    simp only at h2
    rcases h2 with h2 | h2
    · rw [h2.1]
      exact ⟨hA _ _ _ _ h1, .inr ⟨rfl, rfl, since_now _ _ _ hok.1 hok.2.1⟩⟩
    · rw [h2.1]
      exact ⟨h1, .inr h2⟩

def aPacq (q : Option Nat) (s : One) : Prop := s.pacq = q.isSome
def aAcq (q : Option Nat) (s : One) : Prop := ∀ j, s.acq j = decide (q = some j)
def aNone (_ : Option Nat) (_ : One) : Prop := True
def aChan (q : Option Nat) (s : One) : Prop := ∀ i, q = some i → s.chan = i

theorem acq_set (f : Nat → Bool) (i : Nat) (h : ∀ j, f j = decide ((none : Option Nat) = some j)) (j : Nat) : set f i true j = decide (some i = some j) := by
  by_cases e : j = i
  · subst e; rw [set_same]; simp
  · rw [set_other _ _ _ _ e, h]; simp [Ne.symm e]

theorem acq_clear (f : Nat → Bool) (i : Nat) (h : ∀ j, f j = decide (some i = some j)) (j : Nat) : set f i false j = decide ((none : Option Nat) = some j) := by
  by_cases e : j = i
  · subst e; rw [set_same]; simp
  · rw [set_other _ _ _ _ e, h]; simp [Ne.symm e]

theorem avr_keeps : KeepsT avr (oneJ aPacq) := by
  constructor
  · intro q w c hok h; exact one_hw aPacq (fun _ _ _ _ h => h) q w hok h
  · intro q w i s' hok h hq hr
    obtain ⟨h1, h2⟩ := h
    have h1 : w.s.pacq = q.isSome := h1
    rcases hq with rfl | rfl
    · simp [avr, h1, begin1, h2.1] at hr
      subst hr
      exact ⟨rfl, .inl ⟨rfl, h2.2⟩⟩
    · rcases h2 with h2 | h2
      · simp [avr, h1, h2.2] at hr
        subst hr
        exact ⟨h1, .inl h2⟩
      · simp [avr, h1, h2.2.1] at hr
  · intro q w i s' x hok h hq hr
    obtain ⟨h1, h2⟩ := h
    have h1 : w.s.pacq = q.isSome := h1
    rcases hq with rfl | rfl
    · simp [avr, h1] at hr
    · rcases h2 with h2 | h2
      · simp [avr, h1, h2.2] at hr
      · simp [avr, h1, h2.2.1] at hr
        obtain ⟨rfl, rfl⟩ := hr
        exact ⟨h2.2.2, rfl, h2.1, rfl⟩

/-- **C86, avr** (manual trigger), while the objects take turns -/
theorem avr_turns_partial (l : List Ev) (h : Turns avr none (start one0) l) : Good (run avr (start one0) l).out :=
  keepsT_good avr _ avr_keeps one0 ⟨rfl, rfl, rfl⟩ l h

theorem avr_progress (l : List Ev) (i c : Nat) (ht : Turns avr none (start one0) (l ++ [.read i, .hw c, .read i])) :
    (run avr (start one0) l).out.length < (run avr (start one0) (l ++ [.read i, .hw c, .read i])).out.length := by
  refine keepsT_prog avr _ avr_keeps ?_ one0 ⟨rfl, rfl, rfl⟩ l i c ht
  intro q w i c h hq
  obtain ⟨h1, h2⟩ := h
  have h1 : w.s.pacq = q.isSome := h1
  rcases hq with rfl | rfl
  · simp [run, ev, avr, h1, begin1, h2.1, hw1]
  · rcases h2 with h2 | h2
    · simp [run, ev, avr, h1, h2, hw1]
    · simp [run, ev, avr, h1, h2, hw1, begin1]

theorem tinyavr_keeps : KeepsT tinyavr (oneJ aPacq) := by
  constructor
  · intro q w c hok h; exact one_hw aPacq (fun _ _ _ _ h => h) q w hok h
  · intro q w i s' hok h hq hr
    obtain ⟨h1, h2⟩ := h
    have h1 : w.s.pacq = q.isSome := h1
    rcases hq with rfl | rfl
    · simp [tinyavr, h1, begin1, h2.1] at hr
      subst hr
      exact ⟨rfl, .inl ⟨rfl, h2.2⟩⟩
    · rcases h2 with h2 | h2
      · simp [tinyavr, h1, h2.2] at hr
        subst hr
        exact ⟨h1, .inl h2⟩
      · simp [tinyavr, h1, h2.2.1] at hr
  · intro q w i s' x hok h hq hr
    obtain ⟨h1, h2⟩ := h
    have h1 : w.s.pacq = q.isSome := h1
    rcases hq with rfl | rfl
    · simp [tinyavr, h1, h2.1] at hr
    · rcases h2 with h2 | h2
      · simp [tinyavr, h1, h2.2] at hr
      · simp [tinyavr, h1, h2.2.1] at hr
        obtain ⟨rfl, rfl⟩ := hr
        exact ⟨h2.2.2, rfl, h2.1, rfl⟩

/-- **C86, tinyavr**, while the objects take turns -/
theorem tinyavr_turns_partial (l : List Ev) (h : Turns tinyavr none (start one0) l) : Good (run tinyavr (start one0) l).out :=
  keepsT_good tinyavr _ tinyavr_keeps one0 ⟨rfl, rfl, rfl⟩ l h

theorem tinyavr_progress (l : List Ev) (i c : Nat) (ht : Turns tinyavr none (start one0) (l ++ [.read i, .hw c, .read i])) :
    (run tinyavr (start one0) l).out.length < (run tinyavr (start one0) (l ++ [.read i, .hw c, .read i])).out.length := by
  refine keepsT_prog tinyavr _ tinyavr_keeps ?_ one0 ⟨rfl, rfl, rfl⟩ l i c ht
  intro q w i c h hq
  obtain ⟨h1, h2⟩ := h
  have h1 : w.s.pacq = q.isSome := h1
  rcases hq with rfl | rfl
  · simp [run, ev, tinyavr, h1, begin1, h2.1, hw1]
  · rcases h2 with h2 | h2
    · simp [run, ev, tinyavr, h1, h2, hw1]
    · simp [run, ev, tinyavr, h1, h2, hw1, begin1]

theorem same5x_keeps : KeepsT same5x (oneJ aAcq) := by
  constructor
  · intro q w c hok h; exact one_hw aAcq (fun _ _ _ _ h => h) q w hok h
  · intro q w i s' hok h hq hr
    obtain ⟨h1, h2⟩ := h
    have h1 : ∀ j, w.s.acq j = decide (q = some j) := h1
    rcases hq with rfl | rfl
    · simp [same5x, h1, begin1, h2.1, set_same] at hr
      subst hr
      exact ⟨acq_set _ i h1, .inl ⟨rfl, h2.2⟩⟩
    · rcases h2 with h2 | h2
      · simp [same5x, h1, h2.1, h2.2] at hr
        subst hr
        exact ⟨h1, .inl h2⟩
      · simp [same5x, h1, h2.1, h2.2.1] at hr
  · intro q w i s' x hok h hq hr
    obtain ⟨h1, h2⟩ := h
    have h1 : ∀ j, w.s.acq j = decide (q = some j) := h1
    rcases hq with rfl | rfl
    · simp [same5x, h1, h2.1] at hr
    · rcases h2 with h2 | h2
      · simp [same5x, h1, h2.1, h2.2] at hr
      · simp [same5x, h1, h2.1, h2.2.1] at hr
        obtain ⟨rfl, rfl⟩ := hr
        exact ⟨h2.2.2, acq_clear _ i h1, rfl, rfl⟩

/-- **C86, same5x**, while the objects take turns -/
theorem same5x_turns_partial (l : List Ev) (h : Turns same5x none (start one0) l) : Good (run same5x (start one0) l).out :=
  keepsT_good same5x _ same5x_keeps one0 ⟨fun _ => rfl, rfl, rfl⟩ l h

theorem same5x_progress (l : List Ev) (i c : Nat) (ht : Turns same5x none (start one0) (l ++ [.read i, .hw c, .read i])) :
    (run same5x (start one0) l).out.length < (run same5x (start one0) (l ++ [.read i, .hw c, .read i])).out.length := by
  refine keepsT_prog same5x _ same5x_keeps ?_ one0 ⟨fun _ => rfl, rfl, rfl⟩ l i c ht
  intro q w i c h hq
  obtain ⟨h1, h2⟩ := h
  have h1 : ∀ j, w.s.acq j = decide (q = some j) := h1
  rcases hq with rfl | rfl
  · simp [run, ev, same5x, h1, begin1, h2.1, set_same, hw1, set_same]
  · rcases h2 with h2 | h2
    · simp [run, ev, same5x, h1, h2, hw1, set_same]
    · simp [run, ev, same5x, h1, h2, hw1, begin1, set_same]

theorem mc9s08_keeps : KeepsT mc9s08 (oneJ aNone) := by
  constructor
  · intro q w c hok h; exact one_hw aNone (fun _ _ _ _ h => h) q w hok h
  · intro q w i s' hok h hq hr
    obtain ⟨h1, h2⟩ := h
    rcases hq with rfl | rfl
    · simp [mc9s08, begin1, h2.1, h2.2] at hr
      subst hr
      exact ⟨trivial, .inl ⟨rfl, rfl⟩⟩
    · rcases h2 with h2 | h2
      · simp [mc9s08, h2.1] at hr
        subst hr
        exact ⟨trivial, .inl h2⟩
      · simp [mc9s08, h2.1, h2.2.1] at hr
  · intro q w i s' x hok h hq hr
    obtain ⟨h1, h2⟩ := h
    rcases hq with rfl | rfl
    · simp [mc9s08, h2.1, h2.2] at hr
    · rcases h2 with h2 | h2
      · simp [mc9s08, h2.1] at hr
      · simp [mc9s08, h2.1, h2.2.1] at hr
        obtain ⟨rfl, rfl⟩ := hr
        exact ⟨h2.2.2, trivial, rfl, rfl⟩

/-- **C86, mc9s08ptxx**, while the objects take turns -/
theorem mc9s08_turns_partial (l : List Ev) (h : Turns mc9s08 none (start one0) l) : Good (run mc9s08 (start one0) l).out :=
  keepsT_good mc9s08 _ mc9s08_keeps one0 ⟨trivial, rfl, rfl⟩ l h

theorem mc9s08_progress (l : List Ev) (i c : Nat) (ht : Turns mc9s08 none (start one0) (l ++ [.read i, .hw c, .read i])) :
    (run mc9s08 (start one0) l).out.length < (run mc9s08 (start one0) (l ++ [.read i, .hw c, .read i])).out.length := by
  refine keepsT_prog mc9s08 _ mc9s08_keeps ?_ one0 ⟨trivial, rfl, rfl⟩ l i c ht
  intro q w i c h hq
  obtain ⟨h1, h2⟩ := h
  rcases hq with rfl | rfl
  · simp [run, ev, mc9s08, begin1, h2.1, h2.2, hw1]
  · rcases h2 with h2 | h2
    · simp [run, ev, mc9s08, h2, hw1]
    · simp [run, ev, mc9s08, h2, hw1, begin1]

theorem n76_keeps : KeepsT n76 (oneJ aChan) := by
  constructor
  · intro q w c hok h; exact one_hw aChan (fun _ _ _ _ h => h) q w hok h
  · intro q w i s' hok h hq hr
    obtain ⟨h1, h2⟩ := h
    have h1 : ∀ i, q = some i → w.s.chan = i := h1
    rcases hq with rfl | rfl
    · simp [n76, begin1, h2.1, h2.2] at hr
      subst hr
      exact ⟨fun j hj => (by cases hj; rfl), .inl ⟨rfl, rfl⟩⟩
    · rcases h2 with h2 | h2
      · simp [n76, begin1, h2.1, h2.2] at hr
        subst hr
        exact ⟨fun j hj => (by cases hj; rfl), .inl ⟨rfl, rfl⟩⟩
      · simp [n76, h1 i rfl, h2.2.1] at hr
  · intro q w i s' x hok h hq hr
    obtain ⟨h1, h2⟩ := h
    have h1 : ∀ i, q = some i → w.s.chan = i := h1
    rcases hq with rfl | rfl
    · simp [n76, h2.2] at hr
    · rcases h2 with h2 | h2
      · simp [n76, h2.2] at hr
      · simp [n76, h1 i rfl, h2.2.1] at hr
        obtain ⟨rfl, rfl⟩ := hr
        exact ⟨h2.2.2, nofun, h2.1, rfl⟩

/-- **C86, n76e003_sar, ch552**, while the objects take turns -/
theorem n76_turns_partial (l : List Ev) (h : Turns n76 none (start one0) l) : Good (run n76 (start one0) l).out :=
  keepsT_good n76 _ n76_keeps one0 ⟨nofun, rfl, rfl⟩ l h

theorem n76_progress (l : List Ev) (i c : Nat) (ht : Turns n76 none (start one0) (l ++ [.read i, .hw c, .read i])) :
    (run n76 (start one0) l).out.length < (run n76 (start one0) (l ++ [.read i, .hw c, .read i])).out.length := by
  refine keepsT_prog n76 _ n76_keeps ?_ one0 ⟨nofun, rfl, rfl⟩ l i c ht
  intro q w i c h hq
  obtain ⟨h1, h2⟩ := h
  have h1 : ∀ i, q = some i → w.s.chan = i := h1
  rcases hq with rfl | rfl
  · simp [run, ev, n76, begin1, h2.1, h2.2, hw1]
  · rcases h2 with h2 | h2
    · simp [run, ev, n76, begin1, h2, hw1]
    · simp [run, ev, n76, h1 i rfl, h2, hw1, begin1]

def rpJ (q : Option Nat) (out : List Del) (s : One) : Prop :=
  aAcq q s ∧ match q with
    | none => s.conv = none
    | some i => s.conv = some i ∨ (s.conv = none ∧ Since out i s.res)

theorem rp2040_keeps : KeepsT rp2040 rpJ := by
  constructor
  · intro q w c hok h
    show rpJ q w.out (hw1 w.now w.s)
    unfold hw1
    obtain ⟨h1, h2⟩ := h
    cases q with
    | none => simp only at h2; rw [h2]; exact ⟨h1, h2⟩
    | some i =>
      simp only at h2
      rcases h2 with h2 | h2
      · rw [h2]; exact ⟨h1, .inr ⟨rfl, since_now _ _ _ hok.1 hok.2.1⟩⟩
      · rw [h2.1]; exact ⟨h1, .inr h2⟩
  · intro q w i s' hok h hq hr
    obtain ⟨h1, h2⟩ := h
    have h1 : ∀ j, w.s.acq j = decide (q = some j) := h1
    rcases hq with rfl | rfl
    · simp only at h2
      simp [rp2040, h1, begin1, h2] at hr
      subst hr
      exact ⟨acq_set _ i h1, .inl rfl⟩
    · rcases h2 with h2 | h2
      · simp [rp2040, h1, h2] at hr
        subst hr
        exact ⟨h1, .inl h2⟩
      · simp [rp2040, h1, h2.1] at hr
  · intro q w i s' x hok h hq hr
    obtain ⟨h1, h2⟩ := h
    have h1 : ∀ j, w.s.acq j = decide (q = some j) := h1
    rcases hq with rfl | rfl
    · simp [rp2040, h1] at hr
    · rcases h2 with h2 | h2
      · simp [rp2040, h1, h2] at hr
      · simp [rp2040, h1, h2.1] at hr
        obtain ⟨rfl, rfl⟩ := hr
        exact ⟨h2.2, acq_clear _ i h1, rfl⟩

/-- **C86, rp2040**, while the objects take turns -/
theorem rp2040_turns_partial (l : List Ev) (h : Turns rp2040 none (start one0) l) : Good (run rp2040 (start one0) l).out :=
  keepsT_good rp2040 _ rp2040_keeps one0 ⟨fun _ => rfl, rfl⟩ l h

theorem rp2040_progress (l : List Ev) (i c : Nat) (ht : Turns rp2040 none (start one0) (l ++ [.read i, .hw c, .read i])) :
    (run rp2040 (start one0) l).out.length < (run rp2040 (start one0) (l ++ [.read i, .hw c, .read i])).out.length := by
  refine keepsT_prog rp2040 _ rp2040_keeps ?_ one0 ⟨fun _ => rfl, rfl⟩ l i c ht
  intro q w i c h hq
  obtain ⟨h1, h2⟩ := h
  have h1 : ∀ j, w.s.acq j = decide (q = some j) := h1
  rcases hq with rfl | rfl
  · simp only at h2
    simp [run, ev, rp2040, h1, begin1, h2, hw1, set_same]
  · rcases h2 with h2 | h2
    · simp [run, ev, rp2040, h1, h2, hw1, set_same]
    · simp [run, ev, rp2040, h1, h2, hw1, begin1, set_same]

/-- a case: two objects that take turns get their values -/
example : Turns avr none (start one0) [.read 0, .hw 0, .read 0, .hw 0, .read 1, .read 1, .hw 0, .read 1] ∧
    (run avr (start one0) [.read 0, .hw 0, .read 0, .hw 0, .read 1, .read 1, .hw 0, .read 1]).out = [⟨0, 3, ⟨0, 2⟩⟩, ⟨1, 8, ⟨1, 7⟩⟩] :=
  ⟨⟨.inl rfl, .inr rfl, .inl rfl, .inr rfl, .inr rfl, trivial⟩, by decide⟩

/-- the same history for the others -/
example : ∀ step ∈ [avr, tinyavr, rp2040, same5x, mc9s08, n76],
    (run step (start one0) [.read 0, .hw 0, .read 0, .hw 0, .read 1, .read 1, .hw 0, .read 1]).out = [⟨0, 3, ⟨0, 2⟩⟩, ⟨1, 8, ⟨1, 7⟩⟩] := by
  intro step h
  simp only [List.mem_cons, List.not_mem_nil, or_false] at h
  rcases h with rfl | rfl | rfl | rfl | rfl | rfl <;> decide

/-! ### One result register, refutations -/

/-- **C86, avr, tinyavr, gd32vf103, mc9s08ptxx, refuted** when two objects are read in turn without waiting: the object 1 gets the conversion of the channel 0 -/
theorem one_other :
    (run avr (start one0) [.read 0, .hw 0, .read 1]).out = [⟨1, 3, ⟨0, 2⟩⟩] ∧ (run tinyavr (start one0) [.read 0, .hw 0, .read 1]).out = [⟨1, 3, ⟨0, 2⟩⟩] ∧
    (run gd32 (start one0) [.read 0, .hw 0, .read 1]).out = [⟨1, 3, ⟨0, 2⟩⟩] ∧ (run mc9s08 (start one0) [.read 0, .hw 0, .read 1]).out = [⟨1, 3, ⟨0, 2⟩⟩] := by decide

/-- **C86, rp2040, same5x, refuted** in the same way: the object 0 gets the conversion of the channel 1; **n76e003, ch552**: the object 1 that of the channel 0 -/
theorem one_other2 :
    (run rp2040 (start one0) [.read 0, .hw 0, .read 1, .hw 0, .read 0]).out = [⟨0, 5, ⟨1, 4⟩⟩] ∧
    (run same5x (start one0) [.read 0, .hw 0, .read 1, .hw 0, .read 0]).out = [⟨0, 5, ⟨1, 4⟩⟩] ∧
    (run n76 (start one0) [.read 0, .read 1, .hw 0, .read 1]).out = [⟨1, 4, ⟨0, 3⟩⟩] := by decide

/-- **C86, same5x, refuted**: and then the object 1 gets -EAGAIN for ever, as long as the object 0 is not read -/
theorem same5x_stuck (l : List Ev) (hl : ∀ e ∈ l, e = .read 1 ∨ ∃ c, e = .hw c) :
    (run same5x (start one0) ([.read 0, .hw 0, .read 1, .hw 0, .read 0] ++ l)).out = [⟨0, 5, ⟨1, 4⟩⟩] := by
  rw [run_append]
  have key : ∀ w : W One, w.s.conv = none → w.s.flag = false → w.s.acq 1 = true → (run same5x w l).out = w.out := by
    induction l with
    | nil => intro w _ _ _; rfl
    | cons e l ih =>
      intro w h1 h2 h3
      have ih := ih (fun e he => hl e (List.mem_cons_of_mem _ he))
      show (run same5x (ev same5x w e) l).out = _
      rcases hl e List.mem_cons_self with rfl | ⟨c, rfl⟩
      · rw [ev_none same5x w 1 w.s (by simp [same5x, h1, h2, h3])]
        exact ih _ h1 h2 h3
      · rw [ev_hw, show (same5x w.now (.hw c) w.s).1 = w.s by simp [same5x, hw1, h1]]
        exact ih _ h1 h2 h3
  rw [key _ (by decide) (by decide) (by decide)]
  decide

/-- **C86, gd32vf103 (single conversions), refuted**: only one value is ever delivered by a block, to whichever object asks, whatever the history -/
theorem gd32_once (l : List Ev) : (run gd32 (start one0) l).out.length ≤ 1 := by
  have key : ∀ (l : List Ev) (w : W One), w.out.length + w.s.conv.isSome.toNat + w.s.flag.toNat + (!w.s.strc).toNat ≤ 1 → (run gd32 w l).out.length ≤ 1 := by
    intro l
    induction l with
    | nil => intro w h; show w.out.length ≤ 1; omega
    | cons e l ih =>
      intro w h
      show (run gd32 (ev gd32 w e) l).out.length ≤ 1
      apply ih
      cases e with
      | hw c =>
        rw [ev_hw]
        cases hc : w.s.conv with
        | none => simpa [gd32, hw1, hc] using h
        | some a =>
          simp only [gd32, hw1, hc]
          rw [hc] at h
          simp only [Option.isSome_some, Option.isSome_none, Bool.toNat_true, Bool.toNat_false] at h ⊢
          omega
      | read i =>
        by_cases c1 : (!w.s.flag) = true
        · by_cases c2 : (!w.s.strc) = true
          · rw [ev_none gd32 w i { begin1 i w.s with strc := true } (by simp only [gd32, if_pos c1, if_pos c2])]
            rw [c2] at h
            simp only [Bool.not_eq_true'] at c1
            simp only [begin1, c1, Option.isSome_some, Bool.not_true, Bool.toNat_true, Bool.toNat_false] at h ⊢
            omega
          · rw [ev_none gd32 w i w.s (by simp only [gd32, if_pos c1, if_neg c2])]
            exact h
        · rw [ev_some gd32 w i { w.s with flag := false } w.s.res (by simp only [gd32, if_neg c1])]
          simp only [Bool.not_eq_true', Bool.not_eq_false] at c1
          simp only [c1, List.length_append, List.length_singleton, Bool.toNat_true, Bool.toNat_false] at h ⊢
          omega
  exact key l _ (by decide)

/-- **C86, avr free running, refuted** even when the objects take turns: a conversion of the channel 0, made before the first call of the object 1, is delivered to it -/
theorem avrFree_wrong : Turns avrFree none (start one0) [.hw 0, .read 1, .read 1] ∧ (run avrFree (start one0) [.hw 0, .read 1, .read 1]).out = [⟨1, 3, ⟨0, 1⟩⟩] :=
  ⟨⟨.inl rfl, .inr rfl, trivial⟩, by decide⟩

/-! ### nxp_eqadc -/

/-- **C86, nxp_eqadc, refuted**: whatever channels are registered, only the command of the first one is ever executed: the other objects are never given a value -/
theorem eqadc_first (l : List Nat) : eqRuns (l.foldl eqRegister ⟨false, false, 0, none, []⟩) = l.take 1 := by
  have key : ∀ (l : List Nat) (s : Eq), (l.foldl eqRegister s).cmd = s.cmd ++ l ∧
      (l = [] ∨ (l.foldl eqRegister s).fillN = s.cmd.length + l.length ∧ (l.foldl eqRegister s).fillWrite = true ∧ (l.foldl eqRegister s).fillRead = false) := by
    intro l
    induction l with
    | nil => intro s; simp
    | cons a l ih =>
      intro s
      obtain ⟨h1, h2⟩ := ih (eqRegister s a)
      rw [List.foldl_cons]
      refine ⟨by rw [h1]; simp [eqRegister], .inr ?_⟩
      rcases h2 with rfl | h2
      · simp [eqRegister]
      · refine ⟨by rw [h2.1]; simp [eqRegister]; omega, h2.2⟩
  obtain ⟨h1, h2⟩ := key l ⟨false, false, 0, none, []⟩
  rcases h2 with rfl | ⟨h2, h3, h4⟩
  · rfl
  · unfold eqRuns eqFill
    rw [h1, h2, h3, h4]
    cases l with
    | nil => rfl
    | cons a l =>
      simp only [List.nil_append, List.length_nil, Nat.zero_add, if_true, List.length_cons, List.range_succ_eq_map, List.map_cons, List.filterMap_cons,
        List.filterMap_map, List.map_map]
      simp [List.filterMap_eq_nil_iff]

end Pico.Adc
