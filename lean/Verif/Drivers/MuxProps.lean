/- C94: proofs, first part -/
import Verif.Drivers.Mux
namespace Pico.Mux
open Field

/-- what a driver does with the calls it has -/
structure Drv.Serves {R : Type} (d : Drv R) (n : Nat) (Has : Call → Prop) : Prop where
  /-- a call it has, on a pin it has, returns 0, does what was asked -/
  does : ∀ c p r, p < n → Has c → (d.step c p r).1 = 0 ∧ c.Does (d.view r p) (d.view (d.step c p r).2 p)
  /-- every other pin is as it was, whatever the call -/
  frame : ∀ c p q r, q < n → q ≠ p → d.view (d.step c p r).2 q = d.view r q
  /-- a pin it has not, a call with an argument out of range: -EINVAL, and nothing changes -/
  refuses : ∀ c p r, n ≤ p ∨ ¬ Has c → d.step c p r = (einval, r)

/-- the rest of the pin is as it was -/
def Drv.KeepsRest {R : Type} (d : Drv R) (n : Nat) (Has : Call → Prop) : Prop := ∀ c p r, p < n → Has c → c.Keeps (d.view r p) (d.view (d.step c p r).2 p)

/-- calls on other pins, any number -/
theorem Drv.run_frame {R : Type} (d : Drv R) (n : Nat) (Has : Call → Prop) (h : d.Serves n Has) (p : Nat) (hp : p < n) (l : List (Call × Nat)) (hl : ∀ x ∈ l, x.2 ≠ p) (r : R) :
    d.view (d.run l r) p = d.view r p := by
  induction l generalizing r with
  | nil => rfl
  | cons x l ih =>
    rw [Drv.run, ih (fun y hy => hl y (by simp [hy])), h.frame _ _ _ _ hp (Ne.symm (hl x (by simp)))]

theorem Drv.run_append {R : Type} (d : Drv R) (l m : List (Call × Nat)) (r : R) : d.run (l ++ m) r = d.run m (d.run l r) := by
  induction l generalizing r with
  | nil => rfl
  | cons x l ih => exact ih _

/-- **C94**: after any history of calls on any pins, a pin is as the last call on it asked, whatever the calls on other pins since then -/
theorem Drv.last_wins {R : Type} (d : Drv R) (n : Nat) (Has : Call → Prop) (h : d.Serves n Has) (before after : List (Call × Nat)) (c : Call) (p : Nat) (r : R)
    (hp : p < n) (hc : Has c) (ha : ∀ x ∈ after, x.2 ≠ p) :
    c.Does (d.view (d.run before r) p) (d.view (d.run (before ++ (c, p) :: after) r) p) := by
  rw [Drv.run_append, Drv.run, d.run_frame n Has h p hp after ha]
  exact (h.does c p _ hp hc).2

theorem get_clear_sub {n : Nat} (w t w' t' : Nat) (r : BitVec n) (h : t ≤ t' ∧ t' + w' ≤ t + w) : Field.get w' t' (clear w t r) = 0 := by
  apply BitVec.eq_of_getLsbD_eq
  intro i hi
  rw [get_bit, clear_bit]
  by_cases c : i < w'
  · have : (decide (t ≤ t' + i) && decide (t' + i < t + w)) = true := by simp only [Bool.and_eq_true, decide_eq_true_eq]; omega
    simp [this]
  · simp [c]

theorem get_orIn_ones {n : Nat} (w t : Nat) (r : BitVec n) (h : t + w ≤ n) : Field.get w t (orIn w t (mask n w) r) = mask n w := by
  apply BitVec.eq_of_getLsbD_eq
  intro i hi
  rw [get_bit, mask_bit]
  by_cases c : i < w
  · rw [orIn_bit _ _ _ _ _ (by omega), mask_bit]
    simp [c]
    omega
  · simp [c]

theorem upd_same {n : Nat} (a : Nat → BitVec n) (i : Nat) (f : BitVec n → BitVec n) : upd a i f i = f (a i) := if_pos rfl
theorem upd_ne {n : Nat} (a : Nat → BitVec n) (i j : Nat) (f : BitVec n → BitVec n) (h : j ≠ i) : upd a i f j = a j := if_neg h

/-! ### stm32h7xx -/

namespace Stm

/-- **C94, stm32h7xx** -/
theorem serves : drv.Serves 16 Has := by
  constructor
  · intro c p r hp hc
    have h1 : ¬ 16 ≤ p := by omega
    rcases c with _ | ⟨_ | f, _ | pl⟩ | ⟨_ | f, _ | od⟩ | (_ | f) | _ | _ | _ | _ <;> try exact hc.elim
    · have e : Field.get 2 (2 * p) (orIn 2 (p * 2) 3#32 r.moder) = mask 32 2 := by
        rw [Nat.mul_comm 2 p]; exact get_orIn_ones 2 (p * 2) _ (by omega)
      simp only [drv, step, if_neg h1, Call.Does, view, e, show (mask 32 2).toNat = 3 by decide, if_true]
      simp
    · have e : (Field.get 2 (2 * p) (clear 2 (p * 2) r.moder)).toNat = 0 := by rw [Nat.mul_comm 2 p, get_clear_same]; rfl
      simp only [drv, step, if_neg h1, Call.Does, view, e]
      simp [roleOf]
    · have e : (Field.get 2 (2 * p) (put 2 (p * 2) 1#32 r.moder)).toNat = 1 := by
        rw [Nat.mul_comm 2 p]; exact get_put_nat 2 (p * 2) 1 _ (by omega) (by decide)
      simp only [drv, step, if_neg h1, Call.Does, view, e]
      simp [roleOf]
    · have hc : f < 16 := hc
      have e : (Field.get 2 (2 * p) (put 2 (p * 2) 2#32 r.moder)).toNat = 2 := by
        rw [Nat.mul_comm 2 p]; exact get_put_nat 2 (p * 2) 2 _ (by omega) (by decide)
      simp only [drv, step, if_neg h1, if_neg (show ¬ 16 ≤ f by omega)]
      by_cases h8 : p < 8
      · have e2 : (Field.get 4 (4 * p) (put 4 (p * 4 % 32) (BitVec.ofNat 32 f) r.afrl)).toNat = f := by
          rw [show p * 4 % 32 = 4 * p by omega]; exact get_put_nat 4 (4 * p) f _ (by omega) (by omega)
        simp only [if_pos h8, Call.Does, view, e, e2, roleOf]
        simp
      · have e2 : (Field.get 4 (4 * (p - 8)) (put 4 (p * 4 % 32) (BitVec.ofNat 32 f) r.afrh)).toNat = f := by
          rw [show p * 4 % 32 = 4 * (p - 8) by omega]; exact get_put_nat 4 (4 * (p - 8)) f _ (by omega) (by omega)
        simp only [if_neg h8, Call.Does, view, e, e2, roleOf]
        simp
    · have e : (Field.get 2 (2 * p) (put 2 (p * 2) 1#32 r.pupdr)).toNat = 1 := by
        rw [Nat.mul_comm 2 p]; exact get_put_nat 2 (p * 2) 1 _ (by omega) (by decide)
      simp only [drv, step, if_neg h1, Call.Does, view, e, and_self]
    · have e : (Field.get 2 (2 * p) (put 2 (p * 2) 2#32 r.pupdr)).toNat = 2 := by
        rw [Nat.mul_comm 2 p]; exact get_put_nat 2 (p * 2) 2 _ (by omega) (by decide)
      simp only [drv, step, if_neg h1, Call.Does, view, e, and_self]
    · simp only [drv, step, if_neg h1, Call.Does, view, bclr_same, and_self]
    · simp only [drv, step, if_neg h1, Call.Does, view, bset_same p r.otyper (by omega), and_self]
  · intro c p q r _ hq
    have o : 2 * q + 2 ≤ p * 2 ∨ p * 2 + 2 ≤ 2 * q := by omega
    by_cases h1 : 16 ≤ p
    · rcases c with _ | ⟨_ | f, _ | pl⟩ | ⟨_ | f, _ | od⟩ | (_ | f) | _ | _ | _ | _ <;> simp only [drv, step, if_pos h1]
    · rcases c with _ | ⟨_ | f, _ | pl⟩ | ⟨_ | f, _ | od⟩ | (_ | f) | _ | _ | _ | _ <;> simp only [drv, step, if_neg h1]
      · simp only [view, get_orIn_other _ _ _ _ _ _ o]
      · simp only [view, get_clear_other _ _ _ _ _ o]
      · simp only [view, get_put_other _ _ _ _ _ _ o]
      · by_cases h2 : 16 ≤ f
        · rw [if_pos h2]
        · rw [if_neg h2]
          by_cases h8 : p < 8
          · simp only [if_pos h8, view, get_put_other _ _ _ _ _ _ o]
            by_cases q8 : q < 8
            · simp only [if_pos q8, get_put_other _ _ _ _ _ _ (show 4 * q + 4 ≤ p * 4 % 32 ∨ p * 4 % 32 + 4 ≤ 4 * q by omega)]
            · simp only [if_neg q8]
          · simp only [if_neg h8, view, get_put_other _ _ _ _ _ _ o]
            by_cases q8 : q < 8
            · simp only [if_pos q8]
            · simp only [if_neg q8, get_put_other _ _ _ _ _ _ (show 4 * (q - 8) + 4 ≤ p * 4 % 32 ∨ p * 4 % 32 + 4 ≤ 4 * (q - 8) by omega)]
      · simp only [view, get_put_other _ _ _ _ _ _ o]
      · simp only [view, get_put_other _ _ _ _ _ _ o]
      · simp only [view, bclr_ne _ _ _ hq]
      · simp only [view, bset_ne _ _ _ hq]
  · intro c p r h
    by_cases h1 : 16 ≤ p
    · rcases c with _ | ⟨_ | f, _ | pl⟩ | ⟨_ | f, _ | od⟩ | (_ | f) | _ | _ | _ | _ <;> simp only [drv, step, if_pos h1]
    · have h := h.resolve_left h1
      rcases c with _ | ⟨_ | f, _ | pl⟩ | ⟨_ | f, _ | od⟩ | (_ | f) | _ | _ | _ | _ <;> first
        | exact absurd trivial h
        | rfl
        | (simp only [drv, step, if_neg h1]; rw [if_pos (Nat.le_of_not_lt h)])

/-- **C94, stm32h7xx**: pull and output type are kept by the other calls -/
theorem keeps : drv.KeepsRest 16 Has := by
  intro c p r hp hc
  have h1 : ¬ 16 ≤ p := by omega
  rcases c with _ | ⟨_ | f, _ | pl⟩ | ⟨_ | f, _ | od⟩ | (_ | f) | _ | _ | _ | _ <;> try exact hc.elim
  · simp only [drv, step, if_neg h1, Call.Keeps, view, and_self]
  · simp only [drv, step, if_neg h1, Call.Keeps, view, and_self, implies_true]
  · simp only [drv, step, if_neg h1, Call.Keeps, view, and_self, implies_true]
  · have hc : f < 16 := hc
    simp only [drv, step, if_neg h1, if_neg (show ¬ 16 ≤ f by omega)]
    by_cases h8 : p < 8
    · simp only [if_pos h8, Call.Keeps, view, and_self]
    · simp only [if_neg h8, Call.Keeps, view, and_self]
  all_goals exact trivial

end Stm

/-! ### gd32vf103, stm32f10xxx, ch32x -/

namespace Cnf

theorem reg_set_same (r : Cnf) (p : Nat) (f : BitVec 32 → BitVec 32) : (r.setReg p f).reg p = f (r.reg p) := by
  by_cases h : p < 8 <;> simp only [setReg, reg, h, if_true, if_false]

theorem octl_set (r : Cnf) (p : Nat) (f : BitVec 32 → BitVec 32) : (r.setReg p f).octl = r.octl := by
  by_cases h : p < 8 <;> simp only [setReg, h, if_true, if_false]

/-- a function that touches the four bits of a pin only -/
def Local (p : Nat) (f : BitVec 32 → BitVec 32) : Prop := ∀ w t v, t + w ≤ sh p ∨ sh p + 4 ≤ t → Field.get w t (f v) = Field.get w t v

theorem view_set_other (r : Cnf) (p q : Nat) (f : BitVec 32 → BitVec 32) (hf : Local p f) (hp : p < 16) (hq : q < 16) (h : q ≠ p) : view (r.setReg p f) q = view r q := by
  have key : ∀ w t, sh q ≤ t → t + w ≤ sh q + 4 → Field.get w t ((r.setReg p f).reg q) = Field.get w t (r.reg q) := by
    intro w t h1 h2
    by_cases cp : p < 8
    · by_cases cq : q < 8
      · simp only [setReg, reg, if_pos cp, if_pos cq]
        exact hf _ _ _ (by simp only [sh] at *; omega)
      · simp only [setReg, reg, if_pos cp, if_neg cq]
    · by_cases cq : q < 8
      · simp only [setReg, reg, if_neg cp, if_pos cq]
      · simp only [setReg, reg, if_neg cp, if_neg cq]
        exact hf _ _ _ (by simp only [sh] at *; omega)
  simp only [view, octl_set, key 2 (sh q + 2) (by omega) (by omega), key 2 (sh q) (by omega) (by omega)]

/-- pins over 15 have no bits -/
theorem sh_lt (p : Nat) : sh p + 4 ≤ 32 := by simp only [sh]; omega

theorem local_clear4 (p : Nat) : Local p (clear 4 (sh p)) := fun _ _ _ h => get_clear_other _ _ _ _ _ (by omega)
theorem local_orc (p : Nat) (x : BitVec 32) : Local p (fun v => orIn 2 (sh p + 2) x (clear 4 (sh p) v)) := fun w t v h => by
  rw [get_orIn_other _ _ _ _ _ _ (by omega), get_clear_other _ _ _ _ _ (by omega)]
theorem local_gd (p cnf md : Nat) : Local p (gdWord p cnf md) := fun w t v h => by
  rw [gdWord, get_orIn_other _ _ _ _ _ _ (by omega), get_orIn_other _ _ _ _ _ _ (by omega), get_clear_other _ _ _ _ _ (by omega)]
theorem local_put (p : Nat) (x y : BitVec 32) : Local p (fun v => put 2 (sh p) y (put 2 (sh p + 2) x v)) := fun w t v h => by
  rw [get_put_other _ _ _ _ _ _ (by omega), get_put_other _ _ _ _ _ _ (by omega)]
theorem local_putc (p : Nat) (x : BitVec 32) : Local p (fun v => clear 2 (sh p) (put 2 (sh p + 2) x v)) := fun w t v h => by
  rw [get_clear_other _ _ _ _ _ (by omega), get_put_other _ _ _ _ _ _ (by omega)]

theorem gd_cnf (p cnf md : Nat) (v : BitVec 32) (h : cnf < 4) : (Field.get 2 (sh p + 2) (gdWord p cnf md v)).toNat = cnf := by
  have := sh_lt p
  rw [gdWord, get_orIn_other _ _ _ _ _ _ (by omega), get_orIn_same _ _ _ _ (by omega) (get_clear_sub _ _ _ _ _ (by omega)), and_mask 32 2 cnf (by decide) h]

theorem gd_md (p cnf md : Nat) (v : BitVec 32) (h : md < 4) : (Field.get 2 (sh p) (gdWord p cnf md v)).toNat = md := by
  have := sh_lt p
  rw [gdWord, get_orIn_same _ _ _ _ (by omega), and_mask 32 2 md (by decide) h]
  rw [get_orIn_other _ _ _ _ _ _ (by omega), get_clear_sub _ _ _ _ _ (by omega)]

theorem orc_cnf (p cnf : Nat) (v : BitVec 32) (h : cnf < 4) : (Field.get 2 (sh p + 2) (orIn 2 (sh p + 2) (BitVec.ofNat 32 cnf) (clear 4 (sh p) v))).toNat = cnf := by
  have := sh_lt p
  rw [get_orIn_same _ _ _ _ (by omega) (get_clear_sub _ _ _ _ _ (by omega)), and_mask 32 2 cnf (by decide) h]

theorem orc_md (p : Nat) (x v : BitVec 32) : (Field.get 2 (sh p) (orIn 2 (sh p + 2) x (clear 4 (sh p) v))).toNat = 0 := by
  rw [get_orIn_other _ _ _ _ _ _ (by omega), get_clear_sub _ _ _ _ _ (by omega)]; rfl

theorem put_cnf (p cnf : Nat) (y v : BitVec 32) (h : cnf < 4) : (Field.get 2 (sh p + 2) (put 2 (sh p) y (put 2 (sh p + 2) (BitVec.ofNat 32 cnf) v))).toNat = cnf := by
  have := sh_lt p
  rw [get_put_other _ _ _ _ _ _ (by omega), get_put_nat _ _ _ _ (by omega) h]

theorem put_md (p md : Nat) (x v : BitVec 32) (h : md < 4) : (Field.get 2 (sh p) (put 2 (sh p) (BitVec.ofNat 32 md) (put 2 (sh p + 2) x v))).toNat = md := by
  have := sh_lt p
  rw [get_put_nat _ _ _ _ (by omega) h]

theorem putc_cnf (p cnf : Nat) (v : BitVec 32) (h : cnf < 4) : (Field.get 2 (sh p + 2) (clear 2 (sh p) (put 2 (sh p + 2) (BitVec.ofNat 32 cnf) v))).toNat = cnf := by
  have := sh_lt p
  rw [get_clear_other _ _ _ _ _ (by omega), get_put_nat _ _ _ _ (by omega) h]

theorem putc_md (p : Nat) (x v : BitVec 32) : (Field.get 2 (sh p) (clear 2 (sh p) (put 2 (sh p + 2) x v))).toNat = 0 := by
  rw [get_clear_same]; rfl

theorem speed_lt (s : Nat) : gdSpeed s < 4 ∧ gdSpeed s ≠ 0 := by
  unfold gdSpeed; split <;> simp

/-- **C94, gd32vf103**, for the three speeds -/
theorem gd_serves (speed : Nat) (hs : speed < 3) : (gd speed).Serves 16 GdHas := by
  have s1 := (speed_lt speed).1
  have s2 := (speed_lt speed).2
  constructor
  · intro c p r hp hc
    have h1 : ¬ 16 ≤ p := by omega
    have h3 : ¬ 3 ≤ speed := by omega
    rcases c with _ | ⟨_ | (_ | f), _ | (_ | _ | _ | _)⟩ | ⟨_ | (_ | f), _ | od⟩ | (_ | f) | _ | _ | _ | _ <;> try exact hc.elim
    · simp only [gd, gdStep, if_neg h1, Call.Does, view, reg_set_same, get_clear_sub 4 (sh p) 2 (sh p + 2) _ (by omega), get_clear_sub 4 (sh p) 2 (sh p) _ (by omega)]
      simp
    · simp only [gd, gdStep, if_neg h1, Call.Does, view, reg_set_same, orc_cnf p 1 _ (by decide), orc_md, octl_set, roleOf]
      simp
    · simp only [gd, gdStep, if_neg h1, Call.Does, view, reg, setReg]
      by_cases c8 : p < 8 <;> simp only [c8, if_true, if_false, orc_cnf p 2 _ (by decide), orc_md, roleOf, bset_same p r.octl (by omega)] <;> simp
    · simp only [gd, gdStep, if_neg h1, Call.Does, view, reg, setReg]
      by_cases c8 : p < 8 <;> simp only [c8, if_true, if_false, orc_cnf p 2 _ (by decide), orc_md, roleOf, bclr_same p r.octl] <;> simp
    · cases od <;> simp only [gd, gdStep, if_neg h1, if_neg h3, Call.Does, view, reg_set_same, gd_md _ _ _ _ s1, if_neg s2, roleOf, if_true, if_false, Bool.false_eq_true,
        gd_cnf p 0 _ _ (by decide), gd_cnf p 1 _ _ (by decide)] <;> simp
    · cases od <;> simp only [gd, gdStep, if_neg h1, if_neg h3, Call.Does, view, reg_set_same, gd_md _ _ _ _ s1, if_neg s2, roleOf, if_true, if_false, Bool.false_eq_true,
        gd_cnf p 2 _ _ (by decide), gd_cnf p 3 _ _ (by decide)] <;> simp
  · intro c p q r hq hqp
    by_cases h1 : 16 ≤ p
    · rcases c with _ | ⟨_ | (_ | f), _ | (_ | _ | _ | _)⟩ | ⟨_ | (_ | f), _ | od⟩ | (_ | f) | _ | _ | _ | _ <;> simp only [gd, gdStep, if_pos h1]
    · have hp : p < 16 := by omega
      have h3 : ¬ 3 ≤ speed := by omega
      have oc : ∀ (x : Cnf) (o : BitVec 32), o.getLsbD q = x.octl.getLsbD q → view { x with octl := o } q = view x q := by
        intro x o ho
        have : reg { x with octl := o } q = x.reg q := rfl
        simp only [view, this, ho]
      rcases c with _ | ⟨_ | (_ | f), _ | (_ | _ | _ | _)⟩ | ⟨_ | (_ | f), _ | od⟩ | (_ | f) | _ | _ | _ | _ <;> simp only [gd, gdStep, if_neg h1, if_neg h3]
      · exact view_set_other _ _ _ _ (local_clear4 p) hp hq hqp
      · exact view_set_other _ _ _ _ (local_orc p _) hp hq hqp
      · rw [oc _ _ (by rw [octl_set, bset_ne _ _ _ hqp])]
        exact view_set_other _ _ _ _ (local_orc p _) hp hq hqp
      · rw [oc _ _ (by rw [octl_set, bclr_ne _ _ _ hqp])]
        exact view_set_other _ _ _ _ (local_orc p _) hp hq hqp
      · exact view_set_other _ _ _ _ (local_gd p _ _) hp hq hqp
      · exact view_set_other _ _ _ _ (local_gd p _ _) hp hq hqp
  · intro c p r h
    by_cases h1 : 16 ≤ p
    · rcases c with _ | ⟨_ | (_ | f), _ | (_ | _ | _ | _)⟩ | ⟨_ | (_ | f), _ | od⟩ | (_ | f) | _ | _ | _ | _ <;> simp only [gd, gdStep, if_pos h1]
    · have h := h.resolve_left h1
      rcases c with _ | ⟨_ | (_ | f), _ | (_ | _ | _ | _)⟩ | ⟨_ | (_ | f), _ | od⟩ | (_ | f) | _ | _ | _ | _ <;> first
        | exact absurd trivial h
        | rfl

/-- a speed out of range is refused -/
theorem gd_speed (speed : Nat) (hs : 3 ≤ speed) (p : Nat) (f : Option Nat) (od : Bool) (r : Cnf) : (gd speed).step (.output f (some od)) p r = (einval, r) := by
  rcases f with _ | (_ | f)
  · by_cases h : 16 ≤ p <;> simp only [gd, gdStep, h, hs, if_true, if_false]
  · by_cases h : 16 ≤ p <;> simp only [gd, gdStep, h, hs, if_true, if_false]
  · rfl

/-- **C94, stm32f10xxx** -/
theorem f10_serves : f10.Serves 16 FHas := by
  constructor
  · intro c p r hp hc
    have h1 : ¬ 16 ≤ p := by omega
    rcases c with _ | ⟨_ | (_ | f), _ | (_ | _ | _ | _)⟩ | ⟨_ | (_ | f), _ | od⟩ | (_ | f) | _ | _ | _ | _ <;> try exact hc.elim
    · simp only [f10, f10Step, setCnfMode, if_neg h1, Call.Does, view, reg_set_same, put_cnf p 0 _ _ (by decide), put_md p 0 _ _ (by decide)]
      simp
    · simp only [f10, f10Step, setCnfMode, if_neg h1, Call.Does, view, reg_set_same, put_cnf p 2 _ _ (by decide), put_md p 0 _ _ (by decide), roleOf]
      simp
    · simp only [f10, f10Step, setCnfMode, if_neg h1, Call.Does, view, reg_set_same, put_cnf p 1 _ _ (by decide), put_md p 0 _ _ (by decide), roleOf]
      simp
    · cases od <;> simp only [f10, f10Step, setCnfMode, if_neg h1, Call.Does, view, reg_set_same, put_md p 1 _ _ (by decide), roleOf, if_true, if_false, Bool.false_eq_true,
        put_cnf p 0 _ _ (by decide), put_cnf p 1 _ _ (by decide)] <;> simp
    · cases od <;> simp only [f10, f10Step, setCnfMode, if_neg h1, Call.Does, view, reg_set_same, put_md p 1 _ _ (by decide), roleOf, if_true, if_false, Bool.false_eq_true,
        put_cnf p 2 _ _ (by decide), put_cnf p 3 _ _ (by decide)] <;> simp
  · intro c p q r hq hqp
    by_cases h1 : 16 ≤ p
    · rcases c with _ | ⟨_ | (_ | f), _ | (_ | _ | _ | _)⟩ | ⟨_ | (_ | f), _ | od⟩ | (_ | f) | _ | _ | _ | _ <;> simp only [f10, f10Step, if_pos h1]
    · have hp : p < 16 := by omega
      rcases c with _ | ⟨_ | (_ | f), _ | (_ | _ | _ | _)⟩ | ⟨_ | (_ | f), _ | od⟩ | (_ | f) | _ | _ | _ | _ <;> simp only [f10, f10Step, setCnfMode, if_neg h1] <;>
        exact view_set_other _ _ _ _ (local_put p _ _) hp hq hqp
  · intro c p r h
    by_cases h1 : 16 ≤ p
    · rcases c with _ | ⟨_ | (_ | f), _ | (_ | _ | _ | _)⟩ | ⟨_ | (_ | f), _ | od⟩ | (_ | f) | _ | _ | _ | _ <;> simp only [f10, f10Step, if_pos h1]
    · have h := h.resolve_left h1
      rcases c with _ | ⟨_ | (_ | f), _ | (_ | _ | _ | _)⟩ | ⟨_ | (_ | f), _ | od⟩ | (_ | f) | _ | _ | _ | _ <;> first
        | exact absurd trivial h
        | rfl

/-- **C94, ch32x** -/
theorem ch_serves : ch.Serves 16 FHas := by
  constructor
  · intro c p r hp hc
    have h1 : ¬ 16 ≤ p := by omega
    rcases c with _ | ⟨_ | (_ | f), _ | (_ | _ | _ | _)⟩ | ⟨_ | (_ | f), _ | od⟩ | (_ | f) | _ | _ | _ | _ <;> try exact hc.elim
    · simp only [ch, chStep, if_neg h1, Call.Does, view, reg_set_same, putc_cnf p 0 _ (by decide), putc_md]
      simp
    · simp only [ch, chStep, if_neg h1, Call.Does, view, reg_set_same, putc_cnf p 2 _ (by decide), putc_md, roleOf]
      simp
    · simp only [ch, chStep, if_neg h1, Call.Does, view, reg_set_same, putc_cnf p 1 _ (by decide), putc_md, roleOf]
      simp
    · cases od <;> simp only [ch, chStep, if_neg h1, Call.Does, view, reg_set_same, put_md p 1 _ _ (by decide), roleOf, if_true, if_false, Bool.false_eq_true,
        put_cnf p 0 _ _ (by decide), put_cnf p 1 _ _ (by decide)] <;> simp
    · cases od <;> simp only [ch, chStep, if_neg h1, Call.Does, view, reg_set_same, put_md p 1 _ _ (by decide), roleOf, if_true, if_false, Bool.false_eq_true,
        put_cnf p 2 _ _ (by decide), put_cnf p 3 _ _ (by decide)] <;> simp
  · intro c p q r hq hqp
    by_cases h1 : 16 ≤ p
    · rcases c with _ | ⟨_ | (_ | f), _ | (_ | _ | _ | _)⟩ | ⟨_ | (_ | f), _ | od⟩ | (_ | f) | _ | _ | _ | _ <;> simp only [ch, chStep, if_pos h1]
    · have hp : p < 16 := by omega
      rcases c with _ | ⟨_ | (_ | f), _ | (_ | _ | _ | _)⟩ | ⟨_ | (_ | f), _ | od⟩ | (_ | f) | _ | _ | _ | _ <;> simp only [ch, chStep, if_neg h1] <;> first
        | exact view_set_other _ _ _ _ (local_put p _ _) hp hq hqp
        | exact view_set_other _ _ _ _ (local_putc p _) hp hq hqp
  · intro c p r h
    by_cases h1 : 16 ≤ p
    · rcases c with _ | ⟨_ | (_ | f), _ | (_ | _ | _ | _)⟩ | ⟨_ | (_ | f), _ | od⟩ | (_ | f) | _ | _ | _ | _ <;> simp only [ch, chStep, if_pos h1]
    · have h := h.resolve_left h1
      rcases c with _ | ⟨_ | (_ | f), _ | (_ | _ | _ | _)⟩ | ⟨_ | (_ | f), _ | od⟩ | (_ | f) | _ | _ | _ | _ <;> first
        | exact absurd trivial h
        | rfl

end Cnf
end Pico.Mux
