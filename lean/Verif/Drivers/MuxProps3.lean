/- C94: proofs, third part -/
import Verif.Drivers.MuxProps2
namespace Pico.Mux
open Field

/-! ### pic32mx -/

namespace Pic

/-- **C94, pic32mx** -/
theorem serves : drv.Serves 16 Has := by
  constructor
  · intro c p r hp hc
    have h1 : ¬ 16 ≤ p := by omega
    rcases c with _ | ⟨_ | f, _ | (_ | _ | _ | _)⟩ | ⟨_ | f, _ | od⟩ | (_ | f) | _ | _ | _ | _ <;> try exact hc.elim
    all_goals
      simp only [drv, step, if_neg h1, Call.Does, view, bset_same p _ (show p < 32 by omega), bclr_same]
      simp [roleOf, Rp.pullOf]
  · intro c p q r _ hq
    by_cases h1 : 16 ≤ p
    · rcases c with _ | ⟨_ | f, _ | (_ | _ | _ | _)⟩ | ⟨_ | f, _ | od⟩ | (_ | f) | _ | _ | _ | _ <;> simp only [drv, step, if_pos h1]
    · rcases c with _ | ⟨_ | f, _ | (_ | _ | _ | _)⟩ | ⟨_ | f, _ | od⟩ | (_ | f) | _ | _ | _ | _ <;> simp only [drv, step, if_neg h1] <;> simp only [view, bset_ne _ _ _ hq, bclr_ne _ _ _ hq]
  · intro c p r h
    by_cases h1 : 16 ≤ p
    · rcases c with _ | ⟨_ | f, _ | (_ | _ | _ | _)⟩ | ⟨_ | f, _ | od⟩ | (_ | f) | _ | _ | _ | _ <;> simp only [drv, step, if_pos h1]
    · have h := h.resolve_left h1
      rcases c with _ | ⟨_ | f, _ | (_ | _ | _ | _)⟩ | ⟨_ | f, _ | od⟩ | (_ | f) | _ | _ | _ | _ <;> first
        | exact absurd trivial h
        | rfl

/-- **C94, pic32mx**: pulls are kept -/
theorem keeps : drv.KeepsRest 16 Has := by
  intro c p r hp hc
  have h1 : ¬ 16 ≤ p := by omega
  rcases c with _ | ⟨_ | f, _ | (_ | _ | _ | _)⟩ | ⟨_ | f, _ | od⟩ | (_ | f) | _ | _ | _ | _ <;> try exact hc.elim
  all_goals
    simp only [drv, step, if_neg h1, Call.Keeps, view]
    try simp

end Pic

/-! ### atmel_pio, sam3x_pio -/

namespace Pio

theorem sel_view (f : Option Nat) (p : Nat) (r : Pio) (hp : p < 32) (hf : valid 4 f = true) :
    (view (select f p r) p).role = roleOf f ∧ ((select f p r).psr.getLsbD p = f.isNone) ∧ (select f p r).pusr = r.pusr ∧ (select f p r).osr = r.osr := by
  rcases f with _ | (_ | _ | _ | _ | f)
  · simp [select, view, roleOf, bset_same p r.psr hp]
  · simp [select, view, roleOf, bclr_same]
  · simp [select, view, roleOf, bclr_same, bset_same p r.sel0 hp]
  · simp [select, view, roleOf, bclr_same, bset_same p r.sel1 hp]
  · simp [select, view, roleOf, bclr_same, bset_same p r.sel0 hp, bset_same p r.sel1 hp]
  · simp [valid] at hf; omega

theorem sel_other (f : Option Nat) (p q : Nat) (r : Pio) (hq : q ≠ p) : view (select f p r) q = view r q := by
  rcases f with _ | (_ | _ | _ | f) <;> simp only [select, view, bset_ne _ _ _ hq, bclr_ne _ _ _ hq] <;> rfl

theorem osr_other (p q : Nat) (r : Pio) (hq : q ≠ p) : view { r with osr := bset p r.osr } q = view r q ∧ view { r with osr := bclr p r.osr } q = view r q := by
  simp only [view, bset_ne _ _ _ hq, bclr_ne _ _ _ hq, and_self]

/-- **C94, atmel_pio** -/
theorem serves : drv.Serves 32 (Has 4) := by
  constructor
  · intro c p r hp hc
    have h1 : ¬ 32 ≤ p := by omega
    rcases c with _ | ⟨f, _ | pl⟩ | ⟨f, _ | od⟩ | f | _ | _ | _ | _ <;> try exact hc.elim
    · have hc : valid 4 f = true := hc
      obtain ⟨a, b, _, _⟩ := sel_view f p r hp hc
      have hv : ¬ valid 4 f = false := by rw [hc]; decide
      simp only [drv, stepWith, if_neg h1, if_neg hv, Call.Does]
      refine ⟨trivial, a, ?_, nofun⟩
      simp only [view, b, bclr_same]
      cases f <;> simp
    · have hc : valid 4 f = true := hc
      obtain ⟨a, b, _, _⟩ := sel_view f p r hp hc
      have hv : ¬ valid 4 f = false := by rw [hc]; decide
      simp only [drv, stepWith, if_neg h1, if_neg hv, Call.Does]
      refine ⟨trivial, a, ?_, nofun⟩
      simp only [view, b, bset_same p _ hp]
      cases f <;> simp
    · simp only [drv, stepWith, if_neg h1, Call.Does, view, bclr_same]
      simp
  · intro c p q r _ hq
    rcases c with _ | ⟨f, _ | pl⟩ | ⟨f, _ | od⟩ | f | _ | _ | _ | _ <;> simp only [drv, stepWith]
    · by_cases h1 : 32 ≤ p
      · rw [if_pos h1]
      · rw [if_neg h1]
        by_cases h2 : valid 4 f = false
        · rw [if_pos h2]
        · rw [if_neg h2, (osr_other p q (select f p r) hq).2, sel_other f p q r hq]
    · by_cases h1 : 32 ≤ p
      · rw [if_pos h1]
      · rw [if_neg h1]
        by_cases h2 : valid 4 f = false
        · rw [if_pos h2]
        · rw [if_neg h2, (osr_other p q (select f p r) hq).1, sel_other f p q r hq]
    · by_cases h1 : 32 ≤ p
      · rw [if_pos h1]
      · rw [if_neg h1]; simp only [view, bclr_ne _ _ _ hq]
  · intro c p r h
    by_cases h1 : 32 ≤ p
    · rcases c with _ | ⟨f, _ | pl⟩ | ⟨f, _ | od⟩ | f | _ | _ | _ | _ <;> simp only [drv, stepWith, if_pos h1]
    · have h := h.resolve_left h1
      rcases c with _ | ⟨f, _ | pl⟩ | ⟨f, _ | od⟩ | f | _ | _ | _ | _ <;> first
        | exact absurd trivial h
        | rfl
        | (have h : valid 4 f = false := Bool.eq_false_iff.2 h
           simp only [drv, stepWith, if_neg h1, if_pos h])

/-- **C94, atmel_pio**: pulls are kept -/
theorem keeps : drv.KeepsRest 32 (Has 4) := by
  intro c p r hp hc
  have h1 : ¬ 32 ≤ p := by omega
  rcases c with _ | ⟨f, _ | pl⟩ | ⟨f, _ | od⟩ | f | _ | _ | _ | _ <;> try exact hc.elim
  · have hc : valid 4 f = true := hc
    have hv : ¬ valid 4 f = false := by rw [hc]; decide
    obtain ⟨_, _, e, _⟩ := sel_view f p r hp hc
    simp only [drv, stepWith, if_neg h1, if_neg hv, Call.Keeps, view, e, and_self, implies_true]
  · have hc : valid 4 f = true := hc
    have hv : ¬ valid 4 f = false := by rw [hc]; decide
    obtain ⟨_, _, e, _⟩ := sel_view f p r hp hc
    simp only [drv, stepWith, if_neg h1, if_neg hv, Call.Keeps, view, e, and_self, implies_true]
  all_goals exact trivial

theorem sel3_view (f : Option Nat) (p : Nat) (r : Pio) (hp : p < 32) (hf : valid 2 f = true) :
    (view { select3 f p r with sel1 := 0#32 } p).role = roleOf f ∧ ((select3 f p r).psr.getLsbD p = f.isNone) ∧ (select3 f p r).pusr = r.pusr := by
  rcases f with _ | (_ | _ | f)
  · simp [select3, view, roleOf, bset_same p r.psr hp]
  · simp [select3, view, roleOf, bclr_same]
  · simp [select3, view, roleOf, bclr_same, bset_same p r.sel0 hp]
  · simp [valid] at hf; omega

theorem sel3_other (f : Option Nat) (p q : Nat) (r : Pio) (hq : q ≠ p) (o : BitVec 32) (ho : o.getLsbD q = r.osr.getLsbD q) :
    view { select3 f p r with sel1 := 0#32, osr := o } q = view { r with sel1 := 0#32 } q := by
  rcases f with _ | (_ | f) <;> simp only [select3, view, bset_ne _ _ _ hq, bclr_ne _ _ _ hq, ho] <;> rfl

theorem sel3_osr (f : Option Nat) (p : Nat) (r : Pio) : (select3 f p r).osr = r.osr := by
  rcases f with _ | (_ | f) <;> rfl

/-- **C94, sam3x_pio** -/
theorem serves3 : drv3.Serves 32 (Has 2) := by
  constructor
  · intro c p r hp hc
    have h1 : ¬ 32 ≤ p := by omega
    rcases c with _ | ⟨f, _ | pl⟩ | ⟨f, _ | od⟩ | f | _ | _ | _ | _ <;> try exact hc.elim
    · have hc : valid 2 f = true := hc
      obtain ⟨a, b, _⟩ := sel3_view f p r hp hc
      have hv : ¬ valid 2 f = false := by rw [hc]; decide
      simp only [drv3, stepWith, if_neg h1, if_neg hv, Call.Does]
      refine ⟨trivial, a, ?_, nofun⟩
      simp only [view, b, bclr_same]
      cases f <;> simp
    · have hc : valid 2 f = true := hc
      obtain ⟨a, b, _⟩ := sel3_view f p r hp hc
      have hv : ¬ valid 2 f = false := by rw [hc]; decide
      simp only [drv3, stepWith, if_neg h1, if_neg hv, Call.Does]
      refine ⟨trivial, a, ?_, nofun⟩
      simp only [view, b, bset_same p _ hp]
      cases f <;> simp
    · simp only [drv3, stepWith, if_neg h1, Call.Does, view, bclr_same]
      simp
  · intro c p q r _ hq
    rcases c with _ | ⟨f, _ | pl⟩ | ⟨f, _ | od⟩ | f | _ | _ | _ | _ <;> simp only [drv3, stepWith]
    · by_cases h1 : 32 ≤ p
      · rw [if_pos h1]
      · rw [if_neg h1]
        by_cases h2 : valid 2 f = false
        · rw [if_pos h2]
        · rw [if_neg h2]
          exact sel3_other f p q r hq _ (by rw [sel3_osr, bclr_ne _ _ _ hq])
    · by_cases h1 : 32 ≤ p
      · rw [if_pos h1]
      · rw [if_neg h1]
        by_cases h2 : valid 2 f = false
        · rw [if_pos h2]
        · rw [if_neg h2]
          exact sel3_other f p q r hq _ (by rw [sel3_osr, bset_ne _ _ _ hq])
    · by_cases h1 : 32 ≤ p
      · rw [if_pos h1]
      · rw [if_neg h1]; simp only [view, bclr_ne _ _ _ hq]
  · intro c p r h
    by_cases h1 : 32 ≤ p
    · rcases c with _ | ⟨f, _ | pl⟩ | ⟨f, _ | od⟩ | f | _ | _ | _ | _ <;> simp only [drv3, stepWith, if_pos h1]
    · have h := h.resolve_left h1
      rcases c with _ | ⟨f, _ | pl⟩ | ⟨f, _ | od⟩ | f | _ | _ | _ | _ <;> first
        | exact absurd trivial h
        | rfl
        | (have h : valid 2 f = false := Bool.eq_false_iff.2 h
           simp only [drv3, stepWith, if_neg h1, if_pos h])

end Pio

/-! ### avr, mc9s08ptxx, stm8, tinyavr -/

namespace Avr

/-- **C94, avr** -/
theorem serves (value : Bool) : (drv value).Serves 8 Has := by
  constructor
  · intro c p r hp hc
    have h1 : ¬ 8 ≤ p := by omega
    rcases c with _ | ⟨_ | f, _ | (_ | _ | _ | _)⟩ | ⟨_ | f, _ | od⟩ | (_ | f) | _ | _ | _ | _ <;> try exact hc.elim
    · simp only [drv, step, input, if_neg h1, Call.Does, view, bclr_same]
      simp [roleOf]
    · simp only [drv, step, output, if_neg h1, Call.Does, view, bset_same p _ hp]
      simp [roleOf]
  · intro c p q r _ hq
    have e : (if value = true then bset p r.port else bclr p r.port).getLsbD q = r.port.getLsbD q := by
      cases value <;> simp only [if_true, if_false, Bool.false_eq_true, bset_ne _ _ _ hq, bclr_ne _ _ _ hq]
    by_cases h1 : 8 ≤ p
    · rcases c with _ | ⟨_ | f, _ | (_ | _ | _ | _)⟩ | ⟨_ | f, _ | od⟩ | (_ | f) | _ | _ | _ | _ <;> simp only [drv, step, input, output, if_pos h1]
    · rcases c with _ | ⟨_ | f, _ | (_ | _ | _ | _)⟩ | ⟨_ | f, _ | od⟩ | (_ | f) | _ | _ | _ | _ <;> simp only [drv, step, input, output, if_neg h1] <;> simp only [view, bset_ne _ _ _ hq, bclr_ne _ _ _ hq, e]
  · intro c p r h
    by_cases h1 : 8 ≤ p
    · rcases c with _ | ⟨_ | f, _ | (_ | _ | _ | _)⟩ | ⟨_ | f, _ | od⟩ | (_ | f) | _ | _ | _ | _ <;> simp only [drv, step, input, output, if_pos h1]
    · have h := h.resolve_left h1
      rcases c with _ | ⟨_ | f, _ | (_ | _ | _ | _)⟩ | ⟨_ | f, _ | od⟩ | (_ | f) | _ | _ | _ | _ <;> first
        | exact absurd trivial h
        | rfl

/-- an output of the avr has the level asked, and the levels of the others are as they were -/
theorem output_level (value : Bool) (p : Nat) (r : Avr) (hp : p < 8) :
    (output value p r).2.port.getLsbD p = value ∧ ∀ q, q ≠ p → (output value p r).2.port.getLsbD q = r.port.getLsbD q := by
  simp only [output, if_neg (show ¬ 8 ≤ p by omega)]
  cases value
  · exact ⟨by simp [bclr_same], fun q hq => by simp only [if_false, Bool.false_eq_true, bclr_ne _ _ _ hq]⟩
  · exact ⟨by simp [bset_same p r.port hp], fun q hq => by simp only [if_true, bset_ne _ _ _ hq]⟩

/-- the pull-up of an input is what its output level was -/
theorem input_pull (p : Nat) (r : Avr) (hp : p < 8) (value : Bool) : (view (input p (output value p r).2).2 p).pull = if value then .up else .none := by
  have := (output_level value p r hp).1
  have e : (input p (output value p r).2).2 = { (output value p r).2 with ddr := bclr p (output value p r).2.ddr } := by
    rw [input, if_neg (by omega)]
  rw [e]
  simp only [view, bclr_same, this, Bool.false_eq_true, if_false]

end Avr

namespace Mc

/-- **C94, mc9s08ptxx** -/
theorem serves : drv.Serves 8 Has := by
  constructor
  · intro c p r hp hc
    have h1 : ¬ 8 ≤ p := by omega
    rcases c with _ | ⟨_ | f, _ | (_ | _ | _ | _)⟩ | ⟨_ | f, _ | od⟩ | (_ | f) | _ | _ | _ | _ <;> try exact hc.elim
    all_goals
      simp only [drv, step, if_neg h1, Call.Does, view, bset_same p _ hp, bclr_same]
      simp [roleOf, Siul2.dirOf]
  · intro c p q r _ hq
    by_cases h1 : 8 ≤ p
    · rcases c with _ | ⟨_ | f, _ | (_ | _ | _ | _)⟩ | ⟨_ | f, _ | od⟩ | (_ | f) | _ | _ | _ | _ <;> simp only [drv, step, if_pos h1]
    · rcases c with _ | ⟨_ | f, _ | (_ | _ | _ | _)⟩ | ⟨_ | f, _ | od⟩ | (_ | f) | _ | _ | _ | _ <;> simp only [drv, step, if_neg h1] <;> simp only [view, bset_ne _ _ _ hq, bclr_ne _ _ _ hq]
  · intro c p r h
    by_cases h1 : 8 ≤ p
    · rcases c with _ | ⟨_ | f, _ | (_ | _ | _ | _)⟩ | ⟨_ | f, _ | od⟩ | (_ | f) | _ | _ | _ | _ <;> simp only [drv, step, if_pos h1]
    · have h := h.resolve_left h1
      rcases c with _ | ⟨_ | f, _ | (_ | _ | _ | _)⟩ | ⟨_ | f, _ | od⟩ | (_ | f) | _ | _ | _ | _ <;> first
        | exact absurd trivial h
        | rfl

/-- **C94, mc9s08ptxx**: pulls are kept -/
theorem keeps : drv.KeepsRest 8 Has := by
  intro c p r hp hc
  have h1 : ¬ 8 ≤ p := by omega
  rcases c with _ | ⟨_ | f, _ | (_ | _ | _ | _)⟩ | ⟨_ | f, _ | od⟩ | (_ | f) | _ | _ | _ | _ <;> try exact hc.elim
  all_goals
    simp only [drv, step, if_neg h1, Call.Keeps, view]
    try simp

end Mc

namespace Stm8

/-- **C94, stm8** -/
theorem serves : drv.Serves 8 Has := by
  constructor
  · intro c p r hp hc
    have h1 : ¬ 8 ≤ p := by omega
    rcases c with _ | ⟨_ | f, _ | (_ | _ | _ | _)⟩ | ⟨_ | f, _ | od⟩ | (_ | f) | _ | _ | _ | _ <;> try exact hc.elim
    · simp only [drv, step, if_neg h1, Call.Does, view, bclr_same]
      simp [roleOf]
    · simp only [drv, step, if_neg h1, Call.Does, view, bset_same p _ hp, bclr_same]
      simp [roleOf]
    · cases od <;> simp only [drv, step, if_neg h1, Call.Does, view, bset_same p _ hp, bclr_same, if_true, if_false, Bool.false_eq_true] <;> simp [roleOf]
  · intro c p q r _ hq
    by_cases h1 : 8 ≤ p
    · rcases c with _ | ⟨_ | f, _ | (_ | _ | _ | _)⟩ | ⟨_ | f, _ | od⟩ | (_ | f) | _ | _ | _ | _ <;> simp only [drv, step, if_pos h1]
    · rcases c with _ | ⟨_ | f, _ | (_ | _ | _ | _)⟩ | ⟨_ | f, _ | od⟩ | (_ | f) | _ | _ | _ | _ <;> simp only [drv, step, if_neg h1]
      · simp only [view, bset_ne _ _ _ hq, bclr_ne _ _ _ hq]
      · simp only [view, bset_ne _ _ _ hq, bclr_ne _ _ _ hq]
      · cases od <;> simp only [view, bset_ne _ _ _ hq, bclr_ne _ _ _ hq, if_true, if_false, Bool.false_eq_true]
  · intro c p r h
    by_cases h1 : 8 ≤ p
    · rcases c with _ | ⟨_ | f, _ | (_ | _ | _ | _)⟩ | ⟨_ | f, _ | od⟩ | (_ | f) | _ | _ | _ | _ <;> simp only [drv, step, if_pos h1]
    · have h := h.resolve_left h1
      rcases c with _ | ⟨_ | f, _ | (_ | _ | _ | _)⟩ | ⟨_ | f, _ | od⟩ | (_ | f) | _ | _ | _ | _ <;> first
        | exact absurd trivial h
        | rfl

end Stm8

namespace Tiny

/-- **C94, tinyavr** -/
theorem serves : drv.Serves 8 Has := by
  constructor
  · intro c p r hp hc
    have h1 : ¬ 8 ≤ p := by omega
    rcases c with _ | ⟨_ | f, _ | (_ | _ | _ | _)⟩ | ⟨_ | f, _ | od⟩ | (_ | f) | _ | _ | _ | _ <;> try exact hc.elim
    · simp only [drv, step, if_neg h1, Call.Does, view, bclr_same]
      simp [roleOf]
    · simp only [drv, step, if_neg h1, Call.Does, view, bset_same p _ hp]
      simp [roleOf]
    · simp only [drv, step, if_neg h1, Call.Does, view, upd_same]
      exact ⟨trivial, rfl⟩
  · intro c p q r _ hq
    by_cases h1 : 8 ≤ p
    · rcases c with _ | ⟨_ | f, _ | (_ | _ | _ | _)⟩ | ⟨_ | f, _ | od⟩ | (_ | f) | _ | _ | _ | _ <;> simp only [drv, step, if_pos h1]
    · rcases c with _ | ⟨_ | f, _ | (_ | _ | _ | _)⟩ | ⟨_ | f, _ | od⟩ | (_ | f) | _ | _ | _ | _ <;> simp only [drv, step, if_neg h1] <;> simp only [view, bset_ne _ _ _ hq, bclr_ne _ _ _ hq, upd_ne _ _ _ _ hq]
  · intro c p r h
    by_cases h1 : 8 ≤ p
    · rcases c with _ | ⟨_ | f, _ | (_ | _ | _ | _)⟩ | ⟨_ | f, _ | od⟩ | (_ | f) | _ | _ | _ | _ <;> simp only [drv, step, if_pos h1]
    · have h := h.resolve_left h1
      rcases c with _ | ⟨_ | f, _ | (_ | _ | _ | _)⟩ | ⟨_ | f, _ | od⟩ | (_ | f) | _ | _ | _ | _ <;> first
        | exact absurd trivial h
        | rfl

/-- **C94, tinyavr**: pulls are kept -/
theorem keeps : drv.KeepsRest 8 Has := by
  intro c p r hp hc
  have h1 : ¬ 8 ≤ p := by omega
  rcases c with _ | ⟨_ | f, _ | (_ | _ | _ | _)⟩ | ⟨_ | f, _ | od⟩ | (_ | f) | _ | _ | _ | _ <;> try exact hc.elim
  all_goals
    simp only [drv, step, if_neg h1, Call.Keeps, view]
    try simp

/-- mux_tinyavr_select_alt_pin sets the bit of the peripheral and no other, for the peripherals of the enumeration -/
theorem alt_does (alt : Nat) (r : Tiny) (h : alt ∈ [0, 1, 2, 4, 5, 0x10, 0x12, 0x20, 0x21, 0x22, 0x23, 0x24, 0x25, 0x30]) :
    (selectAlt alt r).1 = 0 ∧ ((selectAlt alt r).2.portmux (alt / 16)).getLsbD (alt % 16) = true ∧
    ∀ i j, (i, j) ≠ (alt / 16, alt % 16) → ((selectAlt alt r).2.portmux i).getLsbD j = (r.portmux i).getLsbD j := by
  have h1 : ¬ 0x31 ≤ alt ∧ alt % 16 < 8 := by
    simp only [List.mem_cons, List.not_mem_nil, or_false] at h
    omega
  simp only [selectAlt, if_neg h1.1, upd_same]
  refine ⟨trivial, bset_same _ _ h1.2, ?_⟩
  intro i j hij
  by_cases hi : i = alt / 16
  · subst hi
    rw [upd_same, bset_ne]
    rintro rfl
    exact hij rfl
  · rw [upd_ne _ _ _ _ hi]

end Tiny
end Pico.Mux
