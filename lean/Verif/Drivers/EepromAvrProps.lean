import Verif.Drivers.EepromAvr
/-
C77: the EEPROM of the AVR
-/
namespace Pico.EepromAvr

/-- contents once the programming under way is over -/
def eventual (s : St) : Nat → Byte := (fin s).mem

theorem eventual_none {s : St} (h : s.prog = none) : eventual s = s.mem := by unfold eventual fin; rw [h]

theorem run_inv {lock : Bool} {c : Cl} (h : Run lock c) : eventual c.st = c.want ∧ c.wrong = false := by
  induction h with
  | start m a b => exact ⟨rfl, rfl⟩
  | @step c e _ hg ih =>
    obtain ⟨i1, i2⟩ := ih
    cases e with
    | fin =>
      refine ⟨?_, i2⟩
      show eventual (fin c.st) = c.want
      rw [← i1]
      unfold eventual fin
      cases hp : c.st.prog <;> simp [hp]
    | read a n =>
      simp only [step, read]
      by_cases h1 : a ≥ count ∨ n = 0
      · rw [if_pos h1]; exact ⟨i1, i2⟩
      · rw [if_neg h1]
        cases hp : c.st.prog with
        | some p => simp only [Option.isSome_some, if_true]; exact ⟨i1, i2⟩
        | none =>
          rw [eventual_none hp] at i1
          simp only [Option.isSome_none, Bool.false_eq_true, if_false, setAddr, hp, i1]
          exact ⟨eventual_none rfl, by simp [i2]⟩
    | erase spm irq a n =>
      obtain ⟨g1, g2⟩ := hg
      subst g1
      simp only [step, erase]
      by_cases h1 : a ≥ count ∨ n = 0
      · rw [if_pos h1]; exact ⟨i1, i2⟩
      · rw [if_neg h1]
        cases hp : c.st.prog with
        | some p =>
          rcases g2 with g2 | g2
          · rw [hp] at g2; cases g2
          · subst g2; simp only [Option.isSome_some, Bool.and_self, if_true]; exact ⟨i1, i2⟩
        | none =>
          rw [eventual_none hp] at i1
          simp only [Option.isSome_none, Bool.false_and, Bool.false_eq_true, if_false, setAddr, hp, trigger, Bool.or_self, if_true]
          refine ⟨?_, i2⟩
          simp only [eventual, fin, i1]
          rfl
    | write spm irq a b n =>
      obtain ⟨g1, g2⟩ := hg
      subst g1
      simp only [step, write]
      by_cases h1 : a ≥ count ∨ n = 0
      · rw [if_pos h1]; exact ⟨i1, i2⟩
      · rw [if_neg h1]
        cases hp : c.st.prog with
        | some p =>
          rcases g2 with g2 | g2 | ⟨g2, g3⟩
          · rw [hp] at g2; cases g2
          · subst g2; simp only [Option.isSome_some, Bool.and_self, if_true]; exact ⟨i1, i2⟩
          · subst g2
            cases spm
            · simp only [Option.isSome_some, Bool.and_false, Bool.false_eq_true, if_false, setAddr, hp, setData, Bool.and_self, if_true]
              rw [if_pos g3]; exact ⟨i1, i2⟩
            · simp only [Option.isSome_some, Bool.and_self, if_true]; exact ⟨i1, i2⟩
        | none =>
          rw [eventual_none hp] at i1
          simp only [Option.isSome_none, Bool.false_and, Bool.false_eq_true, if_false, setAddr, hp, setData, trigger, Bool.or_self, ne_eq, not_true, if_false]
          refine ⟨?_, i2⟩
          simp only [eventual, fin, i1]
          rfl

/-- **C77 (partial), drivers/eeprom/eeprom-avr.c**: when the calls made while a byte is being programmed are refused and no interrupt separates the two writes of EECR, the
EEPROM holds what the calls said was written, once programming is over, and what is read is what was written.
Missing: calls while a byte is being programmed (`avr_lost`, `avr_erase_lost`), interrupts (`avr_irq_lost`). -/
theorem avr_eeprom_partial {lock : Bool} {c : Cl} (h : Run lock c) : (fin c.st).mem = c.want ∧ c.wrong = false := run_inv h

/-- a read never returns anything else than the contents, and is refused while a byte is being programmed, whatever the history -/
theorem avr_read {a n : Nat} {s : St} {v : Byte} (h : (read a n s).2 = .ok v) : v = s.mem a ∧ s.prog = none ∧ a < 4096 := by
  unfold read at h
  by_cases h1 : a ≥ count ∨ n = 0
  · rw [if_pos h1] at h; cases h
  · rw [if_neg h1] at h
    cases hp : s.prog with
    | some p => simp [hp] at h
    | none =>
      simp only [hp, Option.isSome_none, Bool.false_eq_true, if_false, setAddr] at h
      injection h with h
      exact ⟨h.symm, rfl, by have hc : count = 4096 := rfl; omega⟩

/-- **lost write**: the same byte written at two addresses, the second call while the first byte is being programmed: `&&` instead of `||` lets it go on, both calls return 1,
the second byte never gets to the EEPROM (whether EEDR can be changed or not) -/
theorem avr_lost {lock : Bool} {a a' n : Nat} {b : Byte} {s : St} (ha : a < count) (ha' : a' < count) (hn : 0 < n) (hp : s.prog = none) (hne : a' ≠ a) :
    let r1 := write lock false false a b n s
    let r2 := write lock false false a' b n r1.1
    r1.2 = .ok b ∧ r2.2 = .ok b ∧ (fin r2.1).mem a' = s.mem a' ∧ (fin r2.1).prog = none := by
  have h1 : ¬ (a ≥ count ∨ n = 0) := by omega
  have h2 : ¬ (a' ≥ count ∨ n = 0) := by omega
  cases lock <;> simp [write, h1, h2, hp, setAddr, setData, trigger, fin, hne]

/-- the same for any other byte if EEDR can be changed during programming -/
theorem avr_lost_any {a a' n : Nat} {b b' : Byte} {s : St} (ha : a < count) (ha' : a' < count) (hn : 0 < n) (hp : s.prog = none) (hne : a' ≠ a) :
    let r1 := write false false false a b n s
    let r2 := write false false false a' b' n r1.1
    r1.2 = .ok b ∧ r2.2 = .ok b' ∧ (fin r2.1).mem a' = s.mem a' ∧ (fin r2.1).prog = none := by
  have h1 : ¬ (a ≥ count ∨ n = 0) := by omega
  have h2 : ¬ (a' ≥ count ∨ n = 0) := by omega
  simp [write, h1, h2, hp, setAddr, setData, trigger, fin, hne]

/-- an erase called while a byte is being programmed returns 1 and does nothing -/
theorem avr_erase_lost {a n : Nat} {s : St} {p : Nat × Byte} (ha : a < count) (hn : 0 < n) (hp : s.prog = some p) :
    erase false false a n s = (s, .ok 0xff) := by
  have h1 : ¬ (a ≥ count ∨ n = 0) := by omega
  simp [erase, h1, hp, setAddr, trigger]

/-- an interrupt between the two writes of EECR (a tick): the call returns 1, nothing is ever written -/
theorem avr_irq_lost {lock : Bool} {a n : Nat} {b : Byte} {s : St} (ha : a < count) (hn : 0 < n) (hp : s.prog = none) :
    let r := write lock false true a b n s
    r.2 = .ok b ∧ r.1.prog = none ∧ r.1.mem = s.mem := by
  have h1 : ¬ (a ≥ count ∨ n = 0) := by omega
  cases lock <;> simp [write, h1, hp, setAddr, setData, trigger]

/-! ### Non-vacuity -/

example : ∃ c, Run true c ∧ c.st.mem 3 = 5 ∧ c.st.mem 4 = 6 ∧ c.want 3 = 5 ∧ c.st.prog = none :=
  ⟨_, .step .fin (.step (.write false false 4 6 1) (.step (.read 3 1) (.step .fin (.step (.write false false 4 6 1)
    (.step (.write false false 3 5 1) (.start (fun _ => 0xff) 0 0) ⟨rfl, Or.inl rfl⟩) ⟨rfl, Or.inr (Or.inr ⟨rfl, by decide⟩)⟩) trivial) trivial)
    ⟨rfl, Or.inl rfl⟩) trivial, by decide, by decide, by decide, rfl⟩

end Pico.EepromAvr
