import Verif.Drivers.AdcProps
import Verif.Drivers.AdcSetupProps
/-
Additions to C86 and C88 found by seeded errors: a result waits for its own object (n76e003, ch552), and the channels preselected stay preselected (stm32h7xx).
-/
namespace Pico.Adc

/-- reads by other objects leave a finished conversion where it is -/
theorem n76_idle (i : Nat) (os : List Nat) (ho : ∀ j ∈ os, j ≠ i) : ∀ w : W One, w.s.flag = true → w.s.chan = i →
    run n76 w (os.map .read) = ⟨w.now + os.length, w.s, w.out⟩ := by
  induction os with
  | nil => intro w _ _; rfl
  | cons j os ih =>
    intro w hf hc
    have hj : i ≠ j := fun h => ho j List.mem_cons_self h.symm
    have h1 : n76 w.now (.read j) w.s = (w.s, none) := by
      show (if w.s.flag then (if w.s.chan ≠ j then (w.s, none) else _) else _) = _
      rw [if_pos hf, if_pos (by rw [hc]; exact hj)]
    show run n76 (ev n76 w (.read j)) (os.map .read) = _
    rw [ev_none n76 w j w.s h1, ih (fun k hk => ho k (List.mem_cons_of_mem _ hk)) ⟨w.now + 1, w.s, w.out⟩ hf hc]
    show (⟨w.now + 1 + os.length, w.s, w.out⟩ : W One) = ⟨w.now + (os.length + 1), w.s, w.out⟩
    rw [Nat.add_assoc, Nat.add_comm 1]

/-- **C86, n76e003, ch552**: the conversion asked by an object is kept for it, whoever else reads meanwhile and however often, and its next read gets it -/
theorem n76_kept (i c : Nat) (os : List Nat) (ho : ∀ j ∈ os, j ≠ i) (w : W One) (h1 : w.s.conv = none) (h2 : w.s.flag = false) :
    (run n76 w ([.read i, .hw c] ++ os.map .read ++ [.read i])).out = w.out ++ [⟨i, w.now + 2 + os.length, ⟨i, w.now + 1⟩⟩] := by
  rw [run_append, run_append]
  have e1 : run n76 w [.read i, .hw c] = ⟨w.now + 2, { w.s with conv := none, flag := true, res := ⟨i, w.now + 1⟩, chan := i }, w.out⟩ := by
    have h : n76 w.now (.read i) w.s = ({ begin1 i w.s with chan := i }, none) := by
      show (if w.s.flag then (if w.s.chan ≠ i then (w.s, none) else _) else _) = _
      rw [h2]; rfl
    show run n76 (ev n76 w (.read i)) [.hw c] = _
    rw [ev_none n76 w i _ h]
    simp [run, ev, n76, hw1, begin1, h1]
  rw [e1, n76_idle i os ho _ rfl rfl]
  simp [run, ev, n76]

example : (run n76 (start one0) ([.read 3, .hw 0] ++ [1, 2, 1].map .read ++ [.read 3])).out = [⟨3, 6, ⟨3, 2⟩⟩] := by decide

end Pico.Adc

namespace Pico.AdcSetup
open Pico Field

theorem stm_pcsel_step (s s' : Stm) (ch : Nat) (h : stmInit s ch = some s') (i : Nat) (hi : i < 32) :
    s'.pcsel.getLsbD i = (s.pcsel.getLsbD i || decide (i = ch)) := by
  unfold stmInit at h
  by_cases hc : ch < 20
  · rw [if_pos hc] at h
    cases hs : stmSlot s.count with
    | none => rw [hs] at h; cases h
    | some p =>
      rw [hs] at h
      simp only [Option.map_some, Option.some.injEq] at h
      rw [← h]
      show (s.pcsel ||| ((1 : BitVec 32) <<< ch)).getLsbD i = _
      rw [BitVec.getLsbD_or]
      congr 1
      exact one_bit 32 ch i hi
  · rw [if_neg hc] at h; cases h

/-- **C88, stm32h7xx**: after any sequence of initialisations the channels preselected are exactly those of the objects (and those that were before) -/
theorem stm_pcsel (l : List Nat) : ∀ (s s' : Stm), stmInits l s = some s' → ∀ i, i < 32 →
    (s'.pcsel.getLsbD i = true ↔ s.pcsel.getLsbD i = true ∨ i ∈ l) := by
  induction l with
  | nil => intro s s' h i hi; simp only [stmInits, Option.some.injEq] at h; rw [h]; simp
  | cons c l ih =>
    intro s s' h i hi
    simp only [stmInits] at h
    cases h1 : stmInit s c with
    | none => rw [h1] at h; cases h
    | some s1 =>
      rw [h1] at h
      rw [ih s1 s' h i hi, stm_pcsel_step s s1 c h1 i hi]
      simp only [Bool.or_eq_true, decide_eq_true_eq, List.mem_cons]
      exact or_assoc

example : (stmInits [3, 7] stm0).map (·.pcsel) = some 0x88#32 := by decide

end Pico.AdcSetup
