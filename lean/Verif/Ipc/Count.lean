import Verif.Basic

/-!
# Counting the tasks that satisfy a predicate
-/

namespace Pico.Count

/-- Number of `u < N` such that `p (f u)`. -/
def num {α : Type} (N : Nat) (p : α → Bool) (f : Nat → α) : Nat := (List.range N).countP (fun u => p (f u))

theorem num_upd {α : Type} (N : Nat) (p : α → Bool) (f : Nat → α) {t : Nat} (ht : t < N) (x : α) :
    num N p (upd f t x) + (if p (f t) then 1 else 0) = num N p f + (if p x then 1 else 0) := by
  unfold num
  induction N with
  | zero => omega
  | succ n ih =>
    rw [List.range_succ, List.countP_append, List.countP_append]
    simp only [List.countP_singleton]
    rcases Nat.lt_or_ge t n with h | h
    · have := ih h
      rw [upd_ne f x (by omega : n ≠ t)]
      omega
    · have : t = n := by omega
      subst this
      rw [upd_same]
      have : (List.range t).countP (fun u => p (upd f t x u)) = (List.range t).countP (fun u => p (f u)) := by
        apply List.countP_congr
        intro u hu
        rw [upd_ne f x (by have := List.mem_range.1 hu; omega)]
      rw [this]
      omega

/-- Two updates of the same kind. -/
theorem num_upd_same {α : Type} (N : Nat) (p : α → Bool) (f : Nat → α) {t : Nat} (ht : t < N) (x : α) (h : p x = p (f t)) :
    num N p (upd f t x) = num N p f := by
  have := num_upd N p f ht x
  rw [h] at this
  omega

theorem num_le_of_imp {α : Type} (N : Nat) {p q : α → Bool} (f : Nat → α) (h : ∀ u, u < N → p (f u) = true → q (f u) = true) : num N p f ≤ num N q f := by
  unfold num
  apply List.countP_mono_left
  intro u hu hp
  exact h u (List.mem_range.1 hu) hp

end Pico.Count
