import Verif.Drivers.FifoProps
/-
The driver fifo used by a task on one side and an interrupt routine on the other (drivers/include/fifo.h), as a list.
-/
namespace Pico.Drv

open Pico.Fifo (Cfg ix ix_next ix_inj ix_toNat size_pos)

/-- fifo_head and its array -/
structure Q (c : Cfg) (V : Type) where
  r : BitVec c.sw
  w : BitVec c.sw
  buf : Nat → V

variable {c : Cfg} {V : Type}

/-- fifo_head_init, fifo.h:22-26 -/
def Q.init (c : Cfg) (old : Nat → V) : Q c V := { r := c.m, w := 0, buf := old }
/-- fifo_head_is_writable, fifo.h:28-29 -/
def Q.writable (q : Q c V) : Bool := (q.w + 1) &&& c.m ≠ q.r
/-- `buf[w] = v`, then fifo_head_push, fifo.h:30-31 -/
def Q.put (v : V) (q : Q c V) : Q c V := { q with buf := upd q.buf q.w.toNat v, w := (q.w + 1) &&& c.m }
/-- fifo_head_is_readable, fifo.h:32-33 -/
def Q.readable (q : Q c V) : Bool := (q.r + 1) &&& c.m ≠ q.w
/-- fifo_head_pop, fifo.h:34-35 -/
def Q.pop (q : Q c V) : Q c V := { q with r := (q.r + 1) &&& c.m }
/-- `buf[r]`, read after fifo_head_pop -/
def Q.last (q : Q c V) : V := q.buf q.r.toNat

/-- The fifo holds the values `l`, oldest first. -/
def Holds (q : Q c V) (l : List V) : Prop :=
  ∃ P, q.r = ix c (P + c.size - 1) ∧ q.w = ix c (P + l.length) ∧ l.length ≤ c.size - 2 ∧ ∀ k, k < l.length → l[k]? = some (q.buf ((P + k) % c.size))

theorem holds_init (old : Nat → V) : Holds (Q.init c old) [] := by
  refine ⟨0, ?_, by simp [Q.init, Ring.ix], Nat.zero_le _, fun k h => absurd h (by simp)⟩
  simp only [Q.init, ix, Ring.ix]
  rw [Nat.mod_eq_of_lt (by have := size_pos c; omega)]
  simp [Cfg.size]

theorem holds_length {q : Q c V} {l : List V} (h : Holds q l) : l.length ≤ c.size - 2 := by
  obtain ⟨_, _, _, h, _⟩ := h; exact h

theorem writable_iff (hc : c.ok) {q : Q c V} {l : List V} (h : Holds q l) : q.writable = true ↔ l.length < c.size - 2 := by
  obtain ⟨P, h1, h2, h3, _⟩ := h
  have hpos := size_pos c
  unfold Q.writable
  rw [decide_eq_true_iff, h2, ix_next hc, h1, ne_eq, ix_inj hc, Ring.full_iff hpos (by omega) (by omega)]
  omega

theorem readable_iff (hc : c.ok) {q : Q c V} {l : List V} (h : Holds q l) : q.readable = true ↔ l ≠ [] := by
  obtain ⟨P, h1, h2, h3, _⟩ := h
  have hpos := size_pos c
  unfold Q.readable
  rw [decide_eq_true_iff, h1, ix_next hc, show P + c.size - 1 + 1 = P + c.size by omega, h2, ne_eq, ix_inj hc,
    Ring.empty_iff (by omega) (by omega)]
  constructor
  · intro h e; rw [e] at h; exact h (by simp)
  · intro h e; exact h (List.eq_nil_of_length_eq_zero (by omega))

theorem holds_put (hc : c.ok) {q : Q c V} {l : List V} (h : Holds q l) (hl : l.length < c.size - 2) (v : V) : Holds (q.put v) (l ++ [v]) := by
  obtain ⟨P, h1, h2, h3, h4⟩ := h
  have hw : q.w.toNat = (P + l.length) % c.size := by rw [h2, ix_toNat hc]
  refine ⟨P, h1, ?_, by simp; omega, fun k hk => ?_⟩
  · show (q.w + 1) &&& c.m = _
    rw [h2, ix_next hc, List.length_append]; rfl
  · show _ = some (upd q.buf q.w.toNat v ((P + k) % c.size))
    rw [List.length_append, List.length_singleton] at hk
    rcases Nat.lt_or_ge k l.length with hk2 | hk2
    · rw [List.getElem?_append_left hk2, h4 k hk2, upd_ne]
      rw [hw]; exact Fifo.mod_ne (by omega) (by omega)
    · have : k = l.length := by omega
      subst this
      rw [List.getElem?_append_right (Nat.le_refl _), ← hw, upd_same]; simp

theorem holds_pop (hc : c.ok) {q : Q c V} {v : V} {l : List V} (h : Holds q (v :: l)) : Holds q.pop l ∧ q.pop.last = v := by
  obtain ⟨P, h1, h2, h3, h4⟩ := h
  have hpos := size_pos c
  have hr : q.pop.r = ix c (P + 1 + c.size - 1) := by
    show (q.r + 1) &&& c.m = _
    rw [h1, ix_next hc]; congr 1; omega
  rw [List.length_cons] at h2 h3
  refine ⟨⟨P + 1, hr, ?_, by omega, fun k hk => ?_⟩, ?_⟩
  · show q.w = _
    rw [h2]; congr 1; omega
  · have := h4 (k + 1) (by rw [List.length_cons]; omega)
    rw [List.getElem?_cons_succ] at this
    rw [this]
    show some (q.buf ((P + (k + 1)) % c.size)) = some (q.buf ((P + 1 + k) % c.size))
    rw [show P + (k + 1) = P + 1 + k by omega]
  · have := h4 0 (by rw [List.length_cons]; omega)
    rw [List.getElem?_cons_zero] at this
    show q.buf q.pop.r.toNat = v
    rw [hr, ix_toNat hc, show P + 1 + c.size - 1 = P + c.size by omega, Nat.add_mod_right]
    injection this with this
    exact this.symm

/-- the element just popped is still there after a push -/
theorem last_put (hc : c.ok) {q : Q c V} {l : List V} (h : Holds q l) (hl : l.length < c.size - 2) (v : V) : (q.put v).last = q.last := by
  obtain ⟨P, h1, h2, h3, h4⟩ := h
  have hw : q.w.toNat = (P + l.length) % c.size := by rw [h2, ix_toNat hc]
  have hr : q.r.toNat = (P + c.size - 1) % c.size := by rw [h1, ix_toNat hc]
  show upd q.buf q.w.toNat v q.r.toNat = q.buf q.r.toNat
  rw [upd_ne]
  rw [hr, hw]
  exact (Fifo.mod_ne (by omega) (by omega)).symm

/-- neither index leaves the array -/
theorem holds_bounds (hc : c.ok) {q : Q c V} {l : List V} (h : Holds q l) : q.r.toNat < c.size ∧ q.w.toNat < c.size := by
  obtain ⟨P, h1, h2, _⟩ := h
  have hpos := size_pos c
  exact ⟨by rw [h1, ix_toNat hc]; exact Nat.mod_lt _ hpos, by rw [h2, ix_toNat hc]; exact Nat.mod_lt _ hpos⟩

end Pico.Drv
