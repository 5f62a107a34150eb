/-!
# Result monad and small helpers shared by all models

`Res` is the outcome of a modelled C function:
* `ok a`   – the function returned `a`;
* `fatal`  – the function called `picoRTOS_fatal()` (scheduler/picoRTOS.c:433-438), which suspends the
  scheduling and loops forever: the system has stalled;
* `ub`     – undefined behaviour of C: an access outside an array or a division by zero.
-/

namespace Pico

/-- Outcome of a modelled C function. -/
inductive Res (α : Type) where
  | ok (a : α)
  | fatal
  | ub
deriving DecidableEq, Repr

namespace Res

/-- Sequencing: stop at the first stall or undefined behaviour. -/
def bind {α β : Type} (x : Res α) (f : α → Res β) : Res β :=
  match x with
  | ok a => f a
  | fatal => fatal
  | ub => ub

instance : Monad Res where
  pure := Res.ok
  bind := Res.bind

@[simp] theorem ok_bind {α β : Type} (a : α) (f : α → Res β) : (Res.ok a >>= f) = f a := rfl
@[simp] theorem fatal_bind {α β : Type} (f : α → Res β) : ((Res.fatal : Res α) >>= f) = Res.fatal := rfl
@[simp] theorem ub_bind {α β : Type} (f : α → Res β) : ((Res.ub : Res α) >>= f) = Res.ub := rfl
@[simp] theorem pure_eq {α : Type} (a : α) : (pure a : Res α) = Res.ok a := rfl

theorem bind_eq_ok {α β : Type} {x : Res α} {f : α → Res β} {b : β}
    (h : (x >>= f) = Res.ok b) : ∃ a, x = Res.ok a ∧ f a = Res.ok b := by
  cases x with
  | ok a => exact ⟨a, rfl, h⟩
  | fatal => cases h
  | ub => cases h

end Res

/-- `picoRTOS_assert_fatal(x, …)` / `picoRTOS_assert_void_fatal(x)` (picoRTOS.h): continue if `x`
holds, stall otherwise. -/
def assertFatal (x : Bool) : Res Unit := if x then Res.ok () else Res.fatal

@[simp] theorem assertFatal_true : assertFatal true = Res.ok () := rfl
@[simp] theorem assertFatal_false : assertFatal false = Res.fatal := rfl

theorem assertFatal_ok {x : Bool} {u : Unit} (h : assertFatal x = Res.ok u) : x = true := by
  cases x
  · cases h
  · rfl

/-- Array update on a table represented as a function (bounds are checked by the callers). -/
def upd {α : Type} (f : Nat → α) (i : Nat) (v : α) : Nat → α := fun j => if j = i then v else f j

@[simp] theorem upd_same {α : Type} (f : Nat → α) (i : Nat) (v : α) : upd f i v i = v := by
  simp [upd]

@[simp] theorem upd_ne {α : Type} (f : Nat → α) {i j : Nat} (v : α) (h : j ≠ i) :
    upd f i v j = f j := by
  simp [upd, h]

theorem upd_apply {α : Type} (f : Nat → α) (i : Nat) (v : α) (j : Nat) :
    upd f i v j = if j = i then v else f j := rfl

end Pico
