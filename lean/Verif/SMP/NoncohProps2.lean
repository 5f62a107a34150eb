import Verif.SMP.NoncohProps
/-! C107, continued: where it lags, and why the caches have to be write-through. -/
namespace Pico.Noncoh
open Pico.Cache

/-- two cores, three tasks, lines of 32 bytes; the structure is line 1, the stack of task `t` lines 2 t + 2
and 2 t + 3 -/
abbrev demoLay : Lay := ⟨2, 3, 5, fun t => 2 * t.val + 2, fun t => 2 * t.val + 4, 1, 2⟩

theorem demo_wf : demoLay.WF where
  k32 := by decide
  stacks := fun t u a h h1 h2 => by
    have h1' : 2 * t.val + 2 ≤ num 5 a ∧ num 5 a < 2 * t.val + 4 := h1
    have h2' : 2 * u.val + 2 ≤ num 5 a ∧ num 5 a < 2 * u.val + 4 := h2
    exact h (Fin.ext (by omega))
  apart := fun t a h1 h2 => by
    have h1' : 2 * t.val + 2 ≤ num 5 a ∧ num 5 a < 2 * t.val + 4 := h1
    have h2' : 1 ≤ num 5 a ∧ num 5 a < 2 := h2
    omega
  low := fun t => by show 1 ≤ 2 * t.val + 2; omega
  high := fun t => by have := t.isLt; show (2 * t.val + 4) * 32 ≤ 4294967296; change t.val < 3 at this; omega
  plow := by decide
  pne := by decide
  phigh := by decide

/-- core `c` runs task `c`; all stack pointers at the upper line of the stacks; memory all 0 -/
def demo0 : Sys demoLay where
  m := ⟨fun _ => 0#8, fun _ _ => none⟩
  lock := none
  cur := fun c => ⟨c.val, Nat.lt_succ_of_lt c.isLt⟩
  sp := fun t => 64 * t.val + 96
  ideal := fun _ => 0#8
  live := fun c a => 64 * c.val + 96 ≤ a ∧ a < (2 * c.val + 4) * 32
  since := fun _ g => g = fun _ => 0#8

theorem demo_init : Init demoLay demo0 where
  empty := fun _ _ => rfl
  mem := rfl
  lock := rfl
  cur := fun c c' h e => h (Fin.ext (Fin.mk.inj e))
  sp := fun t => by
    show 2 * t.val + 2 ≤ (64 * t.val + 96) / 32 ∧ (64 * t.val + 96) / 32 < 2 * t.val + 4
    omega
  live := fun _ _ => Iff.rfl
  since := fun _ _ => Iff.rfl

def c0 : Fin demoLay.K := ⟨0, by decide⟩
def c1 : Fin demoLay.K := ⟨1, by decide⟩
def t0 : Fin demoLay.T := ⟨0, by decide⟩
def t2 : Fin demoLay.T := ⟨2, by decide⟩

/-- core 1 has the line of the structure in its cache; core 0 is in a pass and has stored 1 -/
def d1 : Sys demoLay := { demo0 with m := demo0.m.fill c1 1 }
def d3 (wb : Bool) : Sys demoLay := (d1.entered demoLay c0).stored wb demoLay c0 40 1#8

theorem sched40 : demoLay.sched 40 := ⟨by decide, by decide⟩

theorem d3_reach (wb : Bool) : Reach wb demoLay (d3 wb) :=
  .step _ _ (.step _ _ (.step demo0 d1 (.init _ demo_init) (.fill _ c1 1)) (.enter _ c0 rfl)) (.kstore _ c0 40 1#8 rfl sched40)

/-- What a core reads outside of a pass need not be current: core 0 advanced the tick in its pass, core 1 still
reads the old one (picoRTOS_get_tick).  The pass is over, no core is in the scheduler. -/
theorem outside_not_current : ∃ (y : Lay) (s : Sys y) (c : Fin y.K) (a : Nat), y.WF ∧ Reach false y s ∧ s.lock = none ∧
    y.sched a ∧ s.m.load y.k c a ≠ s.ideal a := by
  refine ⟨demoLay, (d3 false).left demoLay c0 t2, c1, 40, demo_wf,
    .step _ _ (d3_reach false) (.leave _ c0 t2 rfl ?_), rfl, sched40, ?_⟩
  · intro c' h e
    have h1 : c'.val = 2 := congrArg Fin.val e
    have h2 : c'.val < 2 := c'.isLt
    omega
  · decide +kernel

/-- task 0 on core 0 enters picoRTOS_sleep_until (its `sc` at 100), the pass writes `sc.ref` after the
flush, task 2 runs, then task 0 again, on the same core -/
def e3 (wb : Bool) : Sys demoLay := ((demo0.entered demoLay c0).saved demoLay c0 96).stored wb demoLay c0 100 1#8
def e6 (wb : Bool) : Sys demoLay := (((e3 wb).left demoLay c0 t2).entered demoLay c0).left demoLay c0 t0

theorem e6_reach (wb : Bool) : Reach wb demoLay (e6 wb) := by
  refine .step _ _ (.step _ _ (.step _ _ (.step _ _ (.step _ _ (.step _ _ (.init _ demo_init)
    (.enter _ c0 rfl)) (.save _ c0 96 rfl ?_)) (.late _ c0 100 1#8 rfl ?_))
    (.leave _ c0 t2 rfl ?_)) (.enter _ c0 rfl)) (.leave _ c0 t0 rfl ?_)
  · exact ⟨by decide, by decide⟩
  · exact ⟨by decide, by decide⟩
  · intro c' h e
    have h1 : c'.val = 2 := congrArg Fin.val e
    have h2 : c'.val < 2 := c'.isLt
    omega
  · intro c' h e
    have h3 : (if c' = c0 then t2 else (⟨c'.val, Nat.lt_succ_of_lt c'.isLt⟩ : Fin 3)) = t0 := e
    rw [if_neg h] at h3
    have h4 : c'.val = 0 := congrArg Fin.val h3
    exact h (Fin.ext h4)

theorem e6_live (wb : Bool) : (e6 wb).live c0 100 := by
  unfold e6 Sys.left
  simp only [if_pos]
  show (96 : Nat) ≤ 100 ∧ 100 < 4 * 2 ^ 5
  decide

/-- With write-back caches (which the ports do not set up) the same passes lose what picoRTOS_sleep_until was
given back: the byte written after the flush is dropped by the invalidation when the task is resumed,
even on the same core. -/
theorem writeback_loses : ∃ (y : Lay) (s : Sys y) (c : Fin y.K) (a : Nat), y.WF ∧ Reach true y s ∧ s.live c a ∧
    s.m.load y.k c a ≠ s.ideal a :=
  ⟨demoLay, e6 true, c0, 100, demo_wf, e6_reach true, e6_live true, (by decide +kernel)⟩

/-- the hypotheses of `stack_current` at the same place, written-through: the byte is 1 -/
example : demoLay.WF ∧ Reach false demoLay (e6 false) ∧ (e6 false).live c0 100 ∧ (e6 false).ideal 100 = 1#8 :=
  ⟨demo_wf, e6_reach false, e6_live false, (by decide +kernel)⟩

/-- the hypotheses of `sched_current`, in a pass that has written -/
example : Reach false demoLay (d3 false) ∧ (d3 false).lock = some c0 ∧ demoLay.sched 40 ∧ (d3 false).ideal 40 = 1#8 :=
  ⟨d3_reach false, rfl, sched40, (by decide +kernel)⟩

end Pico.Noncoh
