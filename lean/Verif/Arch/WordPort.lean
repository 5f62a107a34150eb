import Verif.Arch.Ctx
import Verif.Arch.Word
/-
Ports of the word machine whose saved context is a frame of `n` bytes just below the stack pointer,
every visible register at a fixed offset: `Port.Sound` from the effect of the code, register by
register.
-/
namespace Pico.Ctx
variable {R Kind : Type} [DecidableEq R]

/-- the effect a frame-based port must have, register by register -/
structure FrameEff (p : Port (St R) W W (R → W) Kind) (ok : St R → Prop) (n : W) (vis : R → Bool) (spr : R)
    (off : R → W) : Prop where
  mem : p.mem = St.mem
  ctx : p.ctx = fun x r => if vis r = true then x.reg r else 0
  frame : p.frame = fun h a => (a - h).toNat < n.toNat
  off_lt : ∀ r, vis r = true → r ≠ spr → (off r).toNat < n.toNat
  resume_sp : ∀ k c, p.resume k c spr = c spr
  resume_hidden : ∀ k c r, vis r = false → c r = 0 → p.resume k c r = 0
  vis_sp : vis spr = true
  enter_arg : ∀ k s, ok s → p.arg (p.enter k s) = s.reg spr - n
  enter_cell : ∀ k s r, ok s → vis r = true → r ≠ spr →
    (∀ a, (a - (s.reg spr - n)).toNat < n.toNat → ¬ p.io a) →
    (p.enter k s).mem (s.reg spr - n + off r) = p.resume k (p.ctx s) r
  enter_out : ∀ k s a, ok s → ¬ (a - (s.reg spr - n)).toNat < n.toNat → ¬ p.io a → (p.enter k s).mem a = s.mem a
  enter_csp : ∀ k s, p.csp k (p.enter k s) = p.ksp s
  leave_sp : ∀ k e, p.cok k e → (p.leave k e).reg spr = p.ret e + n
  leave_reg : ∀ k e r, p.cok k e → vis r = true → r ≠ spr → (∀ a, (a - p.ret e).toNat < n.toNat → ¬ p.io a) →
    (p.leave k e).reg r = e.mem (p.ret e + off r)
  leave_mem : ∀ k e a, p.cok k e → ¬ p.io a → (p.leave k e).mem a = e.mem a
  leave_ksp : ∀ k e, p.cok k e → p.ksp (p.leave k e) = p.csp k e

/-- memory that holds, at the right offsets, the registers of a context holds that context -/
theorem FrameEff.holds {p : Port (St R) W W (R → W) Kind} {ok : St R → Prop} {n : W} {vis : R → Bool} {spr : R}
    {off : R → W} (F : FrameEff p ok n vis spr off) (h : W) (c : R → W) (m : St R)
    (hio : ∀ a, (a - h).toNat < n.toNat → ¬ p.io a) (hsp : c spr = h + n)
    (hcl : ∀ r, vis r = true → r ≠ spr → m.mem (h + off r) = c r) (hh : ∀ r, vis r = false → c r = 0) :
    p.Holds h c m := by
  refine ⟨by rw [F.frame]; exact hio, fun k e hc hr hm => ?_⟩
  rw [F.frame, F.mem] at hm
  rw [F.ctx]
  funext r
  simp only []
  by_cases hv : vis r = true
  · rw [if_pos hv]
    by_cases h1 : r = spr
    · rw [h1, F.leave_sp k e hc, hr, hsp]
    · have := F.off_lt r hv h1
      rw [F.leave_reg k e r hc hv h1 (by rw [hr]; exact hio), hr, hm _ (by show (h + off r - h).toNat < n.toNat; rwa [show h + off r - h = off r by grind]),
        hcl r hv h1]
  · rw [if_neg hv, hh r (by simpa using hv)]

theorem FrameEff.sound {p : Port (St R) W W (R → W) Kind} {ok : St R → Prop} {n : W} {vis : R → Bool} {spr : R}
    {off : R → W} (F : FrameEff p ok n vis spr off) : p.Sound ok where
  restores := fun k s hok hio => by
    rw [F.frame, F.enter_arg k s hok] at hio
    rw [F.enter_arg k s hok]
    refine F.holds _ _ _ hio ?_ (fun r hv hr => F.enter_cell k s r hok hv hr hio) fun r hv => ?_
    · rw [F.resume_sp, F.ctx]; simp only [if_pos F.vis_sp]; grind
    · refine F.resume_hidden k _ r hv ?_
      rw [F.ctx]; simp [hv]
  saves_only_frame := fun k s a hok hf hio => by
    rw [F.frame, F.enter_arg k s hok] at hf
    rw [F.mem]
    exact F.enter_out k s a hok hf hio
  leaves_memory := fun k e a hc ha => by rw [F.mem]; exact F.leave_mem k e a hc ha
  kernel_stack := ⟨fun k s _ => F.enter_csp k s, F.leave_ksp⟩

end Pico.Ctx
