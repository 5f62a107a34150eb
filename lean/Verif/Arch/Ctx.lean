import Verif.Arch.CtxSpec
/-
The generic half of "switching tasks is invisible to the tasks": a port that saves and restores one
context correctly (`Port.Sound`) does so for any number of tasks and any history of switches.
-/
namespace Pico.Ctx

variable {S A V Ctx Kind τ : Type}

theorem Port.Holds.mono {p : Port S A V Ctx Kind} {h : A} {c : Ctx} {m m' : S} (H : p.Holds h c m)
    (hk : ∀ a, p.frame h a → p.mem m' a = p.mem m a) : p.Holds h c m' :=
  ⟨H.1, fun k e hc hr hm => H.2 k e hc hr fun a ha => by rw [hm a ha, hk a ha]⟩

theorem Sys.Reach.holds [DecidableEq τ] {p : Port S A V Ctx Kind} {ok : S → Prop} (hp : p.Sound ok)
    {x : Sys S A Ctx τ} (hx : Sys.Reach p ok x) :
    ∀ t h c, x.parked t = some (h, c) → p.Holds h c x.m := by
  induction hx with
  | start x h => exact h
  | @step x x' _ hs ih =>
    cases hs with
    | run m' hk => exact fun t h c hp' => (ih t h c hp').mono fun a ha => hk t h c hp' a ha
    | switch k e n c _ hsw =>
      obtain ⟨fit, deep, cr, pick, ck, rfl⟩ := hsw
      intro t h c' ht
      simp only [] at ht
      split at ht
      · exact absurd ht (by simp)
      · have hH : p.Holds h c' (p.enter k x.m) := by
          by_cases htc : t = x.cur
          · simp only [Sys.trapped, htc, if_pos, Option.some.injEq, Prod.mk.injEq] at ht
            obtain ⟨rfl, rfl⟩ := ht
            exact hp.restores k x.m fit fun a ha => (deep a ha).1
          · have ht' := ht
            simp only [Sys.trapped, if_neg htc] at ht'
            refine (ih t h c' ht').mono fun a ha => ?_
            exact hp.saves_only_frame k x.m a fit (fun hf => (deep a hf).2 t h c' htc ht' ha) ((ih t h c' ht').1 a ha)
        refine hH.mono fun a ha => ?_
        rw [hp.leaves_memory k e a cr (hH.1 a ha)]
        exact ck t h c' ht a ha

/-- **Switching is invisible, for any number of tasks and any history**: whenever a task is brought
in, its registers, stack pointer and program counter are exactly those owed to it - those it had when
it was last taken out. -/
theorem switch_invisible [DecidableEq τ] {p : Port S A V Ctx Kind} {ok : S → Prop} (hp : p.Sound ok)
    {x x' : Sys S A Ctx τ} {k : Kind} {e : S} {n : τ} {c : Ctx} (hx : Sys.Reach p ok x)
    (hs : Switch p ok x k e n c x') : p.ctx x'.m = c := by
  obtain ⟨fit, deep, cr, ⟨h, hpk, hr⟩, ck, rfl⟩ := hs
  have hH : p.Holds h c (p.enter k x.m) := by
    by_cases htc : n = x.cur
    · simp only [Sys.trapped, htc, if_pos, Option.some.injEq, Prod.mk.injEq] at hpk
      obtain ⟨rfl, rfl⟩ := hpk
      exact hp.restores k x.m fit fun a ha => (deep a ha).1
    · have ht' := hpk
      simp only [Sys.trapped, if_neg htc] at ht'
      refine (hx.holds hp n h c ht').mono fun a ha => ?_
      exact hp.saves_only_frame k x.m a fit (fun hf => (deep a hf).2 n h c htc ht' ha) ((hx.holds hp n h c ht').1 a ha)
  exact hH.2 k e cr hr fun a ha => ck n h c hpk a ha

/-- **The hypotheses of `switch_invisible` are met** whenever two tasks have room for their contexts: a
task interrupted in state `s`, then another one in state `m` by a trap of kind `k`, and a scheduler
that ends in a state `e` giving back the first. -/
theorem switch_possible {p : Port S A V Ctx Kind} {ok : S → Prop} (hp : p.Sound ok)
    (k k' : Kind) (s m e : S) (hs : ok s) (hm : ok m)
    (hio : ∀ a, p.frame (p.arg (p.enter k s)) a → ¬ p.io a)
    (hm1 : ∀ a, p.frame (p.arg (p.enter k s)) a → p.mem m a = p.mem (p.enter k s) a)
    (hdj : ∀ a, p.frame (p.arg (p.enter k' m)) a → ¬ p.io a ∧ ¬ p.frame (p.arg (p.enter k s)) a)
    (hc : p.cok k' e) (hr : p.ret e = p.arg (p.enter k s)) (he : ∀ a, p.mem e a = p.mem (p.enter k' m) a) :
    ∃ x x' : Sys S A Ctx Bool, x.m = m ∧ Sys.Reach p ok x ∧ Switch p ok x k' e true (p.resume k (p.ctx s)) x' ∧
      x'.m = p.leave k' e ∧ p.ctx x'.m = p.resume k (p.ctx s) := by
  have hH := (hp.restores k s hs hio).mono hm1
  refine ⟨⟨false, m, fun t => if t = true then some (p.arg (p.enter k s), p.resume k (p.ctx s)) else none⟩,
    ⟨true, p.leave k' e, fun t => if t = true then none else Sys.trapped p k'
      ⟨false, m, fun t => if t = true then some (p.arg (p.enter k s), p.resume k (p.ctx s)) else none⟩ t⟩,
    rfl, ?_, ?_, rfl, ?_⟩
  · refine Sys.Reach.start _ fun t h c ht => ?_
    simp only [] at ht
    split at ht
    · simp only [Option.some.injEq, Prod.mk.injEq] at ht
      obtain ⟨rfl, rfl⟩ := ht
      exact hH
    · exact absurd ht (by simp)
  · refine ⟨hm, fun a ha => ⟨(hdj a ha).1, fun t h' c' ht ht' => ?_⟩, hc, ⟨_, rfl, hr⟩, fun t h c ht a ha => he a, rfl⟩
    simp only [] at ht'
    split at ht'
    · simp only [Option.some.injEq, Prod.mk.injEq] at ht'
      obtain ⟨rfl, rfl⟩ := ht'
      exact (hdj a ha).2
    · exact absurd ht' (by simp)
  · have h2 : p.Holds (p.arg (p.enter k s)) (p.resume k (p.ctx s)) (p.enter k' m) :=
      hH.mono fun a ha => hp.saves_only_frame k' m a hm (fun hf => (hdj a hf).2 ha) (hio a ha)
    exact h2.2 k' e hc hr fun a _ => he a

end Pico.Ctx
