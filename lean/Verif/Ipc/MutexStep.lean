import Verif.Ipc.MutexInv

/-!
# The ownership invariant is preserved by every step
-/

namespace Pico.Mtx

/-- What a step must guarantee to preserve the invariant. -/
structure StepOk (c : Cfg) (s s' : State c) (tr : List Ev) (t : Nat) : Prop where
  good : Good c s' tr t
  change : (s'.owner = s.owner ∧ s'.count = s.count) ∨
      ((s.owner = nobody c ∨ s.owner = self c t) ∧ (s'.owner = nobody c ∨ s'.owner = self c t))
  zero : s'.owner = nobody c → s'.count = 0

/-- A step that leaves the mutex words alone and emits no successful lock or unlock. -/
theorem StepOk.quiet {c : Cfg} {s s' : State c} {tr evs : List Ev} {t : Nat} (hg : Good c s tr t)
    (hz : s.owner = nobody c → s.count = 0)
    (h1 : locks evs t = 0) (h2 : unlocks evs t = 0) (ho : s'.owner = s.owner) (hc : s'.count = s.count)
    (hh : Own c s t (hold (depth tr t) (s.pc t)) → Tmp c (depth tr t) (s.pc t) →
      Own c s t (hold (depth tr t) (s'.pc t)) ∧ Tmp c (depth tr t) (s'.pc t)) :
    StepOk c s s' (tr ++ evs) t := by
  obtain ⟨e1, e2, e3⟩ := depth_quiet (tr := tr) h1 h2
  obtain ⟨g1, g2, g3, g4⟩ := hg
  obtain ⟨h3, h4⟩ := hh g3 g4
  refine ⟨⟨by omega, by omega, ?_, by rw [e1]; exact h4⟩, Or.inl ⟨ho, hc⟩, by rw [ho, hc]; exact hz⟩
  rw [e1]
  revert h3
  generalize hold (depth tr t) (s'.pc t) = x
  cases x <;> simp [Own, ho, hc]

theorem base_le (b : Nat) (k : Lk) : base b k ≤ b := by cases k <;> simp [base]

theorem owns?_none {n : Nat} : owns? n = none ↔ n = 0 := by unfold owns?; split <;> simp [*]

theorem owns?_pos {n : Nat} (h : 0 < n) : owns? n = some n := by unfold owns?; rw [if_neg (by omega)]

theorem own_owns?_zero {c : Cfg} {s : State c} {t n : Nat} (h : Own c s t (owns? n)) (ho : s.owner ≠ self c t) : n = 0 := by
  unfold owns? at h
  split at h
  · assumption
  · exact absurd h.1 ho

theorem own_owns?_pos {c : Cfg} {s : State c} {t n : Nat} (h : Own c s t (owns? n)) (ho : s.owner = self c t) :
    0 < n ∧ s.count = BitVec.ofNat c.sw n := by
  unfold owns? at h
  split at h
  · exact absurd ho h
  · exact ⟨by omega, h.2⟩

theorem stepOk {c : Cfg} (hw : c.WF) {s s' : State c} {tr evs : List Ev} {t : Nat} {a : Cmd} (hi : Inv c s tr)
    (hs : step c s t a = some (s', evs)) (hb : depth (tr ++ evs) t < 2 ^ c.sw) : StepOk c s s' (tr ++ evs) t := by
  obtain ⟨ht, hd, hcase⟩ := step_cases hs
  have hg := hi.good t ht
  have hz := hi.zero
  have hnb := self_ne_nobody hw ht
  rcases hcase with ⟨o, rfl, hp, rfl, rfl⟩ | ⟨spur, rfl, hp, h⟩
  · refine StepOk.quiet hg hz (by simp [locks]) (by simp [unlocks]) rfl rfl ?_
    rw [hp]
    intro h1 h2
    cases o <;> simp [entry, hold, Tmp, base, LkOk] <;> exact h1
  · unfold access at h
    cases hpc : s.pc t with
    | idle => exact absurd hpc hp
    | cas k =>
      simp only [hpc] at h
      split at h
      · rename_i hf
        cases h
        have hown := hg.own
        have htmp := hg.tmp
        rw [hpc] at hown htmp
        have hb0 := own_owns?_zero hown (by rw [hf.1]; exact hnb.symm)
        refine ⟨⟨by simpa using hg.le, by simpa using hg.lt, ?_, by simpa [Tmp] using htmp⟩, Or.inr ⟨Or.inl hf.1, Or.inr rfl⟩, ?_⟩
        · simp [hold, Own, hb0, hz hf.1]
        · intro h; exact absurd h hnb
      · cases h
        refine StepOk.quiet hg hz (by simp [locks]) (by simp [unlocks]) rfl rfl ?_
        rw [hpc]; simp [hold, Tmp]; exact fun a b => ⟨a, b⟩
    | chk k =>
      simp only [hpc] at h
      split at h
      · rename_i hf
        have hown := hg.own
        have htmp := hg.tmp
        rw [hpc] at hown htmp
        have hb0 := own_owns?_zero hown hf
        cases k with
        | tryTop =>
          cases h
          refine StepOk.quiet hg hz (by simp [locks]) (by simp [unlocks]) rfl rfl ?_
          rw [hpc]; simp [hold, Tmp, base]; exact fun a _ => a
        | lockTop l =>
          simp only [failed] at h
          simp only [Tmp, LkOk] at htmp
          split at h
          · cases h
            refine StepOk.quiet hg hz (by simp [locks]) (by simp [unlocks]) rfl rfl ?_
            rw [hpc]; simp [hold, Tmp, base, LkOk]; intro a _ _; simp [base] at hb0; exact ⟨a, by omega, by omega⟩
          · cases h
            refine StepOk.quiet hg hz (by simp [locks]) (by simp [unlocks]) rfl rfl ?_
            rw [die_pc, hpc]; exact fun a b => ⟨a, b⟩
        | lockWait l =>
          simp only [failed] at h
          simp only [Tmp, LkOk] at htmp
          split at h
          · cases h
            refine StepOk.quiet hg hz (by simp [locks]) (by simp [unlocks]) rfl rfl ?_
            rw [hpc]; simp [hold, Tmp, base, LkOk]; intro a _ _ _; simp [base] at hb0; exact ⟨a, by omega, by omega⟩
          · cases h
            refine StepOk.quiet hg hz (by simp [locks]) (by simp [unlocks]) rfl rfl ?_
            rw [die_pc, hpc]; exact fun a b => ⟨a, b⟩
      · rename_i hf
        cases h
        refine StepOk.quiet hg hz (by simp [locks]) (by simp [unlocks]) rfl rfl ?_
        rw [hpc]
        intro a b
        simp only [at_pc, upd_same, hold, Tmp]
        exact ⟨⟨by simpa using hf, (own_owns?_pos a (by simpa using hf)).2⟩, b⟩
    | rd k =>
      simp only [hpc] at h
      cases h
      refine StepOk.quiet hg hz (by simp [locks]) (by simp [unlocks]) rfl rfl ?_
      rw [hpc]
      intro a b
      simp only [at_pc, upd_same, hold, Tmp]
      exact ⟨a, b, a.2⟩
    | wr k v =>
      simp only [hpc] at h
      have hown := hg.own
      have htmp := hg.tmp
      rw [hpc] at hown htmp
      obtain ⟨hlk, hv⟩ := htmp
      simp only [hold, Own] at hown
      have hle := hg.le
      have hlt := hg.lt
      have hzz : ∀ b : BitVec c.sw, s.owner = nobody c → b = 0 := fun b h => absurd (hown.1.symm.trans h) hnb
      cases k with
      | tryTop =>
        cases h
        have e1 : locks [Ev.attempt t true, Ev.ret t Op.trylock true] t = 1 := by simp [locks, List.count_cons]
        have e2 : unlocks [Ev.attempt t true, Ev.ret t Op.trylock true] t = 0 := by simp [unlocks, List.count_cons]
        have e3 : depth (tr ++ [Ev.attempt t true, Ev.ret t Op.trylock true]) t = depth tr t + 1 := by
          simp only [depth, locks_append, unlocks_append, e1, e2]; omega
        refine ⟨⟨by simp only [locks_append, unlocks_append, e1, e2]; omega, hb, ?_, by simp [Tmp]⟩,
          Or.inr ⟨Or.inr hown.1, Or.inr hown.1⟩, fun h => hzz _ h⟩
        rw [e3]
        simp only [at_pc, upd_same, hold, owns?_pos (Nat.succ_pos _), Own, at_owner, at_count]
        exact ⟨hown.1, by rw [hv, ofNat_add_one]; rfl⟩
      | lockTop l =>
        simp only [succeeded] at h
        simp only [LkOk] at hlk
        rw [if_pos (by omega)] at h
        cases h
        have e1 : locks [Ev.attempt t true, Ev.ret t Op.lock true] t = 1 := by simp [locks, List.count_cons]
        have e2 : unlocks [Ev.attempt t true, Ev.ret t Op.lock true] t = 0 := by simp [unlocks, List.count_cons]
        have e3 : depth (tr ++ [Ev.attempt t true, Ev.ret t Op.lock true]) t = depth tr t + 1 := by
          simp only [depth, locks_append, unlocks_append, e1, e2]; omega
        refine ⟨⟨by simp only [locks_append, unlocks_append, e1, e2]; omega, hb, ?_, by simp [Tmp]⟩,
          Or.inr ⟨Or.inr hown.1, Or.inr hown.1⟩, fun h => hzz _ h⟩
        rw [e3]
        simp only [at_pc, upd_same, hold, owns?_pos (Nat.succ_pos _), Own, at_owner, at_count]
        exact ⟨hown.1, by rw [hv, ofNat_add_one]; rfl⟩
      | lockWait l =>
        simp only [succeeded] at h
        simp only [LkOk] at hlk
        rw [if_pos (by omega)] at h
        cases h
        have e1 : locks [Ev.attempt t true] t = 0 := by simp [locks, List.count_cons]
        have e2 : unlocks [Ev.attempt t true] t = 0 := by simp [unlocks, List.count_cons]
        obtain ⟨e3, e4, e5⟩ := depth_quiet (tr := tr) e1 e2
        refine ⟨⟨by omega, hb, ?_, by simp [Tmp]⟩, Or.inr ⟨Or.inr hown.1, Or.inr hown.1⟩, fun h => hzz _ h⟩
        rw [e3]
        simp only [at_pc, upd_same, hold, owns?_pos hlk.2.2, Own, at_owner, at_count]
        refine ⟨hown.1, ?_⟩
        rw [hv, ofNat_add_one]; simp only [base]; congr 1; omega
    | zz k =>
      simp only [hpc] at h
      cases h
      refine StepOk.quiet hg hz (by simp [locks]) (by simp [unlocks]) rfl rfl ?_
      rw [hpc]; simp only [at_pc, upd_same, hold, Tmp]; exact fun a b => ⟨a, b.1⟩
    | uOwner w =>
      simp only [hpc] at h
      split at h
      · rename_i hf
        cases h
        refine StepOk.quiet hg hz (by simp [locks]) (by simp [unlocks]) rfl rfl ?_
        rw [hpc]; simp only [at_pc, upd_same, hold, Tmp]; exact fun a b => ⟨a, (own_owns?_pos a hf).1⟩
      · cases h
        refine StepOk.quiet hg hz (by simp [locks]) (by simp [unlocks]) rfl rfl ?_
        rw [die_pc, hpc]; exact fun a b => ⟨a, b⟩
    | uCount w =>
      simp only [hpc] at h
      split at h
      · cases h
        refine StepOk.quiet hg hz (by simp [locks]) (by simp [unlocks]) rfl rfl ?_
        rw [hpc]; simp only [at_pc, upd_same, hold, Tmp]; exact fun a b => ⟨a, b⟩
      · cases h
        refine StepOk.quiet hg hz (by simp [locks]) (by simp [unlocks]) rfl rfl ?_
        rw [die_pc, hpc]; exact fun a b => ⟨a, b⟩
    | uRd w =>
      simp only [hpc] at h
      cases h
      refine StepOk.quiet hg hz (by simp [locks]) (by simp [unlocks]) rfl rfl ?_
      rw [hpc]
      intro a b
      simp only [Tmp] at b
      simp only [at_pc, upd_same, hold, Tmp]
      refine ⟨a, b, ?_⟩
      simp only [hold, owns?_pos b] at a
      exact a.2
    | uWr w v =>
      simp only [hpc] at h
      have hown := hg.own
      have htmp := hg.tmp
      rw [hpc] at hown htmp
      obtain ⟨hb0, hv⟩ := htmp
      simp only [hold, owns?_pos hb0, Own] at hown
      have hle := hg.le
      have hlt := hg.lt
      have hzz : ∀ b : BitVec c.sw, s.owner = nobody c → b = 0 := fun b h => absurd (hown.1.symm.trans h) hnb
      rw [hv, ofNat_sub_one hb0] at h
      split at h
      · rename_i h1
        rw [ofNat_eq_zero (by omega)] at h1
        cases h
        obtain ⟨e3, e4, e5⟩ := depth_quiet (tr := tr) (evs := []) (t := t) (by simp [locks]) (by simp [unlocks])
        refine ⟨⟨by omega, hb, ?_, ?_⟩, Or.inr ⟨Or.inr hown.1, Or.inr hown.1⟩, fun h => hzz _ h⟩
        · simp only [at_pc, upd_same, hold, Own, at_owner, at_count]
          exact ⟨hown.1, by rw [h1]⟩
        · rw [e3]; simp only [at_pc, upd_same, Tmp]; omega
      · rename_i h1
        rw [ofNat_eq_zero (by omega)] at h1
        unfold unlocked at h
        split at h
        · cases h
          obtain ⟨e3, e4, e5⟩ := depth_quiet (tr := tr) (evs := []) (t := t) (by simp [locks]) (by simp [unlocks])
          refine ⟨⟨by omega, hb, ?_, ?_⟩, Or.inr ⟨Or.inr hown.1, Or.inr hown.1⟩, fun h => hzz _ h⟩
          · rw [e3]
            simp only [at_pc, upd_same, hold, owns?_pos (Nat.pos_of_ne_zero h1), Own, at_owner, at_count]
            exact ⟨hown.1, trivial⟩
          · rw [e3]; simp only [at_pc, upd_same, Tmp]; omega
        · cases h
          have e1 : locks [Ev.ret t Op.unlock true] t = 0 := by simp [locks, List.count_cons]
          have e2 : unlocks [Ev.ret t Op.unlock true] t = 1 := by simp [unlocks, List.count_cons]
          have e3 : depth (tr ++ [Ev.ret t Op.unlock true]) t = depth tr t - 1 := by
            simp only [depth, locks_append, unlocks_append, e1, e2]; omega
          have hlt2 : unlocks tr t < locks tr t := by unfold depth at hb0; omega
          refine ⟨⟨by simp only [locks_append, unlocks_append, e1, e2]; omega, hb, ?_, by simp [Tmp]⟩,
            Or.inr ⟨Or.inr hown.1, Or.inr hown.1⟩, fun h => hzz _ h⟩
          rw [e3]
          simp only [at_pc, upd_same, hold, owns?_pos (Nat.pos_of_ne_zero h1), Own, at_owner, at_count]
          exact ⟨hown.1, trivial⟩
    | uRel w =>
      simp only [hpc] at h
      have hown := hg.own
      have htmp := hg.tmp
      rw [hpc] at hown htmp
      simp only [hold, Own] at hown
      simp only [Tmp] at htmp
      have hle := hg.le
      have hlt := hg.lt
      unfold unlocked at h
      split at h
      · cases h
        obtain ⟨e3, e4, e5⟩ := depth_quiet (tr := tr) (evs := []) (t := t) (by simp [locks]) (by simp [unlocks])
        refine ⟨⟨by omega, hb, ?_, ?_⟩, Or.inr ⟨Or.inr hown.1, Or.inl rfl⟩, fun _ => hown.2⟩
        · rw [e3, htmp]
          simp only [at_pc, upd_same, hold, owns?, Own, at_owner]
          exact hnb.symm
        · rw [e3]; simp only [at_pc, upd_same, Tmp]; omega
      · cases h
        have e1 : locks [Ev.ret t Op.unlock true] t = 0 := by simp [locks, List.count_cons]
        have e2 : unlocks [Ev.ret t Op.unlock true] t = 1 := by simp [unlocks, List.count_cons]
        have e3 : depth (tr ++ [Ev.ret t Op.unlock true]) t = depth tr t - 1 := by
          simp only [depth, locks_append, unlocks_append, e1, e2]; omega
        have hlt2 : unlocks tr t < locks tr t := by unfold depth at htmp; omega
        refine ⟨⟨by simp only [locks_append, unlocks_append, e1, e2]; omega, hb, ?_, by simp [Tmp]⟩,
          Or.inr ⟨Or.inr hown.1, Or.inl rfl⟩, fun _ => hown.2⟩
        rw [e3, htmp]
        simp only [at_pc, upd_same, hold, owns?, Own, at_owner]
        exact hnb.symm
    | cZz =>
      simp only [hpc] at h
      cases h
      refine StepOk.quiet hg hz (by simp [locks]) (by simp [unlocks]) rfl rfl ?_
      rw [hpc]; simp only [at_pc, upd_same, hold, Tmp, base, LkOk]
      exact fun a b => ⟨a, by omega, by omega, b⟩
    | cAssert | cIncRd | cIncWr v | cAct | cDecRd | cDecWr v | cAct2 | cReset | sWr | bWr =>
      simp only [hpc] at h
      (try split at h) <;> cases h <;>
        exact StepOk.quiet hg hz (by simp [locks]) (by simp [unlocks]) rfl rfl
          (by rw [hpc]; simp [hpc, hold, Tmp])

/-- The invariant is preserved by every step. -/
theorem inv_step {c : Cfg} (hw : c.WF) {s s' : State c} {tr evs : List Ev} {t : Nat} {a : Cmd} (hi : Inv c s tr)
    (hs : step c s t a = some (s', evs)) (hb : depth (tr ++ evs) t < 2 ^ c.sw) : Inv c s' (tr ++ evs) := by
  obtain ⟨h1, h2, h3⟩ := stepOk hw hi hs hb
  refine ⟨fun u hu => ?_, h3, ?_⟩
  rotate_left
  · rcases h2 with h2 | h2
    · rw [h2.1]; exact hi.who
    · rcases h2.2 with h | h
      · exact Or.inl h
      · exact Or.inr ⟨t, (step_cases hs).1, h⟩
  by_cases hut : u = t
  · subst hut; exact h1
  · exact (hi.good u hu).frame hw (step_cases hs).1 hu hut (step_pc hs u hut) (step_task hs) h2

/-- The invariant holds in every execution. -/
theorem inv_runs {c : Cfg} (hw : c.WF) {s : State c} {tr : List Ev} (h : Runs c tr s) (hb : Bounded c tr) : Inv c s tr := by
  have : Bounded c tr → Inv c s tr := by
    apply goes_induction (P := fun tr s => Bounded c tr → Inv c s tr) (h := h)
    · exact fun _ => inv_init c hw
    · intro tr s t a s' evs hp hs hb
      exact inv_step hw (hp (fun pre t h => hb pre t (h.trans (List.prefix_append _ _)))) hs (hb _ _ (List.prefix_refl _))
  exact this hb

end Pico.Mtx
