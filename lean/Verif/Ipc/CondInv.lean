import Verif.Ipc.MutexProps

/-!
# Invariants of the condition variable
-/

namespace Pico.Mtx

/-- Number of tasks whose program counter satisfies `p`. -/
def num (N : Nat) {sw : Nat} (p : PC sw → Bool) (pc : Nat → PC sw) : Nat := (List.range N).countP (fun u => p (pc u))

theorem num_upd {sw : Nat} (N : Nat) (p : PC sw → Bool) (pc : Nat → PC sw) {t : Nat} (ht : t < N) (x : PC sw) :
    num N p (upd pc t x) + (if p (pc t) then 1 else 0) = num N p pc + (if p x then 1 else 0) := by
  unfold num
  induction N with
  | zero => omega
  | succ n ih =>
    rw [List.range_succ, List.countP_append, List.countP_append]
    simp only [List.countP_singleton]
    rcases Nat.lt_or_ge t n with h | h
    · have := ih h
      rw [upd_ne pc x (by omega : n ≠ t)]
      omega
    · have : t = n := by omega
      subst this
      rw [upd_same]
      have : (List.range t).countP (fun u => p (upd pc t x u)) = (List.range t).countP (fun u => p (pc u)) := by
        apply List.countP_congr
        intro u hu
        rw [upd_ne pc x (by have := List.mem_range.1 hu; omega)]
      rw [this]
      omega

theorem num_le {sw : Nat} (N : Nat) (p : PC sw → Bool) (pc : Nat → PC sw) : num N p pc ≤ N := by
  unfold num
  have := List.countP_le_length (p := fun u => p (pc u)) (l := List.range N)
  simpa using this

theorem num_lt {sw : Nat} {N : Nat} {p : PC sw → Bool} {pc : Nat → PC sw} {t : Nat} (ht : t < N) (h : p (pc t) = false) :
    num N p pc < N := by
  rcases Nat.lt_or_ge (num N p pc) N with h1 | h1
  · exact h1
  · have h2 := num_le N p pc
    have h3 : (List.range N).countP (fun u => p (pc u)) = (List.range N).length := by
      simp; unfold num at h1 h2; omega
    have := List.countP_eq_length.1 h3 t (List.mem_range.2 ht)
    simp [h] at this

theorem num_pos {sw : Nat} {N : Nat} {p : PC sw → Bool} {pc : Nat → PC sw} {t : Nat} (ht : t < N) (h : p (pc t) = true) :
    0 < num N p pc := by
  unfold num
  exact List.countP_pos_iff.2 ⟨t, List.mem_range.2 ht, h⟩

/-- The task is registered in `cond->count`. -/
def counted {sw : Nat} : PC sw → Bool
  | .cas (.lockWait _) | .chk (.lockWait _) | .rd (.lockWait _) | .wr (.lockWait _) _ | .zz (.lockWait _) => true
  | .uOwner w | .uCount w | .uRd w | .uWr w _ | .uRel w => w
  | .cAct | .cZz | .cDecRd | .cDecWr _ => true
  | _ => false

/-- The task found `cond->act != PICORTOS_COND_NONE` and is leaving `picoRTOS_cond_wait`. -/
def leaving {sw : Nat} : PC sw → Bool
  | .cDecRd | .cDecWr _ | .cAct2 | .cReset => true
  | _ => false

/-- The task accesses the condition variable as the owner of the mutex. -/
def inside {sw : Nat} : PC sw → Bool
  | .cAssert | .cIncRd | .cIncWr _ | .cAct => true
  | p => leaving p

/-- Local copies of `cond->count`. -/
def CTmp {c : Cfg} (s : State c) : PC c.sw → Prop
  | .cIncWr v => v = s.ccount
  | .cDecWr v => v = s.ccount
  | _ => True

structure CInv (c : Cfg) (s : State c) (tr : List Ev) : Prop where
  held : ∀ t, t < c.N → opOf (s.pc t) = some .wait → 0 < depth tr t
  cnt : s.ccount = BitVec.ofNat c.sw (num c.N counted s.pc)
  tmp : ∀ t, t < c.N → CTmp s (s.pc t)
  live : ∀ t, t < c.N → leaving (s.pc t) = true → s.act ≠ .none

theorem inside_wait {sw : Nat} {p : PC sw} (h : inside p = true) : opOf p = some .wait := by
  cases p <;> simp_all [inside, leaving, opOf]

theorem leaving_inside {sw : Nat} {p : PC sw} (h : leaving p = true) : inside p = true := by
  cases p <;> simp_all [inside, leaving]

/-- Tasks working on the condition variable own the mutex. -/
theorem inside_owner {c : Cfg} {s : State c} {tr : List Ev} (hi : Inv c s tr) (hc : CInv c s tr) {t : Nat} (ht : t < c.N)
    (h : inside (s.pc t) = true) : s.owner = self c t := by
  have hb := hc.held t ht (inside_wait h)
  have hown := (hi.good t ht).own
  revert h hown
  cases s.pc t <;> simp [inside, leaving, hold, owns?_pos hb, Own] <;> exact fun h _ => h

theorem inside_unique {c : Cfg} (hw : c.WF) {s : State c} {tr : List Ev} (hi : Inv c s tr) (hc : CInv c s tr) {t u : Nat}
    (ht : t < c.N) (hu : u < c.N) (h1 : inside (s.pc t) = true) (h2 : inside (s.pc u) = true) : t = u :=
  self_inj hw ht hu ((inside_owner hi hc ht h1).symm.trans (inside_owner hi hc hu h2))

theorem cinv_init (c : Cfg) : CInv c (init c) [] := by
  have hn : num c.N counted (init c).pc = 0 := by
    unfold num; rw [List.countP_eq_zero]; simp [init, counted]
  refine ⟨by simp [init, opOf], ?_, by simp [init, CTmp], by simp [init, leaving]⟩
  rw [hn]; rfl

/-- What the step of one task must guarantee. -/
structure CStepOk (c : Cfg) (s s' : State c) (t : Nat) : Prop where
  cnt : s'.ccount = BitVec.ofNat c.sw (num c.N counted s'.pc)
  tmp : CTmp s' (s'.pc t)
  keep : s'.ccount = s.ccount ∨ inside (s.pc t) = true
  live : leaving (s'.pc t) = true → s'.act ≠ .none
  act : s'.act ≠ .none ∨ s'.act = s.act ∨ leaving (s.pc t) = true

/-- A step that leaves the condition alone. -/
theorem CStepOk.quiet {c : Cfg} {s s' : State c} {t : Nat} (ht : t < c.N) (hcnt : s.ccount = BitVec.ofNat c.sw (num c.N counted s.pc))
    (p : PC c.sw) (hpc : s'.pc = upd s.pc t p)
    (h1 : s'.ccount = s.ccount) (h2 : s'.act = s.act) (h3 : counted p = counted (s.pc t)) (h4 : CTmp s' p)
    (h5 : leaving p = true → s.act ≠ .none) : CStepOk c s s' t := by
  have := num_upd c.N counted s.pc ht p
  rw [h3] at this
  refine ⟨?_, by rw [hpc, upd_same]; exact h4, Or.inl h1, by rw [hpc, upd_same, h2]; exact h5, Or.inr (Or.inl h2)⟩
  rw [h1, hcnt, hpc]
  congr 1; omega

theorem CStepOk.dead {c : Cfg} {s s' : State c} {t : Nat} (hcnt : s.ccount = BitVec.ofNat c.sw (num c.N counted s.pc))
    (hpc : s'.pc = s.pc) (h1 : s'.ccount = s.ccount) (h2 : s'.act = s.act) (h4 : CTmp s (s.pc t))
    (h5 : leaving (s.pc t) = true → s.act ≠ .none) : CStepOk c s s' t := by
  refine ⟨by rw [h1, hpc]; exact hcnt, ?_, Or.inl h1, by rw [hpc, h2]; exact h5, Or.inr (Or.inl h2)⟩
  rw [hpc]
  revert h4
  cases s.pc t <;> simp [CTmp, h1]

theorem cstepOk {c : Cfg} (hw : c.WF) {s s' : State c} {tr evs : List Ev} {t : Nat} {a : Cmd} (hc : CInv c s tr)
    (hs : step c s t a = some (s', evs)) : CStepOk c s s' t := by
  obtain ⟨ht, hd, ⟨o, rfl, hp, rfl, rfl⟩ | ⟨spur, rfl, hp, h⟩⟩ := step_cases hs
  · refine CStepOk.quiet ht hc.cnt (entry c o) rfl rfl rfl ?_ ?_ ?_ <;> (try rw [hp]) <;> cases o <;> simp [entry, counted, CTmp, leaving]
  · have hcnt := hc.cnt
    have hlive := hc.live t ht
    have htmp := hc.tmp t ht
    unfold access at h
    cases hpc : s.pc t with
    | idle => exact absurd hpc hp
    | cIncWr v =>
      rw [hpc] at htmp
      simp only [hpc] at h
      cases h
      have hn := num_upd c.N counted s.pc ht .cAct
      simp [hpc, counted] at hn
      refine ⟨?_, by simp [CTmp], Or.inr (by rw [hpc]; rfl), by simp [leaving], Or.inr (Or.inl rfl)⟩
      simp only [CTmp] at htmp
      simp only [at_ccount, at_pc, htmp, hcnt, ofNat_add_one, hn]
    | cDecWr v =>
      rw [hpc] at htmp hlive
      simp only [hpc] at h
      have hpos : 0 < num c.N counted s.pc := num_pos ht (by rw [hpc]; rfl)
      simp only [CTmp] at htmp
      have hn : ∀ p : PC c.sw, counted p = false → num c.N counted (upd s.pc t p) = num c.N counted s.pc - 1 := by
        intro p hp
        have := num_upd c.N counted s.pc ht p
        rw [hp, show counted (s.pc t) = true from by rw [hpc]; rfl] at this
        simp at this
        omega
      split at h <;> cases h
      · refine ⟨?_, by simp [CTmp], Or.inr (by rw [hpc]; rfl), fun _ => by simpa [leaving] using hlive, Or.inr (Or.inl rfl)⟩
        simp only [at_ccount, at_pc, htmp, hcnt, ofNat_sub_one hpos, hn .cReset rfl]
      · refine ⟨?_, by simp [CTmp], Or.inr (by rw [hpc]; rfl), fun _ => by simpa [leaving] using hlive, Or.inr (Or.inl rfl)⟩
        simp only [at_ccount, at_pc, htmp, hcnt, ofNat_sub_one hpos, hn .cAct2 rfl]
    | cReset =>
      simp only [hpc] at h
      cases h
      have hn := num_upd c.N counted s.pc ht .idle
      simp [hpc, counted] at hn
      exact ⟨by simpa [hn] using hcnt, by simp [CTmp], Or.inl rfl, by simp [leaving], Or.inr (Or.inr (by rw [hpc]; rfl))⟩
    | sWr =>
      simp only [hpc] at h
      cases h
      have hn := num_upd c.N counted s.pc ht .idle
      simp [hpc, counted] at hn
      exact ⟨by simpa [hn] using hcnt, by simp [CTmp], Or.inl rfl, by simp [leaving], Or.inl (by simp)⟩
    | bWr =>
      simp only [hpc] at h
      cases h
      have hn := num_upd c.N counted s.pc ht .idle
      simp [hpc, counted] at hn
      exact ⟨by simpa [hn] using hcnt, by simp [CTmp], Or.inl rfl, by simp [leaving], Or.inl (by simp)⟩
    | cAct =>
      simp only [hpc] at h
      split at h
      · rename_i hne
        cases h
        exact CStepOk.quiet ht hcnt _ rfl rfl rfl (by rw [hpc]; rfl) trivial (fun _ => hne)
      · cases h
        exact CStepOk.quiet ht hcnt _ rfl rfl rfl (by rw [hpc]; rfl) trivial (by simp [leaving])
    | cDecRd =>
      rw [hpc] at hlive
      simp only [hpc] at h
      cases h
      exact CStepOk.quiet ht hcnt _ rfl rfl rfl (by rw [hpc]; rfl) rfl (fun _ => hlive rfl)
    | cAct2 =>
      rw [hpc] at hlive
      simp only [hpc] at h
      split at h <;> cases h
      · exact CStepOk.quiet ht hcnt _ rfl rfl rfl (by rw [hpc]; rfl) trivial (fun _ => hlive rfl)
      · exact CStepOk.quiet ht hcnt _ rfl rfl rfl (by rw [hpc]; rfl) trivial (by simp [leaving])
    | cIncRd =>
      simp only [hpc] at h
      cases h
      exact CStepOk.quiet ht hcnt _ rfl rfl rfl (by rw [hpc]; rfl) rfl (by simp [leaving])
    | cas k | chk k | rd k | wr k _ | zz k =>
      simp only [hpc] at h
      (try unfold failed at h)
      (try unfold succeeded at h)
      (repeat' split at h) <;> cases h <;>
        first
        | exact CStepOk.quiet ht hcnt _ rfl rfl rfl (by rw [hpc]; cases k <;> rfl) trivial (by simp [leaving])
        | exact CStepOk.quiet ht hcnt _ rfl rfl rfl (by rw [hpc]; rfl) trivial (by simp [leaving])
        | exact CStepOk.dead hcnt rfl rfl rfl (by rw [hpc]; trivial) (by rw [hpc]; simp [leaving])
    | uOwner w | uCount w | uRd w | uWr w _ | uRel w =>
      simp only [hpc] at h
      (try unfold unlocked at h)
      (repeat' split at h) <;> cases h <;>
        first
        | exact CStepOk.quiet ht hcnt _ rfl rfl rfl (by rw [hpc]; cases w <;> first | rfl | simp_all) trivial (by simp [leaving])
        | exact CStepOk.quiet ht hcnt _ rfl rfl rfl (by rw [hpc]; simp_all [counted]) trivial (by simp [leaving])
        | exact CStepOk.dead hcnt rfl rfl rfl (by rw [hpc]; trivial) (by rw [hpc]; simp [leaving])
    | cAssert =>
      simp only [hpc] at h
      split at h <;> cases h
      · exact CStepOk.quiet ht hcnt _ rfl rfl rfl (by rw [hpc]; rfl) trivial (by simp [leaving])
      · exact CStepOk.dead hcnt rfl rfl rfl (by rw [hpc]; trivial) (by rw [hpc]; simp [leaving])
    | cZz =>
      simp only [hpc] at h
      cases h
      exact CStepOk.quiet ht hcnt _ rfl rfl rfl (by rw [hpc]; rfl) trivial (by simp [leaving])

/-- Entering `picoRTOS_cond_wait` is the only way into it, and inside the depth does not change. -/
theorem wait_enter {c : Cfg} {s s' : State c} {tr evs : List Ev} {t : Nat} {a : Cmd}
    (hs : step c s t a = some (s', evs)) (h : opOf (s'.pc t) = some .wait) :
    (opOf (s.pc t) = some .wait ∧ depth (tr ++ evs) t = depth tr t) ∨ (evs = [.call t .wait] ∧ depth (tr ++ evs) t = depth tr t) := by
  obtain ⟨ht, hd, ⟨o, rfl, hp, rfl, rfl⟩ | ⟨spur, rfl, hp, h'⟩⟩ := step_cases hs
  · right
    cases o <;> simp [entry, opOf, lkOp] at h
    exact ⟨rfl, (depth_quiet (by simp [locks]) (by simp [unlocks])).1⟩
  · left
    unfold access at h'
    split at h' <;> (try unfold failed at h') <;> (try unfold succeeded at h') <;> (try unfold unlocked at h') <;>
      (repeat' split at h') <;> cases h' <;> simp_all [opOf, lkOp] <;>
      exact (depth_quiet (by simp [locks]) (by simp [unlocks])).1

theorem cinv_step {c : Cfg} (hw : c.WF) {s s' : State c} {tr evs : List Ev} {t : Nat} {a : Cmd} (hi : Inv c s tr)
    (hc : CInv c s tr) (hs : step c s t a = some (s', evs)) (hwh : WaitsHeld (tr ++ evs)) : CInv c s' (tr ++ evs) := by
  obtain ⟨h1, h2, h3, h4, h5⟩ := cstepOk hw hc hs
  have ht := (step_cases hs).1
  refine ⟨fun u hu hpc => ?_, h1, fun u hu => ?_, fun u hu hl => ?_⟩
  · by_cases hut : u = t
    · subst hut
      rcases wait_enter (tr := tr) hs hpc with ⟨h, h'⟩ | ⟨rfl, h'⟩
      · rw [h']; exact hc.held u hu h
      · rw [h']; exact depth_pos (hwh tr u (List.prefix_refl _))
    · rw [step_pc hs u hut] at hpc
      rw [depth_other tr (step_task hs) hut]; exact hc.held u hu hpc
  · by_cases hut : u = t
    · subst hut; exact h2
    · rw [step_pc hs u hut]
      have := hc.tmp u hu
      rcases h3 with h3 | h3
      · revert this; cases s.pc u <;> simp [CTmp, h3]
      · revert this
        cases hpc : s.pc u <;> simp [CTmp]
        · exact absurd (inside_unique hw hi hc hu ht (by rw [hpc]; rfl) h3) hut
        · exact absurd (inside_unique hw hi hc hu ht (by rw [hpc]; rfl) h3) hut
  · by_cases hut : u = t
    · subst hut; exact h4 hl
    · rw [step_pc hs u hut] at hl
      rcases h5 with h5 | h5 | h5
      · exact h5
      · rw [h5]; exact hc.live u hu hl
      · exact absurd (inside_unique hw hi hc hu ht (leaving_inside hl) (leaving_inside h5)) hut

theorem WaitsHeld.left {tr evs : List Ev} (h : WaitsHeld (tr ++ evs)) : WaitsHeld tr :=
  fun pre t hp => h pre t (hp.trans (List.prefix_append _ _))

theorem Bounded.left {c : Cfg} {tr evs : List Ev} (h : Bounded c (tr ++ evs)) : Bounded c tr :=
  fun pre t hp => h pre t (hp.trans (List.prefix_append _ _))

theorem cinv_runs {c : Cfg} (hw : c.WF) {s : State c} {tr : List Ev} (h : Runs c tr s) (hb : Bounded c tr)
    (hwh : WaitsHeld tr) : Inv c s tr ∧ CInv c s tr := by
  have : Bounded c tr → WaitsHeld tr → Inv c s tr ∧ CInv c s tr := by
    refine goes_induction (s0 := init c) (P := fun tr s => Bounded c tr → WaitsHeld tr → Inv c s tr ∧ CInv c s tr) ?_ ?_ h
    · exact fun _ _ => ⟨inv_init c hw, cinv_init c⟩
    · intro tr s t a s' evs hp hs hb hwh
      obtain ⟨h1, h2⟩ := hp hb.left hwh.left
      exact ⟨inv_step hw h1 hs (hb _ _ (List.prefix_refl _)), cinv_step hw h1 h2 hs hwh⟩
  exact this hb hwh

end Pico.Mtx
