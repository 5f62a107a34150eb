import Verif.Ipc.MutexCache
/-
The mutex on non-coherent caches: invariants and theorems.
-/
namespace Pico.MtxCache

/-- what task `t` was told is so -/
def Hold (s : St) (t : Nat) : Prop := 0 < s.held t → s.mem.owner = some t ∧ s.held t ≤ s.mem.count

/-- what the core of `t` has of the line is right as far as `t` is concerned -/
def Fresh (s : St) (t : Nat) : Prop := ∀ l, s.copy (s.core t) = some l →
  (l.owner = some t ↔ s.mem.owner = some t) ∧ (s.mem.owner = some t → l.count = s.mem.count)

/-- the same while `t` gives the mutex back -/
def Giving (s : St) (t : Nat) : Prop := (s.astray t = true → s.held t = 0) ∧
  (s.astray t = false → s.mem.owner = some t ∧ s.held t + 1 ≤ s.mem.count)

def Ok (s : St) (t : Nat) : Prop :=
  match s.pc t with
  | .idle | .tInv | .uFl => Hold s t
  | .tCas | .tOwn => Hold s t ∧ Fresh s t
  | .tRd => s.mem.owner = some t ∧ s.held t ≤ s.mem.count ∧ ∀ l, s.copy (s.core t) = some l → s.held t ≤ l.count
  | .tWr n => s.mem.owner = some t ∧ s.held t ≤ n
  | .tFl => s.mem.owner = some t ∧ s.held t + 1 ≤ s.mem.count
  | .uInv => Giving s t
  | .uOwn => Giving s t ∧ Fresh s t
  | .uCnt | .uRd => s.mem.owner = some t ∧ Giving s t ∧ Fresh s t
  | .uWr n => s.mem.owner = some t ∧ Giving s t ∧ n = s.mem.count
  | .uRel => s.mem.owner = some t ∧ s.held t = 0
  | .dead => s.astray t = true ∧ s.held t = 0

/-- nothing of `t` changes, nor memory; its core lost the line, kept it or got it from memory -/
theorem ok_same {s s' : St} {t : Nat} (h : Ok s t) (hp : s'.pc t = s.pc t) (hh : s'.held t = s.held t)
    (ha : s'.astray t = s.astray t) (hm : s'.mem = s.mem)
    (hc : ∀ l, s'.copy (s'.core t) = some l → s.copy (s.core t) = some l ∨ l = s.mem) : Ok s' t := by
  unfold Ok at h ⊢
  rw [hp]
  have hf : Fresh s t → Fresh s' t := by
    intro f l hl
    rw [hm]
    rcases hc l hl with h1 | h1
    · exact f l h1
    · subst h1; exact ⟨Iff.rfl, fun _ => rfl⟩
  cases e : s.pc t <;> rw [e] at h <;> simp only [Hold, Giving, hh, ha, hm] at h ⊢ <;> try exact h
  · exact ⟨h.1, hf h.2⟩
  · exact ⟨h.1, hf h.2⟩
  · refine ⟨h.1, h.2.1, ?_⟩
    intro l hl
    rcases hc l hl with h1 | h1
    · exact h.2.2 l h1
    · subst h1; exact h.2.1
  · exact ⟨h.1, hf h.2⟩
  · exact ⟨h.1, h.2.1, hf h.2.2⟩
  · exact ⟨h.1, h.2.1, hf h.2.2⟩

/-- memory changes, but `t` had not the mutex and has not got it -/
theorem ok_other {s s' : St} {t : Nat} (h : Ok s t) (hp : s'.pc t = s.pc t) (hh : s'.held t = s.held t)
    (ha : s'.astray t = s.astray t) (h1 : s.mem.owner ≠ some t) (h2 : s'.mem.owner ≠ some t)
    (hc : ∀ l, s'.copy (s'.core t) = some l → l.owner = some t → ∃ l0, s.copy (s.core t) = some l0 ∧ l0.owner = some t) :
    Ok s' t := by
  unfold Ok at h ⊢
  rw [hp]
  have hf : Fresh s t → Fresh s' t := by
    intro f l hl
    refine ⟨⟨fun ho => ?_, fun x => absurd x h2⟩, fun x => absurd x h2⟩
    obtain ⟨l0, a, b⟩ := hc l hl ho
    exact absurd ((f l0 a).1.mp b) h1
  have hg : Hold s t → Hold s' t := by
    intro g hpos
    rw [hh] at hpos
    exact absurd (g hpos).1 h1
  have hu : Giving s t → Giving s' t := by
    intro g
    unfold Giving
    rw [ha, hh]
    exact ⟨g.1, fun x => absurd (g.2 x).1 h1⟩
  cases e : s.pc t <;> rw [e] at h <;> simp only [] at h ⊢
  · exact hg h
  · exact hg h
  · exact ⟨hg h.1, hf h.2⟩
  · exact ⟨hg h.1, hf h.2⟩
  · exact absurd h.1 h1
  · exact absurd h.1 h1
  · exact absurd h.1 h1
  · exact hu h
  · exact ⟨hu h.1, hf h.2⟩
  · exact absurd h.1 h1
  · exact absurd h.1 h1
  · exact absurd h.1 h1
  · exact absurd h.1 h1
  · exact hg h
  · rw [ha, hh]; exact h

theorem set_same {α : Type} (f : Nat → α) (i : Nat) (v : α) : set f i v i = v := by simp [set]
theorem set_ne {α : Type} (f : Nat → α) {i j : Nat} (v : α) (h : j ≠ i) : set f i v j = f j := by simp [set, h]

/-- the copy of any core after core `k` dropped the line -/
theorem set_none {f : Nat → Option Line} {k j : Nat} {l : Line} (h : set f k none j = some l) : f j = some l := by
  unfold set at h
  split at h
  · cases h
  · exact h

/-- the access of another task -/
theorem ok_go_other (m : Mode) (s : St) (t u : Nat) (sp : Bool) (hne : t ≠ u) (h : Ok s t) (hu : Ok s u) :
    Ok (go m s u sp) t := by
  have own : s.mem.owner = some u → s.mem.owner ≠ some t := by
    intro a b; rw [a] at b; exact hne (Option.some.inj b).symm
  have unn : (some u : Option Nat) ≠ some t := fun b => hne (Option.some.inj b).symm
  unfold Ok at hu
  unfold go
  cases e : s.pc u <;> rw [e] at hu <;> simp only [] at hu ⊢
  · exact h
  · exact ok_same h (set_ne _ _ hne) rfl rfl rfl (fun l hl => .inl (set_none hl))
  · by_cases hc : s.mem.owner = none ∧ sp = false
    · rw [if_pos hc]
      have hn : s.mem.owner ≠ some t := by rw [hc.1]; exact fun x => nomatch x
      cases m
      · exact ok_other h (set_ne _ _ hne) rfl rfl hn unn (fun l hl ho => ⟨l, set_none hl, ho⟩)
      · refine ok_other h (set_ne _ _ hne) rfl rfl hn unn ?_
        intro l hl ho
        have hl' : set s.copy (s.core u) ((s.copy (s.core u)).map (fun l => { l with owner := some u })) (s.core t) = some l := hl
        unfold set at hl'
        split at hl'
        · cases e2 : s.copy (s.core u) with
          | none => rw [e2] at hl'; cases hl'
          | some l0 =>
            rw [e2] at hl'
            have : ({ l0 with owner := some u } : Line) = l := Option.some.inj hl'
            subst this
            exact absurd ho unn
        · exact ⟨l, hl', ho⟩
      · exact ok_other h (set_ne _ _ hne) rfl rfl hn unn (fun l hl ho => ⟨l, hl, ho⟩)
    · rw [if_neg hc]
      cases m
      · exact ok_same h (set_ne _ _ hne) rfl rfl rfl (fun l hl => .inl (set_none hl))
      · exact ok_same h (set_ne _ _ hne) rfl rfl rfl (fun l hl => .inl hl)
      · exact ok_same h (set_ne _ _ hne) rfl rfl rfl (fun l hl => .inl hl)
  · split
    · exact ok_same h (set_ne _ _ hne) rfl rfl rfl (fun l hl => .inl hl)
    · exact ok_same h (set_ne _ _ hne) rfl rfl rfl (fun l hl => .inl hl)
  · exact ok_same h (set_ne _ _ hne) rfl rfl rfl (fun l hl => .inl hl)
  · refine ok_other h (set_ne _ _ hne) rfl rfl (own hu.1) (own hu.1) ?_
    intro l hl ho
    rename_i n
    have hl' : set s.copy (s.core u) ((s.copy (s.core u)).map (fun l => { l with count := n + 1 })) (s.core t) = some l := hl
    unfold set at hl'
    split at hl'
    · rename_i ek
      rw [ek]
      cases e2 : s.copy (s.core u) with
      | none => rw [e2] at hl'; cases hl'
      | some l0 =>
        rw [e2] at hl'
        have : ({ l0 with count := n + 1 } : Line) = l := Option.some.inj hl'
        subst this
        exact ⟨l0, rfl, ho⟩
    · exact ⟨l, hl', ho⟩
  · exact ok_same h (set_ne _ _ hne) (set_ne _ _ hne) rfl rfl (fun l hl => .inl (set_none hl))
  · exact ok_same h (set_ne _ _ hne) rfl rfl rfl (fun l hl => .inl (set_none hl))
  · split
    · exact ok_same h (set_ne _ _ hne) rfl rfl rfl (fun l hl => .inl hl)
    · exact ok_same h (set_ne _ _ hne) rfl rfl rfl (fun l hl => .inl hl)
  · split
    · exact ok_same h (set_ne _ _ hne) rfl rfl rfl (fun l hl => .inl hl)
    · exact ok_same h (set_ne _ _ hne) rfl rfl rfl (fun l hl => .inl hl)
  · exact ok_same h (set_ne _ _ hne) rfl rfl rfl (fun l hl => .inl hl)
  · refine ok_other h (set_ne _ _ hne) rfl rfl (own hu.1) (own hu.1) ?_
    intro l hl ho
    rename_i n
    have hl' : set s.copy (s.core u) ((s.copy (s.core u)).map (fun l => { l with count := n - 1 })) (s.core t) = some l := hl
    unfold set at hl'
    split at hl'
    · rename_i ek
      rw [ek]
      cases e2 : s.copy (s.core u) with
      | none => rw [e2] at hl'; cases hl'
      | some l0 =>
        rw [e2] at hl'
        have : ({ l0 with count := n - 1 } : Line) = l := Option.some.inj hl'
        subst this
        exact ⟨l0, rfl, ho⟩
    · exact ⟨l, hl', ho⟩
  · refine ok_other h (set_ne _ _ hne) rfl rfl (own hu.1) (fun x => nomatch x) ?_
    intro l hl ho
    have hl' : set s.copy (s.core u) ((s.copy (s.core u)).map (fun l => { l with owner := none })) (s.core t) = some l := hl
    unfold set at hl'
    split at hl'
    · cases e2 : s.copy (s.core u) with
      | none => rw [e2] at hl'; cases hl'
      | some l0 =>
        rw [e2] at hl'
        have : ({ l0 with owner := none } : Line) = l := Option.some.inj hl'
        subst this
        cases ho
    · exact ⟨l, hl', ho⟩
  · exact ok_same h (set_ne _ _ hne) rfl rfl rfl (fun l hl => .inl (set_none hl))
  · exact h

theorem see_owner {s : St} {t : Nat} (f : Fresh s t) : (s.see (s.core t)).owner = some t ↔ s.mem.owner = some t := by
  unfold St.see
  cases e : s.copy (s.core t) with
  | none => exact Iff.rfl
  | some l => exact (f l e).1

theorem see_count {s : St} {t : Nat} (f : Fresh s t) (ho : s.mem.owner = some t) : (s.see (s.core t)).count = s.mem.count := by
  unfold St.see
  cases e : s.copy (s.core t) with
  | none => rfl
  | some l => exact (f l e).2 ho

theorem fresh_dropped (s : St) (t : Nat) (p : PC) : Fresh ((s.drop (s.core t)).at t p) t := by
  intro l hl
  have hl' : set s.copy (s.core t) none (s.core t) = some l := hl
  rw [set_same] at hl'
  cases hl'

/-- its own access -/
theorem ok_go_self (m : Mode) (s : St) (t : Nat) (sp : Bool) (h : Ok s t) : Ok (go m s t sp) t := by
  have h0 := h
  unfold Ok at h
  unfold go
  cases e : s.pc t <;> rw [e] at h <;> simp only [] at h ⊢
  · exact h0
  · show Ok ((s.drop (s.core t)).at t .tCas) t
    unfold Ok
    rw [show ((s.drop (s.core t)).at t .tCas).pc t = .tCas from set_same _ _ _]
    exact ⟨h, fresh_dropped s t _⟩
  · by_cases hc : s.mem.owner = none ∧ sp = false
    · rw [if_pos hc]
      have hz : s.held t = 0 := by
        rcases Nat.eq_zero_or_pos (s.held t) with z | z
        · exact z
        · have := (h.1 z).1; rw [hc.1] at this; cases this
      unfold Ok
      rw [show ((s.swap (s.core t) m t).at t .tRd).pc t = .tRd from set_same _ _ _]
      have hh : ((s.swap (s.core t) m t).at t .tRd).held t = 0 := by cases m <;> exact hz
      have ho : ((s.swap (s.core t) m t).at t .tRd).mem.owner = some t := by cases m <;> rfl
      simp only []
      rw [hh]
      exact ⟨ho, Nat.zero_le _, fun _ _ => Nat.zero_le _⟩
    · rw [if_neg hc]
      unfold Ok
      rw [show ((s.noSwap (s.core t) m).at t .tOwn).pc t = .tOwn from set_same _ _ _]
      cases m
      · exact ⟨h.1, fresh_dropped s t _⟩
      · exact h
      · exact h
  · by_cases hc : (s.see (s.core t)).owner = some t
    · rw [if_pos hc]
      have ho := (see_owner h.2).mp hc
      unfold Ok
      rw [show (s.at t .tRd).pc t = .tRd from set_same _ _ _]
      have hle : s.held t ≤ s.mem.count := by
        rcases Nat.eq_zero_or_pos (s.held t) with z | z
        · rw [z]; exact Nat.zero_le _
        · exact (h.1 z).2
      refine ⟨ho, hle, ?_⟩
      intro l hl
      show s.held t ≤ l.count
      rw [(h.2 l hl).2 ho]
      exact hle
    · rw [if_neg hc]
      unfold Ok
      rw [show (s.at t .idle).pc t = .idle from set_same _ _ _]
      exact h.1
  · unfold Ok
    rw [show (s.at t (.tWr (s.see (s.core t)).count)).pc t = _ from set_same _ _ _]
    refine ⟨h.1, ?_⟩
    show s.held t ≤ (s.see (s.core t)).count
    unfold St.see
    cases e2 : s.copy (s.core t) with
    | none => exact h.2.1
    | some l => exact h.2.2 l e2
  · rename_i n
    unfold Ok
    rw [show ((s.putCount (s.core t) (n + 1)).at t .tFl).pc t = _ from set_same _ _ _]
    exact ⟨h.1, Nat.succ_le_succ h.2⟩
  · unfold Ok
    rw [show ((s.drop (s.core t)).told t).pc t = .idle from set_same _ _ _]
    intro _
    refine ⟨h.1, ?_⟩
    show set s.held t (s.held t + 1) t ≤ s.mem.count
    rw [set_same]
    exact h.2
  · unfold Ok
    rw [show ((s.drop (s.core t)).at t .uOwn).pc t = _ from set_same _ _ _]
    exact ⟨h, fresh_dropped s t _⟩
  · by_cases hc : (s.see (s.core t)).owner = some t
    · rw [if_pos hc]
      unfold Ok
      rw [show (s.at t .uCnt).pc t = _ from set_same _ _ _]
      exact ⟨(see_owner h.2).mp hc, h.1, h.2⟩
    · rw [if_neg hc]
      unfold Ok
      rw [show (s.at t .dead).pc t = _ from set_same _ _ _]
      show s.astray t = true ∧ s.held t = 0
      cases ea : s.astray t with
      | true => exact ⟨rfl, h.1.1 ea⟩
      | false => exact absurd ((see_owner h.2).mpr (h.1.2 ea).1) hc
  · by_cases hc : 0 < (s.see (s.core t)).count
    · rw [if_pos hc]
      unfold Ok
      rw [show (s.at t .uRd).pc t = _ from set_same _ _ _]
      exact h
    · rw [if_neg hc]
      unfold Ok
      rw [show (s.at t .dead).pc t = _ from set_same _ _ _]
      show s.astray t = true ∧ s.held t = 0
      cases ea : s.astray t with
      | true => exact ⟨rfl, h.2.1.1 ea⟩
      | false =>
        rw [see_count h.2.2 h.1] at hc
        have := (h.2.1.2 ea).2
        omega
  · unfold Ok
    rw [show (s.at t (.uWr (s.see (s.core t)).count)).pc t = _ from set_same _ _ _]
    exact ⟨h.1, h.2.1, see_count h.2.2 h.1⟩
  · rename_i n
    unfold Ok
    rw [show ((s.putCount (s.core t) (n - 1)).at t (if n - 1 = 0 then .uRel else .uFl)).pc t = _ from set_same _ _ _]
    obtain ⟨ho, hg, hn⟩ := h
    have hheld : s.held t ≤ n - 1 := by
      cases ea : s.astray t with
      | true => rw [hg.1 ea]; exact Nat.zero_le _
      | false => have := (hg.2 ea).2; omega
    by_cases hz : n - 1 = 0
    · rw [if_pos hz]
      refine ⟨ho, ?_⟩
      show s.held t = 0
      omega
    · rw [if_neg hz]
      intro _
      exact ⟨ho, hheld⟩
  · unfold Ok
    rw [show ((s.putOwner (s.core t) none).at t .uFl).pc t = _ from set_same _ _ _]
    intro hp
    have : 0 < s.held t := hp
    omega
  · unfold Ok
    rw [show ((s.drop (s.core t)).at t .idle).pc t = _ from set_same _ _ _]
    exact h
  · exact h0

/-- Tasks do not change cores inside a call: what every task was told stays so -/
theorem ok_step (c : Cfg) (hc : c.inside = false) (s : St) (e : Ev) (h : ∀ t, Ok s t) : ∀ t, Ok (step c s e) t := by
  intro t
  cases e with
  | call u o =>
    cases o with
    | trylock =>
      simp only [step]
      by_cases hp : s.pc u = .idle
      · rw [if_pos hp]
        by_cases hne : t = u
        · subst hne
          have h1 := h t
          unfold Ok at h1 ⊢
          rw [hp] at h1
          rw [show (s.at t .tInv).pc t = _ from set_same _ _ _]
          exact h1
        · exact ok_same (h t) (set_ne _ _ hne) rfl rfl rfl (fun l hl => .inl hl)
      · rw [if_neg hp]; exact h t
    | unlock =>
      simp only [step]
      by_cases hp : s.pc u = .idle
      · rw [if_pos hp]
        by_cases hne : t = u
        · subst hne
          have h1 := h t
          unfold Ok at h1 ⊢
          rw [hp] at h1
          rw [show (s.leave t).pc t = .uInv from set_same _ _ _]
          show Giving (s.leave t) t
          unfold Giving
          rw [show (s.leave t).held t = s.held t - 1 from set_same _ _ _, show (s.leave t).astray t = decide (s.held t = 0) from set_same _ _ _]
          constructor
          · intro a
            have : s.held t = 0 := of_decide_eq_true a
            omega
          · intro a
            have hz : s.held t ≠ 0 := of_decide_eq_false a
            have h2 := h1 (by omega)
            refine ⟨h2.1, ?_⟩
            show s.held t - 1 + 1 ≤ s.mem.count
            have := h2.2
            omega
        · exact ok_same (h t) (set_ne _ _ hne) (set_ne _ _ hne) (set_ne _ _ hne) rfl (fun l hl => .inl hl)
      · rw [if_neg hp]; exact h t
  | go u sp =>
    by_cases hne : t = u
    · subst hne; exact ok_go_self c.mode s t sp (h t)
    · exact ok_go_other c.mode s t u sp hne (h t) (h u)
  | fill k =>
    simp only [step]
    by_cases hk : s.copy k = none
    · rw [if_pos hk]
      refine ok_same (h t) rfl rfl rfl rfl ?_
      intro l hl
      have hl' : set s.copy k (some s.mem) (s.core t) = some l := hl
      unfold set at hl'
      split at hl'
      · exact .inr (Option.some.inj hl').symm
      · exact .inl hl'
    · rw [if_neg hk]; exact h t
  | evict k => exact ok_same (h t) rfl rfl rfl rfl (fun l hl => .inl (set_none hl))
  | move u k =>
    simp only [step]
    by_cases hp : s.pc u = .idle ∨ c.inside = true
    · rw [if_pos hp]
      have hp' : s.pc u = .idle := by
        rcases hp with a | a
        · exact a
        · rw [hc] at a; cases a
      by_cases hne : t = u
      · subst hne
        have h1 := h t
        unfold Ok at h1 ⊢
        rw [hp'] at h1
        show match s.pc t with | _ => _
        rw [hp']
        exact h1
      · refine ok_same (h t) rfl rfl rfl rfl ?_
        intro l hl
        have hl' : s.copy (set s.core u k t) = some l := hl
        rw [set_ne _ _ hne] at hl'
        exact .inl hl'
    · rw [if_neg hp]; exact h t

theorem ok_run (c : Cfg) (hc : c.inside = false) : ∀ (es : List Ev) (s : St), (∀ t, Ok s t) → ∀ t, Ok (runFrom c s es) t := by
  intro es
  induction es with
  | nil => intro s h; exact h
  | cons e es ih => intro s h; exact ih (step c s e) (ok_step c hc s e h)

theorem ok_init (core : Nat → Nat) (t : Nat) : Ok (init core) t := fun h => absurd h (Nat.lt_irrefl 0)

theorem ok_reach (c : Cfg) (hc : c.inside = false) (core : Nat → Nat) (es : List Ev) (t : Nat) : Ok (run c core es) t :=
  ok_run c hc es (init core) (ok_init core) t

/-- a task that was told it has the mutex and has not given it back owns it -/
theorem held_owner {s : St} {t : Nat} (h : Ok s t) (hh : 0 < s.held t) : s.mem.owner = some t := by
  unfold Ok at h
  cases e : s.pc t <;> rw [e] at h <;> simp only [] at h
  · exact (h hh).1
  · exact (h hh).1
  · exact (h.1 hh).1
  · exact (h.1 hh).1
  · exact h.1
  · exact h.1
  · exact h.1
  · cases ea : s.astray t with
    | true => have := h.1 ea; omega
    | false => exact (h.2 ea).1
  · cases ea : s.astray t with
    | true => have := h.1.1 ea; omega
    | false => exact (h.1.2 ea).1
  · exact h.1
  · exact h.1
  · exact h.1
  · exact h.1
  · exact (h hh).1
  · have := h.2; omega

/-! ## Theorems -/

/-- **Exclusion.** Whatever the compare-and-swap does to the cache, whatever the hardware loads and drops: as long as no
task changes cores inside a call, at most one task has been told that it has the mutex and not given it back. -/
theorem exclusive (c : Cfg) (hc : c.inside = false) (core : Nat → Nat) (es : List Ev) (t u : Nat)
    (ht : 0 < (run c core es).held t) (hu : 0 < (run c core es).held u) : t = u := by
  have h1 := held_owner (ok_reach c hc core es t) ht
  have h2 := held_owner (ok_reach c hc core es u) hu
  rw [h1] at h2
  exact Option.some.inj h2

/-- **Unlock does not fail its owner.** Only a task that called unlock without having the mutex is stalled by it. -/
theorem stalled_astray (c : Cfg) (hc : c.inside = false) (core : Nat → Nat) (es : List Ev) (t : Nat)
    (h : (run c core es).pc t = .dead) : (run c core es).astray t = true := by
  have h1 := ok_reach c hc core es t
  unfold Ok at h1
  rw [h] at h1
  exact h1.1

/-- **Re-entrance.** A task that has the mutex and tries again is not refused: when its compare-and-swap fails it
finds itself the owner. -/
theorem reentrant (c : Cfg) (hc : c.inside = false) (core : Nat → Nat) (es : List Ev) (t : Nat) (sp : Bool)
    (hh : 0 < (run c core es).held t) (hp : (run c core es).pc t = .tOwn) :
    (run c core (es ++ [.go t sp])).pc t = .tRd := by
  have h1 := ok_reach c hc core es t
  have ho := held_owner h1 hh
  unfold Ok at h1
  rw [hp] at h1
  have e : run c core (es ++ [.go t sp]) = go c.mode (run c core es) t sp := by
    simp [run, runFrom, step]
  rw [e]
  generalize run c core es = s at h1 hp ho
  unfold go
  rw [hp]
  simp only []
  rw [if_pos ((see_owner h1.2).mpr ho)]
  exact set_same _ _ _

/-- **The owner stays** as long as it makes no call. -/
theorem owner_stays (c : Cfg) (hc : c.inside = false) (t : Nat) : ∀ (es : List Ev) (s : St), (∀ u, Ok s u) →
    s.mem.owner = some t → s.pc t = .idle → (∀ o, Ev.call t o ∉ es) →
    (runFrom c s es).mem.owner = some t ∧ (runFrom c s es).pc t = .idle := by
  intro es
  induction es with
  | nil => intro s _ ho hp _; exact ⟨ho, hp⟩
  | cons e es ih =>
    intro s h ho hp hn
    have hs := ok_step c hc s e h
    refine ih (step c s e) hs ?_ ?_ (fun o ho => hn o (List.mem_cons_of_mem _ ho))
    · cases e with
      | call u o =>
        cases o <;> simp only [step] <;> by_cases hq : s.pc u = .idle
        · rw [if_pos hq]; exact ho
        · rw [if_neg hq]; exact ho
        · rw [if_pos hq]; exact ho
        · rw [if_neg hq]; exact ho
      | go u sp =>
        show (go c.mode s u sp).mem.owner = some t
        by_cases hu : u = t
        · subst hu; unfold go; rw [hp]; exact ho
        · have hx := h u
          have un : ∀ {x}, x = some u → ¬ x = some t := fun a b => by rw [a] at b; exact hu (Option.some.inj b)
          unfold Ok at hx
          unfold go
          cases e2 : s.pc u <;> rw [e2] at hx <;> simp only [] at hx ⊢
          · exact ho
          · exact ho
          · rw [if_neg (by rw [ho]; exact fun x => nomatch x.1)]
            cases c.mode <;> exact ho
          · split <;> exact ho
          · exact ho
          · exact ho
          · exact ho
          · exact ho
          · split <;> exact ho
          · split <;> exact ho
          · exact ho
          · exact ho
          · exact absurd ho (un hx.1)
          · exact ho
          · exact ho
      | fill k => simp only [step]; by_cases hq : s.copy k = none <;> simp [hq, ho]
      | evict k => exact ho
      | move u k =>
        simp only [step]
        by_cases hq : s.pc u = .idle ∨ c.inside = true
        · rw [if_pos hq]; exact ho
        · rw [if_neg hq]; exact ho
    · cases e with
      | call u o =>
        have hu : t ≠ u := by
          intro x; subst x; exact hn o List.mem_cons_self
        cases o <;> simp only [step] <;> by_cases hq : s.pc u = .idle
        · rw [if_pos hq]; exact (set_ne _ _ hu).trans hp
        · rw [if_neg hq]; exact hp
        · rw [if_pos hq]; exact (set_ne _ _ hu).trans hp
        · rw [if_neg hq]; exact hp
      | go u sp =>
        show (go c.mode s u sp).pc t = _
        by_cases hu : t = u
        · subst hu; unfold go; rw [hp]; exact hp
        · unfold go
          cases e2 : s.pc u <;> simp only []
          case idle => exact hp
          case dead => exact hp
          case tCas =>
            split <;> cases c.mode <;> exact (set_ne _ _ hu).trans hp
          case tOwn => split <;> exact (set_ne _ _ hu).trans hp
          case uOwn => split <;> exact (set_ne _ _ hu).trans hp
          case uCnt => split <;> exact (set_ne _ _ hu).trans hp
          all_goals exact (set_ne _ _ hu).trans hp
      | fill k => simp only [step]; by_cases hq : s.copy k = none <;> simp [hq, hp]
      | evict k => exact hp
      | move u k =>
        simp only [step]
        by_cases hq : s.pc u = .idle ∨ c.inside = true
        · rw [if_pos hq]; exact hp
        · rw [if_neg hq]; exact hp

end Pico.MtxCache
