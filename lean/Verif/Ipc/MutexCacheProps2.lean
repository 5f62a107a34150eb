import Verif.Ipc.MutexCacheProps
/-
The mutex on non-coherent caches: it is given back, if the compare-and-swap drops the line; it may not be
otherwise; and tasks that change cores inside a call.
-/
namespace Pico.MtxCache

/-- the count is what the owner was told -/
def Exact (s : St) (t : Nat) : Prop := s.mem.owner = some t →
  match s.pc t with
  | .idle | .tInv | .tCas | .tOwn | .uFl => 0 < s.held t ∧ s.mem.count = s.held t
  | .tRd => s.mem.count = s.held t ∧ ∀ l, s.copy (s.core t) = some l → l.count = s.mem.count
  | .tWr n => n = s.held t
  | .tFl => s.mem.count = s.held t + 1
  | .uInv | .uOwn | .uCnt | .uRd => s.astray t = false ∧ s.mem.count = s.held t + 1
  | .uWr n => s.astray t = false ∧ n = s.held t + 1
  | .uRel => s.mem.count = 0
  | .dead => False

/-- nobody counts nothing -/
def Free (s : St) : Prop := s.mem.owner = none → s.mem.count = 0

theorem exact_same {s s' : St} {t : Nat} (h : Exact s t) (hp : s'.pc t = s.pc t) (hh : s'.held t = s.held t)
    (ha : s'.astray t = s.astray t) (hm : s'.mem = s.mem)
    (hc : ∀ l, s'.copy (s'.core t) = some l → s.copy (s.core t) = some l ∨ l = s.mem) : Exact s' t := by
  intro ho
  rw [hm] at ho
  have h := h ho
  rw [hp]
  cases e : s.pc t <;> rw [e] at h <;> simp only [hh, ha, hm] at h ⊢ <;> try exact h
  refine ⟨h.1, ?_⟩
  intro l hl
  rcases hc l hl with h1 | h1
  · exact h.2 l h1
  · rw [h1]

theorem exact_other {s' : St} {t : Nat} (h : s'.mem.owner ≠ some t) : Exact s' t := fun ho => absurd ho h

theorem exact_go_other (s : St) (t u : Nat) (sp : Bool) (hne : t ≠ u) (h : Exact s t) (hu : Ok s u) :
    Exact (go .drop s u sp) t := by
  have own : s.mem.owner = some u → s.mem.owner ≠ some t := by
    intro a b; rw [a] at b; exact hne (Option.some.inj b).symm
  have unn : (some u : Option Nat) ≠ some t := fun b => hne (Option.some.inj b).symm
  unfold Ok at hu
  unfold go
  cases e : s.pc u <;> rw [e] at hu <;> simp only [] at hu ⊢
  · exact h
  · exact exact_same h (set_ne _ _ hne) rfl rfl rfl (fun l hl => .inl (set_none hl))
  · by_cases hc : s.mem.owner = none ∧ sp = false
    · rw [if_pos hc]
      exact exact_other unn
    · rw [if_neg hc]
      exact exact_same h (set_ne _ _ hne) rfl rfl rfl (fun l hl => .inl (set_none hl))
  · split
    · exact exact_same h (set_ne _ _ hne) rfl rfl rfl (fun l hl => .inl hl)
    · exact exact_same h (set_ne _ _ hne) rfl rfl rfl (fun l hl => .inl hl)
  · exact exact_same h (set_ne _ _ hne) rfl rfl rfl (fun l hl => .inl hl)
  · exact exact_other (own hu.1)
  · exact exact_same h (set_ne _ _ hne) (set_ne _ _ hne) rfl rfl (fun l hl => .inl (set_none hl))
  · exact exact_same h (set_ne _ _ hne) rfl rfl rfl (fun l hl => .inl (set_none hl))
  · split
    · exact exact_same h (set_ne _ _ hne) rfl rfl rfl (fun l hl => .inl hl)
    · exact exact_same h (set_ne _ _ hne) rfl rfl rfl (fun l hl => .inl hl)
  · split
    · exact exact_same h (set_ne _ _ hne) rfl rfl rfl (fun l hl => .inl hl)
    · exact exact_same h (set_ne _ _ hne) rfl rfl rfl (fun l hl => .inl hl)
  · exact exact_same h (set_ne _ _ hne) rfl rfl rfl (fun l hl => .inl hl)
  · exact exact_other (own hu.1)
  · exact exact_other (fun x => nomatch x)
  · exact exact_same h (set_ne _ _ hne) rfl rfl rfl (fun l hl => .inl (set_none hl))
  · exact h

theorem exact_go_self (s : St) (t : Nat) (sp : Bool) (hf : Free s) (ok : Ok s t) (h : Exact s t) :
    Exact (go .drop s t sp) t := by
  have h0 := h
  unfold Ok at ok
  unfold go
  unfold Exact at h
  cases e : s.pc t <;> rw [e] at h ok <;> simp only [] at h ok ⊢
  · exact h0
  · intro ho
    rw [show ((s.drop (s.core t)).at t .tCas).pc t = .tCas from set_same _ _ _]
    exact h ho
  · by_cases hc : s.mem.owner = none ∧ sp = false
    · rw [if_pos hc]
      intro _
      rw [show ((s.swap (s.core t) .drop t).at t .tRd).pc t = .tRd from set_same _ _ _]
      have hz : s.held t = 0 := by
        rcases Nat.eq_zero_or_pos (s.held t) with z | z
        · exact z
        · have := (ok.1 z).1; rw [hc.1] at this; cases this
      refine ⟨?_, ?_⟩
      · show s.mem.count = s.held t
        rw [hf hc.1, hz]
      · intro l hl
        have hl' : set s.copy (s.core t) none (s.core t) = some l := hl
        rw [set_same] at hl'
        cases hl'
    · rw [if_neg hc]
      intro ho
      rw [show ((s.noSwap (s.core t) .drop).at t .tOwn).pc t = .tOwn from set_same _ _ _]
      exact h ho
  · by_cases hc : (s.see (s.core t)).owner = some t
    · rw [if_pos hc]
      intro ho
      rw [show (s.at t .tRd).pc t = .tRd from set_same _ _ _]
      exact ⟨(h ho).2, fun l hl => (ok.2 l hl).2 ho⟩
    · rw [if_neg hc]
      exact exact_other (fun x => hc ((see_owner ok.2).mpr x))
  · intro ho
    rw [show (s.at t (.tWr (s.see (s.core t)).count)).pc t = _ from set_same _ _ _]
    show (s.see (s.core t)).count = s.held t
    rw [← (h ho).1]
    unfold St.see
    cases e2 : s.copy (s.core t) with
    | none => rfl
    | some l => exact (h ho).2 l e2
  · rename_i n
    intro ho
    rw [show ((s.putCount (s.core t) (n + 1)).at t .tFl).pc t = _ from set_same _ _ _]
    show n + 1 = s.held t + 1
    rw [h ho]
  · intro ho
    rw [show ((s.drop (s.core t)).told t).pc t = .idle from set_same _ _ _]
    show 0 < set s.held t (s.held t + 1) t ∧ s.mem.count = set s.held t (s.held t + 1) t
    rw [set_same]
    exact ⟨Nat.succ_pos _, h ho⟩
  · intro ho
    rw [show ((s.drop (s.core t)).at t .uOwn).pc t = _ from set_same _ _ _]
    exact h ho
  · by_cases hc : (s.see (s.core t)).owner = some t
    · rw [if_pos hc]
      intro ho
      rw [show (s.at t .uCnt).pc t = _ from set_same _ _ _]
      exact h ho
    · rw [if_neg hc]
      exact exact_other (fun x => hc ((see_owner ok.2).mpr x))
  · by_cases hc : 0 < (s.see (s.core t)).count
    · rw [if_pos hc]
      intro ho
      rw [show (s.at t .uRd).pc t = _ from set_same _ _ _]
      exact h ho
    · rw [if_neg hc]
      intro ho
      have h1 := (h ho).2
      rw [see_count ok.2.2 ho] at hc
      omega
  · intro ho
    rw [show (s.at t (.uWr (s.see (s.core t)).count)).pc t = _ from set_same _ _ _]
    refine ⟨(h ho).1, ?_⟩
    show (s.see (s.core t)).count = s.held t + 1
    rw [see_count ok.2.2 ho]
    exact (h ho).2
  · rename_i n
    intro ho
    rw [show ((s.putCount (s.core t) (n - 1)).at t (if n - 1 = 0 then .uRel else .uFl)).pc t = _ from set_same _ _ _]
    have h1 := (h ho).2
    by_cases hz : n - 1 = 0
    · rw [if_pos hz]
      exact hz
    · rw [if_neg hz]
      refine ⟨?_, ?_⟩
      · show 0 < s.held t
        omega
      · show n - 1 = s.held t
        omega
  · exact exact_other (fun x => nomatch x)
  · intro ho
    rw [show ((s.drop (s.core t)).at t .idle).pc t = _ from set_same _ _ _]
    exact h ho
  · exact h0

theorem free_go (s : St) (u : Nat) (sp : Bool) (hf : Free s) (ok : Ok s u) (h : Exact s u) : Free (go .drop s u sp) := by
  unfold Ok at ok
  unfold Exact at h
  unfold go
  cases e : s.pc u <;> rw [e] at h ok <;> simp only [] at h ok ⊢
  · exact hf
  · exact hf
  · by_cases hc : s.mem.owner = none ∧ sp = false
    · rw [if_pos hc]; exact fun x => nomatch x
    · rw [if_neg hc]; exact hf
  · split <;> exact hf
  · exact hf
  · intro x
    have : s.mem.owner = none := x
    rw [ok.1] at this; cases this
  · exact hf
  · exact hf
  · split <;> exact hf
  · split <;> exact hf
  · exact hf
  · intro x
    have : s.mem.owner = none := x
    rw [ok.1] at this; cases this
  · exact fun _ => h ok.1
  · exact hf
  · exact hf

/-- everything together -/
def All (s : St) : Prop := (∀ t, Ok s t) ∧ (∀ t, Exact s t) ∧ Free s

theorem all_step (s : St) (e : Ev) (h : All s) : All (step ⟨.drop, false⟩ s e) := by
  obtain ⟨h1, h2, h3⟩ := h
  refine ⟨ok_step _ rfl s e h1, ?_, ?_⟩
  · intro t
    cases e with
    | call u o =>
      by_cases hp : s.pc u = .idle
      · by_cases hne : t = u
        · subst hne
          have hx := h2 t
          unfold Exact at hx
          rw [hp] at hx
          cases o
          · simp only [step]
            rw [if_pos hp]
            intro ho
            rw [show (s.at t .tInv).pc t = .tInv from set_same _ _ _]
            exact hx ho
          · simp only [step]
            rw [if_pos hp]
            intro ho
            rw [show (s.leave t).pc t = .uInv from set_same _ _ _]
            have hx := hx ho
            simp only [] at hx ⊢
            rw [show (s.leave t).held t = s.held t - 1 from set_same _ _ _, show (s.leave t).astray t = decide (s.held t = 0) from set_same _ _ _]
            refine ⟨decide_eq_false (by omega), ?_⟩
            show s.mem.count = s.held t - 1 + 1
            omega
        · cases o
          · simp only [step]; rw [if_pos hp]
            exact exact_same (h2 t) (set_ne _ _ hne) rfl rfl rfl (fun l hl => .inl hl)
          · simp only [step]; rw [if_pos hp]
            exact exact_same (h2 t) (set_ne _ _ hne) (set_ne _ _ hne) (set_ne _ _ hne) rfl (fun l hl => .inl hl)
      · cases o <;> simp only [step] <;> rw [if_neg hp] <;> exact h2 t
    | go u sp =>
      by_cases hne : t = u
      · subst hne; exact exact_go_self s t sp h3 (h1 t) (h2 t)
      · exact exact_go_other s t u sp hne (h2 t) (h1 u)
    | fill k =>
      simp only [step]
      by_cases hk : s.copy k = none
      · rw [if_pos hk]
        refine exact_same (h2 t) rfl rfl rfl rfl ?_
        intro l hl
        have hl' : set s.copy k (some s.mem) (s.core t) = some l := hl
        unfold set at hl'
        split at hl'
        · exact .inr (Option.some.inj hl').symm
        · exact .inl hl'
      · rw [if_neg hk]; exact h2 t
    | evict k => exact exact_same (h2 t) rfl rfl rfl rfl (fun l hl => .inl (set_none hl))
    | move u k =>
      simp only [step]
      by_cases hp : s.pc u = .idle ∨ false = true
      · rw [if_pos hp]
        have hp' : s.pc u = .idle := by
          rcases hp with a | a
          · exact a
          · cases a
        by_cases hne : t = u
        · subst hne
          have hx := h2 t
          unfold Exact at hx ⊢
          rw [hp'] at hx
          intro ho
          show match s.pc t with | _ => _
          rw [hp']
          exact hx ho
        · refine exact_same (h2 t) rfl rfl rfl rfl ?_
          intro l hl
          have hl' : s.copy (set s.core u k t) = some l := hl
          rw [set_ne _ _ hne] at hl'
          exact .inl hl'
      · rw [if_neg hp]; exact h2 t
  · cases e with
    | call u o =>
      by_cases hp : s.pc u = .idle
      · cases o <;> simp only [step] <;> rw [if_pos hp] <;> exact h3
      · cases o <;> simp only [step] <;> rw [if_neg hp] <;> exact h3
    | go u sp => exact free_go s u sp h3 (h1 u) (h2 u)
    | fill k =>
      simp only [step]
      by_cases hk : s.copy k = none
      · rw [if_pos hk]; exact h3
      · rw [if_neg hk]; exact h3
    | evict k => exact h3
    | move u k =>
      simp only [step]
      by_cases hp : s.pc u = .idle ∨ false = true
      · rw [if_pos hp]; exact h3
      · rw [if_neg hp]; exact h3

theorem all_run : ∀ (es : List Ev) (s : St), All s → All (runFrom ⟨.drop, false⟩ s es) := by
  intro es
  induction es with
  | nil => intro s h; exact h
  | cons e es ih => intro s h; exact ih _ (all_step s e h)

theorem all_reach (core : Nat → Nat) (es : List Ev) : All (run ⟨.drop, false⟩ core es) :=
  all_run es (init core) ⟨ok_init core, (fun _ ho => by cases ho), (fun _ => rfl)⟩

/-! ## Theorems -/

/-- **Given back.** When the compare-and-swap drops the line: outside of a call a task owns the mutex exactly when it was told so more
often than it called unlock, and the count is how many times more. -/
theorem owned_exactly (core : Nat → Nat) (es : List Ev) (t : Nat) (hp : (run ⟨.drop, false⟩ core es).pc t = .idle) :
    ((run ⟨.drop, false⟩ core es).mem.owner = some t ↔ 0 < (run ⟨.drop, false⟩ core es).held t) ∧
    (0 < (run ⟨.drop, false⟩ core es).held t → (run ⟨.drop, false⟩ core es).mem.count = (run ⟨.drop, false⟩ core es).held t) := by
  obtain ⟨h1, h2, _⟩ := all_reach core es
  have hx := h2 t
  unfold Exact at hx
  rw [hp] at hx
  have hown := held_owner (h1 t)
  exact ⟨⟨fun ho => (hx ho).1, hown⟩, fun hh => (hx (hown hh)).2⟩

/-- when everybody is out of the calls and nobody has the mutex it is free again -/
theorem free_again (core : Nat → Nat) (es : List Ev) (hp : ∀ t, (run ⟨.drop, false⟩ core es).pc t = .idle)
    (hh : ∀ t, (run ⟨.drop, false⟩ core es).held t = 0) : (run ⟨.drop, false⟩ core es).mem = ⟨none, 0⟩ := by
  have hn : (run ⟨.drop, false⟩ core es).mem.owner = none := by
    cases e : (run ⟨.drop, false⟩ core es).mem.owner with
    | none => rfl
    | some t =>
      have := (owned_exactly core es t (hp t)).1.mp e
      rw [hh t] at this
      exact absurd this (Nat.lt_irrefl 0)
  have hc := (all_reach core es).2.2 hn
  cases e : (run ⟨.drop, false⟩ core es).mem with
  | mk o n => rw [e] at hn hc; rw [show o = none from hn, show n = 0 from hc]

/-! ### The compare-and-swap leaves the line in the cache -/

/-- task `t` makes `n` accesses -/
def gos (t n : Nat) : List Ev := List.replicate n (.go t false)

/-- where the tasks are: 0 and 2 on core 0, 1 on core 1 -/
def where3 (t : Nat) : Nat := if t = 1 then 1 else 0

/-- Task 1 (core 1) takes the mutex; task 0 (core 0) starts to try and is pre-empted after its invalidation; task 2, on the same
core, tries and looks at the mutex: the line is in the cache; task 1 gives the mutex back; task 0 goes on. -/
def leak : List Ev :=
  .call 1 .trylock :: gos 1 5 ++ .call 0 .trylock :: gos 0 1 ++ .call 2 .trylock :: gos 2 2 ++ .fill 0 :: gos 2 1 ++
  .call 1 .unlock :: gos 1 7 ++ gos 0 4 ++ .call 0 .unlock :: gos 0 6

/-- **Leak.** Otherwise a mutex may stay taken for ever though everybody gave it back: after this run nobody has it, everybody is
out of the API, its owner is task 0, and so it stays whatever the others do. -/
theorem leaks (m : Mode) (hm : m ≠ .drop) :
    (∀ t, (run ⟨m, false⟩ where3 leak).pc t = .idle) ∧ (∀ t, (run ⟨m, false⟩ where3 leak).held t = 0) ∧
    ∀ es, (∀ o, Ev.call 0 o ∉ es) → (run ⟨m, false⟩ where3 (leak ++ es)).mem.owner = some 0 := by
  have hr : ∀ es, run ⟨m, false⟩ where3 (leak ++ es) = runFrom ⟨m, false⟩ (run ⟨m, false⟩ where3 leak) es := by
    intro es; unfold run runFrom; rw [List.foldl_append]
  have ho : (run ⟨m, false⟩ where3 leak).mem.owner = some 0 := by
    cases m
    · exact absurd rfl hm
    · decide +kernel
    · decide +kernel
  have hp : ∀ t, (run ⟨m, false⟩ where3 leak).pc t = .idle := by
    intro t
    by_cases h0 : t = 0
    · subst h0; cases m <;> first | exact absurd rfl hm | decide +kernel
    · by_cases h1 : t = 1
      · subst h1; cases m <;> decide +kernel
      · by_cases h2 : t = 2
        · subst h2; cases m <;> decide +kernel
        · cases m <;> simp [run, runFrom, leak, gos, step, go, init, set, where3, St.at, St.drop, St.see, St.swap, St.noSwap, St.putCount, St.putOwner, St.told, St.leave, h0, h1, h2]
  have hh : ∀ t, (run ⟨m, false⟩ where3 leak).held t = 0 := by
    intro t
    by_cases h0 : t = 0
    · subst h0; cases m <;> first | exact absurd rfl hm | decide +kernel
    · by_cases h1 : t = 1
      · subst h1; cases m <;> decide +kernel
      · by_cases h2 : t = 2
        · subst h2; cases m <;> decide +kernel
        · cases m <;> simp [run, runFrom, leak, gos, step, go, init, set, where3, St.at, St.drop, St.see, St.swap, St.noSwap, St.putCount, St.putOwner, St.told, St.leave, h0, h1, h2]
  refine ⟨hp, hh, ?_⟩
  intro es hes
  rw [hr]
  exact (owner_stays ⟨m, false⟩ rfl 0 es _ (fun u => ok_reach ⟨m, false⟩ rfl where3 leak u) ho (hp 0) hes).1

/-! ### Tasks that change cores inside a call -/

/-- Task 0 takes the mutex on core 1, where task 1 then looks at it (the line is in the cache of core 1, with owner 0); task 0 gives it back on core 0; task 2
takes it on core 0; task 0 tries there, is moved to core 1 after its compare-and-swap failed, and finds itself the owner. -/
def moved : List Ev :=
  .move 0 1 :: .call 0 .trylock :: gos 0 5 ++ .call 1 .trylock :: gos 1 2 ++ .fill 1 :: gos 1 1 ++
  .move 0 0 :: .call 0 .unlock :: gos 0 7 ++ .call 2 .trylock :: gos 2 5 ++
  .call 0 .trylock :: gos 0 2 ++ .move 0 1 :: gos 0 4

/-- **Two owners.** If tasks may change cores inside a call, two tasks may have the mutex, whatever the compare-and-swap does. -/
theorem two_owners (m : Mode) : 0 < (run ⟨m, true⟩ where3 moved).held 0 ∧ 0 < (run ⟨m, true⟩ where3 moved).held 2 := by
  cases m <;> decide +kernel

/-- the hypotheses of the theorems: a run in which two tasks on two cores take the mutex in turn, one of them twice, and change cores between
their calls -/
def busy : List Ev :=
  .call 1 .trylock :: gos 1 5 ++ .call 1 .trylock :: gos 1 6 ++ .call 0 .trylock :: gos 0 3 ++ .fill 0 :: .fill 1 :: gos 0 1 ++
  .call 1 .unlock :: gos 1 6 ++ .move 1 0 :: .call 1 .unlock :: gos 1 7 ++ .move 0 1 :: .call 0 .trylock :: gos 0 5

example : (run ⟨.drop, false⟩ where3 busy).held 0 = 1 ∧ (run ⟨.drop, false⟩ where3 busy).held 1 = 0 ∧
    (run ⟨.drop, false⟩ where3 busy).mem = ⟨some 0, 1⟩ ∧ (run ⟨.drop, false⟩ where3 busy).pc 0 = .idle := by decide +kernel
example : (run ⟨.ignore, false⟩ where3 busy).held 0 = 1 ∧ (run ⟨.update, false⟩ where3 busy).held 0 = 1 := by decide +kernel
/-- re-entrance: after the first 6 events and the failed swap -/
example : 0 < (run ⟨.update, false⟩ where3 (busy.take 9)).held 1 ∧ (run ⟨.update, false⟩ where3 (busy.take 9)).pc 1 = .tOwn := by decide +kernel
/-- a stray unlock stalls -/
example : (run ⟨.drop, false⟩ where3 (busy ++ .call 1 .unlock :: gos 1 2)).pc 1 = .dead := by decide +kernel

end Pico.MtxCache
