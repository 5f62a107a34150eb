import Verif.Ipc.MutexCache
/-
A futex (ipc/picoRTOS_futex.c) on cores whose data caches are not kept coherent by the hardware.  Unlike the mutex it makes no
cache maintenance call; arch_test_and_set is arch_compare_and_swap(ptr, 0, 1), made in memory
(arch/powerpc/e200z7/picoRTOS_port.c:72-75, portasm.S:131-148), and picoRTOS_futex_unlock (77-81) reads `*futex` through the cache
before it stores 0.

Modelled as in Verif/Ipc/MutexCache.lean: write-through caches, the copy of the line of the futex in each core, each access of
each task as one step, the hardware loading and dropping the line at any time, tasks moving from core to core.
Simplified: picoRTOS_futex_lock is picoRTOS_futex_trylock again and again (55-64), so only the latter is here; the line holds nothing but
the futex; only a task that has the futex calls unlock (what happens otherwise is in C37).
-/
namespace Pico.FtxCache
open Pico.MtxCache (Mode set)

/-- `away`: a task may be moved to another core while it has the futex (it always may be when it has not) -/
structure Cfg where
  mode : Mode
  away : Bool

/-- the access a task is about to make -/
inductive PC where
  | idle
  | tTas    -- arch_test_and_set(futex), picoRTOS_futex.c:39
  | uRd     -- picoRTOS_assert_fatal(*futex != 0), 79
  | uWr     -- *futex = 0, 80
  | dead    -- picoRTOS_fatal
deriving DecidableEq, Repr

/-- memory, the copy in each core, the core and the next access of each task; `held t`: `t` was told it has the futex and has not given it back -/
structure St where
  mem : Bool
  copy : Nat → Option Bool
  core : Nat → Nat
  pc : Nat → PC
  held : Nat → Bool

/-- after picoRTOS_futex_init (picoRTOS_futex.c:23-26) -/
def init (core : Nat → Nat) : St := ⟨false, fun _ => none, core, fun _ => .idle, fun _ => false⟩

inductive Ev where
  | trylock (t : Nat)
  | unlock (t : Nat)
  | go (t : Nat) (spur : Bool)
  | fill (k : Nat)
  | evict (k : Nat)
  | move (t k : Nat)
deriving DecidableEq, Repr

def St.at (s : St) (t : Nat) (p : PC) : St := { s with pc := set s.pc t p }

/-- what a load on core `k` sees -/
def St.see (s : St) (k : Nat) : Bool := (s.copy k).getD s.mem

/-- arch_test_and_set when it swaps: picoRTOS_futex_trylock returns 0 -/
def St.take (s : St) (m : Mode) (t : Nat) : St :=
  { s with mem := true, pc := set s.pc t .idle, held := set s.held t true,
           copy := match m with
             | .drop => set s.copy (s.core t) none
             | .update => set s.copy (s.core t) ((s.copy (s.core t)).map (fun _ => true))
             | .ignore => s.copy }

/-- and when it does not: -EAGAIN -/
def St.fail (s : St) (m : Mode) (t : Nat) : St :=
  { s with pc := set s.pc t .idle, copy := match m with | .drop => set s.copy (s.core t) none | _ => s.copy }

/-- the store of picoRTOS_futex_unlock: memory, and the copy if there is one -/
def St.give (s : St) (t : Nat) : St :=
  { s with mem := false, pc := set s.pc t .idle, held := set s.held t false,
           copy := set s.copy (s.core t) ((s.copy (s.core t)).map (fun _ => false)) }

/-- task `t` makes the access it is at -/
def go (m : Mode) (s : St) (t : Nat) (spur : Bool) : St :=
  match s.pc t with
  | .idle => s
  | .tTas => if s.mem = false ∧ spur = false then s.take m t else s.fail m t
  | .uRd => if s.see (s.core t) = true then s.at t .uWr else s.at t .dead
  | .uWr => s.give t
  | .dead => s

/-- one event; an event that cannot happen leaves the state as it is -/
def step (c : Cfg) (s : St) : Ev → St
  | .trylock t => if s.pc t = .idle then s.at t .tTas else s
  | .unlock t => if s.pc t = .idle ∧ s.held t = true then s.at t .uRd else s
  | .go t spur => go c.mode s t spur
  | .fill k => if s.copy k = none then { s with copy := set s.copy k (some s.mem) } else s
  | .evict k => { s with copy := set s.copy k none }
  | .move t k => if s.held t = false ∨ c.away = true then { s with core := set s.core t k } else s

def runFrom (c : Cfg) (s : St) (es : List Ev) : St := es.foldl (step c) s

def run (c : Cfg) (core : Nat → Nat) (es : List Ev) : St := runFrom c (init core) es

/-! ## Invariants -/

theorem set_same {α : Type} (f : Nat → α) (i : Nat) (v : α) : set f i v i = v := by simp [MtxCache.set]
theorem set_ne {α : Type} (f : Nat → α) {i j : Nat} (v : α) (h : j ≠ i) : set f i v j = f j := by simp [MtxCache.set, h]

structure Inv (s : St) : Prop where
  locked : ∀ t, s.held t = true → s.mem = true
  one : ∀ t u, s.held t = true → s.held u = true → t = u
  giving : ∀ t, s.pc t = .uRd ∨ s.pc t = .uWr ∨ s.pc t = .dead → s.held t = true

theorem inv_pc {s : St} {t : Nat} {p : PC} (h : Inv s) (hp : p = .uRd ∨ p = .uWr ∨ p = .dead → s.held t = true) : Inv (s.at t p) := by
  refine ⟨h.locked, h.one, ?_⟩
  intro u hu
  by_cases e : u = t
  · subst e
    rw [show (s.at u p).pc u = p from set_same _ _ _] at hu
    exact hp hu
  · rw [show (s.at t p).pc u = s.pc u from set_ne _ _ e] at hu
    exact h.giving u hu

theorem inv_go (m : Mode) (s : St) (t : Nat) (sp : Bool) (h : Inv s) : Inv (go m s t sp) := by
  unfold go
  cases e : s.pc t <;> simp only []
  · exact h
  · by_cases hc : s.mem = false ∧ sp = false
    · rw [if_pos hc]
      have nobody : ∀ u, s.held u ≠ true := fun u hu => by
        have := h.locked u hu; rw [hc.1] at this; cases this
      have only : ∀ u, (s.take m t).held u = true → u = t := by
        intro u hu
        by_cases e1 : u = t
        · exact e1
        · rw [show (s.take m t).held u = s.held u from set_ne _ _ e1] at hu
          exact absurd hu (nobody u)
      refine ⟨fun _ _ => rfl, fun u v hu hv => (only u hu).trans (only v hv).symm, ?_⟩
      intro u hu
      by_cases e1 : u = t
      · subst e1; exact set_same _ _ _
      · rw [show (s.take m t).pc u = s.pc u from set_ne _ _ e1] at hu
        exact absurd (h.giving u hu) (nobody u)
    · rw [if_neg hc]
      refine ⟨h.locked, h.one, ?_⟩
      intro u hu
      by_cases e1 : u = t
      · subst e1
        rw [show (s.fail m u).pc u = .idle from set_same _ _ _] at hu
        rcases hu with x | x | x <;> cases x
      · rw [show (s.fail m t).pc u = s.pc u from set_ne _ _ e1] at hu
        exact h.giving u hu
  · have ht := h.giving t (.inl e)
    split <;> exact inv_pc h (fun _ => ht)
  · have ht := h.giving t (.inr (.inl e))
    have nobody : ∀ u, (s.give t).held u ≠ true := by
      intro u hu
      by_cases e1 : u = t
      · subst e1
        rw [show (s.give u).held u = false from set_same _ _ _] at hu
        cases hu
      · rw [show (s.give t).held u = s.held u from set_ne _ _ e1] at hu
        exact e1 (h.one u t hu ht)
    refine ⟨fun u hu => absurd hu (nobody u), fun u _ hu => absurd hu (nobody u), ?_⟩
    intro u hu
    by_cases e1 : u = t
    · subst e1
      rw [show (s.give u).pc u = .idle from set_same _ _ _] at hu
      rcases hu with x | x | x <;> cases x
    · rw [show (s.give t).pc u = s.pc u from set_ne _ _ e1] at hu
      exact absurd (h.one u t (h.giving u hu) ht) e1
  · exact h

theorem inv_step (c : Cfg) (s : St) (e : Ev) (h : Inv s) : Inv (step c s e) := by
  cases e with
  | trylock t =>
    simp only [step]
    by_cases hp : s.pc t = .idle
    · rw [if_pos hp]; exact inv_pc h (fun x => by rcases x with x | x | x <;> cases x)
    · rw [if_neg hp]; exact h
  | unlock t =>
    simp only [step]
    by_cases hp : s.pc t = .idle ∧ s.held t = true
    · rw [if_pos hp]; exact inv_pc h (fun _ => hp.2)
    · rw [if_neg hp]; exact h
  | go t sp => exact inv_go c.mode s t sp h
  | fill k =>
    simp only [step]
    by_cases hp : s.copy k = none
    · rw [if_pos hp]; exact ⟨h.locked, h.one, h.giving⟩
    · rw [if_neg hp]; exact h
  | evict k => exact ⟨h.locked, h.one, h.giving⟩
  | move t k =>
    simp only [step]
    by_cases hp : s.held t = false ∨ c.away = true
    · rw [if_pos hp]; exact ⟨h.locked, h.one, h.giving⟩
    · rw [if_neg hp]; exact h

theorem inv_run (c : Cfg) : ∀ (es : List Ev) (s : St), Inv s → Inv (runFrom c s es) := by
  intro es
  induction es with
  | nil => intro s h; exact h
  | cons e es ih => intro s h; exact ih _ (inv_step c s e h)

theorem inv_init (core : Nat → Nat) : Inv (init core) :=
  ⟨(fun _ h => Bool.noConfusion h), (fun _ _ h => Bool.noConfusion h), (fun _ h => by rcases h with x | x | x <;> cases x)⟩

theorem inv_reach (c : Cfg) (core : Nat → Nat) (es : List Ev) : Inv (run c core es) := inv_run c es _ (inv_init core)

/-- the core of the task that has the futex has not got an old copy; nobody is stalled -/
structure Sees (s : St) : Prop where
  copy : ∀ t v, s.held t = true → s.copy (s.core t) = some v → v = true
  alive : ∀ t, s.pc t ≠ .dead

theorem sees_go (m : Mode) (hm : m ≠ .ignore) (s : St) (t : Nat) (sp : Bool) (h : Inv s) (g : Sees s) : Sees (go m s t sp) := by
  unfold go
  cases e : s.pc t <;> simp only []
  · exact g
  · by_cases hc : s.mem = false ∧ sp = false
    · rw [if_pos hc]
      refine ⟨?_, ?_⟩
      · intro u v hu hv
        by_cases e1 : u = t
        · subst e1
          cases m with
          | drop =>
            have hv' : set s.copy (s.core u) none (s.core u) = some v := hv
            rw [set_same] at hv'; cases hv'
          | update =>
            have hv' : set s.copy (s.core u) ((s.copy (s.core u)).map (fun _ => true)) (s.core u) = some v := hv
            rw [set_same] at hv'
            cases e2 : s.copy (s.core u) with
            | none => rw [e2] at hv'; cases hv'
            | some w => rw [e2] at hv'; exact (Option.some.inj hv').symm
          | ignore => exact absurd rfl hm
        · rw [show (s.take m t).held u = s.held u from set_ne _ _ e1] at hu
          have := h.locked u hu; rw [hc.1] at this; cases this
      · intro u hu
        by_cases e1 : u = t
        · subst e1
          rw [show (s.take m u).pc u = .idle from set_same _ _ _] at hu; cases hu
        · rw [show (s.take m t).pc u = s.pc u from set_ne _ _ e1] at hu
          exact g.alive u hu
    · rw [if_neg hc]
      refine ⟨?_, ?_⟩
      · intro u v hu hv
        cases m with
        | drop =>
          have hv' : set s.copy (s.core t) none (s.core u) = some v := hv
          unfold MtxCache.set at hv'
          split at hv'
          · cases hv'
          · exact g.copy u v hu hv'
        | update => exact g.copy u v hu hv
        | ignore => exact absurd rfl hm
      · intro u hu
        by_cases e1 : u = t
        · subst e1
          rw [show (s.fail m u).pc u = .idle from set_same _ _ _] at hu; cases hu
        · rw [show (s.fail m t).pc u = s.pc u from set_ne _ _ e1] at hu
          exact g.alive u hu
  · have ht := h.giving t (.inl e)
    have hs : s.see (s.core t) = true := by
      unfold St.see
      cases e2 : s.copy (s.core t) with
      | none => exact h.locked t ht
      | some v => exact g.copy t v ht e2
    rw [if_pos hs]
    refine ⟨g.copy, ?_⟩
    intro u hu
    by_cases e1 : u = t
    · subst e1
      rw [show (s.at u .uWr).pc u = .uWr from set_same _ _ _] at hu; cases hu
    · rw [show (s.at t .uWr).pc u = s.pc u from set_ne _ _ e1] at hu
      exact g.alive u hu
  · have ht := h.giving t (.inr (.inl e))
    refine ⟨?_, ?_⟩
    · intro u v hu _
      by_cases e1 : u = t
      · subst e1
        rw [show (s.give u).held u = false from set_same _ _ _] at hu; cases hu
      · rw [show (s.give t).held u = s.held u from set_ne _ _ e1] at hu
        exact absurd (h.one u t hu ht) e1
    · intro u hu
      by_cases e1 : u = t
      · subst e1
        rw [show (s.give u).pc u = .idle from set_same _ _ _] at hu; cases hu
      · rw [show (s.give t).pc u = s.pc u from set_ne _ _ e1] at hu
        exact g.alive u hu
  · exact g

theorem sees_pc {s : St} {t : Nat} {p : PC} (g : Sees s) (hp : p ≠ .dead) : Sees (s.at t p) := by
  refine ⟨g.copy, ?_⟩
  intro u hu
  by_cases e : u = t
  · subst e
    rw [show (s.at u p).pc u = p from set_same _ _ _] at hu
    exact hp hu
  · rw [show (s.at t p).pc u = s.pc u from set_ne _ _ e] at hu
    exact g.alive u hu

theorem sees_step (m : Mode) (hm : m ≠ .ignore) (s : St) (e : Ev) (h : Inv s) (g : Sees s) : Sees (step ⟨m, false⟩ s e) := by
  cases e with
  | trylock t =>
    simp only [step]
    by_cases hp : s.pc t = .idle
    · rw [if_pos hp]; exact sees_pc g (fun x => by cases x)
    · rw [if_neg hp]; exact g
  | unlock t =>
    simp only [step]
    by_cases hp : s.pc t = .idle ∧ s.held t = true
    · rw [if_pos hp]; exact sees_pc g (fun x => by cases x)
    · rw [if_neg hp]; exact g
  | go t sp => exact sees_go m hm s t sp h g
  | fill k =>
    simp only [step]
    by_cases hp : s.copy k = none
    · rw [if_pos hp]
      refine ⟨?_, g.alive⟩
      intro u v hu hv
      have hv' : set s.copy k (some s.mem) (s.core u) = some v := hv
      unfold MtxCache.set at hv'
      split at hv'
      · rw [← Option.some.inj hv']; exact h.locked u hu
      · exact g.copy u v hu hv'
    · rw [if_neg hp]; exact g
  | evict k =>
    refine ⟨?_, g.alive⟩
    intro u v hu hv
    have hv' : set s.copy k none (s.core u) = some v := hv
    unfold MtxCache.set at hv'
    split at hv'
    · cases hv'
    · exact g.copy u v hu hv'
  | move t k =>
    simp only [step]
    by_cases hp : s.held t = false ∨ false = true
    · rw [if_pos hp]
      refine ⟨?_, g.alive⟩
      intro u v hu hv
      have hne : u ≠ t := by
        intro x; subst x
        rcases hp with a | a
        · have hu' : s.held u = true := hu
          rw [a] at hu'; cases hu'
        · cases a
      have hv' : s.copy (set s.core t k u) = some v := hv
      rw [set_ne _ _ hne] at hv'
      exact g.copy u v hu hv'
    · rw [if_neg hp]; exact g

theorem sees_run (m : Mode) (hm : m ≠ .ignore) : ∀ (es : List Ev) (s : St), Inv s → Sees s → Sees (runFrom ⟨m, false⟩ s es) := by
  intro es
  induction es with
  | nil => intro s _ g; exact g
  | cons e es ih => intro s h g; exact ih _ (inv_step _ s e h) (sees_step m hm s e h g)

/-! ## Theorems -/

/-- **Exclusion** does not depend on the caches: whatever the compare-and-swap does to the line and wherever tasks move, at most one task has
the futex. -/
theorem exclusive (c : Cfg) (core : Nat → Nat) (es : List Ev) (t u : Nat)
    (ht : (run c core es).held t = true) (hu : (run c core es).held u = true) : t = u :=
  (inv_reach c core es).one t u ht hu

/-- **Unlock does not fail its owner** if tasks stay on their core while they have the futex and the compare-and-swap drops or
updates the line. -/
theorem owner_not_stalled (m : Mode) (hm : m ≠ .ignore) (core : Nat → Nat) (es : List Ev) (t : Nat) :
    (run ⟨m, false⟩ core es).pc t ≠ .dead :=
  (sees_run m hm es _ (inv_init core) ⟨(fun _ _ h => Bool.noConfusion h), (fun _ h => by cases h)⟩).alive t

/-- a task that has the futex and is stalled keeps it -/
theorem dead_keeps (c : Cfg) (t : Nat) : ∀ (es : List Ev) (s : St), Inv s → s.pc t = .dead →
    (runFrom c s es).pc t = .dead ∧ (runFrom c s es).mem = true := by
  intro es
  induction es with
  | nil => intro s h hp; exact ⟨hp, h.locked t (h.giving t (.inr (.inr hp)))⟩
  | cons e es ih =>
    intro s h hp
    refine ih _ (inv_step c s e h) ?_
    cases e with
    | trylock u =>
      simp only [step]
      by_cases hq : s.pc u = .idle
      · rw [if_pos hq]
        have hne : t ≠ u := fun x => by subst x; rw [hp] at hq; cases hq
        exact (set_ne _ _ hne).trans hp
      · rw [if_neg hq]; exact hp
    | unlock u =>
      simp only [step]
      by_cases hq : s.pc u = .idle ∧ s.held u = true
      · rw [if_pos hq]
        have hne : t ≠ u := fun x => by subst x; rw [hp] at hq; cases hq.1
        exact (set_ne _ _ hne).trans hp
      · rw [if_neg hq]; exact hp
    | go u sp =>
      show (go c.mode s u sp).pc t = .dead
      by_cases hne : t = u
      · subst hne; unfold go; rw [hp]; exact hp
      · unfold go
        cases e2 : s.pc u <;> simp only []
        · exact hp
        · split <;> exact (set_ne _ _ hne).trans hp
        · split <;> exact (set_ne _ _ hne).trans hp
        · exact (set_ne _ _ hne).trans hp
        · exact hp
    | fill k => simp only [step]; by_cases hq : s.copy k = none <;> simp [hq, hp]
    | evict k => exact hp
    | move u k =>
      simp only [step]
      by_cases hq : s.held u = false ∨ c.away = true
      · rw [if_pos hq]; exact hp
      · rw [if_neg hq]; exact hp

/-- One task, alone: it takes the futex and gives it back on core 1, takes it again on core 0, is moved to core 1, and gives it back. -/
def moved : List Ev :=
  [.move 0 1, .trylock 0, .go 0 false, .unlock 0, .fill 1, .go 0 false, .go 0 false,
   .move 0 0, .trylock 0, .go 0 false, .move 0 1, .unlock 0, .go 0 false]

/-- One task, alone, that stays on its core: it takes the futex and gives it back, twice. -/
def twice : List Ev :=
  [.trylock 0, .go 0 false, .unlock 0, .fill 0, .go 0 false, .go 0 false,
   .trylock 0, .go 0 false, .unlock 0, .go 0 false]

/-- **Stalled by its own unlock.** A task that is moved while it has the futex may be stalled when it gives it back: it finds the 0 of an
earlier unlock in the cache of its new core.  The futex then stays taken for ever. -/
theorem stalled_when_moved (m : Mode) (es : List Ev) :
    (run ⟨m, true⟩ (fun _ => 0) (moved ++ es)).pc 0 = .dead ∧ (run ⟨m, true⟩ (fun _ => 0) (moved ++ es)).mem = true := by
  have e : run ⟨m, true⟩ (fun _ => 0) (moved ++ es) = runFrom ⟨m, true⟩ (run ⟨m, true⟩ (fun _ => 0) moved) es := by
    unfold run runFrom; rw [List.foldl_append]
  rw [e]
  refine dead_keeps _ 0 es _ (inv_reach _ _ moved) ?_
  cases m <;> decide +kernel

/-- **The same without moving** where the compare-and-swap leaves an old copy in the cache. -/
theorem stalled_when_ignored (es : List Ev) :
    (run ⟨.ignore, false⟩ (fun _ => 0) (twice ++ es)).pc 0 = .dead ∧ (run ⟨.ignore, false⟩ (fun _ => 0) (twice ++ es)).mem = true := by
  have e : run ⟨.ignore, false⟩ (fun _ => 0) (twice ++ es) = runFrom ⟨.ignore, false⟩ (run ⟨.ignore, false⟩ (fun _ => 0) twice) es := by
    unfold run runFrom; rw [List.foldl_append]
  rw [e]
  exact dead_keeps _ 0 es _ (inv_reach _ _ twice) (by decide +kernel)

/-- the hypotheses: two tasks take the futex in turn, with the line in the caches all the time -/
def turns : List Ev :=
  [.fill 0, .fill 1, .trylock 0, .go 0 false, .trylock 1, .go 1 false, .fill 0, .fill 1, .unlock 0, .go 0 false, .go 0 false,
   .move 0 1, .trylock 1, .go 1 false, .fill 1, .trylock 0, .go 0 false]
example : (run ⟨.drop, false⟩ (fun t => t) turns).held 1 = true ∧ (run ⟨.drop, false⟩ (fun t => t) turns).held 0 = false ∧
    (run ⟨.update, false⟩ (fun t => t) turns).held 1 = true := by decide +kernel

end Pico.FtxCache
