/-
C64: on SMP, scheduler passes (picoRTOS_tick, picoRTOS_syscall: scheduler/picoRTOS-SMP.c:564-607, 612-677) and critical
sections (picoRTOS_suspend ... picoRTOS_resume: lines 410-424) all run between arch_spin_lock and arch_spin_unlock.  The
model: any number of cores, one access to the lock per step, in any order.
-/
namespace Pico.Spin

/-- `k` accesses are left after the next one; `stuck`: the core stopped on the assertion -/
inductive Pc where
  | out
  | spin (k : Nat)
  | inside
  | stuck
  deriving DecidableEq

/-- `lock`: the core that took the hardware lock last, if it is taken -/
structure Sys where
  lock : Option Nat
  pc : Nat → Pc

structure Cfg where
  /-- failing accesses before giving up, minus one.  rp2040 (arm/armv6-m/mach-rp2040/picoRTOS-SMP_port.c:246-256): `while
  (*SIO_SPINLOCK0 == 0 && loop-- != 0)` makes CONFIG_DEADLOCK_COUNT + 1 of them.  e200
  (powerpc/e200z4/mach-mpc574x/spinlock-sema42.c:28-41, e200z7/mach-mpc577x/spinlock-sema4.c:38-51): `while (deadlock-- != 0)
  { GATE[0] = core; if (GATE[0] == core) break; }` makes CONFIG_DEADLOCK_COUNT. -/
  tries : Nat
  /-- arch_assert_void(loop != -1) does nothing in a release build (arch/include/picoRTOS_port.h:105) -/
  release : Bool
  /-- the gates of e200 are only unlocked by their owner; a spin lock of rp2040 by anyone -/
  owned : Bool

inductive Ev where
  /-- core `i` calls arch_spin_lock -/
  | call (i : Nat)
  /-- one round of its loop -/
  | probe (i : Nat)
  /-- core `i` calls arch_spin_unlock (rp2040 lines 258-261, sema42 lines 43-46) -/
  | leave (i : Nat)

def set (f : Nat → Pc) (i : Nat) (p : Pc) : Nat → Pc := fun j => if j = i then p else f j

theorem set_same (f : Nat → Pc) (i : Nat) (p : Pc) : set f i p i = p := if_pos rfl
theorem set_ne (f : Nat → Pc) (i : Nat) (p : Pc) {j : Nat} (h : j ≠ i) : set f i p j = f j := if_neg h

/-- One step.  A core calls arch_spin_lock when it is outside, and unlocks when it is inside: a task that calls the scheduler
from its critical section is not modelled. -/
def step (c : Cfg) (s : Sys) : Ev → Option Sys
  | .call i => if s.pc i = .out then some { s with pc := set s.pc i (.spin c.tries) } else none
  | .probe i =>
    match s.pc i with
    | .spin k =>
      match s.lock with
      | none => some ⟨some i, set s.pc i .inside⟩
      | some _ =>
        match k with
        | 0 => some { s with pc := set s.pc i (if c.release then .inside else .stuck) }
        | k + 1 => some { s with pc := set s.pc i (.spin k) }
    | _ => none
  | .leave i =>
    if s.pc i = .inside then
      some ⟨if c.owned = true ∧ s.lock ≠ some i then s.lock else none, set s.pc i .out⟩
    else none

/-- a history of accesses, with the hypothesis `p` on each -/
inductive Reach (c : Cfg) (p : Sys → Ev → Prop) : Sys → Prop where
  | init : Reach c p ⟨none, fun _ => .out⟩
  | step {s t : Sys} {e : Ev} : Reach c p s → p s e → step c s e = some t → Reach c p t

/-- core `i` is about to give up -/
def GivesUp (s : Sys) : Ev → Prop
  | .probe i => s.pc i = .spin 0 ∧ s.lock ≠ none
  | _ => False

/-- at most one core is inside, and it has the lock -/
def Excl (s : Sys) : Prop := ∀ i, s.pc i = .inside → s.lock = some i

theorem Excl.one {s : Sys} (h : Excl s) {i j : Nat} (hi : s.pc i = .inside) (hj : s.pc j = .inside) : i = j := by
  have := (h i hi).symm.trans (h j hj)
  exact Option.some.inj this

theorem excl_step (c : Cfg) (s t : Sys) (e : Ev) (hx : Excl s) (hn : c.release = false ∨ ¬ GivesUp s e)
    (h : step c s e = some t) : Excl t := by
  cases e with
  | call i =>
    by_cases hp : s.pc i = .out
    · simp only [step, if_pos hp, Option.some.injEq] at h
      subst h
      intro j hj
      by_cases hji : j = i
      · subst hji
        have : set s.pc j (.spin c.tries) j = .inside := hj
        rw [set_same] at this; cases this
      · have : set s.pc i (.spin c.tries) j = .inside := hj
        rw [set_ne _ _ _ hji] at this
        exact hx j this
    · simp only [step, if_neg hp] at h; cases h
  | probe i =>
    cases hp : s.pc i with
    | spin k =>
      cases hl : s.lock with
      | none =>
        simp only [step, hp, hl, Option.some.injEq] at h
        subst h
        intro j hj
        by_cases hji : j = i
        · rw [hji]
        · have : set s.pc i .inside j = .inside := hj
          rw [set_ne _ _ _ hji] at this
          have := hx j this
          rw [hl] at this; cases this
      | some o =>
        cases k with
        | zero =>
          simp only [step, hp, hl, Option.some.injEq] at h
          have hr : c.release = false := by
            rcases hn with hn | hn
            · exact hn
            · exact absurd ⟨hp, by rw [hl]; exact Option.some_ne_none o⟩ hn
          subst h
          intro j hj
          by_cases hji : j = i
          · subst hji
            have : set s.pc j (if c.release then .inside else .stuck) j = .inside := hj
            rw [set_same, hr] at this; cases this
          · have : set s.pc i _ j = .inside := hj
            rw [set_ne _ _ _ hji] at this
            exact hl ▸ hx j this
        | succ k =>
          simp only [step, hp, hl, Option.some.injEq] at h
          subst h
          intro j hj
          by_cases hji : j = i
          · subst hji
            have : set s.pc j (.spin k) j = .inside := hj
            rw [set_same] at this; cases this
          · have : set s.pc i (.spin k) j = .inside := hj
            rw [set_ne _ _ _ hji] at this
            exact hl ▸ hx j this
    | out => simp only [step, hp] at h; cases h
    | inside => simp only [step, hp] at h; cases h
    | stuck => simp only [step, hp] at h; cases h
  | leave i =>
    by_cases hp : s.pc i = .inside
    · simp only [step, if_pos hp, Option.some.injEq] at h
      subst h
      intro j hj
      have hji : j ≠ i := by
        rintro rfl
        have : set s.pc j .out j = .inside := hj
        rw [set_same] at this; cases this
      have hj' : set s.pc i .out j = .inside := hj
      rw [set_ne _ _ _ hji] at hj'
      exact absurd (hx.one hj' hp) hji
    · simp only [step, if_neg hp] at h; cases h

theorem excl_reach (c : Cfg) (p : Sys → Ev → Prop) (hp : ∀ s e, p s e → c.release = false ∨ ¬ GivesUp s e) {s : Sys}
    (h : Reach c p s) : Excl s := by
  induction h with
  | init => intro i hi; cases hi
  | step _ h1 h2 ih => exact excl_step c _ _ _ ih (hp _ _ h1) h2

/-- **C64, debug build**: at any time, at most one core is in a scheduler pass or a critical section. -/
theorem smp_exclusive_debug (c : Cfg) (hc : c.release = false) (s : Sys) (h : Reach c (fun _ _ => True) s) (i j : Nat)
    (hi : s.pc i = .inside) (hj : s.pc j = .inside) : i = j :=
  (excl_reach c _ (fun _ _ _ => Or.inl hc) h).one hi hj

/-- **C64, release build**, in the histories in which no core gives up waiting.  Partial: see `smp_both_inside`. -/
theorem smp_exclusive_partial (c : Cfg) (s : Sys) (h : Reach c (fun s e => ¬ GivesUp s e) s) (i j : Nat)
    (hi : s.pc i = .inside) (hj : s.pc j = .inside) : i = j :=
  (excl_reach c _ (fun _ _ h => Or.inr h) h).one hi hj

/-! ### A core that waits too long -/

def run (c : Cfg) : List Ev → Sys → Option Sys
  | [], s => some s
  | e :: l, s => (step c s e).bind (run c l)

theorem run_append (c : Cfg) (l l' : List Ev) (s : Sys) : run c (l ++ l') s = (run c l s).bind (run c l') := by
  induction l generalizing s with
  | nil => rfl
  | cons e l ih =>
    show (step c s e).bind (run c (l ++ l')) = ((step c s e).bind (run c l)).bind (run c l')
    cases step c s e with
    | none => rfl
    | some t => exact ih t

theorem reach_run (c : Cfg) (l : List Ev) (s t : Sys) (hs : Reach c (fun _ _ => True) s) (h : run c l s = some t) :
    Reach c (fun _ _ => True) t := by
  induction l generalizing s with
  | nil => cases h; exact hs
  | cons e l ih =>
    have h' : (step c s e).bind (run c l) = some t := h
    cases he : step c s e with
    | none => rw [he] at h'; cases h'
    | some u => rw [he] at h'; exact ih u (.step hs trivial he) h'

/-- core 1 waits for a lock that core 0 has -/
theorem wait_run (c : Cfg) (hc : c.release = true) (k : Nat) (f : Nat → Pc) (h1 : f 1 = .spin k) :
    ∃ g : Nat → Pc, run c (List.replicate (k + 1) (.probe 1)) ⟨some 0, f⟩ = some ⟨some 0, g⟩ ∧ g 1 = .inside ∧
      ∀ j, j ≠ 1 → g j = f j := by
  induction k generalizing f with
  | zero =>
    refine ⟨set f 1 .inside, ?_, set_same .., fun j hj => set_ne _ _ _ hj⟩
    show (step c ⟨some 0, f⟩ (.probe 1)).bind (run c []) = _
    have : step c ⟨some 0, f⟩ (.probe 1) = some ⟨some 0, set f 1 .inside⟩ := by simp only [step, h1, hc, if_true]
    rw [this]; rfl
  | succ k ih =>
    obtain ⟨g, g1, g2, g3⟩ := ih (set f 1 (.spin k)) (set_same ..)
    refine ⟨g, ?_, g2, fun j hj => (g3 j hj).trans (set_ne _ _ _ hj)⟩
    rw [List.replicate_succ]
    show (step c ⟨some 0, f⟩ (.probe 1)).bind (run c (List.replicate (k + 1) (.probe 1))) = _
    have : step c ⟨some 0, f⟩ (.probe 1) = some ⟨some 0, set f 1 (.spin k)⟩ := by simp only [step, h1]
    rw [this]; exact g1

/-- **C64 is false of a release build**, whatever CONFIG_DEADLOCK_COUNT: if core 0 stays inside long enough (a critical section
of the application is enough), core 1 gets in as well. -/
theorem smp_both_inside (c : Cfg) (hc : c.release = true) : ∃ s, Reach c (fun _ _ => True) s ∧ s.pc 0 = .inside ∧
    s.pc 1 = .inside ∧ s.lock = some 0 ∧ ∀ j, j ≠ 0 → j ≠ 1 → s.pc j = .out := by
  obtain ⟨g, g1, g2, g3⟩ := wait_run c hc c.tries (set (set (set (fun _ => .out) 0 (.spin c.tries)) 0 .inside) 1 (.spin c.tries))
    (set_same ..)
  have h0 : run c [.call 0, .probe 0, .call 1] ⟨none, fun _ => .out⟩ =
      some ⟨some 0, set (set (set (fun _ => .out) 0 (.spin c.tries)) 0 .inside) 1 (.spin c.tries)⟩ := by
    simp [run, step, set]
  refine ⟨⟨some 0, g⟩, reach_run c ([.call 0, .probe 0, .call 1] ++ List.replicate (c.tries + 1) (.probe 1)) _ _ .init ?_, ?_,
    g2, rfl, fun j hj hj1 => ?_⟩
  · rw [run_append, h0]; exact g1
  · show g 0 = _
    rw [g3 0 (by decide)]; rfl
  · show g j = _
    rw [g3 j hj1, set_ne _ _ _ hj1, set_ne _ _ _ hj, set_ne _ _ _ hj]

/-- **... and on rp2040, when the intruder leaves it frees the lock that core 0 still relies on**: from then on any core
gets in at its first attempt.  On e200 the gate stays with core 0. -/
theorem smp_stolen (c : Cfg) (hc : c.release = true) : ∃ s, Reach c (fun _ _ => True) s ∧ s.pc 0 = .inside ∧ s.pc 1 = .out ∧
    s.lock = if c.owned then some 0 else none := by
  obtain ⟨s, h1, h2, h3, h4, -⟩ := smp_both_inside c hc
  refine ⟨⟨if c.owned = true ∧ s.lock ≠ some 1 then s.lock else none, set s.pc 1 .out⟩,
    .step (e := .leave 1) h1 trivial ?_, ?_, set_same s.pc 1 .out, ?_⟩
  · simp only [step, if_pos h3]
  · show set s.pc 1 .out 0 = _
    rw [set_ne _ _ _ (by decide), h2]
  · show (if c.owned = true ∧ s.lock ≠ some 1 then s.lock else none) = _
    rw [h4]
    cases c.owned <;> simp

/-- a core gets in that way only after `tries + 1` accesses of its own, each of which found the lock taken: the count it
has left goes down by one at each -/
theorem smp_gives_up_late (c : Cfg) (s t : Sys) (i k : Nat) (hk : s.pc i = .spin k) (hl : s.lock ≠ none)
    (h : step c s (.probe i) = some t) :
    t.lock = s.lock ∧ (∀ k', k = k' + 1 → t.pc i = .spin k') ∧ (k = 0 → t.pc i = if c.release then .inside else .stuck) := by
  cases hs : s.lock with
  | none => exact absurd hs hl
  | some o =>
    cases k with
    | zero =>
      simp only [step, hk, hs, Option.some.injEq] at h
      subst h
      refine ⟨rfl, ?_, fun _ => set_same ..⟩
      intro k' hk'; cases hk'
    | succ k =>
      simp only [step, hk, hs, Option.some.injEq] at h
      subst h
      refine ⟨rfl, fun k' hk' => ?_, fun h => by cases h⟩
      cases hk'
      exact set_same ..

/-- a history that meets the hypotheses: two cores, the second waits once and gets in when the first leaves -/
example : ∃ s, Reach ⟨10, true, false⟩ (fun s e => ¬ GivesUp s e) s ∧ s.pc 1 = .inside ∧ s.lock = some 1 := by
  refine ⟨⟨some 1, set (set (set (set (set (set (fun _ => .out) 0 (.spin 10)) 0 .inside) 1 (.spin 10)) 1 (.spin 9)) 0 .out) 1 .inside⟩,
    .step (e := .probe 1) (.step (e := .leave 0) (.step (e := .probe 1) (.step (e := .call 1)
      (.step (e := .probe 0) (.step (e := .call 0) .init ?_ rfl) ?_ rfl) ?_ rfl) ?_ rfl) ?_ rfl) ?_ rfl, rfl, rfl⟩ <;>
    simp [GivesUp, set]

end Pico.Spin
