import Mathlib.Logic.Basic
import Verif.Ipc.MutexLocal

/-!
# Properties of the mutex (C38–C41)
-/

namespace Pico.Mtx

/-! ## Demonstration: three tasks -/
namespace Demo

def cfg : Cfg := { N := 3, D := 2, aw := 8, sw := 16 }

theorem wf : cfg.WF := by unfold Cfg.WF; decide

def g (t : Nat) : Nat × Cmd := (t, .go false)

/-- Task 0 takes the mutex, task 1 fails once and sleeps, task 0 takes it again. -/
def sched : List (Nat × Cmd) :=
  [(0, .call .lock), g 0, (1, .call .lock), g 1, g 0, g 0, g 1, (0, .call .trylock), g 0, g 0, g 0, g 0]

/-- Its trace. -/
def tr : List Ev := [.call 0 .lock, .call 1 .lock, .attempt 0 true, .ret 0 .lock true, .attempt 1 false, .call 0 .trylock,
  .attempt 0 true, .ret 0 .trylock true]

/-- Executable view of `exec`. -/
def trace (c : Cfg) (l : List (Nat × Cmd)) : Option (List Ev) := (exec c (init c) l).map (·.2)

theorem runs_of_trace {c : Cfg} {l : List (Nat × Cmd)} {tr : List Ev} (h : trace c l = some tr) : ∃ s, Runs c tr s := by
  unfold trace at h
  cases he : exec c (init c) l with
  | none => simp [he] at h
  | some r => simp [he] at h; exact ⟨r.1, l, by rw [he, ← h]⟩

theorem runs : ∃ s, Runs cfg tr s := runs_of_trace (l := sched) (by decide)

theorem bounded_of_short {tr : List Ev} (h : tr.length < 2 ^ cfg.sw) : Bounded cfg tr := by
  intro pre t hp
  have h1 := hp.length_le
  have h2 : pre.countP (fun e => e = .ret t .lock true ∨ e = .ret t .trylock true) ≤ pre.length := List.countP_le_length
  have h3 : locks pre t = pre.countP (fun e => e = .ret t .lock true ∨ e = .ret t .trylock true) := by
    clear h1 h2 hp
    unfold locks
    induction pre with
    | nil => rfl
    | cons e es ih =>
      simp only [List.count_cons, List.countP_cons, ← ih]
      by_cases h1 : e = .ret t .lock true
      · subst h1; simp; omega
      · by_cases h2 : e = .ret t .trylock true
        · subst h2; simp; omega
        · simp [h1, h2]
  unfold depth; omega

end Demo

/-! ## C39 -/

theorem depth_pos {tr : List Ev} {t : Nat} (h : Holds tr t) : 0 < depth tr t := by
  unfold Holds at h; unfold depth; omega

/-- A task in its critical section owns the mutex word. -/
theorem critical_owns {c : Cfg} {s : State c} {tr : List Ev} {t : Nat} (hi : Inv c s tr) (hr : Runs c tr s)
    (ht : t < c.N) (hc : Critical tr t) : s.owner = self c t := by
  have hg := hi.good t ht
  have hp := pend_goes hr t
  have hb := depth_pos hc.1
  have hw := hc.2
  rw [hp] at hw
  have h := hg.own
  have htmp := hg.tmp
  revert h hw htmp
  cases s.pc t with
  | cas k | chk k | rd k | wr k _ | zz k =>
    cases k <;> simp_all [opOf, lkOp, hold, base, owns?_pos, Own]
  | uOwner w | uCount w | uRd w | uWr w _ | uRel w =>
    cases w <;> simp_all [opOf, hold, owns?_pos, Own]
  | _ => simp_all [opOf, hold, owns?_pos, Own]

theorem runs_tasks {c : Cfg} {s : State c} {tr : List Ev} (h : Runs c tr s) : ∀ e ∈ tr, e.task < c.N :=
  goes_induction (P := fun tr _ => ∀ e ∈ tr, e.task < c.N) (by simp)
    (fun tr s t a s' evs hp hs e he => by
      rcases List.mem_append.1 he with h | h
      · exact hp e h
      · rw [step_task hs e h]; exact (step_cases hs).1) h

theorem holds_lt {c : Cfg} {s : State c} {tr : List Ev} {t : Nat} (h : Runs c tr s) (ht : Holds tr t) : t < c.N := by
  have h1 : 0 < locks tr t := by unfold Holds at ht; omega
  unfold locks at h1
  rcases Nat.lt_or_ge 0 (tr.count (.ret t .lock true)) with h2 | h2
  · exact runs_tasks h _ (List.count_pos_iff.1 h2)
  · exact runs_tasks h _ (List.count_pos_iff.1 (show 0 < tr.count (.ret t .trylock true) by omega))

/-- C39: in every execution of any number of tasks, each calling the API in any order, with every interleaving of their memory
accesses, at most one task is in its critical section (the nesting depth staying below the counter's range). -/
theorem mutex_exclusive {c : Cfg} (hw : c.WF) {s : State c} {tr : List Ev} (hr : Runs c tr s) (hb : Bounded c tr)
    {t u : Nat} (ht : Critical tr t) (hu : Critical tr u) : t = u := by
  have hi := inv_runs hw hr hb
  have h1 := holds_lt hr ht.1
  have h2 := holds_lt hr hu.1
  exact self_inj hw h1 h2 ((critical_owns hi hr h1 ht).symm.trans (critical_owns hi hr h2 hu))

example : Critical Demo.tr 0 ∧ ¬ Critical Demo.tr 1 ∧ Bounded Demo.cfg Demo.tr ∧ ∃ s, Runs Demo.cfg Demo.tr s :=
  ⟨by unfold Critical Holds; decide, by unfold Critical Holds; decide, Demo.bounded_of_short (by decide), Demo.runs⟩

/-- A tiny configuration: `size_t` has one bit. -/
def Demo.tiny : Cfg := { N := 2, D := 1, aw := 8, sw := 1 }

/-- Task `t` makes `n` accesses. -/
def Demo.gos (t n : Nat) : List (Nat × Cmd) := List.replicate n (t, .go false)

/-- Task 0 takes the mutex three times, gives it back once; task 1 takes it. -/
def Demo.overflow : List (Nat × Cmd) :=
  (0, .call .lock) :: gos 0 3 ++ (0, .call .lock) :: gos 0 4 ++ (0, .call .lock) :: gos 0 4 ++
  (0, .call .unlock) :: gos 0 5 ++ (1, .call .lock) :: gos 1 3

/-- Its trace. -/
def Demo.overflowTr : List Ev := [.call 0 .lock, .attempt 0 true, .ret 0 .lock true, .call 0 .lock, .attempt 0 true, .ret 0 .lock true,
  .call 0 .lock, .attempt 0 true, .ret 0 .lock true, .call 0 .unlock, .ret 0 .unlock true,
  .call 1 .lock, .attempt 1 true, .ret 1 .lock true]

/-- The bound on the nesting depth is needed: with a 1-bit counter, task 0 takes the mutex three times and gives
it back once; task 1 then takes it although task 0 still holds it twice. -/
theorem mutex_overflow : ∃ s tr, Runs Demo.tiny tr s ∧ Critical tr 0 ∧ Critical tr 1 := by
  obtain ⟨s, h⟩ := Demo.runs_of_trace (c := Demo.tiny) (l := Demo.overflow) (tr := Demo.overflowTr) (by decide)
  exact ⟨s, _, h, by unfold Critical Holds; decide, by unfold Critical Holds; decide⟩

/-! ## C40 -/

/-- C40a: the attempt of a task that holds the mutex never fails: `picoRTOS_mutex_lock` and `picoRTOS_mutex_trylock` are
re-entrant and never block the owner, even if `arch_compare_and_swap` fails spuriously. -/
theorem mutex_reentrant {c : Cfg} (hw : c.WF) {s s' : State c} {tr evs : List Ev} {t : Nat} {a : Cmd}
    (hr : Runs c tr s) (hb : Bounded c tr) (hs : step c s t a = some (s', evs)) (hh : Holds tr t)
    (hp : pending tr t = some .lock ∨ pending tr t = some .trylock) :
    Ev.attempt t false ∉ evs ∧ Ev.stall t ∉ evs ∧ Ev.sleep t ∉ evs := by
  have hi := inv_runs hw hr hb
  have hpd := pend_goes hr t
  have hb := depth_pos hh
  obtain ⟨ht, hd, ⟨o, rfl, _, rfl, rfl⟩ | ⟨spur, rfl, _, h⟩⟩ := step_cases hs
  · simp
  · have hg := hi.good t ht
    have hscr := script_goes hr t hd
    rw [hpd] at hp
    unfold access at h
    cases hpc : s.pc t with
    | cas k =>
      simp only [hpc] at h
      split at h <;> cases h <;> simp
    | chk k =>
      have hown := hg.own
      simp only [hpc] at h
      split at h
      · exfalso
        rename_i hne
        rw [hpc] at hown hp
        have := own_owns?_zero hown hne
        cases k <;> simp [opOf, lkOp, base] at hp this <;> omega
      · cases h; simp
    | rd k => simp only [hpc] at h; cases h; simp
    | wr k v =>
      simp only [hpc] at h
      rw [hpc] at hp hscr
      cases k with
      | tryTop => cases h; simp
      | lockTop l =>
        obtain ⟨_, _, h2, _⟩ := hscr
        simp only [succeeded] at h
        rw [if_pos (by omega)] at h
        cases h; simp
      | lockWait l => simp [opOf, lkOp] at hp
    | zz k =>
      exfalso
      have htmp := hg.tmp
      rw [hpc] at htmp hp
      cases k <;> simp [opOf, lkOp, Tmp, base] at hp htmp <;> omega
    | uOwner w | uCount w | uRd w | uWr w _ | uRel w => rw [hpc] at hp; cases w <;> simp [opOf] at hp
    | _ => rw [hpc] at hp; simp [opOf] at hp

example : ∃ s s' evs, Runs Demo.cfg (Demo.tr.take 6) s ∧ Holds (Demo.tr.take 6) 0 ∧ pending (Demo.tr.take 6) 0 = some .trylock ∧
    step Demo.cfg s 0 (.go false) = some (s', evs) :=
  ⟨_, _, _, ⟨Demo.sched.take 8, rfl⟩, by unfold Holds; decide, by decide, rfl⟩

/-- A task is stuck iff it stalled. -/
theorem dead_iff_stall {c : Cfg} {s : State c} {tr : List Ev} (h : Runs c tr s) (t : Nat) :
    s.dead t = true ↔ Ev.stall t ∈ tr := by
  revert t
  refine goes_induction (s0 := init c) (P := fun tr s => ∀ t, s.dead t = true ↔ Ev.stall t ∈ tr) (by simp [init]) ?_ h
  intro tr s t a s' evs hp hs u
  rw [List.mem_append, ← hp u]
  obtain ⟨ht, hd, ⟨o, rfl, _, rfl, rfl⟩ | ⟨spur, rfl, _, h⟩⟩ := step_cases hs
  · simp
  · unfold access at h
    split at h <;> (try unfold failed at h) <;> (try unfold succeeded at h) <;> (try unfold unlocked at h) <;>
      (repeat' split at h) <;> cases h <;> simp [State.at, State.die, upd_apply] <;> by_cases hu : u = t <;> simp [hu]

theorem opOf_none {sw : Nat} {p : PC sw} (h : opOf p = none) : p = .idle := by
  cases p <;> simp [opOf] at h ⊢

theorem exec_of_map {c : Cfg} {s : State c} {l : List (Nat × Cmd)} {tr : List Ev}
    (h : (exec c s l).map (·.2) = some tr) : ∃ s', exec c s l = some (s', tr) := by
  cases he : exec c s l with
  | none => simp [he] at h
  | some r => simp [he] at h; exact ⟨r.1, by rw [← h]⟩

open Demo (gos) in
/-- C40b: when no task is inside the API, the mutex is free for `u` iff no other task took it more often than it gave it
back: a `picoRTOS_mutex_trylock` of `u` (without interference nor spurious failure of
`arch_compare_and_swap`) succeeds in exactly that case. -/
theorem mutex_free_iff {c : Cfg} (hw : c.WF) {s : State c} {tr : List Ev} (hr : Runs c tr s) (hb : Bounded c tr)
    (hq : ∀ t, pending tr t = none) {u : Nat} (hu : u < c.N) (hst : Ev.stall u ∉ tr) :
    ∃ n s' ok, exec c s ((u, .call .trylock) :: gos u n) = some (s', [.call u .trylock, .attempt u ok, .ret u .trylock ok]) ∧
      (ok = true ↔ ∀ t, t ≠ u → ¬ Holds tr t) := by
  have hi := inv_runs hw hr hb
  have hidle : ∀ t, s.pc t = .idle := fun t => opOf_none (by rw [← pend_goes hr t]; exact hq t)
  have hd : s.dead u = false := by
    cases h : s.dead u with
    | false => rfl
    | true => exact absurd ((dead_iff_stall hr u).1 h) hst
  have hnb := self_ne_nobody hw hu
  have hholds : ∀ t, t < c.N → Holds tr t → s.owner = self c t := fun t ht h => critical_owns hi hr ht ⟨h, by rw [hq t]; simp⟩
  by_cases ho : s.owner = nobody c
  · obtain ⟨s', h'⟩ : ∃ s', exec c s ((u, .call .trylock) :: gos u 3) = some (s', [.call u .trylock, .attempt u true, .ret u .trylock true]) := by
      apply exec_of_map
      simp [gos, List.replicate, exec, step, hu, hd, hidle u, entry, access, ho, State.at, succeeded]
    refine ⟨3, s', true, h', ?_⟩
    · simp only [true_iff]
      intro t _ h
      have h1 := holds_lt hr h
      exact self_ne_nobody hw h1 ((hholds t h1 h).symm.trans ho)
  · by_cases hm : s.owner = self c u
    · obtain ⟨s', h'⟩ : ∃ s', exec c s ((u, .call .trylock) :: gos u 4) = some (s', [.call u .trylock, .attempt u true, .ret u .trylock true]) := by
        apply exec_of_map
        simp [gos, List.replicate, exec, step, hu, hd, hidle u, entry, access, hm, hnb, State.at, succeeded]
      refine ⟨4, s', true, h', ?_⟩
      · simp only [true_iff]
        intro t ht h
        have h1 := holds_lt hr h
        exact ht (self_inj hw h1 hu ((hholds t h1 h).symm.trans hm))
    · obtain ⟨s', h'⟩ : ∃ s', exec c s ((u, .call .trylock) :: gos u 2) = some (s', [.call u .trylock, .attempt u false, .ret u .trylock false]) := by
        apply exec_of_map
        simp [gos, List.replicate, exec, step, hu, hd, hidle u, entry, access, ho, hm, State.at, failed]
      refine ⟨2, s', false, h', ?_⟩
      · simp only [Bool.false_eq_true, false_iff]
        intro h
        rcases hi.who with h1 | ⟨t, ht, h1⟩
        · exact ho h1
        · refine h t (fun h2 => hm (h2 ▸ h1)) ?_
          have hown := (hi.good t ht).own
          rw [hidle t] at hown
          have := (own_owns?_pos hown h1).1
          unfold depth at this
          unfold Holds
          omega

example : ∃ s, Runs Demo.cfg [.call 0 .lock, .attempt 0 true, .ret 0 .lock true] s ∧
    (∀ t, pending [.call 0 .lock, .attempt 0 true, .ret 0 .lock true] t = none) ∧
    Holds [.call 0 .lock, .attempt 0 true, .ret 0 .lock true] 0 :=
  ⟨_, ⟨(0, .call .lock) :: Demo.gos 0 3, rfl⟩, fun t => by cases t <;> simp [pending, pendStep], by unfold Holds; decide⟩

/-! ## C41 -/

/-- C41a: `picoRTOS_mutex_unlock` returns only to a task that holds the mutex, and stalls only for a task that does not. -/
theorem mutex_unlock_guard {c : Cfg} (hw : c.WF) {s s' : State c} {tr evs : List Ev} {t : Nat} {a : Cmd}
    (hr : Runs c tr s) (hb : Bounded c tr) (hs : step c s t a = some (s', evs)) (hp : pending tr t = some .unlock) :
    (∀ ok, Ev.ret t .unlock ok ∈ evs → Holds tr t) ∧ (Ev.stall t ∈ evs → ¬ Holds tr t) := by
  have hi := inv_runs hw hr hb
  have hpd := pend_goes hr t
  rw [hpd] at hp
  obtain ⟨ht, hd, ⟨o, rfl, _, rfl, rfl⟩ | ⟨spur, rfl, _, h⟩⟩ := step_cases hs
  · simp
  · have hg := hi.good t ht
    have hown := hg.own
    have htmp := hg.tmp
    have hlt := hg.lt
    have hh : 0 < depth tr t → Holds tr t := by unfold depth Holds; omega
    unfold access at h
    cases hpc : s.pc t with
    | cas k | chk k | rd k | wr k _ | zz k => rw [hpc] at hp; cases k <;> simp [opOf, lkOp] at hp
    | uOwner w =>
      simp only [hpc] at h
      rw [hpc] at hown
      split at h
      · cases h; simp
      · rename_i hne
        cases h
        have := own_owns?_zero hown hne
        simp only [List.mem_singleton, reduceCtorEq, false_imp_iff, implies_true, true_and]
        intro _ h; have := depth_pos h; omega
    | uCount w =>
      simp only [hpc] at h
      rw [hpc] at hown htmp
      simp only [Tmp] at htmp
      simp only [hold, owns?_pos htmp, Own] at hown
      split at h
      · cases h; simp
      · rename_i hne
        exfalso
        rw [hown.2] at hne
        simp [Nat.mod_eq_of_lt hlt] at hne
        omega
    | uRd w => simp only [hpc] at h; cases h; simp
    | uWr w v =>
      rw [hpc] at htmp hp
      simp only [hpc] at h
      split at h
      · cases h; simp
      · unfold unlocked at h
        split at h <;> cases h <;> simp [hh htmp.1]
    | uRel w =>
      rw [hpc] at htmp hp
      simp only [hpc] at h
      simp only [Tmp] at htmp
      unfold unlocked at h
      split at h <;> cases h <;> simp [hh (show 0 < depth tr t by omega)]
    | _ => rw [hpc] at hp; simp [opOf] at hp

open Demo (gos) in
/-- C41b: `picoRTOS_mutex_unlock` never waits: wherever the caller is in it, at most five more accesses of its own bring it to the
end, which is a return if it holds the mutex, a stall otherwise. -/
theorem mutex_unlock_completes {c : Cfg} (hw : c.WF) {s : State c} {tr : List Ev} {t : Nat}
    (hr : Runs c tr s) (hb : Bounded c tr) (hp : pending tr t = some .unlock) (hst : Ev.stall t ∉ tr) (ht : t < c.N) :
    ∃ n s', n ≤ 5 ∧ ((Holds tr t ∧ exec c s (gos t n) = some (s', [.ret t .unlock true])) ∨
      (¬ Holds tr t ∧ exec c s (gos t n) = some (s', [.stall t]))) := by
  have hi := inv_runs hw hr hb
  have hpd := pend_goes hr t
  rw [hpd] at hp
  have hd : s.dead t = false := by
    cases h : s.dead t with
    | false => rfl
    | true => exact absurd ((dead_iff_stall hr t).1 h) hst
  have hg := hi.good t ht
  have hown := hg.own
  have htmp := hg.tmp
  have hlt := hg.lt
  have hle := hg.le
  have hh : 0 < depth tr t → Holds tr t := by unfold depth Holds; omega
  have key : ∀ b : Nat, 0 < b → b < 2 ^ c.sw → ((BitVec.ofNat c.sw b - 1 = 0) ↔ b = 1) := by
    intro b h1 h2
    rw [ofNat_sub_one h1, ofNat_eq_zero (by omega)]; omega
  have tn : ∀ b : Nat, b < 2 ^ c.sw → (BitVec.ofNat c.sw b).toNat = b := fun b h => by simp [Nat.mod_eq_of_lt h]
  have h1 : ∀ w, w = true ∨ w = false := fun w => by cases w <;> simp
  have fin : (∃ n, n ≤ 5 ∧ ((Holds tr t ∧ (exec c s (gos t n)).map (·.2) = some [.ret t .unlock true]) ∨
      (¬ Holds tr t ∧ (exec c s (gos t n)).map (·.2) = some [.stall t]))) := by
    cases hpc : s.pc t with
    | cas k | chk k | rd k | wr k _ | zz k => rw [hpc] at hp; cases k <;> simp [opOf, lkOp] at hp
    | uOwner w =>
      rw [hpc] at hown hp
      have hwf : w = false := by cases w <;> simp [opOf] at hp ⊢
      subst hwf
      by_cases ho : s.owner = self c t
      · obtain ⟨hb0, hc⟩ := own_owns?_pos hown ho
        by_cases hb1 : depth tr t = 1
        · refine ⟨5, by omega, Or.inl ⟨hh hb0, ?_⟩⟩
          have k1 : BitVec.ofNat c.sw 1 - 1#c.sw = 0#c.sw := (key 1 (by omega) (by omega)).2 rfl
          have k2 := tn 1 (by omega)
          rw [hb1] at hc
          simp [gos, List.replicate, exec, step, ht, hd, hpc, access, ho, hc, k1, k2, State.at, unlocked]
        · refine ⟨4, by omega, Or.inl ⟨hh hb0, ?_⟩⟩
          have k1 : ¬ (BitVec.ofNat c.sw (depth tr t) - 1#c.sw = 0#c.sw) := (key _ hb0 hlt).not.2 hb1
          have k2 := tn _ hlt
          simp [gos, List.replicate, exec, step, ht, hd, hpc, access, ho, hc, k1, k2, hb0, State.at, unlocked]
      · refine ⟨1, by omega, Or.inr ⟨?_, ?_⟩⟩
        · intro h; have := depth_pos h; have := own_owns?_zero hown ho; omega
        · simp [gos, List.replicate, exec, step, ht, hd, hpc, access, ho]
    | uCount w =>
      rw [hpc] at hown hp htmp
      have hwf : w = false := by cases w <;> simp [opOf] at hp ⊢
      subst hwf
      simp only [Tmp] at htmp
      simp only [hold, owns?_pos htmp, Own] at hown
      obtain ⟨ho, hc⟩ := hown
      by_cases hb1 : depth tr t = 1
      · refine ⟨4, by omega, Or.inl ⟨hh htmp, ?_⟩⟩
        have k1 : BitVec.ofNat c.sw 1 - 1#c.sw = 0#c.sw := (key 1 (by omega) (by omega)).2 rfl
        have k2 := tn 1 (by omega)
        rw [hb1] at hc
        simp [gos, List.replicate, exec, step, ht, hd, hpc, access, ho, hc, k1, k2, State.at, unlocked]
      · refine ⟨3, by omega, Or.inl ⟨hh htmp, ?_⟩⟩
        have k1 : ¬ (BitVec.ofNat c.sw (depth tr t) - 1#c.sw = 0#c.sw) := (key _ htmp hlt).not.2 hb1
        have k2 := tn _ hlt
        simp [gos, List.replicate, exec, step, ht, hd, hpc, access, ho, hc, k1, k2, htmp, State.at, unlocked]
    | uRd w =>
      rw [hpc] at hown hp htmp
      have hwf : w = false := by cases w <;> simp [opOf] at hp ⊢
      subst hwf
      simp only [Tmp] at htmp
      simp only [hold, owns?_pos htmp, Own] at hown
      obtain ⟨ho, hc⟩ := hown
      by_cases hb1 : depth tr t = 1
      · refine ⟨3, by omega, Or.inl ⟨hh htmp, ?_⟩⟩
        have k1 : BitVec.ofNat c.sw 1 - 1#c.sw = 0#c.sw := (key 1 (by omega) (by omega)).2 rfl
        rw [hb1] at hc
        simp [gos, List.replicate, exec, step, ht, hd, hpc, access, ho, hc, k1, State.at, unlocked]
      · refine ⟨2, by omega, Or.inl ⟨hh htmp, ?_⟩⟩
        have k1 : ¬ (BitVec.ofNat c.sw (depth tr t) - 1#c.sw = 0#c.sw) := (key _ htmp hlt).not.2 hb1
        simp [gos, List.replicate, exec, step, ht, hd, hpc, access, ho, hc, k1, htmp, State.at, unlocked]
    | uWr w v =>
      rw [hpc] at hown hp htmp
      have hwf : w = false := by cases w <;> simp [opOf] at hp ⊢
      subst hwf
      obtain ⟨hb0, hv⟩ := htmp
      by_cases hb1 : depth tr t = 1
      · refine ⟨2, by omega, Or.inl ⟨hh hb0, ?_⟩⟩
        have k1 : BitVec.ofNat c.sw 1 - 1#c.sw = 0#c.sw := (key 1 (by omega) (by omega)).2 rfl
        rw [hb1] at hv
        simp [gos, List.replicate, exec, step, ht, hd, hpc, access, hv, k1, State.at, unlocked]
      · refine ⟨1, by omega, Or.inl ⟨hh hb0, ?_⟩⟩
        have k1 : ¬ (BitVec.ofNat c.sw (depth tr t) - 1#c.sw = 0#c.sw) := (key _ hb0 hlt).not.2 hb1
        simp [gos, List.replicate, exec, step, ht, hd, hpc, access, hv, k1, hb0, State.at, unlocked]
    | uRel w =>
      rw [hpc] at hp htmp
      have hwf : w = false := by cases w <;> simp [opOf] at hp ⊢
      subst hwf
      simp only [Tmp] at htmp
      refine ⟨1, by omega, Or.inl ⟨hh (by omega), ?_⟩⟩
      simp [gos, List.replicate, exec, step, ht, hd, hpc, access, State.at, unlocked]
    | _ => rw [hpc] at hp; simp [opOf] at hp
  obtain ⟨n, hn, h2 | h2⟩ := fin
  · obtain ⟨s', h3⟩ := exec_of_map h2.2
    exact ⟨n, s', hn, Or.inl ⟨h2.1, h3⟩⟩
  · obtain ⟨s', h3⟩ := exec_of_map h2.2
    exact ⟨n, s', hn, Or.inr ⟨h2.1, h3⟩⟩

-- task 0 holds the mutex and calls unlock; task 1 does not hold it and calls unlock
example : ∃ s, Runs Demo.cfg [.call 0 .lock, .attempt 0 true, .ret 0 .lock true, .call 0 .unlock, .call 1 .unlock] s ∧
    pending [.call 0 .lock, .attempt 0 true, .ret 0 .lock true, .call 0 .unlock, .call 1 .unlock] 0 = some .unlock ∧
    pending [.call 0 .lock, .attempt 0 true, .ret 0 .lock true, .call 0 .unlock, .call 1 .unlock] 1 = some .unlock ∧
    Holds [.call 0 .lock, .attempt 0 true, .ret 0 .lock true, .call 0 .unlock, .call 1 .unlock] 0 ∧
    ¬ Holds [.call 0 .lock, .attempt 0 true, .ret 0 .lock true, .call 0 .unlock, .call 1 .unlock] 1 :=
  ⟨_, ⟨(0, .call .lock) :: Demo.gos 0 3 ++ [(0, .call .unlock), (1, .call .unlock)], rfl⟩, by decide, by decide,
    by unfold Holds; decide, by unfold Holds; decide⟩

/-! ## C38 -/

/-- C38: `picoRTOS_mutex_lock` makes attempts separated by one sleep each.  It returns right after a successful
attempt, preceded by at most CONFIG_DEADLOCK_COUNT failed ones; it declares a deadlock right after its
(CONFIG_DEADLOCK_COUNT + 1)-th failed attempt; after fewer failed attempts it goes on. -/
theorem mutex_lock_attempts {c : Cfg} {s s' : State c} {tr evs : List Ev} {t : Nat} {a : Cmd}
    (hr : Runs c tr s) (hs : step c s t a = some (s', evs)) (hp : pending tr t = some .lock) :
    (∀ o ok, Ev.ret t o ok ∈ evs → o = .lock ∧ ok = true ∧
      ∃ k, k ≤ c.D ∧ since (tr ++ evs) t = .call t .lock :: (fails t k ++ [.attempt t true, .ret t .lock true])) ∧
    (Ev.stall t ∈ evs → since (tr ++ evs) t = .call t .lock :: (fails t c.D ++ [.attempt t false, .stall t])) ∧
    (Ev.attempt t false ∈ evs → Ev.stall t ∉ evs →
      ∃ k, k < c.D ∧ since (tr ++ evs) t = .call t .lock :: (fails t k ++ [.attempt t false])) := by
  have hpd := pend_goes hr t
  rw [hpd] at hp
  obtain ⟨ht, hd, ⟨o, rfl, hidle, rfl, rfl⟩ | ⟨spur, rfl, _, h⟩⟩ := step_cases hs
  · simp
  · have hscr := script_goes hr t hd
    unfold access at h
    cases hpc : s.pc t with
    | cas k => simp only [hpc] at h; split at h <;> cases h <;> simp
    | rd k => simp only [hpc] at h; cases h; simp
    | zz k => simp only [hpc] at h; cases h; simp
    | chk k =>
      rw [hpc] at hp hscr
      simp only [hpc] at h
      cases k with
      | tryTop => simp [opOf, lkOp] at hp
      | lockWait l => simp [opOf, lkOp] at hp
      | lockTop l =>
        obtain ⟨k, h1, h2, h3⟩ := hscr
        split at h
        · simp only [failed] at h
          split at h
          · cases h
            simp [since_append, sinceStep, Ev.task, h3]
            exact ⟨k, by omega, rfl⟩
          · cases h
            have : k = c.D := by omega
            subst this
            simp [since_append, sinceStep, Ev.task, h3]
        · cases h; simp
    | wr k v =>
      rw [hpc] at hp hscr
      simp only [hpc] at h
      cases k with
      | tryTop => simp [opOf, lkOp] at hp
      | lockWait l => simp [opOf, lkOp] at hp
      | lockTop l =>
        obtain ⟨k, h1, h2, h3⟩ := hscr
        simp only [succeeded] at h
        rw [if_pos (by omega)] at h
        cases h
        simp [since_append, sinceStep, Ev.task, h3]
        exact ⟨k, by omega, rfl⟩
    | uOwner w | uCount w | uRd w | uWr w _ | uRel w => rw [hpc] at hp; cases w <;> simp [opOf] at hp
    | _ => rw [hpc] at hp; simp [opOf] at hp

/-- C38: `picoRTOS_mutex_lock` never returns without the mutex: right after its return, the caller is in its critical section. -/
theorem mutex_lock_holds {c : Cfg} (hw : c.WF) {s s' : State c} {tr evs : List Ev} {t : Nat} {a : Cmd}
    (hr : Runs c tr s) (hb : Bounded c (tr ++ evs)) (hs : step c s t a = some (s', evs)) {ok : Bool}
    (h : Ev.ret t .lock ok ∈ evs) : Critical (tr ++ evs) t ∧ s'.owner = self c t := by
  have hi' := inv_runs hw (goes_step hr hs) hb
  have hb0 : Bounded c tr := fun pre t h => hb pre t (h.trans (List.prefix_append _ _))
  have hi := inv_runs hw hr hb0
  have hpd := pend_goes hr t
  have hp : pending tr t = some .lock := by
    rw [hpd]
    obtain ⟨ht, hd, ⟨o, rfl, hidle, rfl, rfl⟩ | ⟨spur, rfl, _, h'⟩⟩ := step_cases hs
    · simp at h
    · unfold access at h'
      split at h' <;> (try unfold failed at h') <;> (try unfold succeeded at h') <;> (try unfold unlocked at h') <;>
        (repeat' split at h') <;> cases h' <;> simp at h <;> simp_all [opOf, lkOp]
  obtain ⟨h1, _, _⟩ := mutex_lock_attempts hr hs hp
  obtain ⟨_, hok, k, _, _⟩ := h1 _ _ h
  subst hok
  have ht := (step_cases hs).1
  have hle := (hi.good t ht).le
  have hcr : Critical (tr ++ evs) t := by
    constructor
    · unfold Holds
      rw [locks_append, unlocks_append]
      obtain ⟨ht, hd, ⟨o, rfl, hidle, rfl, rfl⟩ | ⟨spur, rfl, _, h'⟩⟩ := step_cases hs
      · simp at h
      · unfold access at h'
        split at h' <;> (try unfold failed at h') <;> (try unfold succeeded at h') <;> (try unfold unlocked at h') <;>
          (repeat' split at h') <;> cases h' <;> simp at h <;> simp [locks, unlocks, List.count_cons] <;>
          (simp only [locks, unlocks] at hle; omega)
    · rw [pending_append]
      obtain ⟨ht, hd, ⟨o, rfl, hidle, rfl, rfl⟩ | ⟨spur, rfl, _, h'⟩⟩ := step_cases hs
      · simp at h
      · unfold access at h'
        split at h' <;> (try unfold failed at h') <;> (try unfold succeeded at h') <;> (try unfold unlocked at h') <;>
          (repeat' split at h') <;> cases h' <;> simp at h <;> simp [pendStep]
  exact ⟨hcr, critical_owns hi' (goes_step hr hs) ht hcr⟩

/-- Task 1 calls lock while task 0 keeps the mutex: with CONFIG_DEADLOCK_COUNT = 2 it stalls after three attempts. -/
def Demo.deadlock : List (Nat × Cmd) :=
  (0, .call .lock) :: gos 0 3 ++ (1, .call .lock) :: gos 1 8

example : Demo.trace Demo.cfg Demo.deadlock = some ([.call 0 .lock, .attempt 0 true, .ret 0 .lock true, .call 1 .lock] ++
    fails 1 2 ++ [.attempt 1 false, .stall 1]) := by decide

-- the step before the deadlock meets the hypotheses of `mutex_lock_attempts`
example : ∃ s s' evs, Runs Demo.cfg ([.call 0 .lock, .attempt 0 true, .ret 0 .lock true, .call 1 .lock] ++ fails 1 2) s ∧
    pending ([.call 0 .lock, .attempt 0 true, .ret 0 .lock true, .call 1 .lock] ++ fails 1 2) 1 = some .lock ∧
    step Demo.cfg s 1 (.go false) = some (s', evs) ∧ Ev.stall 1 ∈ evs :=
  ⟨_, _, _, ⟨Demo.deadlock.take 12, rfl⟩, by decide, rfl, by decide⟩

-- the step that returns from `lock` meets the hypotheses of `mutex_lock_holds`
example : ∃ s s' evs, Runs Demo.cfg [.call 0 .lock] s ∧ step Demo.cfg s 0 (.go false) = some (s', evs) ∧
    Ev.ret 0 .lock true ∈ evs :=
  ⟨_, _, _, ⟨(0, .call .lock) :: Demo.gos 0 2, rfl⟩, rfl, by decide⟩

end Pico.Mtx
