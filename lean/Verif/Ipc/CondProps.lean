import Verif.Ipc.CondInv

/-!
# Properties of the condition variable (C42, C43)
-/

namespace Pico.Mtx

/-! ## Vocabulary -/

/-- Number of returns of the API function `o` in a trace (whatever the task). -/
def returns (o : Op) (tr : List Ev) : Nat := tr.countP (fun e => match e with | .ret _ o' _ => o' = o | _ => false)

/-- Number of commands of task `t` in a schedule: how many steps it makes. -/
def stepsOf (t : Nat) (l : List (Nat × Cmd)) : Nat := l.countP (fun x => x.1 = t)

theorem returns_append (o : Op) (a b : List Ev) : returns o (a ++ b) = returns o a + returns o b := by
  simp [returns]

theorem returns_zero_left {o : Op} {a b : List Ev} (h : returns o (a ++ b) = 0) : returns o a = 0 := by
  rw [returns_append] at h; omega

theorem returns_zero_right {o : Op} {a b : List Ev} (h : returns o (a ++ b) = 0) : returns o b = 0 := by
  rw [returns_append] at h; omega

/-- A signal or broadcast is pending. -/
def owed : CAct → Nat
  | .none => 0
  | _ => 1

theorem owed_pos {a : CAct} (h : a ≠ .none) : owed a = 1 := by cases a <;> simp_all [owed]

/-- Invariants along a continuation. -/
theorem inv_goes {c : Cfg} (hw : c.WF) {s s' : State c} {tr tr' : List Ev} (hr : Runs c tr s) (hg : Goes c s tr' s')
    (hb : Bounded c (tr ++ tr')) (hwh : WaitsHeld (tr ++ tr')) : Inv c s' (tr ++ tr') ∧ CInv c s' (tr ++ tr') :=
  cinv_runs hw (goes_trans hr hg) hb hwh

/-! ## C42 -/

/-- Bookkeeping of one step: what it returns, and what becomes of the pending action. -/
theorem act_step {c : Cfg} {s s' : State c} {tr evs : List Ev} {t : Nat} {a : Cmd} (hc : CInv c s tr)
    (hs : step c s t a = some (s', evs)) (hnb : returns .broadcast evs = 0) (hact : s.act ≠ .broadcast) :
    s'.act ≠ .broadcast ∧
    returns .wait evs + owed s'.act ≤ returns .signal evs + owed s.act := by
  obtain ⟨ht, hd, ⟨o, rfl, hp, rfl, rfl⟩ | ⟨spur, rfl, hp, h⟩⟩ := step_cases hs
  · exact ⟨hact, by simp [returns]⟩
  · have hlive := hc.live t ht
    unfold access at h
    cases hpc : s.pc t with
    | idle => exact absurd hpc hp
    | cReset =>
      rw [hpc] at hlive
      simp only [hpc] at h
      cases h
      have := hlive rfl
      simp [returns, owed_pos this, owed]
    | sWr =>
      simp only [hpc] at h
      cases h
      simp [returns, owed]
    | bWr =>
      simp only [hpc] at h
      cases h
      simp [returns] at hnb
    | cAct2 =>
      rw [hpc] at hlive
      simp only [hpc] at h
      have := hlive rfl
      split at h
      · cases h; exact ⟨hact, by simp [returns]⟩
      · exfalso; cases hq : s.act <;> simp_all
    | _ =>
      simp only [hpc] at h
      (try unfold failed at h)
      (try unfold succeeded at h)
      (try unfold unlocked at h)
      (repeat' split at h) <;> cases h <;> exact ⟨hact, by simp [returns]⟩

/-- Counting along a continuation. -/
theorem signal_count {c : Cfg} (hw : c.WF) {s s' : State c} {tr tr' : List Ev} (hr : Runs c tr s) (hg : Goes c s tr' s')
    (hb : Bounded c (tr ++ tr')) (hwh : WaitsHeld (tr ++ tr')) (hnb : returns .broadcast tr' = 0) (hact : s.act ≠ .broadcast) :
    s'.act ≠ .broadcast ∧
    returns .wait tr' + owed s'.act ≤ returns .signal tr' + owed s.act := by
  have H : Goes c s tr' s' ∧ (Bounded c (tr ++ tr') → WaitsHeld (tr ++ tr') → returns .broadcast tr' = 0 →
      (s'.act ≠ .broadcast ∧
        returns .wait tr' + owed s'.act ≤ returns .signal tr' + owed s.act)) := by
    refine goes_induction (s0 := s) (P := fun tr' s' => Goes c s tr' s' ∧ (Bounded c (tr ++ tr') → WaitsHeld (tr ++ tr') →
      returns .broadcast tr' = 0 → (s'.act ≠ .broadcast ∧
        returns .wait tr' + owed s'.act ≤ returns .signal tr' + owed s.act))) ?_ ?_ hg
    · exact ⟨⟨[], rfl⟩, fun _ _ _ => ⟨hact, by simp [returns]⟩⟩
    · intro tr1 s1 t a s2 evs ⟨hg1, hp⟩ hs
      refine ⟨goes_step hg1 hs, fun hb hwh hnb => ?_⟩
      rw [← List.append_assoc] at hb hwh
      obtain ⟨h1, h2⟩ := hp hb.left hwh.left (returns_zero_left hnb)
      have hc := (inv_goes hw hr hg1 hb.left hwh.left).2
      obtain ⟨h3, h4⟩ := act_step hc hs (returns_zero_right hnb) h1
      refine ⟨h3, ?_⟩
      simp only [returns_append]
      omega
  exact H.2 hb hwh hnb

/-- C42a: in an execution without broadcast, at most as many `picoRTOS_cond_wait` return as signals were sent: each signal
releases at most one waiter.  Any number of tasks, any interleaving; the signals may come from tasks that do not hold the mutex. -/
theorem cond_signal_at_most_one {c : Cfg} (hw : c.WF) {s : State c} {tr : List Ev} (hr : Runs c tr s) (hb : Bounded c tr)
    (hwh : WaitsHeld tr) (hnb : returns .broadcast tr = 0) : returns .wait tr ≤ returns .signal tr := by
  have := (signal_count hw (tr := []) (tr' := tr) (s := init c) ⟨[], rfl⟩ hr hb hwh hnb (by simp [init])).2
  simp [init, owed] at this
  omega

/-- C42b: no spurious wake-up, at any point of any execution: once the pending signal is consumed, the number of returns from
`picoRTOS_cond_wait` is at most the number of signals sent from then on; without any signal or broadcast nobody returns. -/
theorem cond_no_spurious {c : Cfg} (hw : c.WF) {s s' : State c} {tr tr' : List Ev} (hr : Runs c tr s) (hg : Goes c s tr' s')
    (hb : Bounded c (tr ++ tr')) (hwh : WaitsHeld (tr ++ tr')) (hnone : s.act = .none) (hnb : returns .broadcast tr' = 0) :
    returns .wait tr' ≤ returns .signal tr' := by
  have := (signal_count hw hr hg hb hwh hnb (by simp [hnone])).2
  simp [hnone, owed] at this
  omega

/-- C42c: a return from `picoRTOS_cond_wait` leaves the caller in its critical section, owning the mutex, as deep as before the call. -/
theorem cond_wait_owns {c : Cfg} (hw : c.WF) {s s' : State c} {tr evs : List Ev} {t : Nat} {a : Cmd}
    (hr : Runs c tr s) (hb : Bounded c tr) (hwh : WaitsHeld tr) (hs : step c s t a = some (s', evs)) {ok : Bool}
    (h : Ev.ret t .wait ok ∈ evs) :
    Critical (tr ++ evs) t ∧ s'.owner = self c t ∧ depth (tr ++ evs) t = depth tr t := by
  obtain ⟨hi, hc⟩ := cinv_runs hw hr hb hwh
  obtain ⟨ht, hd, ⟨o, rfl, hp, rfl, rfl⟩ | ⟨spur, rfl, hp, h'⟩⟩ := step_cases hs
  · simp at h
  · have key : inside (s.pc t) = true ∧ s'.owner = s.owner ∧ evs = [.ret t .wait true] := by
      unfold access at h'
      split at h' <;> (try unfold failed at h') <;> (try unfold succeeded at h') <;> (try unfold unlocked at h') <;>
        (repeat' split at h') <;> cases h' <;> simp at h <;> simp_all [inside, leaving]
    obtain ⟨hin, ho, rfl⟩ := key
    have hdep : depth (tr ++ [.ret t .wait true]) t = depth tr t := (depth_quiet (by simp [locks]) (by simp [unlocks])).1
    have hpos := hc.held t ht (inside_wait hin)
    refine ⟨⟨?_, by rw [pending_append]; simp [pendStep]⟩, ho.trans (inside_owner hi hc ht hin), hdep⟩
    rw [← hdep] at hpos
    unfold depth at hpos
    unfold Holds; omega

/-- Remaining accesses of a waiter that got the mutex back and finds an action. -/
def rank {sw : Nat} : PC sw → Nat
  | .cAct => 5
  | .cDecRd => 4
  | .cDecWr _ => 3
  | .cAct2 => 2
  | .cReset => 1
  | _ => 0

theorem act_stable {c : Cfg} (hw : c.WF) {s s' : State c} {tr evs : List Ev} {t u : Nat} {a : Cmd} (hi : Inv c s tr) (hc : CInv c s tr)
    (ht : t < c.N) (hin : inside (s.pc t) = true) (hact : s.act ≠ .none) (hu : u ≠ t)
    (hs : step c s u a = some (s', evs)) : s'.act ≠ .none := by
  have h := cstepOk hw hc hs
  rcases h.act with h | h | h
  · exact h
  · rw [h]; exact hact
  · exact absurd (inside_unique hw hi hc (step_cases hs).1 ht (leaving_inside h) hin) hu

/-- A waiter that owns the mutex and finds an action leaves within `rank` steps of its own, whatever the others do. -/
theorem leaves {c : Cfg} (hw : c.WF) {t : Nat} (ht : t < c.N) (l : List (Nat × Cmd)) {s s' : State c} {tr tr' : List Ev}
    (hr : Runs c tr s) (he : exec c s l = some (s', tr')) (hb : Bounded c (tr ++ tr')) (hwh : WaitsHeld (tr ++ tr'))
    (hpos : 0 < rank (s.pc t)) (hact : s.act ≠ .none) (hl : rank (s.pc t) ≤ stepsOf t l) : Ev.ret t .wait true ∈ tr' := by
  induction l generalizing s tr tr' with
  | nil => simp [stepsOf] at hl; omega
  | cons x l ih =>
    obtain ⟨u, a⟩ := x
    simp only [exec] at he
    cases hst : step c s u a with
    | none => simp [hst] at he
    | some r =>
      obtain ⟨s1, evs⟩ := r
      simp only [hst] at he
      cases he1 : exec c s1 l with
      | none => simp [he1] at he
      | some r2 =>
        obtain ⟨s2, evs2⟩ := r2
        simp only [he1, Option.some.injEq, Prod.mk.injEq] at he
        obtain ⟨rfl, rfl⟩ := he
        rw [← List.append_assoc] at hb hwh
        obtain ⟨hi, hc⟩ := cinv_runs hw hr hb.left.left hwh.left.left
        have hin : inside (s.pc t) = true := by
          revert hpos; cases s.pc t <;> simp [rank, inside, leaving]
        by_cases hu : u = t
        · subst hu
          have hl' : stepsOf u ((u, a) :: l) = stepsOf u l + 1 := by simp [stepsOf]
          rw [hl'] at hl
          have key : evs = [.ret u .wait true] ∨ (0 < rank (s1.pc u) ∧ rank (s1.pc u) < rank (s.pc u) ∧ s1.act = s.act) := by
            obtain ⟨_, _, ⟨o, rfl, hp, rfl, rfl⟩ | ⟨spur, rfl, hp, h⟩⟩ := step_cases hst
            · rw [hp] at hpos; simp [rank] at hpos
            · unfold access at h
              cases hpc : s.pc u <;> simp only [hpc, rank, Nat.lt_irrefl] at hpos <;> simp only [hpc] at h <;>
                (repeat' split at h) <;> cases h <;> simp_all [rank]
          rcases key with rfl | ⟨h1, h2, h3⟩
          · simp
          · exact List.mem_append_right _ (ih (goes_step hr hst) he1 hb hwh h1 (by rw [h3]; exact hact) (by omega))
        · have hl' : stepsOf t ((u, a) :: l) = stepsOf t l := by simp [stepsOf, hu]
          rw [hl'] at hl
          have hpc := step_pc hst t (fun h => hu h.symm)
          refine List.mem_append_right _ (ih (goes_step hr hst) he1 hb hwh (by rw [hpc]; exact hpos) ?_ (by rw [hpc]; exact hl))
          exact act_stable hw hi hc ht hin hact hu hst

/-- The last event of a waiter that just got the mutex back. -/
theorem attempt_pc {c : Cfg} {s s' : State c} {tr evs : List Ev} {t : Nat} {a : Cmd} (hr : Runs c tr s)
    (hs : step c s t a = some (s', evs)) (hp : pending tr t = some .wait) (h : Ev.attempt t true ∈ evs) :
    s'.pc t = .cAct ∧ s'.act = s.act ∧ evs = [.attempt t true] := by
  have hpd := pend_goes hr t
  rw [hpd] at hp
  obtain ⟨ht, hd, ⟨o, rfl, hidle, rfl, rfl⟩ | ⟨spur, rfl, _, h'⟩⟩ := step_cases hs
  · simp at h
  · have hscr := script_goes hr t hd
    unfold access at h'
    cases hpc : s.pc t with
    | wr k v =>
      rw [hpc] at hp hscr
      simp only [hpc] at h'
      cases k with
      | tryTop => simp [opOf, lkOp] at hp
      | lockTop l => simp [opOf, lkOp] at hp
      | lockWait l =>
        obtain ⟨_, _, _, hscr, _⟩ := hscr
        simp only [succeeded] at h'
        rw [if_pos (by omega)] at h'
        cases h'
        simp
    | _ =>
      simp only [hpc] at h'
      (try unfold failed at h')
      (try unfold unlocked at h')
      (repeat' split at h') <;> cases h' <;> simp at h

/-- C42d: a waiter that gets the mutex back while a signal (or broadcast) is pending leaves: five more steps of its own bring it out of
`picoRTOS_cond_wait`, whatever the other tasks do in between. -/
theorem cond_wait_leaves {c : Cfg} (hw : c.WF) {s s1 s' : State c} {tr evs tr' : List Ev} {t : Nat} {a : Cmd} {l : List (Nat × Cmd)}
    (hr : Runs c tr s) (hs : step c s t a = some (s1, evs)) (hp : pending tr t = some .wait) (ha : Ev.attempt t true ∈ evs)
    (hact : s.act ≠ .none) (he : exec c s1 l = some (s', tr')) (hb : Bounded c (tr ++ evs ++ tr')) (hwh : WaitsHeld (tr ++ evs ++ tr'))
    (hl : 5 ≤ stepsOf t l) : Ev.ret t .wait true ∈ tr' := by
  obtain ⟨h1, h2, _⟩ := attempt_pc hr hs hp ha
  exact leaves hw (step_cases hs).1 l (goes_step hr hs) he hb hwh (by rw [h1]; simp [rank]) (by rw [h2]; exact hact)
    (by rw [h1]; exact hl)

open Demo (gos) in
/-- C42e: a signal (or broadcast) sent while nobody waits is remembered: the next `picoRTOS_cond_wait` returns immediately (eight accesses
at most), without sleeping and without giving the mutex up. -/
theorem cond_signal_sticky {c : Cfg} (hw : c.WF) {s : State c} {tr : List Ev} {t : Nat} (hr : Runs c tr s) (hb : Bounded c tr)
    (hwh : WaitsHeld tr) (hh : Holds tr t) (hp : pending tr t = none) (hst : Ev.stall t ∉ tr) (hact : s.act ≠ .none) :
    ∃ n s', n ≤ 8 ∧ exec c s ((t, .call .wait) :: gos t n) = some (s', [.call t .wait, .ret t .wait true]) := by
  obtain ⟨hi, hc⟩ := cinv_runs hw hr hb hwh
  have ht := holds_lt hr hh
  have hpd := pend_goes hr t
  rw [hp] at hpd
  have hidle := opOf_none hpd.symm
  have hd : s.dead t = false := by
    cases h : s.dead t with
    | false => rfl
    | true => exact absurd ((dead_iff_stall hr t).1 h) hst
  have hlt : num c.N counted s.pc < c.N := num_lt ht (by rw [hidle]; rfl)
  have hcnt := hc.cnt
  have h1 : s.ccount.toNat < c.N := by
    rw [hcnt]; simp; exact Nat.lt_of_le_of_lt (Nat.mod_le _ _) hlt
  have h2 : s.ccount + 1#c.sw - 1#c.sw = s.ccount := by grind
  have fin : ∃ n, n ≤ 8 ∧ (exec c s ((t, .call .wait) :: gos t n)).map (·.2) = some [.call t .wait, .ret t .wait true] := by
    by_cases h0 : s.ccount = 0#c.sw
    · refine ⟨7, by omega, ?_⟩
      have h3 := h2.trans h0
      simp [gos, List.replicate, exec, step, ht, hd, hidle, access, entry, State.at, h1, h3, hact]
    · by_cases h3 : s.act = .signal
      · refine ⟨8, by omega, ?_⟩
        simp [gos, List.replicate, exec, step, ht, hd, hidle, access, entry, State.at, h2, h0, h1, h3]
      · refine ⟨7, by omega, ?_⟩
        simp [gos, List.replicate, exec, step, ht, hd, hidle, access, entry, State.at, h2, h0, h1, h3, hact]
  obtain ⟨n, hn, h⟩ := fin
  obtain ⟨s', h⟩ := exec_of_map h
  exact ⟨n, s', hn, h⟩

/-- C42f: `picoRTOS_cond_wait` only stalls by a deadlock on the mutex (CONFIG_DEADLOCK_COUNT + 1 failed attempts in a row, after a sleep): its
own assertions (number of waiters, ownership of the mutex it gives back) never fail. -/
theorem cond_wait_stall {c : Cfg} (hw : c.WF) {s s' : State c} {tr evs : List Ev} {t : Nat} {a : Cmd}
    (hr : Runs c tr s) (hb : Bounded c tr) (hwh : WaitsHeld tr) (hs : step c s t a = some (s', evs))
    (hp : pending tr t = some .wait) (h : Ev.stall t ∈ evs) :
    ∃ pre, since (tr ++ evs) t = pre ++ .sleep t :: (fails t c.D ++ [.attempt t false, .stall t]) := by
  obtain ⟨hi, hc⟩ := cinv_runs hw hr hb hwh
  have hpd := pend_goes hr t
  rw [hpd] at hp
  obtain ⟨ht, hd, ⟨o, rfl, hidle, rfl, rfl⟩ | ⟨spur, rfl, _, h'⟩⟩ := step_cases hs
  · simp at h
  · have hscr := script_goes hr t hd
    have hheld := hc.held t ht hp
    have hg := hi.good t ht
    have hown := hg.own
    have htmp := hg.tmp
    have hlt := hg.lt
    unfold access at h'
    cases hpc : s.pc t with
    | wr k v =>
      rw [hpc] at hp hscr
      simp only [hpc] at h'
      cases k with
      | tryTop => simp [opOf, lkOp] at hp
      | lockTop l => simp [opOf, lkOp] at hp
      | lockWait l =>
        obtain ⟨_, _, _, hscr, _⟩ := hscr
        simp only [succeeded] at h'
        rw [if_pos (by omega)] at h'
        cases h'
        simp at h
    | chk k =>
      rw [hpc] at hp hscr
      simp only [hpc] at h'
      split at h'
      · cases k with
        | tryTop => simp [opOf, lkOp] at hp
        | lockTop l => simp [opOf, lkOp] at hp
        | lockWait l =>
          obtain ⟨k, pre, h1, h2, h3⟩ := hscr
          simp only [failed] at h'
          split at h'
          · cases h'; simp at h
          · cases h'
            have : k = c.D := by omega
            subst this
            exact ⟨pre, by simp [since_append, sinceStep, Ev.task, h3]⟩
      · cases h'; simp at h
    | uOwner w =>
      simp only [hpc] at h'
      rw [hpc] at hown
      split at h'
      · cases h'; simp at h
      · rename_i hne
        have := own_owns?_zero hown hne
        omega
    | uCount w =>
      simp only [hpc] at h'
      rw [hpc] at hown htmp
      simp only [Tmp] at htmp
      simp only [hold, owns?_pos htmp, Own] at hown
      split at h'
      · cases h'; simp at h
      · rename_i hne
        exfalso
        rw [hown.2] at hne
        simp [Nat.mod_eq_of_lt hlt] at hne
        omega
    | cAssert =>
      simp only [hpc] at h'
      split at h'
      · cases h'; simp at h
      · rename_i hne
        exfalso
        apply hne
        rw [hc.cnt]
        have : num c.N counted s.pc < c.N := num_lt ht (by rw [hpc]; rfl)
        simp; exact Nat.lt_of_le_of_lt (Nat.mod_le _ _) this
    | _ =>
      simp only [hpc] at h'
      (try unfold unlocked at h')
      (repeat' split at h') <;> cases h' <;> simp at h

/-! ### Examples and counter-examples -/

theorem Demo.waitsHeld_of {tr : List Ev} (h : ∀ n, n < tr.length → ∀ t, t < 3 → tr[n]? = some (.call t .wait) → unlocks (tr.take n) t < locks (tr.take n) t)
    (h3 : ∀ e ∈ tr, e.task < 3) : WaitsHeld tr := by
  intro pre t hp
  have h1 := hp.length_le
  simp at h1
  have h2 : tr[pre.length]? = some (.call t .wait) := by
    obtain ⟨q, rfl⟩ := hp
    simp
  have h4 : tr.take pre.length = pre := by
    obtain ⟨q, rfl⟩ := hp
    simp
  have := h pre.length (by omega) t (h3 _ (List.mem_of_getElem? h2)) h2
  rw [h4] at this
  exact this

open Demo (gos)

/-- Tasks 0 and 1 take the mutex and wait on the condition. -/
def Demo.twoWait : List (Nat × Cmd) :=
  (0, .call .lock) :: gos 0 3 ++ (0, .call .wait) :: gos 0 10 ++
  (1, .call .lock) :: gos 1 3 ++ (1, .call .wait) :: gos 1 10

/-- Task 2 takes the mutex and signals twice, then gives the mutex back. -/
def Demo.twoSignals : List (Nat × Cmd) := Demo.twoWait ++
  (2, .call .lock) :: gos 2 3 ++ (2, .call .signal) :: gos 2 1 ++ (2, .call .signal) :: gos 2 1 ++ (2, .call .unlock) :: gos 2 5

/-- Task 0 leaves. -/
def Demo.lost : List (Nat × Cmd) := Demo.twoSignals ++ gos 0 8

def Demo.lostTr : List Ev := [.call 0 .lock, .attempt 0 true, .ret 0 .lock true, .call 0 .wait, .sleep 0,
  .call 1 .lock, .attempt 1 true, .ret 1 .lock true, .call 1 .wait, .sleep 1,
  .call 2 .lock, .attempt 2 true, .ret 2 .lock true, .call 2 .signal, .ret 2 .signal true, .call 2 .signal, .ret 2 .signal true,
  .call 2 .unlock, .ret 2 .unlock true, .attempt 0 true, .ret 0 .wait true]

/-- Executable view of `exec`: the trace and the pending action. -/
def Demo.traceAct (c : Cfg) (l : List (Nat × Cmd)) : Option (List Ev × CAct) := (exec c (init c) l).map (fun r => (r.2, r.1.act))

theorem Demo.runs_of_traceAct {c : Cfg} {l : List (Nat × Cmd)} {tr : List Ev} {x : CAct} (h : Demo.traceAct c l = some (tr, x)) :
    ∃ s, Runs c tr s ∧ s.act = x := by
  unfold Demo.traceAct at h
  cases he : exec c (init c) l with
  | none => simp [he] at h
  | some r => simp [he] at h; exact ⟨r.1, ⟨l, by rw [he, ← h.1]⟩, h.2⟩

theorem Demo.lost_runs : ∃ s, Runs Demo.cfg Demo.lostTr s ∧ s.act = .none :=
  Demo.runs_of_traceAct (l := Demo.lost) (by decide)

theorem Demo.lost_held : WaitsHeld Demo.lostTr := Demo.waitsHeld_of (by decide) (by decide)

-- the trace above satisfies the hypotheses of C42a, C42b: two signals, one return, one task still waiting
example : returns .broadcast Demo.lostTr = 0 ∧ returns .signal Demo.lostTr = 2 ∧ returns .wait Demo.lostTr = 1 ∧
    pending Demo.lostTr 1 = some .wait ∧ Bounded Demo.cfg Demo.lostTr ∧ WaitsHeld Demo.lostTr :=
  ⟨by decide, by decide, by decide, by decide, Demo.bounded_of_short (by decide), Demo.lost_held⟩

/-- C42, what is lost: two signals sent while two tasks wait are merged into one.  Here both signals come while tasks 0 and 1 wait, task 0
leaves, and task 1 will not return in any continuation without a further signal or broadcast. -/
theorem cond_signals_merge : ∃ s, Runs Demo.cfg Demo.lostTr s ∧ returns .signal Demo.lostTr = 2 ∧ returns .wait Demo.lostTr = 1 ∧
    pending Demo.lostTr 1 = some .wait ∧
    (∀ s' tr', Goes Demo.cfg s tr' s' → Bounded Demo.cfg (Demo.lostTr ++ tr') → WaitsHeld (Demo.lostTr ++ tr') →
      returns .signal tr' = 0 → returns .broadcast tr' = 0 → returns .wait tr' = 0) := by
  obtain ⟨s, hr, ha⟩ := Demo.lost_runs
  refine ⟨s, hr, by decide, by decide, by decide, fun s' tr' hg hb hwh h1 h2 => ?_⟩
  have := cond_no_spurious Demo.wf hr hg hb hwh ha h2
  omega

-- hypotheses of C42c, C42d: task 0 gets the mutex back while the signal is pending, then returns
example : ∃ s s1 s', Runs Demo.cfg (Demo.lostTr.take 19) s ∧ step Demo.cfg s 0 (.go false) = some (s1, [.attempt 0 true]) ∧
    pending (Demo.lostTr.take 19) 0 = some .wait ∧ s.act = .signal ∧ exec Demo.cfg s1 (gos 0 5) = some (s', [.ret 0 .wait true]) :=
  ⟨_, _, _, ⟨Demo.twoSignals ++ gos 0 2, rfl⟩, rfl, by decide, rfl, rfl⟩

-- hypotheses of C42e: task 2 signals while nobody waits, then task 0 takes the mutex
def Demo.early : List (Nat × Cmd) := (2, .call .signal) :: gos 2 1 ++ (0, .call .lock) :: gos 0 3

example : ∃ s, Runs Demo.cfg [.call 2 .signal, .ret 2 .signal true, .call 0 .lock, .attempt 0 true, .ret 0 .lock true] s ∧ s.act = .signal ∧
    Holds [.call 2 .signal, .ret 2 .signal true, .call 0 .lock, .attempt 0 true, .ret 0 .lock true] 0 :=
  ⟨_, ⟨Demo.early, rfl⟩, rfl, by unfold Holds; decide⟩

-- hypotheses of C42f: task 2 keeps the mutex, task 0 waits: deadlock in picoRTOS_cond_wait
def Demo.waitDead : List (Nat × Cmd) :=
  (0, .call .lock) :: gos 0 3 ++ (0, .call .wait) :: gos 0 10 ++ (2, .call .lock) :: gos 2 3 ++ gos 0 7

example : ∃ s s' tr, Runs Demo.cfg tr s ∧ pending tr 0 = some .wait ∧ step Demo.cfg s 0 (.go false) = some (s', [.attempt 0 false, .stall 0]) :=
  ⟨_, _, _, ⟨Demo.waitDead, rfl⟩, by decide, rfl⟩

/-! ## C43 -/

/-- The task is out of `picoRTOS_cond_wait`'s registration and unregistration code: it waits, registered. -/
theorem waiting_counted {sw : Nat} {p : PC sw} (h : opOf p = some .wait) (hin : inside p = false) : counted p = true := by
  cases p with
  | cas k | chk k | rd k | wr k _ | zz k => cases k <;> simp_all [opOf, lkOp, counted]
  | uOwner w | uCount w | uRd w | uWr w _ | uRel w => cases w <;> simp_all [opOf, counted]
  | _ => simp_all [opOf, counted, inside, leaving]

/-- While waiter `t` has not left, the broadcast stays. -/
structure Bc (c : Cfg) (t : Nat) (s : State c) : Prop where
  act : s.act = .broadcast
  me : counted (s.pc t) = true ∨ leaving (s.pc t) = true
  rest : ∀ u, u < c.N → u ≠ t → s.pc u ≠ .cReset

theorem two_counted {c : Cfg} {pc : Nat → PC c.sw} {t u : Nat} (ht : t < c.N) (hu : u < c.N) (hne : u ≠ t)
    (h1 : counted (pc t) = true) (h2 : counted (pc u) = true) : 2 ≤ num c.N counted pc := by
  have h := num_upd c.N counted pc hu .idle
  rw [h2] at h
  have h3 : 0 < num c.N counted (upd pc u .idle) := num_pos ht (by rw [upd_ne _ _ (fun h => hne h.symm)]; exact h1)
  simp [counted] at h
  omega

theorem bc_step {c : Cfg} (hw : c.WF) {s s' : State c} {tr evs : List Ev} {t u : Nat} {a : Cmd} (hi : Inv c s tr) (hc : CInv c s tr)
    (ht : t < c.N) (h : Bc c t s) (hs : step c s u a = some (s', evs)) (hsig : returns .signal evs = 0) :
    Bc c t s' ∨ Ev.ret t .wait true ∈ evs := by
  obtain ⟨ha, hm, hrest⟩ := h
  have hu := (step_cases hs).1
  by_cases hut : u = t
  · subst hut
    have hpcs : ∀ v, v < c.N → v ≠ u → s'.pc v ≠ .cReset := fun v hv hvu => by
      rw [step_pc hs v hvu]; exact hrest v hv hvu
    suffices H : (s'.act = .broadcast ∧ (counted (s'.pc u) = true ∨ leaving (s'.pc u) = true)) ∨ Ev.ret u .wait true ∈ evs by
      rcases H with H | H
      · exact Or.inl ⟨H.1, H.2, hpcs⟩
      · exact Or.inr H
    obtain ⟨_, hd, ⟨o, rfl, hp, rfl, rfl⟩ | ⟨spur, rfl, hp, h'⟩⟩ := step_cases hs
    · rw [hp] at hm; simp [counted, leaving] at hm
    · unfold access at h'
      cases hpc : s.pc u with
      | cas k | chk k | rd k | wr k _ | zz k =>
        rw [hpc] at hm
        simp only [hpc] at h'
        cases k <;> simp [counted, leaving] at hm
        (try unfold failed at h')
        (try unfold succeeded at h')
        (repeat' split at h') <;> cases h' <;> simp_all [counted, leaving]
      | uOwner w | uCount w | uRd w | uWr w _ | uRel w =>
        rw [hpc] at hm
        simp only [hpc] at h'
        cases w <;> simp [counted, leaving] at hm
        (try unfold unlocked at h')
        (repeat' split at h') <;> cases h' <;> simp_all [counted, leaving]
      | _ =>
        rw [hpc] at hm
        simp only [hpc] at h'
        (repeat' split at h') <;> cases h' <;> simp_all [counted, leaving]
  · left
    have hme : s'.pc t = s.pc t := step_pc hs t (fun h => hut h.symm)
    refine ⟨?_, by rw [hme]; exact hm, ?_⟩
    · have hne := hrest u hu hut
      obtain ⟨_, hd, ⟨o, rfl, hp, rfl, rfl⟩ | ⟨spur, rfl, hp, h'⟩⟩ := step_cases hs
      · exact ha
      · unfold access at h'
        split at h' <;> (try unfold failed at h') <;> (try unfold succeeded at h') <;> (try unfold unlocked at h') <;>
          (repeat' split at h') <;> cases h' <;> first | exact ha | rfl | simp_all [returns]
    · intro v hv hvt
      by_cases hvu : v = u
      · subst hvu
        intro hcr
        obtain ⟨_, hd, ⟨o, rfl, hp, rfl, rfl⟩ | ⟨spur, rfl, hp, h'⟩⟩ := step_cases hs
        · cases o <;> simp [entry] at hcr
        · unfold access at h'
          cases hpc : s.pc v with
          | cDecWr w =>
            have htmp := hc.tmp v hv
            rw [hpc] at htmp
            simp only [CTmp] at htmp
            have hin : inside (s.pc v) = true := by rw [hpc]; rfl
            have hct : counted (s.pc t) = true := by
              rcases hm with h | h
              · exact h
              · exact absurd (inside_unique hw hi hc hv ht hin (leaving_inside h)) hut
            have h2 := two_counted ht hv hut hct (by rw [hpc]; rfl)
            have hle := num_le c.N counted s.pc
            have hlt : c.N < 2 ^ c.sw := hw.2
            simp only [hpc] at h'
            split at h'
            · rename_i hz
              rw [htmp, hc.cnt, ofNat_sub_one (by omega), ofNat_eq_zero (by omega)] at hz
              omega
            · cases h'; simp at hcr
          | cAct2 =>
            simp only [hpc] at h'
            rw [if_neg (by simp [ha])] at h'
            cases h'; simp at hcr
          | _ =>
            simp only [hpc] at h'
            (try unfold failed at h')
            (try unfold succeeded at h')
            (try unfold unlocked at h')
            (repeat' split at h') <;> cases h' <;> simp_all
      · rw [step_pc hs v hvu]; exact hrest v hv hvt

/-- After a broadcast by a task in its critical section, every waiter is registered and the broadcast is there. -/
theorem bc_start {c : Cfg} (hw : c.WF) {s s1 : State c} {tr evs : List Ev} {b t : Nat} {a : Cmd} (hr : Runs c tr s)
    (hi : Inv c s tr) (hc : CInv c s tr) (hs : step c s b a = some (s1, evs)) (hret : Ev.ret b .broadcast true ∈ evs)
    (hcr : Critical tr b) (ht : t < c.N) (hp : pending tr t = some .wait) : Bc c t s1 := by
  have hb := (step_cases hs).1
  have hown := critical_owns hi hr hb hcr
  have hpt := pend_goes hr t
  rw [hp] at hpt
  have hout : ∀ u, u < c.N → u ≠ b → inside (s.pc u) = false := by
    intro u hu hub
    cases h : inside (s.pc u) with
    | false => rfl
    | true => exact absurd (self_inj hw hu hb ((inside_owner hi hc hu h).symm.trans hown)) hub
  have hbp : s.pc b = .bWr ∧ s1 = ({ s with act := .broadcast } : State c).at b .idle := by
    obtain ⟨_, hd, ⟨o, rfl, hp, rfl, rfl⟩ | ⟨spur, rfl, hp, h'⟩⟩ := step_cases hs
    · simp at hret
    · unfold access at h'
      split at h' <;> (try unfold failed at h') <;> (try unfold succeeded at h') <;> (try unfold unlocked at h') <;>
        (repeat' split at h') <;> cases h' <;> simp at hret <;> exact ⟨by assumption, rfl⟩
  obtain ⟨hbp, rfl⟩ := hbp
  have htb : t ≠ b := by
    intro h; subst h; rw [hbp] at hpt; simp [opOf] at hpt
  refine ⟨rfl, Or.inl ?_, ?_⟩
  · simp only [at_pc, upd_ne _ _ htb]
    exact waiting_counted hpt.symm (hout t ht htb)
  · intro u hu _
    by_cases hub : u = b
    · subst hub; simp
    · simp only [at_pc, upd_ne _ _ hub]
      intro h
      have := hout u hu hub
      rw [h] at this
      simp [inside, leaving] at this


theorem bc_wait {c : Cfg} {s : State c} {t : Nat} (h : Bc c t s) : opOf (s.pc t) = some .wait := by
  rcases h.me with h | h
  · revert h
    cases s.pc t with
    | cas k | chk k | rd k | wr k _ | zz k => cases k <;> simp [opOf, lkOp, counted]
    | uOwner w | uCount w | uRd w | uWr w _ | uRel w => cases w <;> simp [opOf, counted]
    | _ => simp [opOf, counted]
  · exact inside_wait (leaving_inside h)

theorem bc_rank {c : Cfg} {s s' : State c} {evs : List Ev} {t u : Nat} {a : Cmd} (hbc : Bc c t s) (h : 0 < rank (s.pc t))
    (hs : step c s u a = some (s', evs)) : 0 < rank (s'.pc t) ∨ Ev.ret t .wait true ∈ evs := by
  by_cases hut : u = t
  · subst hut
    obtain ⟨_, hd, ⟨o, rfl, hp, rfl, rfl⟩ | ⟨spur, rfl, hp, h'⟩⟩ := step_cases hs
    · rw [hp] at h; simp [rank] at h
    · have ha := hbc.act
      unfold access at h'
      cases hpc : s.pc u <;> simp only [hpc, rank, Nat.lt_irrefl] at h <;> simp only [hpc] at h' <;>
        (repeat' split at h') <;> cases h' <;> simp_all [rank]
  · left; rw [step_pc hs t (fun h => hut h.symm)]; exact h

theorem bc_goes {c : Cfg} (hw : c.WF) {t : Nat} (ht : t < c.N) {s s' : State c} {tr tr' : List Ev}
    (hr : Runs c tr s) (hg : Goes c s tr' s') (hb : Bounded c (tr ++ tr')) (hwh : WaitsHeld (tr ++ tr'))
    (h : Bc c t s) (hsig : returns .signal tr' = 0) :
    Ev.ret t .wait true ∈ tr' ∨ (Bc c t s' ∧ (Ev.attempt t true ∈ tr' → 0 < rank (s'.pc t))) := by
  have H : Goes c s tr' s' ∧ (Bounded c (tr ++ tr') → WaitsHeld (tr ++ tr') → returns .signal tr' = 0 →
      (Ev.ret t .wait true ∈ tr' ∨ (Bc c t s' ∧ (Ev.attempt t true ∈ tr' → 0 < rank (s'.pc t))))) := by
    refine goes_induction (s0 := s) (P := fun tr' s' => Goes c s tr' s' ∧ (Bounded c (tr ++ tr') → WaitsHeld (tr ++ tr') →
      returns .signal tr' = 0 → (Ev.ret t .wait true ∈ tr' ∨ (Bc c t s' ∧ (Ev.attempt t true ∈ tr' → 0 < rank (s'.pc t)))))) ?_ ?_ hg
    · exact ⟨⟨[], rfl⟩, fun _ _ _ => Or.inr ⟨h, by simp⟩⟩
    · intro tr1 s1 u a s2 evs ⟨hg1, hp⟩ hs
      refine ⟨goes_step hg1 hs, fun hb hwh hsig => ?_⟩
      rw [← List.append_assoc] at hb hwh
      rcases hp hb.left hwh.left (returns_zero_left hsig) with h1 | ⟨h1, h2⟩
      · exact Or.inl (List.mem_append_left _ h1)
      · obtain ⟨hi, hc⟩ := inv_goes hw hr hg1 hb.left hwh.left
        rcases bc_step hw hi hc ht h1 hs (returns_zero_right hsig) with h3 | h3
        · by_cases hatt : Ev.attempt t true ∈ tr1
          · rcases bc_rank h1 (h2 hatt) hs with h4 | h4
            · exact Or.inr ⟨h3, fun _ => h4⟩
            · exact Or.inl (List.mem_append_right _ h4)
          · refine Or.inr ⟨h3, fun h4 => ?_⟩
            rcases List.mem_append.1 h4 with h4 | h4
            · exact absurd h4 hatt
            · have hut : u = t := (step_task hs _ h4).symm
              subst hut
              have hrun := goes_trans hr hg1
              have hpd := pend_goes hrun u
              rw [bc_wait h1] at hpd
              rw [(attempt_pc hrun hs hpd h4).1]; simp [rank]
        · exact Or.inl (List.mem_append_right _ h3)
  exact H.2 hb hwh hsig

/-- C43: a broadcast sent by a task in its critical section releases every task waiting at that time: as long as no signal is sent, a
waiter `t` that gets the mutex back once (the continuation `tr1`) leaves `picoRTOS_cond_wait` within five more steps of its own
(the continuation `tr2`), whatever the other tasks do.  Any number of waiters, any interleaving. -/
theorem cond_broadcast_all {c : Cfg} (hw : c.WF) {s s0 s1 s2 : State c} {tr evs tr1 tr2 : List Ev} {b t : Nat} {a : Cmd}
    {l : List (Nat × Cmd)} (hr : Runs c tr s) (hs : step c s b a = some (s0, evs)) (hret : Ev.ret b .broadcast true ∈ evs)
    (hcr : Critical tr b) (hp : pending tr t = some .wait)
    (hg : Goes c s0 tr1 s1) (hatt : Ev.attempt t true ∈ tr1) (he : exec c s1 l = some (s2, tr2)) (hl : 5 ≤ stepsOf t l)
    (hb : Bounded c (tr ++ evs ++ tr1 ++ tr2)) (hwh : WaitsHeld (tr ++ evs ++ tr1 ++ tr2))
    (hsig : returns .signal (tr1 ++ tr2) = 0) : Ev.ret t .wait true ∈ tr1 ++ tr2 := by
  obtain ⟨hi, hc⟩ := cinv_runs hw hr hb.left.left.left hwh.left.left.left
  have hr0 : Runs c (tr ++ evs) s0 := goes_step hr hs
  have ht : t < c.N := by
    have : Ev.call t .wait ∈ tr := by
      clear hi hc hr hs hret hcr hg hatt he hb hwh hr0 hsig hl
      have : ∀ p : Option Op, tr.foldl (pendStep t) p = some .wait → p = some .wait ∨ Ev.call t .wait ∈ tr := by
        clear hp
        induction tr with
        | nil => intro p h; exact Or.inl h
        | cons e es ih =>
          intro p h
          rw [List.foldl_cons] at h
          rcases ih _ h with h2 | h2
          · clear h
            cases e <;> simp only [pendStep] at h2
            · split at h2
              · rename_i h1; subst h1; simp only [Option.some.injEq] at h2; subst h2; right; simp
              · left; exact h2
            · left; exact h2
            · left; exact h2
            · split at h2
              · cases h2
              · left; exact h2
            · left; exact h2
          · right; simp [h2]
      rcases this none hp with h | h
      · cases h
      · exact h
    exact runs_tasks hr _ this
  have hbc := bc_start hw hr hi hc hs hret hcr ht hp
  rcases bc_goes hw ht hr0 hg hb.left hwh.left hbc (returns_zero_left hsig) with h | ⟨h1, h2⟩
  · exact List.mem_append_left _ h
  · have h3 := h2 hatt
    refine List.mem_append_right _ (leaves hw ht l (goes_trans hr0 hg) he hb hwh h3 (by rw [h1.act]; simp) ?_)
    refine Nat.le_trans ?_ hl
    cases s1.pc t <;> simp [rank]

/-- C43: as long as no signal is sent and waiter `t` has not left, the broadcast stays pending (it is not consumed by the others). -/
theorem cond_broadcast_stays {c : Cfg} (hw : c.WF) {s s0 s1 : State c} {tr evs tr1 : List Ev} {b t : Nat} {a : Cmd}
    (hr : Runs c tr s) (hs : step c s b a = some (s0, evs)) (hret : Ev.ret b .broadcast true ∈ evs)
    (hcr : Critical tr b) (ht : t < c.N) (hp : pending tr t = some .wait) (hg : Goes c s0 tr1 s1)
    (hb : Bounded c (tr ++ evs ++ tr1)) (hwh : WaitsHeld (tr ++ evs ++ tr1)) (hsig : returns .signal tr1 = 0)
    (hno : Ev.ret t .wait true ∉ tr1) : s1.act = .broadcast := by
  obtain ⟨hi, hc⟩ := cinv_runs hw hr hb.left.left hwh.left.left
  rcases bc_goes hw ht (goes_step hr hs) hg hb hwh (bc_start hw hr hi hc hs hret hcr ht hp) hsig with h | ⟨h1, _⟩
  · exact absurd h hno
  · exact h1.act

/-! ### Examples and counter-examples -/

/-- Tasks 0 and 1 wait; task 2 takes the mutex and calls broadcast. -/
def Demo.bcast : List (Nat × Cmd) := Demo.twoWait ++ (2, .call .lock) :: gos 2 3 ++ [(2, .call .broadcast)]

def Demo.bcastTr : List Ev := [.call 0 .lock, .attempt 0 true, .ret 0 .lock true, .call 0 .wait, .sleep 0,
  .call 1 .lock, .attempt 1 true, .ret 1 .lock true, .call 1 .wait, .sleep 1,
  .call 2 .lock, .attempt 2 true, .ret 2 .lock true, .call 2 .broadcast]

/-- Task 2 gives the mutex back; task 1 leaves and gives the mutex back, task 0 gets the mutex. -/
def Demo.bcast1 : List (Nat × Cmd) := (2, .call .unlock) :: gos 2 5 ++ gos 1 7 ++ (1, .call .unlock) :: gos 1 5 ++ gos 0 3

-- the hypotheses of C43 are met for waiter 0
example : ∃ s s0 s1 s2, Runs Demo.cfg Demo.bcastTr s ∧ step Demo.cfg s 2 (.go false) = some (s0, [.ret 2 .broadcast true]) ∧
    Critical Demo.bcastTr 2 ∧ pending Demo.bcastTr 0 = some .wait ∧ pending Demo.bcastTr 1 = some .wait ∧
    Goes Demo.cfg s0 [.call 2 .unlock, .ret 2 .unlock true, .attempt 1 true, .ret 1 .wait true, .call 1 .unlock, .ret 1 .unlock true,
      .attempt 0 true] s1 ∧
    exec Demo.cfg s1 (gos 0 4 ++ [(0, .call .unlock)]) = some (s2, [.ret 0 .wait true, .call 0 .unlock]) :=
  ⟨_, _, _, _, ⟨Demo.bcast, rfl⟩, rfl, by unfold Critical Holds; decide, by decide, by decide, ⟨Demo.bcast1, rfl⟩, rfl⟩

/-- Tasks 0 and 1 wait; task 2 broadcasts then signals, and gives the mutex back; task 0 leaves. -/
def Demo.over : List (Nat × Cmd) := Demo.twoWait ++
  (2, .call .lock) :: gos 2 3 ++ (2, .call .broadcast) :: gos 2 1 ++ (2, .call .signal) :: gos 2 1 ++ (2, .call .unlock) :: gos 2 5 ++ gos 0 8

def Demo.overTr : List Ev := Demo.bcastTr ++ [.ret 2 .broadcast true, .call 2 .signal, .ret 2 .signal true,
  .call 2 .unlock, .ret 2 .unlock true, .attempt 0 true, .ret 0 .wait true]

/-- C43, what is lost (1): a signal sent after a broadcast replaces it.  Task 2 broadcasts to the two waiters and then signals, holding the
mutex; task 0 leaves, and task 1 will not return in any continuation without a further signal or broadcast. -/
theorem cond_broadcast_overwritten : ∃ s, Runs Demo.cfg Demo.overTr s ∧ returns .broadcast Demo.overTr = 1 ∧
    returns .signal Demo.overTr = 1 ∧ returns .wait Demo.overTr = 1 ∧ pending Demo.overTr 1 = some .wait ∧
    (∀ s' tr', Goes Demo.cfg s tr' s' → Bounded Demo.cfg (Demo.overTr ++ tr') → WaitsHeld (Demo.overTr ++ tr') →
      returns .signal tr' = 0 → returns .broadcast tr' = 0 → returns .wait tr' = 0) := by
  obtain ⟨s, hr, ha⟩ := Demo.runs_of_traceAct (c := Demo.cfg) (l := Demo.over) (tr := Demo.overTr) (x := .none) (by decide)
  refine ⟨s, hr, by decide, by decide, by decide, by decide, fun s' tr' hg hb hwh h1 h2 => ?_⟩
  have := cond_no_spurious Demo.wf hr hg hb hwh ha h2
  omega

/-- Tasks 0 and 1 wait; task 2 signals, task 0 is about to leave; task 2, that does not hold the mutex, broadcasts; task 0 leaves. -/
def Demo.bare : List (Nat × Cmd) := Demo.twoWait ++
  (2, .call .signal) :: gos 2 1 ++ gos 0 7 ++ (2, .call .broadcast) :: gos 2 1 ++ gos 0 1

def Demo.bareTr : List Ev := [.call 0 .lock, .attempt 0 true, .ret 0 .lock true, .call 0 .wait, .sleep 0,
  .call 1 .lock, .attempt 1 true, .ret 1 .lock true, .call 1 .wait, .sleep 1,
  .call 2 .signal, .ret 2 .signal true, .attempt 0 true, .call 2 .broadcast, .ret 2 .broadcast true, .ret 0 .wait true]

/-- C43, what is lost (2): the broadcaster must hold the mutex (the documentation asks for it only in its example).  Task 2 broadcasts
without the mutex while task 0 is leaving: task 1, that waits at that time, will not return in any continuation without a further
signal or broadcast. -/
theorem cond_broadcast_unlocked : ∃ s, Runs Demo.cfg Demo.bareTr s ∧ returns .broadcast Demo.bareTr = 1 ∧
    returns .wait Demo.bareTr = 1 ∧ pending Demo.bareTr 1 = some .wait ∧
    (∀ s' tr', Goes Demo.cfg s tr' s' → Bounded Demo.cfg (Demo.bareTr ++ tr') → WaitsHeld (Demo.bareTr ++ tr') →
      returns .signal tr' = 0 → returns .broadcast tr' = 0 → returns .wait tr' = 0) := by
  obtain ⟨s, hr, ha⟩ := Demo.runs_of_traceAct (c := Demo.cfg) (l := Demo.bare) (tr := Demo.bareTr) (x := .none) (by decide)
  refine ⟨s, hr, by decide, by decide, by decide, fun s' tr' hg hb hwh h1 h2 => ?_⟩
  have := cond_no_spurious Demo.wf hr hg hb hwh ha h2
  omega

end Pico.Mtx
