import Verif.Ipc.MutexSpec

/-!
# Invariants of the mutex
-/

namespace Pico.Mtx

/-! ## Traces -/

theorem locks_append (tr evs : List Ev) (t : Nat) : locks (tr ++ evs) t = locks tr t + locks evs t := by
  simp [locks, List.count_append]; omega

theorem unlocks_append (tr evs : List Ev) (t : Nat) : unlocks (tr ++ evs) t = unlocks tr t + unlocks evs t := by
  simp [unlocks, List.count_append]

theorem locks_other {evs : List Ev} {t u : Nat} (h : ∀ e ∈ evs, e.task = t) (hu : u ≠ t) : locks evs u = 0 := by
  unfold locks
  rw [List.count_eq_zero_of_not_mem, List.count_eq_zero_of_not_mem]
  · intro hm; exact hu (h _ hm)
  · intro hm; exact hu (h _ hm)

theorem unlocks_other {evs : List Ev} {t u : Nat} (h : ∀ e ∈ evs, e.task = t) (hu : u ≠ t) : unlocks evs u = 0 := by
  unfold unlocks
  rw [List.count_eq_zero_of_not_mem]
  intro hm; exact hu (h _ hm)

theorem depth_other {evs : List Ev} {t u : Nat} (tr : List Ev) (h : ∀ e ∈ evs, e.task = t) (hu : u ≠ t) :
    depth (tr ++ evs) u = depth tr u := by
  simp [depth, locks_append, unlocks_append, locks_other h hu, unlocks_other h hu]

theorem pending_append (tr evs : List Ev) (t : Nat) :
    pending (tr ++ evs) t = evs.foldl (pendStep t) (pending tr t) := by
  simp [pending, List.foldl_append]

theorem pendStep_other {e : Ev} {t u : Nat} (h : e.task = t) (hu : u ≠ t) (p : Option Op) : pendStep u p e = p := by
  subst h
  cases e <;> simp [pendStep, Ev.task] at hu ⊢ <;> intro h1 <;> exact absurd h1.symm hu

theorem pending_other {evs : List Ev} {t u : Nat} (tr : List Ev) (h : ∀ e ∈ evs, e.task = t) (hu : u ≠ t) :
    pending (tr ++ evs) u = pending tr u := by
  rw [pending_append]
  generalize pending tr u = p
  induction evs generalizing p with
  | nil => rfl
  | cons e es ih =>
    rw [List.foldl_cons, ih (fun e' h' => h e' (by simp [h'])), pendStep_other (h e (by simp)) hu]

theorem since_append (tr evs : List Ev) (t : Nat) :
    since (tr ++ evs) t = evs.foldl (sinceStep t) (since tr t) := by
  simp [since, List.foldl_append]

theorem sinceStep_other {e : Ev} {t u : Nat} (h : e.task = t) (hu : u ≠ t) (p : List Ev) : sinceStep u p e = p := by
  subst h
  cases e <;> simp only [sinceStep, Ev.task] at hu ⊢ <;> exact if_neg (fun h1 => hu h1.symm)

theorem since_other {evs : List Ev} {t u : Nat} (tr : List Ev) (h : ∀ e ∈ evs, e.task = t) (hu : u ≠ t) :
    since (tr ++ evs) u = since tr u := by
  rw [since_append]
  generalize since tr u = p
  induction evs generalizing p with
  | nil => rfl
  | cons e es ih =>
    rw [List.foldl_cons, ih (fun e' h' => h e' (by simp [h'])), sinceStep_other (h e (by simp)) hu]

/-! ## Schedules -/

theorem exec_append {c : Cfg} {s s1 : State c} {l1 l2 : List (Nat × Cmd)} {tr1 : List Ev}
    (h : exec c s l1 = some (s1, tr1)) :
    exec c s (l1 ++ l2) = (exec c s1 l2).map (fun r => (r.1, tr1 ++ r.2)) := by
  induction l1 generalizing s tr1 with
  | nil => cases h; cases he : exec c s1 l2 <;> simp [he]
  | cons x l ih =>
    obtain ⟨t, a⟩ := x
    simp only [exec, List.cons_append] at h ⊢
    cases hs : step c s t a with
    | none => simp [hs] at h
    | some r =>
      obtain ⟨s', evs⟩ := r
      simp only [hs] at h ⊢
      cases he : exec c s' l with
      | none => simp [he] at h
      | some r2 =>
        obtain ⟨s2, evs2⟩ := r2
        simp only [he] at h
        cases h
        rw [ih he]
        cases exec c s1 l2 <;> simp

/-- Continuations, one step at a time. -/
theorem goes_induction {c : Cfg} {s0 : State c} {P : List Ev → State c → Prop}
    (h0 : P [] s0)
    (hs : ∀ tr s t a s' evs, P tr s → step c s t a = some (s', evs) → P (tr ++ evs) s')
    {tr : List Ev} {s : State c} (h : Goes c s0 tr s) : P tr s := by
  obtain ⟨l, h⟩ := h
  suffices H : ∀ (l : List (Nat × Cmd)) tr0 s0 tr s, P tr0 s0 → exec c s0 l = some (s, tr) → P (tr0 ++ tr) s from by
    simpa using H l [] s0 tr s h0 h
  intro l
  induction l with
  | nil => intro tr0 s0 tr s hp h; cases h; simpa using hp
  | cons x l ih =>
    intro tr0 s0 tr s hp h
    obtain ⟨t, a⟩ := x
    simp only [exec] at h
    cases hst : step c s0 t a with
    | none => simp [hst] at h
    | some r =>
      obtain ⟨s', evs⟩ := r
      simp only [hst] at h
      cases he : exec c s' l with
      | none => simp [he] at h
      | some r2 =>
        obtain ⟨s2, evs2⟩ := r2
        simp only [he] at h
        cases h
        rw [← List.append_assoc]
        exact ih _ _ _ _ (hs _ _ _ _ _ _ hp hst) he

theorem goes_step {c : Cfg} {s0 s s' : State c} {tr evs : List Ev} {t : Nat} {a : Cmd}
    (h : Goes c s0 tr s) (hs : step c s t a = some (s', evs)) : Goes c s0 (tr ++ evs) s' := by
  obtain ⟨l, hl⟩ := h
  exact ⟨l ++ [(t, a)], by rw [exec_append hl]; simp [exec, hs]⟩

theorem goes_trans {c : Cfg} {s0 s s' : State c} {tr tr' : List Ev}
    (h : Goes c s0 tr s) (h' : Goes c s tr' s') : Goes c s0 (tr ++ tr') s' := by
  obtain ⟨l, hl⟩ := h
  obtain ⟨l', hl'⟩ := h'
  exact ⟨l ++ l', by rw [exec_append hl, hl']; rfl⟩

/-- The shape of a step. -/
theorem step_cases {c : Cfg} {s s' : State c} {t : Nat} {a : Cmd} {evs : List Ev}
    (h : step c s t a = some (s', evs)) : t < c.N ∧ s.dead t = false ∧
    ((∃ o, a = .call o ∧ s.pc t = .idle ∧ s' = s.at t (entry c o) ∧ evs = [.call t o]) ∨
     (∃ spur, a = .go spur ∧ s.pc t ≠ .idle ∧ access c s t spur = (s', evs))) := by
  unfold step at h
  split at h
  · rename_i h1
    refine ⟨h1.1, h1.2, ?_⟩
    split at h
    · rename_i o
      split at h
      · rename_i h2
        cases h
        exact Or.inl ⟨o, rfl, h2, rfl, rfl⟩
      · cases h
    · rename_i spur
      split at h
      · cases h
      · rename_i h2
        simp only [Option.some.injEq] at h
        exact Or.inr ⟨spur, rfl, h2, h⟩
  · cases h

@[simp] theorem at_pc {c : Cfg} (s : State c) (t : Nat) (p : PC c.sw) : (s.at t p).pc = upd s.pc t p := rfl
@[simp] theorem at_owner {c : Cfg} (s : State c) (t : Nat) (p : PC c.sw) : (s.at t p).owner = s.owner := rfl
@[simp] theorem at_count {c : Cfg} (s : State c) (t : Nat) (p : PC c.sw) : (s.at t p).count = s.count := rfl
@[simp] theorem at_act {c : Cfg} (s : State c) (t : Nat) (p : PC c.sw) : (s.at t p).act = s.act := rfl
@[simp] theorem at_ccount {c : Cfg} (s : State c) (t : Nat) (p : PC c.sw) : (s.at t p).ccount = s.ccount := rfl
@[simp] theorem at_dead {c : Cfg} (s : State c) (t : Nat) (p : PC c.sw) : (s.at t p).dead = s.dead := rfl
@[simp] theorem die_pc {c : Cfg} (s : State c) (t : Nat) : (s.die t).pc = s.pc := rfl
@[simp] theorem die_owner {c : Cfg} (s : State c) (t : Nat) : (s.die t).owner = s.owner := rfl
@[simp] theorem die_count {c : Cfg} (s : State c) (t : Nat) : (s.die t).count = s.count := rfl
@[simp] theorem die_act {c : Cfg} (s : State c) (t : Nat) : (s.die t).act = s.act := rfl
@[simp] theorem die_ccount {c : Cfg} (s : State c) (t : Nat) : (s.die t).ccount = s.ccount := rfl

/-! ## Ownership -/

/-- `none` if `n = 0`. -/
def owns? (n : Nat) : Option Nat := if n = 0 then none else some n

/-- Depth from which `picoRTOS_mutex_trylock` starts. -/
def base (b : Nat) : Lk → Nat
  | .lockWait _ => b - 1
  | _ => b

/-- Given its nesting depth `b`, does a task own the mutex word, and with what count? -/
def hold {sw : Nat} (b : Nat) : PC sw → Option Nat
  | .cas k => owns? (base b k)
  | .chk k => owns? (base b k)
  | .zz k => owns? (base b k)
  | .rd k => some (base b k)
  | .wr k _ => some (base b k)
  | .uRel _ => some 0
  | .cZz => owns? (b - 1)
  | _ => owns? b

/-- The loop counter of `picoRTOS_mutex_lock` and, in `picoRTOS_cond_wait`, the depth. -/
def LkOk (D b : Nat) : Lk → Prop
  | .tryTop => True
  | .lockTop l => 0 ≤ l ∧ l ≤ D
  | .lockWait l => 0 ≤ l ∧ l ≤ D ∧ 0 < b

/-- What the local variables hold. -/
def Tmp (c : Cfg) (b : Nat) : PC c.sw → Prop
  | .cas k => LkOk c.D b k
  | .chk k => LkOk c.D b k
  | .zz k => LkOk c.D b k ∧ base b k = 0
  | .rd k => LkOk c.D b k
  | .wr k v => LkOk c.D b k ∧ v = BitVec.ofNat c.sw (base b k)
  | .uCount _ => 0 < b
  | .uRd _ => 0 < b
  | .uWr _ v => 0 < b ∧ v = BitVec.ofNat c.sw b
  | .uRel _ => b = 1
  | .cZz => 0 < b
  | _ => True

/-- The mutex as seen by a task at `p` with nesting depth `b`. -/
def Own (c : Cfg) (s : State c) (t : Nat) : Option Nat → Prop
  | none => s.owner ≠ self c t
  | some n => s.owner = self c t ∧ s.count = BitVec.ofNat c.sw n

structure Good (c : Cfg) (s : State c) (tr : List Ev) (t : Nat) : Prop where
  le : unlocks tr t ≤ locks tr t
  lt : depth tr t < 2 ^ c.sw
  own : Own c s t (hold (depth tr t) (s.pc t))
  tmp : Tmp c (depth tr t) (s.pc t)

structure Inv (c : Cfg) (s : State c) (tr : List Ev) : Prop where
  good : ∀ t, t < c.N → Good c s tr t
  zero : s.owner = nobody c → s.count = 0
  who : s.owner = nobody c ∨ ∃ t, t < c.N ∧ s.owner = self c t

theorem self_ne_nobody {c : Cfg} (hw : c.WF) {t : Nat} (ht : t < c.N) : self c t ≠ nobody c := by
  intro h
  have h1 := congrArg BitVec.toNat h
  have := hw.1
  simp only [self, nobody, BitVec.toNat_ofNat, BitVec.toNat_allOnes] at h1
  rw [Nat.mod_eq_of_lt (by omega)] at h1
  omega

theorem self_inj {c : Cfg} (hw : c.WF) {t u : Nat} (ht : t < c.N) (hu : u < c.N) (h : self c t = self c u) : t = u := by
  have h1 := congrArg BitVec.toNat h
  have := hw.1
  simp only [self, BitVec.toNat_ofNat] at h1
  rw [Nat.mod_eq_of_lt (by omega), Nat.mod_eq_of_lt (by omega)] at h1
  exact h1

theorem inv_init (c : Cfg) (hw : c.WF) : Inv c (init c) [] := by
  refine ⟨fun t ht => ⟨by simp [unlocks, locks], by simp [depth, locks, unlocks, Nat.two_pow_pos], ?_, by simp [init, Tmp]⟩, fun _ => rfl, Or.inl rfl⟩
  simp only [init, hold, depth, locks, unlocks, List.count_nil, owns?]
  exact (self_ne_nobody hw ht).symm

/-- Steps of other tasks do not disturb `u`. -/
theorem Good.frame {c : Cfg} (hw : c.WF) {s s' : State c} {tr evs : List Ev} {t u : Nat} (hg : Good c s tr u)
    (ht : t < c.N) (hu : u < c.N) (hne : u ≠ t) (hpc : s'.pc u = s.pc u) (hev : ∀ e ∈ evs, e.task = t)
    (h : (s'.owner = s.owner ∧ s'.count = s.count) ∨
      ((s.owner = nobody c ∨ s.owner = self c t) ∧ (s'.owner = nobody c ∨ s'.owner = self c t))) :
    Good c s' (tr ++ evs) u := by
  obtain ⟨h1, h2, h3, h4⟩ := hg
  have hd := depth_other tr hev hne
  refine ⟨by simp [locks_append, unlocks_append, locks_other hev hne, unlocks_other hev hne, h1], by rw [hd]; exact h2, ?_, by rw [hd, hpc]; exact h4⟩
  rw [hd, hpc]
  revert h3
  generalize hold (depth tr u) (s.pc u) = x
  intro h3
  have hnb := self_ne_nobody hw hu
  have hnt : self c u ≠ self c t := fun h => hne (self_inj hw hu ht h)
  cases x with
  | none =>
    simp only [Own] at h3 ⊢
    rcases h with h | h
    · rw [h.1]; exact h3
    · rcases h.2 with h | h <;> rw [h]
      · exact hnb.symm
      · exact hnt.symm
  | some n =>
    simp only [Own] at h3 ⊢
    rcases h with h | h
    · rw [h.1, h.2]; exact h3
    · exfalso
      rcases h.1 with h | h <;> rw [h3.1] at h
      · exact hnb h
      · exact hnt h

/-- All the events of a step are those of the task that makes it. -/
theorem step_task {c : Cfg} {s s' : State c} {t : Nat} {a : Cmd} {evs : List Ev}
    (h : step c s t a = some (s', evs)) : ∀ e ∈ evs, e.task = t := by
  obtain ⟨_, _, ⟨o, _, _, _, rfl⟩ | ⟨spur, _, _, h⟩⟩ := step_cases h
  · simp [Ev.task]
  · unfold access at h
    split at h <;> (try unfold failed at h) <;> (try unfold succeeded at h) <;> (try unfold unlocked at h) <;>
      (repeat' split at h) <;> cases h <;> simp [Ev.task]

/-- A step moves only the task that makes it. -/
theorem step_pc {c : Cfg} {s s' : State c} {t : Nat} {a : Cmd} {evs : List Ev}
    (h : step c s t a = some (s', evs)) : ∀ u, u ≠ t → s'.pc u = s.pc u := by
  obtain ⟨_, _, ⟨o, _, _, rfl, rfl⟩ | ⟨spur, _, _, h⟩⟩ := step_cases h
  · intro u hu; simp [upd_ne _ _ hu]
  · intro u hu
    unfold access at h
    split at h <;> (try unfold failed at h) <;> (try unfold succeeded at h) <;> (try unfold unlocked at h) <;>
      (repeat' split at h) <;> cases h <;> simp [upd_ne _ _ hu]

theorem ofNat_add_one {w : Nat} (b : Nat) : BitVec.ofNat w b + 1 = BitVec.ofNat w (b + 1) := by
  apply BitVec.eq_of_toNat_eq; simp [BitVec.toNat_add]

theorem ofNat_sub_one {w : Nat} {b : Nat} (h : 0 < b) : BitVec.ofNat w b - 1 = BitVec.ofNat w (b - 1) := by
  obtain ⟨n, rfl⟩ : ∃ n, b = n + 1 := ⟨b - 1, by omega⟩
  rw [← ofNat_add_one]; simp only [Nat.add_sub_cancel]; grind

theorem ofNat_eq_zero {w : Nat} {b : Nat} (h : b < 2 ^ w) : BitVec.ofNat w b = 0 ↔ b = 0 := by
  constructor
  · intro h1
    have := congrArg BitVec.toNat h1
    simpa [Nat.mod_eq_of_lt h] using this
  · rintro rfl; rfl

/-- The events that do not change the nesting depth. -/
theorem depth_quiet {tr evs : List Ev} {t : Nat} (h1 : locks evs t = 0) (h2 : unlocks evs t = 0) :
    depth (tr ++ evs) t = depth tr t ∧ locks (tr ++ evs) t = locks tr t ∧ unlocks (tr ++ evs) t = unlocks tr t := by
  simp [depth, locks_append, unlocks_append, h1, h2]

end Pico.Mtx
