import Verif.Ipc.QueueConc

/-!
# The queue under concurrency (C45)
-/

namespace Pico.QueueC

open Queue (Op Ans)
open Count (num num_upd num_upd_same num_le_of_imp)

variable {V : Type}

/-! ## Schedules -/

theorem exec_append {c : Cfg} {s s1 : State c V} {l1 l2 : List (Nat × Cmd V)} {tr1 : List (Ev V)}
    (h : exec c s l1 = some (s1, tr1)) :
    exec c s (l1 ++ l2) = (exec c s1 l2).map (fun r => (r.1, tr1 ++ r.2)) := by
  induction l1 generalizing s tr1 with
  | nil => cases h; cases he : exec c s1 l2 <;> simp [he]
  | cons x l ih =>
    obtain ⟨t, a⟩ := x
    simp only [exec, List.cons_append] at h ⊢
    cases hs : step c s t a with
    | none => simp [hs] at h
    | some r =>
      obtain ⟨s', evs⟩ := r
      simp only [hs] at h ⊢
      cases he : exec c s' l with
      | none => simp [he] at h
      | some r2 =>
        obtain ⟨s2, evs2⟩ := r2
        simp only [he] at h
        cases h
        rw [ih he]
        cases exec c s1 l2 <;> simp

theorem runs_induction {c : Cfg} {zero : V} {old : Nat → V} {P : List (Ev V) → State c V → Prop}
    (h0 : P [] (init c zero old))
    (hs : ∀ tr s t a s' evs, P tr s → step c s t a = some (s', evs) → P (tr ++ evs) s')
    {tr : List (Ev V)} {s : State c V} (h : Runs c zero old tr s) : P tr s := by
  obtain ⟨l, h⟩ := h
  suffices H : ∀ (l : List (Nat × Cmd V)) tr0 s0 tr s, P tr0 s0 → exec c s0 l = some (s, tr) → P (tr0 ++ tr) s from by
    simpa using H l [] _ tr s h0 h
  intro l
  induction l with
  | nil => intro tr0 s0 tr s hp h; cases h; simpa using hp
  | cons x l ih =>
    intro tr0 s0 tr s hp h
    obtain ⟨t, a⟩ := x
    simp only [exec] at h
    cases hst : step c s0 t a with
    | none => simp [hst] at h
    | some r =>
      obtain ⟨s', evs⟩ := r
      simp only [hst] at h
      cases he : exec c s' l with
      | none => simp [he] at h
      | some r2 =>
        obtain ⟨s2, evs2⟩ := r2
        simp only [he] at h
        cases h
        rw [← List.append_assoc]
        exact ih _ _ _ _ (hs _ _ _ _ _ _ hp hst) he

theorem isIdle_iff {sw : Nat} {p : PC sw V} : p.isIdle = true ↔ p = .idle := by cases p <;> simp [PC.isIdle]

theorem step_cases {c : Cfg} {s s' : State c V} {t : Nat} {a : Cmd V} {evs : List (Ev V)}
    (h : step c s t a = some (s', evs)) : t < c.N ∧ s.dead t = false ∧
    ((∃ o, a = .call o ∧ s.pc t = .idle ∧ s' = s.at t (.tas o c.D) ∧ evs = [.call t o]) ∨
     (∃ spur, a = .go spur ∧ s.pc t ≠ .idle ∧ access c s t spur = (s', evs))) := by
  unfold step at h
  split at h
  · rename_i h1
    refine ⟨h1.1, h1.2, ?_⟩
    split at h
    · rename_i o
      split at h
      · rename_i h2
        cases h
        exact Or.inl ⟨o, rfl, isIdle_iff.1 h2, rfl, rfl⟩
      · cases h
    · rename_i spur
      split at h
      · cases h
      · rename_i h2
        simp only [Option.some.injEq] at h
        exact Or.inr ⟨spur, rfl, fun h3 => h2 (isIdle_iff.2 h3), h⟩
  · cases h

@[simp] theorem at_pc {c : Cfg} (s : State c V) (t : Nat) (p : PC c.sw V) : (s.at t p).pc = upd s.pc t p := rfl
@[simp] theorem at_lock {c : Cfg} (s : State c V) (t : Nat) (p : PC c.sw V) : (s.at t p).lock = s.lock := rfl
@[simp] theorem at_r {c : Cfg} (s : State c V) (t : Nat) (p : PC c.sw V) : (s.at t p).r = s.r := rfl
@[simp] theorem at_w {c : Cfg} (s : State c V) (t : Nat) (p : PC c.sw V) : (s.at t p).w = s.w := rfl
@[simp] theorem at_i {c : Cfg} (s : State c V) (t : Nat) (p : PC c.sw V) : (s.at t p).i = s.i := rfl
@[simp] theorem die_pc {c : Cfg} (s : State c V) (t : Nat) : (s.die t).pc = s.pc := rfl
@[simp] theorem die_lock {c : Cfg} (s : State c V) (t : Nat) : (s.die t).lock = s.lock := rfl
@[simp] theorem die_r {c : Cfg} (s : State c V) (t : Nat) : (s.die t).r = s.r := rfl
@[simp] theorem die_w {c : Cfg} (s : State c V) (t : Nat) : (s.die t).w = s.w := rfl
@[simp] theorem die_i {c : Cfg} (s : State c V) (t : Nat) : (s.die t).i = s.i := rfl

theorem step_pc {c : Cfg} {s s' : State c V} {t : Nat} {a : Cmd V} {evs : List (Ev V)}
    (h : step c s t a = some (s', evs)) (u : Nat) (hu : u ≠ t) : s'.pc u = s.pc u := by
  obtain ⟨_, _, ⟨o, rfl, _, rfl, rfl⟩ | ⟨spur, rfl, _, h⟩⟩ := step_cases h
  · simp [upd_ne _ _ hu]
  · unfold access at h
    split at h <;> (repeat' split at h) <;> cases h <;> simp [State.at, State.die, upd_ne _ _ hu]

theorem step_task {c : Cfg} {s s' : State c V} {t : Nat} {a : Cmd V} {evs : List (Ev V)}
    (h : step c s t a = some (s', evs)) : ∀ e ∈ evs, e.task = t := by
  obtain ⟨_, _, ⟨o, rfl, _, rfl, rfl⟩ | ⟨spur, rfl, _, h⟩⟩ := step_cases h
  · simp [Ev.task]
  · unfold access at h
    split at h <;> (repeat' split at h) <;> cases h <;> simp [Ev.task]

/-! ## Which call a task is in -/

def opOf {sw : Nat} : PC sw V → Option (Op V)
  | .idle => none
  | .tas o _ | .zz o _ | .nxt o | .cmp o _ | .wr1 o _ | .wr2 o _ | .uRd o _ | .uWr o _ | .idx o | .acc o _ => some o

theorem pendStep_other {e : Ev V} {t u : Nat} (h : e.task = t) (hu : u ≠ t) (p : Option (Op V)) : pendStep u p e = p := by
  subst h
  cases e <;> simp [pendStep, Ev.task] at hu ⊢ <;> intro h1 <;> exact absurd h1.symm hu

theorem pend_runs {c : Cfg} {zero : V} {old : Nat → V} {s : State c V} {tr : List (Ev V)} (h : Runs c zero old tr s) :
    ∀ t, pending tr t = opOf (s.pc t) := by
  refine runs_induction (P := fun tr s => ∀ t, pending tr t = opOf (s.pc t)) (fun _ => rfl) ?_ h
  intro tr s t a s' evs hp hs u
  have happ : pending (tr ++ evs) u = evs.foldl (pendStep u) (pending tr u) := by simp [pending, List.foldl_append]
  by_cases hu : u = t
  · subst hu
    rw [happ, hp u]
    obtain ⟨_, _, ⟨o, _, _, rfl, rfl⟩ | ⟨spur, _, _, h⟩⟩ := step_cases hs
    · simp [pendStep, opOf]
    · unfold access at h
      split at h <;> (repeat' split at h) <;> cases h <;> simp_all [pendStep, opOf]
  · rw [step_pc hs u hu, happ, ← hp u]
    have hev := step_task hs
    clear happ hs
    generalize pending tr u = p
    induction evs generalizing p with
    | nil => rfl
    | cons e es ih =>
      rw [List.foldl_cons, ih (fun e' h' => hev e' (by simp [h'])), pendStep_other (hev e (by simp)) hu]

/-! ## Invariant: the indexes count the reservations -/

/-- The task owns the futex. -/
def inside {sw : Nat} : PC sw V → Bool
  | .nxt _ | .cmp _ _ | .wr1 _ _ | .wr2 _ _ | .uRd _ _ | .uWr _ _ => true
  | _ => false

/-- The task advanced the read index. -/
def popped {sw : Nat} : PC sw V → Bool
  | .wr2 .read _ | .uRd .read true | .uWr .read true | .idx .read | .acc .read _ => true
  | _ => false

/-- The task advanced the write index. -/
def pushed {sw : Nat} : PC sw V → Bool
  | .uRd (.write _) true | .uWr (.write _) true | .idx (.write _) | .acc (.write _) _ => true
  | _ => false

/-- What the local variables hold, after `P` pops and `W` pushes. -/
def Loc (c : Cfg) (P W : Nat) : PC c.sw V → Prop
  | .tas _ l | .zz _ l => 0 ≤ l
  | .cmp .read n => n = Ring.ix c.sw c.cnt (P + c.cnt)
  | .cmp (.write _) n => n = Ring.ix c.sw c.cnt (W + 1)
  | .wr1 .read n => n = Ring.ix c.sw c.cnt (P + c.cnt) ∧ P < W
  | .wr1 (.write _) n => n = Ring.ix c.sw c.cnt (W + 1) ∧ W + 1 ≤ P + (c.cnt - 2)
  | .wr2 .read n => n.toNat < c.cnt
  | .wr2 (.write _) n => n = Ring.ix c.sw c.cnt (W + 1) ∧ W + 1 ≤ P + (c.cnt - 2)
  | .acc _ j => j.toNat < c.cnt
  | _ => True

structure Inv (c : Cfg) (s : State c V) (tr : List (Ev V)) (P W : Nat) : Prop where
  r : s.r = Ring.ix c.sw c.cnt (P + c.cnt - 1)
  w : s.w = Ring.ix c.sw c.cnt W
  le : P ≤ W
  cap : W ≤ P + (c.cnt - 2)
  pops : P = reads tr + num c.N popped s.pc
  pushes : W = writes tr + num c.N pushed s.pc
  i : s.i.toNat < c.cnt
  lock : ∀ t, t < c.N → inside (s.pc t) = true → s.lock = true
  one : ∀ t u, t < c.N → u < c.N → inside (s.pc t) = true → inside (s.pc u) = true → t = u
  loc : ∀ t, t < c.N → Loc c P W (s.pc t)

theorem mask_eq {c : Cfg} (hw : c.WF) : mask c = BitVec.ofNat c.sw (c.cnt - 1) := by
  obtain ⟨h1, k, h2⟩ := hw
  have hpos : 0 < c.cnt := by rw [h2]; exact Nat.two_pow_pos k
  apply BitVec.eq_of_toNat_eq
  unfold mask
  rw [BitVec.toNat_sub, show (1 : BitVec c.sw) = BitVec.ofNat c.sw 1 from rfl, BitVec.toNat_ofNat, BitVec.toNat_ofNat, BitVec.toNat_ofNat,
    Nat.mod_eq_of_lt h1, Nat.mod_eq_of_lt (by omega : 1 < 2 ^ c.sw), Nat.mod_eq_of_lt (by omega : c.cnt - 1 < 2 ^ c.sw)]
  rw [show 2 ^ c.sw - 1 + c.cnt = 2 ^ c.sw + (c.cnt - 1) by omega, Nat.add_mod_left, Nat.mod_eq_of_lt (by omega)]

theorem cnt_pos {c : Cfg} (hw : c.WF) : 0 < c.cnt := by
  obtain ⟨_, k, h⟩ := hw; rw [h]; exact Nat.two_pow_pos k

theorem ix_next {c : Cfg} (hw : c.WF) (A : Nat) : (Ring.ix c.sw c.cnt A + 1) &&& mask c = Ring.ix c.sw c.cnt (A + 1) := by
  rw [mask_eq hw]
  obtain ⟨h1, k, h2⟩ := hw
  rw [h2]
  exact Ring.ix_next (Nat.le_of_lt ((Nat.pow_lt_pow_iff_right (by omega)).1 (h2 ▸ h1))) A

theorem ix_inj {c : Cfg} (hw : c.WF) {A B : Nat} : Ring.ix c.sw c.cnt A = Ring.ix c.sw c.cnt B ↔ A % c.cnt = B % c.cnt := by
  obtain ⟨h1, k, h2⟩ := hw
  rw [h2]
  exact Ring.ix_inj (Nat.le_of_lt ((Nat.pow_lt_pow_iff_right (by omega)).1 (h2 ▸ h1)))

theorem ix_lt {c : Cfg} (hw : c.WF) (A : Nat) : (Ring.ix c.sw c.cnt A).toNat < c.cnt := by
  have hpos := cnt_pos hw
  obtain ⟨h1, k, h2⟩ := hw
  rw [h2, Ring.ix_toNat (Nat.le_of_lt ((Nat.pow_lt_pow_iff_right (by omega)).1 (h2 ▸ h1)))]
  exact Nat.mod_lt _ (by omega)

theorem inv_init {c : Cfg} (hw : c.WF) (zero : V) (old : Nat → V) : Inv c (init c zero old) [] 0 0 := by
  have hpos := cnt_pos hw
  have h0 : ∀ p : PC c.sw V → Bool, p .idle = false → num c.N p (init c zero old).pc = 0 := by
    intro p hp
    unfold num; rw [List.countP_eq_zero]; simp [init, hp]
  refine ⟨?_, by simp [init, Ring.ix], Nat.le_refl _, by omega, by simp [reads, h0 popped rfl], by simp [writes, h0 pushed rfl], ?_, ?_, ?_, ?_⟩
  · simp only [init, mask_eq hw, Ring.ix]
    rw [Nat.mod_eq_of_lt (by omega)]; congr 1; omega
  · simp [init, hpos]
  · simp [init, inside]
  · simp [init, inside]
  · simp [init, Loc]

/-- What the step of one task must guarantee. -/
structure StepOk (c : Cfg) (s s' : State c V) (tr evs : List (Ev V)) (t P W P' W' : Nat) : Prop where
  r : s'.r = Ring.ix c.sw c.cnt (P' + c.cnt - 1)
  w : s'.w = Ring.ix c.sw c.cnt W'
  le : P' ≤ W'
  cap : W' ≤ P' + (c.cnt - 2)
  pops : P' = reads (tr ++ evs) + num c.N popped s'.pc
  pushes : W' = writes (tr ++ evs) + num c.N pushed s'.pc
  i : s'.i.toNat < c.cnt
  loc : Loc c P' W' (s'.pc t)
  own : (P' = P ∧ W' = W) ∨ inside (s.pc t) = true
  inl : inside (s'.pc t) = true → s'.lock = true ∧ (inside (s.pc t) = true ∨ s.lock = false)
  lck : s.lock = true → s'.lock = true ∨ inside (s.pc t) = true
  lckSame : s'.lock = s.lock ∨ inside (s.pc t) = true ∨ s.lock = false

theorem reads_append (a b : List (Ev V)) : reads (a ++ b) = reads a + reads b := by simp [reads]
theorem writes_append (a b : List (Ev V)) : writes (a ++ b) = writes a + writes b := by simp [writes]

/-- Steps that do not move the indexes. -/
theorem StepOk.quiet {c : Cfg} {s s' : State c V} {tr evs : List (Ev V)} {t P W : Nat} (hi : Inv c s tr P W) (ht : t < c.N)
    (p : PC c.sw V) (hpc : s'.pc = upd s.pc t p) (hr : s'.r = s.r) (hw : s'.w = s.w) (hii : s'.i.toNat < c.cnt)
    (h1 : reads evs + (if popped p then 1 else 0) = if popped (s.pc t) then 1 else 0)
    (h2 : writes evs + (if pushed p then 1 else 0) = if pushed (s.pc t) then 1 else 0)
    (hl : Loc c P W p)
    (inl : inside p = true → s'.lock = true ∧ (inside (s.pc t) = true ∨ s.lock = false))
    (lck : s.lock = true → s'.lock = true ∨ inside (s.pc t) = true)
    (lckSame : s'.lock = s.lock ∨ inside (s.pc t) = true ∨ s.lock = false) : StepOk c s s' tr evs t P W P W := by
  have n1 := num_upd c.N popped s.pc ht p
  have n2 := num_upd c.N pushed s.pc ht p
  have h3 := hi.pops
  have h4 := hi.pushes
  refine ⟨by rw [hr]; exact hi.r, by rw [hw]; exact hi.w, hi.le, hi.cap, ?_, ?_, hii, by rw [hpc, upd_same]; exact hl, Or.inl ⟨rfl, rfl⟩,
    by rw [hpc, upd_same]; exact inl, lck, lckSame⟩
  · rw [reads_append, hpc]; omega
  · rw [writes_append, hpc]; omega

theorem StepOk.dead {c : Cfg} {s s' : State c V} {tr evs : List (Ev V)} {t P W : Nat} (hi : Inv c s tr P W) (ht : t < c.N)
    (hpc : s'.pc = s.pc) (hr : s'.r = s.r) (hw : s'.w = s.w) (hii : s'.i = s.i) (hlock : s'.lock = s.lock)
    (h1 : reads evs = 0) (h2 : writes evs = 0) : StepOk c s s' tr evs t P W P W := by
  have h3 := hi.pops
  have h4 := hi.pushes
  refine ⟨by rw [hr]; exact hi.r, by rw [hw]; exact hi.w, hi.le, hi.cap, ?_, ?_, by rw [hii]; exact hi.i, by rw [hpc]; exact hi.loc t ht,
    Or.inl ⟨rfl, rfl⟩, ?_, ?_, Or.inl hlock⟩
  · rw [reads_append, hpc]; omega
  · rw [writes_append, hpc]; omega
  · rw [hpc, hlock]; exact fun h => ⟨hi.lock t ht h, Or.inl h⟩
  · rw [hlock]; exact fun h => Or.inl h

theorem stepOk {c : Cfg} (hw : c.WF) {s s' : State c V} {tr evs : List (Ev V)} {t P W : Nat} {a : Cmd V} (hi : Inv c s tr P W)
    (hs : step c s t a = some (s', evs)) : ∃ P' W', StepOk c s s' tr evs t P W P' W' := by
  have hpos := cnt_pos hw
  obtain ⟨ht, hd, ⟨o, rfl, hp, rfl, rfl⟩ | ⟨spur, rfl, hp, h⟩⟩ := step_cases hs
  · refine ⟨P, W, StepOk.quiet hi ht (.tas o c.D) rfl rfl rfl hi.i ?_ ?_ ?_ ?_ ?_ ?_⟩
    · rw [hp]; simp [reads, popped]
    · rw [hp]; simp [writes, pushed]
    · simp [Loc]
    · simp [inside]
    · exact fun h => Or.inl h
    · exact Or.inl rfl
  · have hloc := hi.loc t ht
    have hlk := hi.lock t ht
    unfold access at h
    cases hpc : s.pc t with
    | idle => exact absurd hpc hp
    | tas o l =>
      rw [hpc] at hloc
      simp only [Loc] at hloc
      simp only [hpc] at h
      (repeat' split at h) <;> cases h
      · rename_i h1 _
        exact ⟨P, W, StepOk.quiet hi ht (.nxt o) rfl rfl rfl hi.i (by rw [hpc]; simp [reads, popped]) (by rw [hpc]; simp [writes, pushed])
          (by simp [Loc]) (fun _ => ⟨rfl, Or.inr h1.1⟩) (fun h => Or.inl rfl) (Or.inr (Or.inr h1.1))⟩
      · omega
      · exact ⟨P, W, StepOk.quiet hi ht (.zz o (l - 1)) rfl rfl rfl hi.i (by rw [hpc]; simp [reads, popped]) (by rw [hpc]; simp [writes, pushed])
          (by simp only [Loc]; omega) (by simp [inside]) (fun h => Or.inl h) (Or.inl rfl)⟩
      · exact ⟨P, W, StepOk.dead hi ht rfl rfl rfl rfl rfl (by simp [reads]) (by simp [writes])⟩
    | zz o l =>
      rw [hpc] at hloc
      simp only [Loc] at hloc
      simp only [hpc] at h
      cases h
      exact ⟨P, W, StepOk.quiet hi ht (.tas o l) rfl rfl rfl hi.i (by rw [hpc]; simp [reads, popped]) (by rw [hpc]; simp [writes, pushed])
        (by simpa only [Loc] using hloc) (by simp [inside]) (fun h => Or.inl h) (Or.inl rfl)⟩
    | nxt o =>
      rw [hpc] at hlk
      cases o with
      | read =>
        simp only [hpc] at h
        cases h
        exact ⟨P, W, StepOk.quiet hi ht _ rfl rfl rfl hi.i (by rw [hpc]; simp [reads, popped]) (by rw [hpc]; simp [writes, pushed])
          (by simp only [Loc]; rw [hi.r, ix_next hw]; congr 1; omega) (fun _ => ⟨hlk rfl, Or.inl (by rw [hpc]; rfl)⟩)
          (fun h => Or.inl h) (Or.inl rfl)⟩
      | write v =>
        simp only [hpc] at h
        cases h
        exact ⟨P, W, StepOk.quiet hi ht _ rfl rfl rfl hi.i (by rw [hpc]; simp [reads, popped]) (by rw [hpc]; simp [writes, pushed])
          (by simp only [Loc]; rw [hi.w, ix_next hw]) (fun _ => ⟨hlk rfl, Or.inl (by rw [hpc]; rfl)⟩)
          (fun h => Or.inl h) (Or.inl rfl)⟩
    | cmp o n =>
      rw [hpc] at hlk hloc
      cases o with
      | read =>
        simp only [hpc] at h
        simp only [Loc] at hloc
        have hem : n = s.w ↔ W = P := by
          rw [hloc, hi.w, ix_inj hw, Ring.empty_iff hi.le (by have := hi.cap; omega)]
        have hle := hi.le
        (repeat' split at h) <;> cases h
        · exact ⟨P, W, StepOk.quiet hi ht _ rfl rfl rfl hi.i (by rw [hpc]; simp [reads, popped]) (by rw [hpc]; simp [writes, pushed])
            (by simp [Loc]) (fun _ => ⟨hlk rfl, Or.inl (by rw [hpc]; rfl)⟩) (fun h => Or.inl h) (Or.inl rfl)⟩
        · rename_i hne
          rw [hem] at hne
          exact ⟨P, W, StepOk.quiet hi ht _ rfl rfl rfl hi.i (by rw [hpc]; simp [reads, popped]) (by rw [hpc]; simp [writes, pushed])
            (by simp only [Loc]; exact ⟨hloc, by omega⟩) (fun _ => ⟨hlk rfl, Or.inl (by rw [hpc]; rfl)⟩) (fun h => Or.inl h) (Or.inl rfl)⟩
      | write v =>
        simp only [hpc] at h
        simp only [Loc] at hloc
        have hfull : n = s.r ↔ ¬ W - P < c.cnt - 2 := by
          rw [hloc, hi.r, ix_inj hw, Ring.full_iff hpos hi.le hi.cap]
        have hle := hi.le
        (repeat' split at h) <;> cases h
        · exact ⟨P, W, StepOk.quiet hi ht _ rfl rfl rfl hi.i (by rw [hpc]; simp [reads, popped]) (by rw [hpc]; simp [writes, pushed])
            (by simp [Loc]) (fun _ => ⟨hlk rfl, Or.inl (by rw [hpc]; rfl)⟩) (fun h => Or.inl h) (Or.inl rfl)⟩
        · rename_i hne
          rw [hfull] at hne
          exact ⟨P, W, StepOk.quiet hi ht _ rfl rfl rfl hi.i (by rw [hpc]; simp [reads, popped]) (by rw [hpc]; simp [writes, pushed])
            (by simp only [Loc]; exact ⟨hloc, by omega⟩) (fun _ => ⟨hlk rfl, Or.inl (by rw [hpc]; rfl)⟩) (fun h => Or.inl h) (Or.inl rfl)⟩
    | wr1 o n =>
      rw [hpc] at hlk hloc
      cases o with
      | read =>
        simp only [hpc] at h
        simp only [Loc] at hloc
        cases h
        obtain ⟨hn, hlt⟩ := hloc
        have n1 := num_upd c.N popped s.pc ht (.wr2 .read n)
        have n2 := num_upd c.N pushed s.pc ht (.wr2 .read n)
        rw [hpc] at n1 n2
        simp [popped, pushed] at n1 n2
        have h3 := hi.pops
        have h4 := hi.pushes
        have h5 := hi.cap
        refine ⟨P + 1, W, ⟨?_, hi.w, hlt, by omega, ?_, ?_, hi.i, ?_, Or.inr (by rw [hpc]; rfl), fun _ => ⟨hlk rfl, Or.inl (by rw [hpc]; rfl)⟩,
          fun h => Or.inl h, Or.inl rfl⟩⟩
        · show n = _
          rw [hn]; congr 1; omega
        · rw [reads_append]; simp only [reads, at_pc, List.countP_nil]; simp only [reads] at h3; omega
        · rw [writes_append]; simp only [writes, at_pc, List.countP_nil]; simp only [writes] at h4; omega
        · simp only [at_pc, upd_same, Loc, hn]; exact ix_lt hw _
      | write v =>
        simp only [hpc] at h
        simp only [Loc] at hloc
        cases h
        exact ⟨P, W, StepOk.quiet hi ht _ rfl rfl rfl (by show s.w.toNat < _; rw [hi.w]; exact ix_lt hw _) (by rw [hpc]; simp [reads, popped])
          (by rw [hpc]; simp [writes, pushed])
          (by simp only [Loc]; exact hloc) (fun _ => ⟨hlk rfl, Or.inl (by rw [hpc]; rfl)⟩) (fun h => Or.inl h) (Or.inl rfl)⟩
    | wr2 o n =>
      rw [hpc] at hlk hloc
      cases o with
      | read =>
        simp only [hpc] at h
        simp only [Loc] at hloc
        cases h
        exact ⟨P, W, StepOk.quiet hi ht _ rfl rfl rfl hloc (by rw [hpc]; simp [reads, popped])
          (by rw [hpc]; simp [writes, pushed])
          (by simp only [Loc]) (fun _ => ⟨hlk rfl, Or.inl (by rw [hpc]; rfl)⟩) (fun h => Or.inl h) (Or.inl rfl)⟩
      | write v =>
        simp only [hpc] at h
        simp only [Loc] at hloc
        cases h
        obtain ⟨hn, hlt⟩ := hloc
        have n1 := num_upd c.N popped s.pc ht (.uRd (.write v) true)
        have n2 := num_upd c.N pushed s.pc ht (.uRd (.write v) true)
        rw [hpc] at n1 n2
        simp [popped, pushed] at n1 n2
        have h3 := hi.pops
        have h4 := hi.pushes
        have h5 := hi.le
        refine ⟨P, W + 1, ⟨hi.r, hn, by omega, by omega, ?_, ?_, hi.i, ?_, Or.inr (by rw [hpc]; rfl), fun _ => ⟨hlk rfl, Or.inl (by rw [hpc]; rfl)⟩,
          fun h => Or.inl h, Or.inl rfl⟩⟩
        · rw [reads_append]; simp only [reads, at_pc, List.countP_nil]; simp only [reads] at h3; omega
        · rw [writes_append]; simp only [writes, at_pc, List.countP_nil]; simp only [writes] at h4; omega
        · simp only [at_pc, upd_same, Loc]
    | uRd o ok =>
      rw [hpc] at hlk
      simp only [hpc, hlk rfl, if_true] at h
      cases h
      exact ⟨P, W, StepOk.quiet hi ht (.uWr o ok) rfl rfl rfl hi.i (by rw [hpc]; cases o <;> cases ok <;> simp [reads, popped])
        (by rw [hpc]; cases o <;> cases ok <;> simp [writes, pushed])
        (by simp only [Loc]) (fun _ => ⟨hlk rfl, Or.inl (by rw [hpc]; rfl)⟩) (fun h => Or.inl h) (Or.inl rfl)⟩
    | uWr o ok =>
      simp only [hpc] at h
      cases ok with
      | true =>
        simp only [if_true] at h
        cases h
        exact ⟨P, W, StepOk.quiet hi ht (.idx o) rfl rfl rfl hi.i (by rw [hpc]; cases o <;> simp [reads, popped])
          (by rw [hpc]; cases o <;> simp [writes, pushed])
          (by simp only [Loc]) (by simp [inside]) (fun h => Or.inr (by rw [hpc]; rfl)) (Or.inr (Or.inl (by rw [hpc]; rfl)))⟩
      | false =>
        simp only [Bool.false_eq_true, if_false] at h
        cases h
        exact ⟨P, W, StepOk.quiet hi ht .idle rfl rfl rfl hi.i (by rw [hpc]; cases o <;> simp [reads, popped, eagain])
          (by rw [hpc]; cases o <;> simp [writes, pushed, eagain])
          (by simp only [Loc]) (by simp [inside]) (fun h => Or.inr (by rw [hpc]; rfl)) (Or.inr (Or.inl (by rw [hpc]; rfl)))⟩
    | idx o =>
      simp only [hpc] at h
      cases h
      exact ⟨P, W, StepOk.quiet hi ht (.acc o s.i) rfl rfl rfl hi.i (by rw [hpc]; cases o <;> simp [reads, popped])
        (by rw [hpc]; cases o <;> simp [writes, pushed])
        (by simp only [Loc]; exact hi.i) (by simp [inside]) (fun h => Or.inl h) (Or.inl rfl)⟩
    | acc o j =>
      rw [hpc] at hloc
      simp only [Loc] at hloc
      cases o with
      | read =>
        simp only [hpc] at h
        simp only [if_pos hloc] at h
        cases h
        exact ⟨P, W, StepOk.quiet hi ht .idle rfl rfl rfl hi.i (by rw [hpc]; simp [reads, popped])
          (by rw [hpc]; simp [writes, pushed])
          (by simp only [Loc]) (by simp [inside]) (fun h => Or.inl h) (Or.inl rfl)⟩
      | write v =>
        simp only [hpc] at h
        simp only [if_pos hloc] at h
        cases h
        exact ⟨P, W, StepOk.quiet hi ht .idle rfl rfl rfl hi.i (by rw [hpc]; simp [reads, popped])
          (by rw [hpc]; simp [writes, pushed])
          (by simp only [Loc]) (by simp [inside]) (fun h => Or.inl h) (Or.inl rfl)⟩

theorem Loc.frame {c : Cfg} {P W P' W' : Nat} {p : PC c.sw V} (h : inside p = false) (hl : Loc c P W p) : Loc c P' W' p := by
  cases p <;> simp_all [inside, Loc]

theorem inv_runs {c : Cfg} (hw : c.WF) {zero : V} {old : Nat → V} {s : State c V} {tr : List (Ev V)} (h : Runs c zero old tr s) :
    ∃ P W, Inv c s tr P W := by
  refine runs_induction (P := fun tr s => ∃ P W, Inv c s tr P W) ⟨0, 0, inv_init hw zero old⟩ ?_ h
  rintro tr s t a s' evs ⟨P, W, hi⟩ hs
  obtain ⟨P', W', ok⟩ := stepOk hw hi hs
  have ht := (step_cases hs).1
  have hout : ∀ u, u < c.N → u ≠ t → inside (s.pc t) = true → inside (s.pc u) = false := by
    intro u hu hut hin
    cases hq : inside (s.pc u) with
    | false => rfl
    | true => exact absurd (hi.one u t hu ht hq hin) hut
  have hoth : ∀ u, u < c.N → u ≠ t → inside (s.pc u) = true → inside (s.pc t) = false := by
    intro u hu hut hin
    cases hq : inside (s.pc t) with
    | false => rfl
    | true => exact absurd (hi.one u t hu ht hin hq) hut
  refine ⟨P', W', ⟨ok.r, ok.w, ok.le, ok.cap, ok.pops, ok.pushes, ok.i, ?_, ?_, ?_⟩⟩
  · intro u hu hin
    by_cases hut : u = t
    · subst hut; exact (ok.inl hin).1
    · rw [step_pc hs u hut] at hin
      have h1 := hoth u hu hut hin
      rcases ok.lck (hi.lock u hu hin) with h2 | h2
      · exact h2
      · rw [h1] at h2; cases h2
  · intro u v hu hv hinu hinv
    have key : ∀ u, u < c.N → u ≠ t → inside (s'.pc u) = true → inside (s'.pc t) = true → False := by
      intro u hu hut h1 h2
      rw [step_pc hs u hut] at h1
      rcases (ok.inl h2).2 with h3 | h3
      · have := hoth u hu hut h1; rw [h3] at this; cases this
      · have := hi.lock u hu h1; rw [h3] at this; cases this
    by_cases hut : u = t
    · by_cases hvt : v = t
      · rw [hut, hvt]
      · subst hut; exact (key v hv hvt hinv hinu).elim
    · by_cases hvt : v = t
      · subst hvt; exact (key u hu hut hinu hinv).elim
      · rw [step_pc hs u hut] at hinu
        rw [step_pc hs v hvt] at hinv
        exact hi.one u v hu hv hinu hinv
  · intro u hu
    by_cases hut : u = t
    · subst hut; exact ok.loc
    · rw [step_pc hs u hut]
      rcases ok.own with ⟨h1, h2⟩ | h1
      · rw [h1, h2]; exact hi.loc u hu
      · exact Loc.frame (hout u hu hut h1) (hi.loc u hu)

/-! ## C45 -/

/-- C45a: whatever the interleaving of any number of readers and writers, at most as many reads succeed as writes succeeded or are under way. -/
theorem queue_conc_no_underflow {c : Cfg} (hw : c.WF) {zero : V} {old : Nat → V} {s : State c V} {tr : List (Ev V)}
    (h : Runs c zero old tr s) : reads tr ≤ writes tr + writing c.N tr := by
  obtain ⟨P, W, hi⟩ := inv_runs hw h
  have h1 := hi.pops
  have h2 := hi.pushes
  have h3 := hi.le
  have h4 : num c.N pushed s.pc ≤ writing c.N tr := by
    unfold writing num
    apply List.countP_mono_left
    intro t _ hp
    rw [pend_runs h t]
    revert hp
    cases s.pc t with
    | uRd o ok | uWr o ok => cases o <;> cases ok <;> simp [pushed, opOf]
    | idx o => cases o <;> simp [pushed, opOf]
    | acc o _ => cases o <;> simp [pushed, opOf]
    | _ => simp [pushed, opOf]
  omega

/-- C45b: whatever the interleaving, the successful writes never exceed the successful reads (and those under way) by more than `count - 2`. -/
theorem queue_conc_no_overflow {c : Cfg} (hw : c.WF) {zero : V} {old : Nat → V} {s : State c V} {tr : List (Ev V)}
    (h : Runs c zero old tr s) : writes tr ≤ reads tr + reading c.N tr + (c.cnt - 2) := by
  obtain ⟨P, W, hi⟩ := inv_runs hw h
  have h1 := hi.pops
  have h2 := hi.pushes
  have h3 := hi.cap
  have h4 : num c.N popped s.pc ≤ reading c.N tr := by
    unfold reading num
    apply List.countP_mono_left
    intro t _ hp
    rw [pend_runs h t]
    revert hp
    cases s.pc t with
    | uRd o ok | uWr o ok => cases o <;> cases ok <;> simp [popped, opOf]
    | idx o => cases o <;> simp [popped, opOf]
    | acc o _ => cases o <;> simp [popped, opOf]
    | wr2 o _ => cases o <;> simp [popped, opOf]
    | _ => simp [popped, opOf]
  omega

/-- C45c: whatever the interleaving, no access leaves the array, and a task only stalls when it did not get the lock. -/
theorem queue_conc_safe {c : Cfg} (hw : c.WF) {zero : V} {old : Nat → V} {s s' : State c V} {tr evs : List (Ev V)} {t : Nat} {a : Cmd V}
    (h : Runs c zero old tr s) (hs : step c s t a = some (s', evs)) :
    Ev.oob t ∉ evs ∧ (Ev.stall t ∈ evs → evs = [.attempt t false, .stall t]) := by
  obtain ⟨P, W, hi⟩ := inv_runs hw h
  obtain ⟨ht, hd, ⟨o, rfl, hp, rfl, rfl⟩ | ⟨spur, rfl, hp, h'⟩⟩ := step_cases hs
  · simp
  · have hloc := hi.loc t ht
    have hlk := hi.lock t ht
    unfold access at h'
    cases hpc : s.pc t with
    | acc o j =>
      rw [hpc] at hloc
      simp only [Loc] at hloc
      cases o with
      | read => simp only [hpc] at h'; simp only [if_pos hloc] at h'; cases h'; simp
      | write v => simp only [hpc] at h'; simp only [if_pos hloc] at h'; cases h'; simp
    | uRd o ok =>
      rw [hpc] at hlk
      simp only [hpc, hlk rfl, if_true] at h'
      cases h'; simp
    | tas o l =>
      rw [hpc] at hloc
      simp only [Loc] at hloc
      simp only [hpc] at h'
      (repeat' split at h') <;> cases h' <;> simp_all
    | nxt o | cmp o n | wr1 o n | wr2 o n =>
      cases o <;> simp only [hpc] at h' <;> (repeat' split at h') <;> cases h' <;> simp
    | _ =>
      simp only [hpc] at h'
      (repeat' split at h') <;> cases h' <;> simp

end Pico.QueueC
