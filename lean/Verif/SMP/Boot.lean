import Verif.SMP.Step2

/-! Helper lemmas on `picoRTOS_add_task` and `picoRTOS_start`. -/

namespace Pico.SMP

open Pico.Sched (Desc Call Out Goes range_split)

/-- slot contents after a successful `picoRTOS_add_task` -/
def addedTask (c : Cfg) (a : Add) : Task c.tw :=
  { taskCoreInit c with
    state := .ready
    sp := c.prep a.desc.stack a.desc.stackCount a.desc.fn a.desc.priv
    mask := a.mask
    bottom := a.desc.stack
    top := a.desc.stack + a.desc.stackCount
    count := a.desc.stackCount
    prio := a.prio }

/-- table after adding `adds` -/
def addedTable (c : Cfg) (adds : List Add) (q : Nat) : Task c.tw :=
  match adds[q]? with
  | some a => addedTask c a
  | none => (init c).task q

/-- state after adding `adds` -/
def addedCore (c : Cfg) (adds : List Add) : Core c.tw :=
  { init c with pidCount := adds.length, task := addedTable c adds }

/-- what `picoRTOS_SMP_add_task` accepts -/
def Legal (c : Cfg) (a : Add) : Prop := a.prio < c.N ∧ a.mask ≠ 0 ∧ a.mask < 2 ^ c.K

instance (c : Cfg) (a : Add) : Decidable (Legal c a) := by unfold Legal; infer_instance

theorem maskMax {c : Cfg} (hc : c.WF) : 2 ^ c.K % 2 ^ c.mw = 2 ^ c.K :=
  Nat.mod_eq_of_lt (Nat.pow_lt_pow_right (by omega) hc.mask)

theorem addTask_added {c : Cfg} (hc : c.WF) (adds : List Add) (a : Add)
    (h1 : Legal c a) (h2 : adds.length < c.N) :
    addTask c (addedCore c adds) a = .ok (addedCore c (adds ++ [a])) := by
  have hslot : addedTable c adds adds.length = taskCoreInit c := by
    have : adds[adds.length]? = none := by simp
    have h3 : (init c).task adds.length = taskCoreInit c := by
      simp only [init]; rw [if_neg (by omega)]
    unfold addedTable; rw [this]; exact h3
  unfold addTask
  have e1 : (addedCore c adds).pidCount = adds.length := rfl
  have e2 : ((addedCore c adds).task adds.length).state = .empty := by
    show (addedTable c adds adds.length).state = _; rw [hslot]; rfl
  simp only [maskMax hc, e1, e2, h1.1, h1.2.1, h1.2.2, h2, decide_true, assertFatal_true, Res.ok_bind, ne_eq, not_false_eq_true]
  have e3 : (adds.length + 1) % 2 ^ c.pw = (adds ++ [a]).length := by
    simp; apply Nat.mod_eq_of_lt; have := hc.fits; omega
  rw [e3]
  show Res.ok _ = Res.ok _
  congr 1
  unfold addedCore Core.setTask
  simp only []
  congr 1
  funext q
  by_cases hq : q = adds.length
  · subst hq
    rw [upd_same]
    have hg : (adds ++ [a])[adds.length]? = some a := by simp
    have hr : addedTable c (adds ++ [a]) adds.length = addedTask c a := by
      unfold addedTable; rw [hg]
    rw [hr, hslot]; rfl
  · rw [upd_ne _ _ hq]
    show addedTable c adds q = addedTable c (adds ++ [a]) q
    unfold addedTable
    have hg : (adds ++ [a])[q]? = adds[q]? := by
      rcases Nat.lt_or_ge q adds.length with h | h
      · rw [List.getElem?_append_left h]
      · have : adds.length + 1 ≤ q := by omega
        rw [List.getElem?_eq_none (by simpa using this), List.getElem?_eq_none (by omega)]
    rw [hg]

theorem addedCore_nil (c : Cfg) : addedCore c [] = init c := rfl

theorem addTask_fatal {c : Cfg} (hc : c.WF) (adds : List Add) (a : Add)
    (h : ¬ (Legal c a ∧ adds.length < c.N)) :
    addTask c (addedCore c adds) a = .fatal := by
  unfold addTask
  have e1 : (addedCore c adds).pidCount = adds.length := rfl
  rw [e1, maskMax hc]
  by_cases h0 : a.mask ≠ 0
  · by_cases h3 : a.mask < 2 ^ c.K
    · by_cases h1 : a.prio < c.N
      · have h2 : ¬ adds.length < c.N := fun h2 => h ⟨⟨h1, h0, h3⟩, h2⟩
        simp [h0, h3, h1, h2]
      · simp [h0, h3, h1]
    · simp [h0, h3]
  · simp [h0]

theorem addAll_added {c : Cfg} (hc : c.WF) : ∀ (r adds : List Add),
    addAll c (addedCore c adds) r =
      if (∀ a ∈ r, Legal c a) ∧ (adds.length + r.length ≤ c.N ∨ r = []) then .ok (addedCore c (adds ++ r)) else .fatal := by
  intro r
  induction r with
  | nil => intro adds; simp [addAll]
  | cons a r ih =>
    intro adds
    unfold addAll
    by_cases h : Legal c a ∧ adds.length < c.N
    · rw [addTask_added hc adds a h.1 h.2]
      simp only [Res.ok_bind]
      rw [ih]
      have hiff : ((∀ a ∈ r, Legal c a) ∧ ((adds ++ [a]).length + r.length ≤ c.N ∨ r = [])) ↔
          ((∀ b ∈ a :: r, Legal c b) ∧ (adds.length + (a :: r).length ≤ c.N ∨ a :: r = [])) := by
        simp only [List.mem_cons, forall_eq_or_imp, List.length_append, List.length_cons, List.length_nil,
          List.cons_ne_nil, or_false]
        constructor
        · rintro ⟨a1, a2⟩
          refine ⟨⟨h.1, a1⟩, ?_⟩
          rcases a2 with a2 | a2
          · omega
          · subst a2; simp; omega
        · rintro ⟨⟨_, a1⟩, a2⟩
          exact ⟨a1, .inl (by omega)⟩
      by_cases hcond : (∀ a ∈ r, Legal c a) ∧ ((adds ++ [a]).length + r.length ≤ c.N ∨ r = [])
      · rw [if_pos hcond, if_pos (hiff.1 hcond)]; simp
      · rw [if_neg hcond, if_neg (fun h => hcond (hiff.2 h))]
    · rw [addTask_fatal hc adds a h]
      simp only [Res.fatal_bind]
      rw [if_neg]
      rintro ⟨a1, a2⟩
      apply h
      refine ⟨a1 a (by simp), ?_⟩
      rcases a2 with a2 | a2
      · simp at a2; omega
      · simp at a2

theorem addAll_iff {c : Cfg} (hc : c.WF) (adds : List Add) :
    addAll c (init c) adds =
      if (∀ a ∈ adds, Legal c a) ∧ adds.length ≤ c.N then .ok (addedCore c adds) else .fatal := by
  have := addAll_added hc adds []
  rw [addedCore_nil] at this
  rw [this]
  by_cases h : (∀ a ∈ adds, Legal c a) ∧ adds.length ≤ c.N
  · rw [if_pos h, if_pos]
    · simp
    · exact ⟨h.1, .inl (by simp; exact h.2)⟩
  · rw [if_neg h, if_neg]
    rintro ⟨a1, a2⟩
    apply h; refine ⟨a1, ?_⟩
    rcases a2 with a2 | a2
    · simpa using a2
    · subst a2; simp

/-! ### Sorting -/

/-- fields not copied by `task_core_quickcpy` still have their initial value -/
def Fresh (c : Cfg) (t : Task c.tw) : Prop :=
  t.tick = 0 ∧ t.statCounter = 2 ^ c.cw - 1 ∧ t.statLo = 2 ^ c.cw - 1 ∧ t.statHi = 0 ∧ t.statMiss = 0 ∧
  t.subPrio = 0 ∧ t.miss = 0

theorem quickcpy_fresh {c : Cfg} {a b : Task c.tw} (ha : Fresh c a) (hb : Fresh c b) : quickcpy a b = b := by
  obtain ⟨a1, a2, a3, a4, a5, a6, a7⟩ := ha
  obtain ⟨b1, b2, b3, b4, b5, b6, b7⟩ := hb
  unfold quickcpy
  cases a; cases b
  simp_all

/-- exchange two entries of a table -/
def exch {α : Type} (f : Nat → α) (i j : Nat) : Nat → α := upd (upd f i (f j)) j (f i)

theorem quickswap_fresh {c : Cfg} {s : Core c.tw} {i j : Nat} (hi : Fresh c (s.task i)) (hj : Fresh c (s.task j)) :
    quickswap s i j = { s with task := exch s.task i j } := by
  unfold quickswap Core.setTask exch
  simp only []
  rw [quickcpy_fresh hi hj, quickcpy_fresh hj hi]

/-- the tasks of priority `pr` in the first `n` slots, in slot order -/
def ofPrio {tw : Nat} (f : Nat → Task tw) (n pr : Nat) : List (Task tw) :=
  ((List.range n).map f).filter (fun t => t.prio = pr)

theorem exch_left {α : Type} (f : Nat → α) {i j : Nat} (h : i ≠ j) : exch f i j i = f j := by
  unfold exch; rw [upd_ne _ _ h, upd_same]
theorem exch_right {α : Type} (f : Nat → α) (i j : Nat) : exch f i j j = f i := by
  unfold exch; rw [upd_same]
theorem exch_other {α : Type} (f : Nat → α) {i j q : Nat} (h1 : q ≠ i) (h2 : q ≠ j) : exch f i j q = f q := by
  unfold exch; rw [upd_ne _ _ h2, upd_ne _ _ h1]

theorem ofPrio_exch {tw : Nat} (f : Nat → Task tw) (n j pr : Nat) (hj : j + 1 < n)
    (hne : (f j).prio ≠ (f (j + 1)).prio) : ofPrio (exch f (j + 1) j) n pr = ofPrio f n pr := by
  have hsplit : List.range n = List.range j ++ ([j, j + 1] ++ List.range' (j + 2) (n - (j + 2))) := by
    have h1 := range_split (show j ≤ n by omega)
    rw [h1]; congr 1
    have : n - j = (n - (j + 2)) + 1 + 1 := by omega
    rw [this, List.range'_succ, List.range'_succ]; rfl
  unfold ofPrio
  rw [hsplit]
  simp only [List.map_append, List.filter_append]
  have e1 : (List.range j).map (exch f (j + 1) j) = (List.range j).map f := by
    apply List.map_congr_left
    intro q hq; simp at hq; exact exch_other f (by omega) (by omega)
  have e2 : (List.range' (j + 2) (n - (j + 2))).map (exch f (j + 1) j) = (List.range' (j + 2) (n - (j + 2))).map f := by
    apply List.map_congr_left
    intro q hq; simp [List.mem_range'_1] at hq; exact exch_other f (by omega) (by omega)
  rw [e1, e2]
  congr 2
  simp only [List.map_cons, List.map_nil, exch_right, exch_left f (show j + 1 ≠ j by omega)]
  by_cases ha : (f j).prio = pr <;> by_cases hb : (f (j + 1)).prio = pr
  · exact absurd (ha.trans hb.symm) hne
  · simp [ha, hb]
  · simp [ha, hb]
  · simp [ha, hb]

theorem sortInner_spec {c : Cfg} (n m : Nat) (hm : m < n) : ∀ (j : Nat) (s : Core c.tw), j ≤ m →
    (∀ q, q < n → Fresh c (s.task q)) →
    (∀ p q, p ≤ q → q ≤ m → p ≠ j → q ≠ j → (s.task p).prio ≤ (s.task q).prio) →
    (∀ q, j < q → q ≤ m → (s.task j).prio ≤ (s.task q).prio) →
    ∃ f, sortInner s j = { s with task := f } ∧ (∀ q, q < n → Fresh c (f q)) ∧
      (∀ p q, p ≤ q → q ≤ m → (f p).prio ≤ (f q).prio) ∧ (∀ q, m < q → f q = s.task q) ∧
      ∀ pr, ofPrio f n pr = ofPrio s.task n pr := by
  intro j
  induction j with
  | zero =>
    intro s hj hf h1 h2
    refine ⟨s.task, rfl, hf, ?_, fun q _ => rfl, fun _ => rfl⟩
    intro p q hpq hq
    by_cases hp : p = 0
    · subst hp
      by_cases hq0 : q = 0
      · subst hq0; exact Nat.le_refl _
      · exact h2 q (by omega) hq
    · exact h1 p q hpq hq hp (by omega)
  | succ j ih =>
    intro s hj hf h1 h2
    by_cases hgt : (s.task j).prio > (s.task (j + 1)).prio
    · let s1 : Core c.tw := { s with task := exch s.task (j + 1) j }
      have hsw : quickswap s (j + 1) j = s1 := quickswap_fresh (hf _ (by omega)) (hf _ (by omega))
      have hx : ∀ q, s1.task q = if q = j then s.task (j + 1) else if q = j + 1 then s.task j else s.task q := by
        intro q
        show exch s.task (j + 1) j q = _
        by_cases hq : q = j
        · subst hq; rw [exch_right]; simp
        · by_cases hq' : q = j + 1
          · subst hq'; rw [exch_left _ (by omega)]; simp
          · rw [exch_other _ hq' hq]; simp [hq, hq']
      have g1 : ∀ q, q < n → Fresh c (s1.task q) := by
        intro q hq; rw [hx]
        split
        · exact hf _ (by omega)
        · split
          · exact hf _ (by omega)
          · exact hf _ hq
      have g2 : ∀ p q, p ≤ q → q ≤ m → p ≠ j → q ≠ j → (s1.task p).prio ≤ (s1.task q).prio := by
        intro p q hpq hq hp' hq'
        rw [hx, hx, if_neg hp', if_neg hq']
        by_cases hp1 : p = j + 1
        · by_cases hq1 : q = j + 1
          · simp [hp1, hq1]
          · rw [if_pos hp1, if_neg hq1]; exact h1 j q (by omega) hq (by omega) hq1
        · by_cases hq1 : q = j + 1
          · rw [if_neg hp1, if_pos hq1]; exact h1 p j (by omega) (by omega) hp1 (by omega)
          · rw [if_neg hp1, if_neg hq1]; exact h1 p q hpq hq hp1 hq1
      have g3 : ∀ q, j < q → q ≤ m → (s1.task j).prio ≤ (s1.task q).prio := by
        intro q hjq hq
        rw [hx, hx, if_pos rfl, if_neg (by omega)]
        by_cases hq1 : q = j + 1
        · rw [if_pos hq1]; omega
        · rw [if_neg hq1]; exact h2 q (by omega) hq
      obtain ⟨f, k1, k2, k3, k4, k5⟩ := ih s1 (by omega) g1 g2 g3
      refine ⟨f, ?_, k2, k3, ?_, ?_⟩
      · show (if _ then sortInner (quickswap s (j + 1) j) j else s) = _
        rw [if_pos hgt, hsw, k1]
      · intro q hq; rw [k4 q hq, hx, if_neg (by omega), if_neg (by omega)]
      · intro pr; rw [k5]; exact ofPrio_exch _ _ _ _ (by omega) (by omega)
    · refine ⟨s.task, ?_, hf, ?_, fun q _ => rfl, fun _ => rfl⟩
      · show (if _ then sortInner (quickswap s (j + 1) j) j else s) = _
        rw [if_neg hgt]
      · intro p q hpq hq
        by_cases hp : p = j + 1
        · by_cases hq1 : q = j + 1
          · rw [hp, hq1]
          · rw [hp]; exact h2 q (by omega) hq
        · by_cases hq1 : q = j + 1
          · have : (s.task p).prio ≤ (s.task j).prio := h1 p j (by omega) (by omega) hp (by omega)
            rw [hq1]; omega
          · exact h1 p q hpq hq hp hq1

theorem sortLoop_spec {c : Cfg} (n : Nat) : ∀ (k i : Nat) (s : Core c.tw), i + k = n → 0 < i →
    (∀ q, q < n → Fresh c (s.task q)) →
    (∀ p q, p ≤ q → q < i → (s.task p).prio ≤ (s.task q).prio) →
    ∃ f, sortLoop k i s = { s with task := f } ∧ (∀ q, q < n → Fresh c (f q)) ∧
      (∀ p q, p ≤ q → q < n → (f p).prio ≤ (f q).prio) ∧ (∀ q, n ≤ q → f q = s.task q) ∧
      ∀ pr, ofPrio f n pr = ofPrio s.task n pr := by
  intro k
  induction k with
  | zero =>
    intro i s hi _ hf hs
    have : i = n := by omega
    subst this
    exact ⟨s.task, rfl, hf, hs, fun _ _ => rfl, fun _ => rfl⟩
  | succ k ih =>
    intro i s hi hpos hf hs
    obtain ⟨f, k1, k2, k3, k4, k5⟩ := sortInner_spec n i (by omega) i s (Nat.le_refl _) hf
      (by intro p q hpq hq hp hq'; exact hs p q hpq (by omega)) (by intro q h1 h2; omega)
    obtain ⟨g, l1, l2, l3, l4, l5⟩ := ih (i + 1) { s with task := f } (by omega) (by omega) k2
      (by intro p q hpq hq; exact k3 p q hpq (by omega))
    refine ⟨g, ?_, l2, l3, ?_, ?_⟩
    · show sortLoop k (i + 1) (sortInner s i) = _; rw [k1, l1]
    · intro q hq; rw [l4 q hq]; exact k4 q (by omega)
    · intro pr; rw [l5]; exact k5 pr

/-! ### Numbering of shared priorities -/

/-- number of slots below `n` with priority `pr` -/
def cnt {tw : Nat} (f : Nat → Task tw) (n pr : Nat) : Nat :=
  ((List.range n).filter (fun q => (f q).prio = pr)).length

theorem cnt_succ {tw : Nat} (f : Nat → Task tw) (n pr : Nat) :
    cnt f (n + 1) pr = cnt f n pr + if (f n).prio = pr then 1 else 0 := by
  unfold cnt
  rw [List.range_succ, List.filter_append, List.length_append]
  congr 1
  by_cases h : (f n).prio = pr <;> simp [h]

theorem cnt_le {tw : Nat} (f : Nat → Task tw) (n pr : Nat) : cnt f n pr ≤ n := by
  unfold cnt
  exact Nat.le_trans (List.length_filter_le _ _) (by simp)

theorem cnt_congr {tw : Nat} (f g : Nat → Task tw) (n pr : Nat) (h : ∀ q, q < n → (f q).prio = (g q).prio) :
    cnt f n pr = cnt g n pr := by
  unfold cnt
  congr 1
  apply List.filter_congr
  intro q hq; simp at hq; rw [h q hq]

theorem cnt_zero {tw : Nat} (f : Nat → Task tw) (n pr : Nat) (h : ∀ q, q < n → (f q).prio ≠ pr) :
    cnt f n pr = 0 := by
  unfold cnt
  rw [List.length_eq_zero_iff, List.filter_eq_nil_iff]
  intro q hq; simp at hq; simpa using h q hq

/-- the task table after `core_arrange_shared_priorities` -/
def numbered {tw : Nat} (f : Nat → Task tw) (n q : Nat) : Task tw :=
  if q < n then { f q with subPrio := cnt f q (f q).prio } else f q

/-- Loop invariant of `core_arrange_shared_priorities`. -/
theorem arrangeLoop_spec {c : Cfg} (hc : c.WF) (strict : Bool) (f : Nat → Task c.tw)
    (hsort : ∀ p q, p ≤ q → q < c.N → (f p).prio ≤ (f q).prio)
    (hstrict : strict = true → ∀ p, 0 < p → p < c.N → (f p).prio = (f (p - 1)).prio → (f p).prio < c.taskCount) :
    ∀ (k pid : Nat) (s : Core c.tw), pid + k = c.N → 0 < pid → s.task = numbered f pid →
      (∀ q, pid ≤ q → q < c.N → (f q).subPrio = 0) →
      (∀ pr, pr ≤ c.N → s.sub pr = max 1 (cnt f pid pr)) →
      ∃ g, arrangeLoop c strict k pid (cnt f (pid - 1) (f (pid - 1)).prio) s =
          .ok { s with task := numbered f c.N, sub := g } ∧
        (∀ pr, pr ≤ c.N → g pr = max 1 (cnt f c.N pr)) := by
  intro k
  induction k with
  | zero =>
    intro pid s hk _ ht _ hs
    have : pid = c.N := by omega
    subst this
    refine ⟨s.sub, ?_, hs⟩
    show Res.ok s = _; rw [← ht]
  | succ k ih =>
    intro pid s hk hpos ht hz hs
    have htp : (s.task pid).prio = (f pid).prio := by
      rw [ht]; unfold numbered; split <;> rfl
    have htp1 : (s.task (pid - 1)).prio = (f (pid - 1)).prio := by
      rw [ht]; unfold numbered; split <;> rfl
    have hfits := hc.fits
    have htpid : s.task pid = f pid := by rw [ht]; unfold numbered; rw [if_neg (by omega)]
    unfold arrangeLoop
    simp only [htpid, htp1]
    by_cases heq : (f pid).prio = (f (pid - 1)).prio
    · rw [if_pos heq]
      have hcs : cnt f pid (f pid).prio = cnt f (pid - 1) (f (pid - 1)).prio + 1 := by
        obtain ⟨m, rfl⟩ : ∃ m, pid = m + 1 := ⟨pid - 1, by omega⟩
        rw [cnt_succ]; simp only [Nat.add_sub_cancel] at heq ⊢; rw [heq]; simp
      have hlt : cnt f pid (f pid).prio ≤ pid := cnt_le _ _ _
      have hmod : (cnt f (pid - 1) (f (pid - 1)).prio + 1) % 2 ^ c.pw = cnt f pid (f pid).prio := by
        rw [← hcs]; apply Nat.mod_eq_of_lt; omega
      have hmod2 : (cnt f pid (f pid).prio + 1) % 2 ^ c.pw = cnt f pid (f pid).prio + 1 := by
        apply Nat.mod_eq_of_lt; omega
      have htask : upd s.task pid { f pid with subPrio := cnt f pid (f pid).prio } = numbered f (pid + 1) := by
        funext q
        by_cases hq : q = pid
        · subst hq; rw [upd_same]; unfold numbered; rw [if_pos (by omega)]
        · rw [upd_ne _ _ hq, ht]; unfold numbered
          by_cases hq2 : q < pid
          · rw [if_pos hq2, if_pos (by omega)]
          · rw [if_neg hq2, if_neg (by omega)]
      rw [hmod]
      by_cases hin : (f pid).prio < c.taskCount
      · rw [if_pos hin, hmod2]
        let s1 : Core c.tw := { s with
          task := upd s.task pid { f pid with subPrio := cnt f pid (f pid).prio }
          sub := upd s.sub (f pid).prio (cnt f pid (f pid).prio + 1) }
        obtain ⟨g, g1, g2⟩ := ih (pid + 1) s1 (by omega) (by omega) htask
          (by intro q h1 h2; exact hz q (by omega) h2)
          (by
            intro pr hpr
            show upd s.sub _ _ pr = _
            rw [cnt_succ]
            by_cases hpe : pr = (f pid).prio
            · subst hpe; rw [upd_same]; simp
            · rw [upd_ne _ _ hpe, hs pr hpr, if_neg (fun h => hpe h.symm)]; rfl)
        refine ⟨g, ?_, g2⟩
        simp only [Nat.add_sub_cancel] at g1
        exact g1
      · rw [if_neg hin]
        have hns : strict = false := by
          cases hst : strict
          · rfl
          · exact absurd (hstrict hst pid hpos (by omega) heq) hin
        rw [if_neg (by simp [hns])]
        let s1 : Core c.tw := { s with
          task := upd s.task pid { f pid with subPrio := cnt f pid (f pid).prio } }
        obtain ⟨g, g1, g2⟩ := ih (pid + 1) s1 (by omega) (by omega) htask
          (by intro q h1 h2; exact hz q (by omega) h2)
          (by
            intro pr hpr
            show s.sub pr = _
            rw [cnt_succ, hs pr hpr, if_neg (fun h => by have := hc.cores; unfold Cfg.taskCount at hin; omega)]; rfl)
        refine ⟨g, ?_, g2⟩
        simp only [Nat.add_sub_cancel] at g1
        exact g1
    · rw [if_neg heq]
      have hc0 : cnt f pid (f pid).prio = 0 := by
        apply cnt_zero
        intro q hq
        have h1 := hsort q (pid - 1) (by omega) (by omega)
        have h2 := hsort (pid - 1) pid (by omega) (by omega)
        omega
      have htask : s.task = numbered f (pid + 1) := by
        funext q; rw [ht]; unfold numbered
        by_cases hq : q = pid
        · subst hq; rw [if_neg (by omega), if_pos (by omega), hc0, ← hz q (Nat.le_refl _) (by omega)]
        · by_cases hq2 : q < pid
          · rw [if_pos hq2, if_pos (by omega)]
          · rw [if_neg hq2, if_neg (by omega)]
      obtain ⟨g, g1, g2⟩ := ih (pid + 1) s (by omega) (by omega) htask
        (by intro q h1 h2; exact hz q (by omega) h2)
        (by
          intro pr hpr
          rw [hs pr hpr, cnt_succ]
          by_cases hpe : (f pid).prio = pr
          · subst hpe; simp [hc0]
          · simp [hpe])
      refine ⟨g, ?_, g2⟩
      simp only [Nat.add_sub_cancel] at g1
      rw [hc0] at g1
      exact g1

end Pico.SMP
