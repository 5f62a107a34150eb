import Verif.SMP.Boot

/-! State reached by `picoRTOS_start`. -/

namespace Pico.SMP

open Pico.Sched (Desc Call Out Goes range_split)

theorem fresh_init (c : Cfg) : Fresh c (taskCoreInit c) := ⟨rfl, rfl, rfl, rfl, rfl, rfl, rfl⟩
theorem fresh_added (c : Cfg) (a : Add) : Fresh c (addedTask c a) := ⟨rfl, rfl, rfl, rfl, rfl, rfl, rfl⟩

theorem addedTable_lt {c : Cfg} {adds : List Add} {q : Nat} (h : q < adds.length) :
    addedTable c adds q = addedTask c adds[q] := by
  unfold addedTable; rw [List.getElem?_eq_getElem h]

theorem addedTable_ge {c : Cfg} {adds : List Add} {q : Nat} (h : adds.length ≤ q) (hq : q < c.N) :
    addedTable c adds q = taskCoreInit c := by
  unfold addedTable; rw [List.getElem?_eq_none h]
  show (init c).task q = _
  simp only [init]; rw [if_neg (by omega)]

theorem addedTable_idle {c : Cfg} {adds : List Add} (h : adds.length ≤ c.N) (i : Nat) (hi : i < c.K) :
    addedTable c adds (c.N + i) = idleTask c i := by
  unfold addedTable; rw [List.getElem?_eq_none (by omega)]
  show (init c).task (c.N + i) = _
  simp [init, hi]

theorem fresh_addedTable (c : Cfg) (adds : List Add) (q : Nat) (hq : q < c.N) :
    Fresh c (addedTable c adds q) := by
  rcases Nat.lt_or_ge q adds.length with h | h
  · rw [addedTable_lt h]; exact fresh_added _ _
  · rw [addedTable_ge h (by omega)]; exact fresh_init _

/-- tables with the same tasks for every priority are permutations of each other -/
theorem perm_of_ofPrio {tw : Nat} (f g : Nat → Task tw) (n : Nat) (h : ∀ pr, ofPrio f n pr = ofPrio g n pr) :
    ((List.range n).map f).Perm ((List.range n).map g) := by
  classical
  rw [List.perm_iff_count]
  intro a
  have key : ∀ l : List (Task tw), List.count a l = List.count a (l.filter (fun t => t.prio = a.prio)) := by
    intro l; rw [List.count_filter]; simp
  rw [key ((List.range n).map f), key ((List.range n).map g)]
  exact congrArg (List.count a) (h a.prio)

/-- the sorted table and what is known about it -/
structure Sorted (c : Cfg) (adds : List Add) (f : Nat → Task c.tw) : Prop where
  fresh : ∀ q, q < c.N → Fresh c (f q)
  sorted : ∀ p q, p ≤ q → q < c.N → (f p).prio ≤ (f q).prio
  idle : ∀ i, i < c.K → f (c.N + i) = idleTask c i
  same : ∀ pr, ofPrio f c.N pr = ofPrio (addedTable c adds) c.N pr

theorem sortTasks_sorted {c : Cfg} (hc : c.WF) {adds : List Add} (hl : adds.length ≤ c.N) :
    ∃ f, sortTasks c (addedCore c adds) = { addedCore c adds with task := f } ∧ Sorted c adds f := by
  have hpos := hc.pos
  obtain ⟨f, h1, h2, h3, h4, h5⟩ := sortLoop_spec c.N (c.N - 1) 1 (addedCore c adds) (by omega) (by omega)
    (fresh_addedTable c adds)
    (by intro p q h1 h2
        have hp : p = 0 := by omega
        have hq : q = 0 := by omega
        subst hp hq; exact Nat.le_refl _)
  refine ⟨f, h1, h2, h3, ?_, h5⟩
  intro i hi; rw [h4 _ (by omega)]; exact addedTable_idle hl i hi

theorem Sorted.perm {c : Cfg} {adds : List Add} {f : Nat → Task c.tw} (h : Sorted c adds f) :
    ((List.range c.N).map f).Perm ((List.range c.N).map (addedTable c adds)) :=
  perm_of_ofPrio _ _ _ h.same

theorem Sorted.exists {c : Cfg} {adds : List Add} {f : Nat → Task c.tw} (h : Sorted c adds f)
    (p : Nat) (hp : p < c.N) : ∃ q, q < c.N ∧ f p = addedTable c adds q := by
  have : f p ∈ (List.range c.N).map (addedTable c adds) := by
    apply h.perm.mem_iff.1; simp; exact ⟨p, hp, rfl⟩
  simp at this
  obtain ⟨q, h1, h2⟩ := this
  exact ⟨q, h1, h2.symm⟩

theorem map_addedTable {c : Cfg} {adds : List Add} (hl : adds.length ≤ c.N) :
    (List.range c.N).map (addedTable c adds) =
      adds.map (addedTask c) ++ List.replicate (c.N - adds.length) (taskCoreInit c) := by
  apply List.ext_getElem
  · simp; omega
  · intro i h1 h2
    simp at h1
    simp only [List.getElem_map, List.getElem_range]
    rcases Nat.lt_or_ge i adds.length with h | h
    · rw [List.getElem_append_left (by simpa using h), addedTable_lt h]; simp
    · rw [List.getElem_append_right (by simpa using h), addedTable_ge h (by omega)]; simp

theorem unused_prio {c : Cfg} (hc : c.WF) : (taskCoreInit c).prio = c.N + c.K :=
  Nat.mod_eq_of_lt hc.fits

/-- used slots come first -/
theorem Sorted.used_iff {c : Cfg} (hc : c.WF) {adds : List Add} {f : Nat → Task c.tw} (h : Sorted c adds f)
    (hl : adds.length ≤ c.N) (hp : ∀ a ∈ adds, Legal c a) (p : Nat) (hpn : p < c.N) :
    (f p).prio < c.N ↔ p < adds.length := by
  have hcount : ((List.range c.N).map f).countP (fun t => t.prio < c.N) = adds.length := by
    rw [h.perm.countP_eq, map_addedTable hl, List.countP_append, List.countP_replicate]
    rw [unused_prio hc]
    rw [if_neg (by simp)]
    rw [List.countP_eq_length.2]
    · simp
    · intro t ht; simp at ht
      obtain ⟨a, hm, rfl⟩ := ht
      have : (addedTask c a).prio < c.N := (hp _ hm).1
      simpa using this
  have hsplit := range_split (show p ≤ c.N by omega)
  rw [hsplit, List.map_append, List.countP_append] at hcount
  constructor
  · intro hlt
    have h1 : ((List.range p).map f).countP (fun t => t.prio < c.N) = p := by
      rw [List.countP_eq_length.2]
      · simp
      · intro t ht; simp at ht
        obtain ⟨q, hq, rfl⟩ := ht
        have := h.sorted q p (by omega) hpn
        simp; omega
    have h2 : 0 < ((List.range' p (c.N - p)).map f).countP (fun t => t.prio < c.N) := by
      rw [List.countP_pos_iff]
      refine ⟨f p, ?_, by simpa using hlt⟩
      simp [List.mem_range'_1]; exact ⟨p, by omega, rfl⟩
    omega
  · intro hlt
    rcases Nat.lt_or_ge (f p).prio c.N with h0 | h0
    · exact h0
    · exfalso
      have h1 : ((List.range' p (c.N - p)).map f).countP (fun t => t.prio < c.N) = 0 := by
        rw [List.countP_eq_zero]
        intro t ht; simp [List.mem_range'_1] at ht
        obtain ⟨q, hq, rfl⟩ := ht
        have := h.sorted p q (by omega) (by omega)
        simp; omega
      have h2 : ((List.range p).map f).countP (fun t => t.prio < c.N) ≤ p := by
        exact Nat.le_trans List.countP_le_length (by simp)
      omega

/-- unused slots after the sort -/
theorem Sorted.unused {c : Cfg} (hc : c.WF) {adds : List Add} {f : Nat → Task c.tw} (h : Sorted c adds f)
    (hl : adds.length ≤ c.N) (hp : ∀ a ∈ adds, Legal c a) (p : Nat) (hpn : p < c.N) (hge : adds.length ≤ p) :
    f p = taskCoreInit c := by
  obtain ⟨q, h1, h2⟩ := h.exists p hpn
  rcases Nat.lt_or_ge q adds.length with hq | hq
  · exfalso
    have : (f p).prio < c.N := by
      rw [h2, addedTable_lt hq]; exact (hp _ (List.getElem_mem hq)).1
    have := (h.used_iff hc hl hp p hpn).1 this
    omega
  · rw [h2, addedTable_ge hq (by omega)]

/-- used slots after the sort -/
theorem Sorted.used {c : Cfg} (hc : c.WF) {adds : List Add} {f : Nat → Task c.tw} (h : Sorted c adds f)
    (hl : adds.length ≤ c.N) (hp : ∀ a ∈ adds, Legal c a) (p : Nat) (hlt : p < adds.length) :
    ∃ a, a ∈ adds ∧ f p = addedTask c a := by
  obtain ⟨q, h1, h2⟩ := h.exists p (by omega)
  rcases Nat.lt_or_ge q adds.length with hq | hq
  · exact ⟨_, List.getElem_mem hq, by rw [h2, addedTable_lt hq]⟩
  · exfalso
    have h3 := (h.used_iff hc hl hp p (by omega)).2 hlt
    rw [h2, addedTable_ge hq (by omega), unused_prio hc] at h3; omega

/-- `boot` with legal arguments -/
theorem boot_ok {c : Cfg} (hc : c.WF) (strict : Bool) {adds : List Add}
    (hl : adds.length ≤ c.N) (hp : ∀ a ∈ adds, Legal c a) (hs : strict = true → c.N ≤ adds.length + 1) :
    ∃ f g, Sorted c adds f ∧ (∀ pr, pr ≤ c.N → g pr = max 1 (cnt f c.N pr)) ∧
      boot c strict adds = .ok { addedCore c adds with task := numbered f c.N, sub := g, running := true } := by
  obtain ⟨f, h1, h2⟩ := sortTasks_sorted hc hl
  have hpos := hc.pos
  have hstrict : strict = true → ∀ p, 0 < p → p < c.N → (f p).prio = (f (p - 1)).prio → (f p).prio < c.taskCount := by
    intro hst p hp0 hpn heq
    have := hs hst
    have : (f (p - 1)).prio < c.N := (h2.used_iff hc hl hp (p - 1) (by omega)).2 (by omega)
    unfold Cfg.taskCount; omega
  have hz : ∀ q, 1 ≤ q → q < c.N → (f q).subPrio = 0 := by
    intro q _ hq; exact (h2.fresh q hq).2.2.2.2.2.1
  have ht1 : ({ addedCore c adds with task := f } : Core c.tw).task = numbered f 1 := by
    funext q
    show f q = _
    unfold numbered
    split
    · rename_i hq
      have : q = 0 := by omega
      subst this
      have h3 : cnt f 0 (f 0).prio = 0 := rfl
      have h4 := (h2.fresh 0 hpos).2.2.2.2.2.1
      rw [h3]
      cases hf0 : f 0
      rw [hf0] at h4; simp only at h4; subst h4; rfl
    · rfl
  obtain ⟨g, g1, g2⟩ := arrangeLoop_spec hc strict f h2.sorted hstrict (c.N - 1) 1
    { addedCore c adds with task := f } (by omega) (by omega) ht1 hz
    (by
      intro pr hpr
      show 1 = _
      rw [cnt_succ]
      have : cnt f 0 pr = 0 := rfl
      rw [this]; split <;> rfl)
  refine ⟨f, g, h2, g2, ?_⟩
  unfold boot
  rw [addAll_iff hc, if_pos ⟨hp, hl⟩]
  simp only [Res.ok_bind]
  unfold start
  simp only [h1]
  have h3 : cnt f (1 - 1) (f (1 - 1)).prio = 0 := rfl
  rw [h3] at g1
  rw [g1]
  rfl

theorem boot_legal {c : Cfg} (hc : c.WF) {strict : Bool} {adds : List Add} {s : Core c.tw}
    (h : boot c strict adds = .ok s) : (∀ a ∈ adds, Legal c a) ∧ adds.length ≤ c.N := by
  unfold boot at h
  rw [addAll_iff hc] at h
  by_cases hh : (∀ a ∈ adds, Legal c a) ∧ adds.length ≤ c.N
  · exact hh
  · rw [if_neg hh] at h; cases h

/-- with two unused slots the strict start is undefined -/
theorem arrange_ub {c : Cfg} (f : Nat → Task c.tw) (m : Nat) (hm : m + 1 < c.N)
    (h1 : (f m).prio = c.taskCount) (h2 : (f (m + 1)).prio = c.taskCount) :
    ∀ (k pid sp : Nat) (s : Core c.tw), pid + k = c.N → 0 < pid → pid ≤ m + 1 →
      (∀ q, (s.task q).prio = (f q).prio) → arrangeLoop c true k pid sp s = .ub := by
  intro k
  induction k with
  | zero => intro pid sp s hk _ hp _; omega
  | succ k ih =>
    intro pid sp s hk hpos hle ht
    unfold arrangeLoop
    simp only [ht]
    have hupd : ∀ (s1 : Core c.tw) (v : Nat) q, ((s.setTask pid { s.task pid with subPrio := v, prio := (f pid).prio }).task q).prio = (f q).prio := by
      intro _ v q
      show (upd s.task pid _ q).prio = _
      by_cases hq : q = pid
      · subst hq; rw [upd_same]
      · rw [upd_ne _ _ hq, ht]
    by_cases hpm : pid = m + 1
    · subst hpm
      simp only [Nat.add_sub_cancel]
      rw [if_pos (by rw [h1, h2]), if_neg (by omega)]; rfl
    · split
      · split
        · exact ih (pid + 1) _ _ (by omega) (by omega) (by omega) (hupd s _)
        · rfl
      · exact ih (pid + 1) _ _ (by omega) (by omega) (by omega) ht

theorem boot_strict_ub {c : Cfg} (hc : c.WF) {adds : List Add}
    (hl : adds.length + 2 ≤ c.N) (hp : ∀ a ∈ adds, Legal c a) : boot c true adds = .ub := by
  obtain ⟨f, h1, h2⟩ := sortTasks_sorted hc (adds := adds) (by omega)
  have hu : ∀ p, adds.length ≤ p → p < c.N → (f p).prio = c.taskCount := by
    intro p ha hb; rw [h2.unused hc (by omega) hp p hb ha, unused_prio hc]; rfl
  unfold boot
  rw [addAll_iff hc, if_pos ⟨hp, by omega⟩]
  simp only [Res.ok_bind]
  unfold start
  simp only [h1]
  rw [arrange_ub f (c.N - 2) (by omega) (hu _ (by omega) (by omega)) (hu _ (by omega) (by omega))
    (c.N - 1) 1 0 _ (by omega) (by omega) (by omega) (fun _ => rfl)]
  rfl

theorem cnt_pos {tw : Nat} (f : Nat → Task tw) (n p : Nat) (h : p < n) : 0 < cnt f n (f p).prio := by
  unfold cnt
  apply List.length_pos_of_mem (a := p)
  simp [h]

/-- the state reached by a successful start -/
theorem boot_shape {c : Cfg} (hc : c.WF) {strict : Bool} {adds : List Add} {s : Core c.tw}
    (h : boot c strict adds = .ok s) :
    ∃ f g, Sorted c adds f ∧ (∀ pr, pr ≤ c.N → g pr = max 1 (cnt f c.N pr)) ∧
      s = { addedCore c adds with task := numbered f c.N, sub := g, running := true } := by
  obtain ⟨hp, hl⟩ := boot_legal hc h
  have hs : strict = true → c.N ≤ adds.length + 1 := by
    intro hst; subst hst
    rcases Nat.lt_or_ge (adds.length + 1) c.N with h1 | h1
    · rw [boot_strict_ub hc (by omega) hp] at h; cases h
    · exact h1
  obtain ⟨f, g, h1, h2, h3⟩ := boot_ok hc strict hl hp hs
  rw [h3] at h; injection h with h
  exact ⟨f, g, h1, h2, h.symm⟩

theorem numbered_prio {tw : Nat} (f : Nat → Task tw) (n q : Nat) : (numbered f n q).prio = (f q).prio := by
  unfold numbered; split <;> rfl
theorem numbered_state {tw : Nat} (f : Nat → Task tw) (n q : Nat) : (numbered f n q).state = (f q).state := by
  unfold numbered; split <;> rfl

theorem numbered_static {tw : Nat} (f : Nat → Task tw) (n q : Nat) :
    (numbered f n q).sp = (f q).sp ∧ (numbered f n q).top = (f q).top ∧ (numbered f n q).mask = (f q).mask ∧
    (numbered f n q).bottom = (f q).bottom ∧ (numbered f n q).count = (f q).count ∧ (numbered f n q).tick = (f q).tick := by
  unfold numbered; split <;> exact ⟨rfl, rfl, rfl, rfl, rfl, rfl⟩

theorem boot_inv {c : Cfg} (hc : c.WF) {strict : Bool} {adds : List Add} {s : Core c.tw}
    (h : boot c strict adds = .ok s) : Inv c s := by
  obtain ⟨hp, hl⟩ := boot_legal hc h
  obtain ⟨f, g, hf, hg, rfl⟩ := boot_shape hc h
  have hN : ∀ i, i < c.K → numbered f c.N (c.N + i) = idleTask c i := by
    intro i hi; unfold numbered; rw [if_neg (by omega)]; exact hf.idle i hi
  have hNp : ∀ i, (idleTask c i).prio = c.N := by
    intro i; show c.N % 2 ^ c.pw = _; apply Nat.mod_eq_of_lt; have := hc.fits; omega
  have hKpos := hc.cores
  have hgN : g c.N = 1 := by
    rw [hg _ (Nat.le_refl _), cnt_zero]; · rfl
    intro q hq he
    obtain ⟨r, h1, h2⟩ := hf.exists q hq
    rcases Nat.lt_or_ge r adds.length with hr | hr
    · have : (f q).prio < c.N := by rw [h2, addedTable_lt hr]; exact (hp _ (List.getElem_mem hr)).1
      omega
    · rw [h2, addedTable_ge hr (by omega), unused_prio hc] at he; omega
  have hmaskI : ∀ i, i < c.K → ∀ j, (numbered f c.N (c.N + i)).mask.testBit j = true ↔ j = i := by
    intro i hi j
    rw [hN i hi]
    show (coreMask c i).testBit j = true ↔ _
    rw [coreMask_eq hc hi, Nat.testBit_two_pow]
    simp [eq_comm]
  have hstate : ∀ p, p < c.taskCount → (numbered f c.N p).state = .ready ∨ (numbered f c.N p).state = .empty := by
    intro p hpt
    unfold Cfg.taskCount at hpt
    rcases Nat.lt_or_ge p c.N with h1 | h1
    · rw [numbered_state]
      rcases Nat.lt_or_ge p adds.length with h2 | h2
      · obtain ⟨a, _, h3⟩ := hf.used hc hl hp p h2; rw [h3]; exact .inl rfl
      · rw [hf.unused hc hl hp p h1 h2]; exact .inr rfl
    · obtain ⟨i, rfl⟩ : ∃ i, p = c.N + i := ⟨p - c.N, by omega⟩
      rw [hN i (by omega)]; exact .inl rfl
  have hst : Static c { addedCore c adds with task := numbered f c.N, sub := g, running := true } := by
    refine
      { running := rfl
        idleMask := hmaskI
        idlePrio := ?_
        idleSub := ?_
        subIdle := hgN
        userPrio := ?_
        subEq := ?_
        sorted := ?_
        spTop := ?_
        count := hKpos
        idleSt := ?_ }
    · intro i hi
      show (numbered f c.N (c.N + i)).prio = _; rw [hN i hi, hNp]
    · intro i hi
      show (numbered f c.N (c.N + i)).subPrio = _; rw [hN i hi]; rfl
    · intro p hpn hne
      show (numbered f c.N p).prio < _
      have hne' : (numbered f c.N p).state ≠ .empty := hne
      rw [numbered_prio]; rw [numbered_state] at hne'
      rw [hf.used_iff hc hl hp p hpn]
      rcases Nat.lt_or_ge p adds.length with h1 | h1
      · exact h1
      · rw [hf.unused hc hl hp p hpn h1] at hne'; exact absurd rfl hne'
    · intro p hpn hlt
      have hlt' : (f p).prio < c.N := by rw [← numbered_prio f c.N p]; exact hlt
      have hsh : sharers c { addedCore c adds with task := numbered f c.N, sub := g, running := true } p = cnt f c.N (f p).prio := by
        unfold sharers cnt; simp only [numbered_prio]
      have htu : turn c { addedCore c adds with task := numbered f c.N, sub := g, running := true } p = cnt f p (f p).prio := by
        unfold turn cnt; simp only [numbered_prio]
      rw [hsh, htu]
      show g (numbered f c.N p).prio = _ ∧ (numbered f c.N p).subPrio = _
      rw [numbered_prio, hg _ (by omega)]
      refine ⟨?_, ?_⟩
      · have := cnt_pos f c.N p hpn; omega
      · unfold numbered; rw [if_pos hpn]
    · intro p q h1 h2
      show (numbered f c.N p).prio ≤ (numbered f c.N q).prio
      rw [numbered_prio, numbered_prio]; exact hf.sorted p q h1 h2
    · intro p hpt hne
      show (numbered f c.N p).sp ≠ (numbered f c.N p).top
      have hne' : (numbered f c.N p).state ≠ .empty := hne
      unfold Cfg.taskCount at hpt
      rcases Nat.lt_or_ge p c.N with h1 | h1
      · rw [(numbered_static f c.N p).1, (numbered_static f c.N p).2.1]
        rcases Nat.lt_or_ge p adds.length with h2 | h2
        · obtain ⟨a, _, h3⟩ := hf.used hc hl hp p h2; rw [h3]; exact hc.prep _ _ _ _
        · exfalso; rw [numbered_state, hf.unused hc hl hp p h1 h2] at hne'; exact hne' rfl
      · obtain ⟨i, rfl⟩ : ∃ i, p = c.N + i := ⟨p - c.N, by omega⟩
        rw [hN i (by omega)]; exact hc.prep _ _ _ _
    · intro i hi
      left; show (numbered f c.N (c.N + i)).state = _; rw [hN i hi]; rfl
  refine { toStatic := hst, toOwned := ⟨?_, ?_, ?_, ?_, ?_⟩ }
  · intro i hi _; show c.N + i < _; unfold Cfg.taskCount; omega
  · intro i hi _; exact (hmaskI i hi i).2 rfl
  · intro i hi _
    right
    refine ⟨rfl, ?_⟩
    show (numbered f c.N (c.N + i)).state = _; rw [hN i hi]; rfl
  · intro i j _ _ _ _ he
    have : c.N + i = c.N + j := he
    omega
  · intro p hpt hb
    exfalso
    have hb' : (numbered f c.N p).state = .busy := hb
    rcases hstate p hpt with h1 | h1 <;> rw [h1] at hb' <;> cases hb'

theorem reach_inv {c : Cfg} (hc : c.WF) {s : Core c.tw} (h : Reach c s) : Inv c s := by
  obtain ⟨strict, adds, evs, s0, h1, h2, h3⟩ := h
  exact inv_run hc evs s0 s (boot_inv hc h1) h2 h3

theorem reach_step {c : Cfg} {s s' : Core c.tw} {e : Ev c.tw} {o : Out c.tw} (h : Reach c s) (hk : e.core < c.K)
    (hs : step c s e = .ok (s', o)) : Reach c s' := by
  obtain ⟨strict, adds, evs, s0, h1, h0, h2⟩ := h
  refine ⟨strict, adds, evs ++ [e], s0, h1, ?_, (run_append _ _ _ _).2 ⟨s, h2, by simp [run, hs]⟩⟩
  intro x hx
  simp at hx
  rcases hx with hx | hx
  · exact h0 x hx
  · subst hx; exact hk

theorem reach_run {c : Cfg} {s s' : Core c.tw} {es : List (Ev c.tw)} (h : Reach c s) (ho : OnCores c es)
    (hs : run c s es = .ok s') : Reach c s' := by
  obtain ⟨strict, adds, evs, s0, h1, h0, h2⟩ := h
  refine ⟨strict, adds, evs ++ es, s0, h1, ?_, (run_append _ _ _ _).2 ⟨s, h2, hs⟩⟩
  intro x hx
  simp at hx
  rcases hx with hx | hx
  · exact h0 x hx
  · exact ho x hx

end Pico.SMP
