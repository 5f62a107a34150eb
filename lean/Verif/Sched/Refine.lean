import Verif.Sched.AbsSpec
import Verif.Sched.Boot2
import Verif.Sched.Demo
import Verif.Sched.Props1

/-!
# The model of the code refines the specification of `AbsSpec`
-/

namespace Pico.Sched

open Abs

/-! ## The roster -/

/-- a list sorted by a key is the concatenation of its classes -/
theorem eq_flatMap_of_sorted {α : Type} (key : α → Nat) : ∀ (M : Nat) (l : List α), l.Pairwise (fun a b => key a ≤ key b) →
    (∀ a ∈ l, key a < M) → l = (List.range M).flatMap (fun pr => l.filter (fun a => key a = pr)) := by
  intro M
  induction M with
  | zero =>
    intro l _ h
    cases l with
    | nil => rfl
    | cons a l => exact absurd (h a (by simp)) (by omega)
  | succ M ih =>
    intro l hs hk
    have hsplit : l = l.filter (fun a => decide (key a < M)) ++ l.filter (fun a => decide (key a = M)) := by
      clear ih
      induction l with
      | nil => rfl
      | cons a l ih =>
        have hs' := List.pairwise_cons.1 hs
        have h1 := ih hs'.2 (fun b hb => hk b (by simp [hb]))
        have ha := hk a (by simp)
        by_cases hlt : key a < M
        · have : key a ≠ M := by omega
          simp only [List.filter_cons, hlt, this, decide_true, decide_false, if_true]
          simp only [Bool.false_eq_true, if_false, List.cons_append]
          rw [← h1]
        · have haM : key a = M := by omega
          have hall : ∀ b ∈ l, key b = M := by
            intro b hb
            have := hs'.1 b hb
            have := hk b (by simp [hb])
            omega
          have e1 : l.filter (fun a => decide (key a < M)) = [] := by
            rw [List.filter_eq_nil_iff]; intro b hb; simp [hall b hb]
          have e2 : l.filter (fun a => decide (key a = M)) = l := by
            rw [List.filter_eq_self]; intro b hb; simp [hall b hb]
          simp only [List.filter_cons, haM, Nat.lt_irrefl, decide_true, decide_false, Bool.false_eq_true, if_true, if_false]
          rw [e1, e2]; rfl
    rw [List.range_succ, List.flatMap_append]
    have h2 := ih (l.filter (fun a => decide (key a < M))) (hs.filter _) (by intro a ha; simpa using (List.mem_filter.1 ha).2)
    have h3 : (List.range M).flatMap (fun pr => (l.filter (fun a => decide (key a < M))).filter (fun a => key a = pr)) =
        (List.range M).flatMap (fun pr => l.filter (fun a => key a = pr)) := by
      unfold List.flatMap
      congr 1
      apply List.map_congr_left
      intro pr hpr
      rw [List.filter_filter]
      apply List.filter_congr
      intro a _
      have := List.mem_range.1 hpr
      by_cases h : key a = pr
      · simp [h, this]
      · simp [h]
    rw [h3] at h2
    rw [← h2]
    simp only [List.flatMap_cons, List.flatMap_nil, List.append_nil]
    exact hsplit

theorem roster_filter (c : Cfg) (adds : List (Desc × Nat)) (pr : Nat) (h : pr < c.N) :
    (roster c adds).filter (fun k => prioOf adds k = pr) = (List.range adds.length).filter (fun k => prioOf adds k = pr) := by
  unfold roster
  rw [List.filter_flatMap]
  have : ∀ N, pr < N → (List.range N).flatMap (fun q => List.filter (fun k => decide (prioOf adds k = pr))
      (List.filter (fun k => decide (prioOf adds k = q)) (List.range adds.length))) =
      (List.range adds.length).filter (fun k => prioOf adds k = pr) := by
    intro N
    induction N with
    | zero => intro h; omega
    | succ N ih =>
      intro h
      rw [List.range_succ, List.flatMap_append]
      simp only [List.flatMap_cons, List.flatMap_nil, List.append_nil]
      by_cases hN : pr = N
      · subst hN
        have e : (List.range pr).flatMap (fun q => List.filter (fun k => decide (prioOf adds k = pr))
            (List.filter (fun k => decide (prioOf adds k = q)) (List.range adds.length))) = [] := by
          rw [List.flatMap_eq_nil_iff]
          intro q hq
          have := List.mem_range.1 hq
          rw [List.filter_filter, List.filter_eq_nil_iff]
          intro a _
          simp only [Bool.and_eq_true, decide_eq_true_eq, not_and]
          omega
        rw [e, List.nil_append, List.filter_filter]
        congr 1; funext a; simp
      · rw [ih (by omega)]
        have e : List.filter (fun k => decide (prioOf adds k = pr)) (List.filter (fun k => decide (prioOf adds k = N)) (List.range adds.length)) = [] := by
          rw [List.filter_filter, List.filter_eq_nil_iff]
          intro a _
          simp only [Bool.and_eq_true, decide_eq_true_eq, not_and]
          omega
        rw [e, List.append_nil]
  exact this c.N h

theorem mem_roster {c : Cfg} {adds : List (Desc × Nat)} {k : Nat} (h : k ∈ roster c adds) : k < adds.length ∧ prioOf adds k < c.N := by
  unfold roster at h
  rw [List.mem_flatMap] at h
  obtain ⟨pr, h1, h2⟩ := h
  simp only [List.mem_filter, List.mem_range, decide_eq_true_eq] at h1 h2
  exact ⟨h2.1, by omega⟩

theorem nodup_flatMap_filter (adds : List (Desc × Nat)) : ∀ N, ((List.range N).flatMap
    (fun pr => (List.range adds.length).filter (fun k => prioOf adds k = pr))).Nodup := by
  intro N
  induction N with
  | zero => exact List.nodup_nil
  | succ N ih =>
    rw [List.range_succ, List.flatMap_append]
    simp only [List.flatMap_cons, List.flatMap_nil, List.append_nil]
    rw [List.nodup_append]
    refine ⟨ih, List.Pairwise.filter _ List.nodup_range, ?_⟩
    intro a ha b hb hab
    subst hab
    rw [List.mem_flatMap] at ha
    obtain ⟨q, hq, ha⟩ := ha
    simp only [List.mem_filter, List.mem_range, decide_eq_true_eq] at ha hb hq
    omega

theorem roster_nodup (c : Cfg) (adds : List (Desc × Nat)) : (roster c adds).Nodup := nodup_flatMap_filter adds c.N

theorem prioOf_eq {c : Cfg} {adds : List (Desc × Nat)} {k : Nat} (h : k < adds.length) :
    (addedTable c adds k).prio = prioOf adds k := by
  unfold addedTable prioOf; rw [List.getElem?_eq_getElem h]; rfl

/-- the sorted table, read through the roster -/
theorem sorted_roster {c : Cfg} (hc : c.WF) {adds : List (Desc × Nat)} {f : Nat → Task c.tw} (h : Sorted c adds f)
    (hl : adds.length ≤ c.N) (hp : ∀ a ∈ adds, a.2 < c.N) :
    (List.range c.N).map f = (roster c adds).map (addedTable c adds) ++ List.replicate (c.N - adds.length) (taskCoreInit c) := by
  have h1 := eq_flatMap_of_sorted (fun t : Task c.tw => t.prio) (c.N + 2) ((List.range c.N).map f)
    (by
      rw [List.pairwise_map]
      refine List.Pairwise.imp_of_mem (R := fun a b => a < b) ?_ List.pairwise_lt_range
      intro a b ha hb hab
      exact h.sorted a b (by omega) (List.mem_range.1 hb))
    (by
      intro t ht
      rw [List.mem_map] at ht
      obtain ⟨q, hq, rfl⟩ := ht
      obtain ⟨r, h1, h2⟩ := h.exists q (List.mem_range.1 hq)
      rcases Nat.lt_or_ge r adds.length with hr | hr
      · rw [h2, addedTable_lt hr]
        have : (addedTask c adds[r]).prio < c.N := hp _ (List.getElem_mem hr)
        omega
      · rw [h2, addedTable_ge hr (by omega), unused_prio hc]; omega)
  have h2 : ∀ pr, (((List.range c.N).map f).filter (fun t => decide (t.prio = pr))) =
      ((List.range c.N).map (addedTable c adds)).filter (fun t => decide (t.prio = pr)) := h.same
  rw [h1]
  simp only [h2]
  have hsplit : (List.range c.N).map (addedTable c adds) =
      (List.range adds.length).map (addedTable c adds) ++ List.replicate (c.N - adds.length) (taskCoreInit c) := by
    rw [map_addedTable hl]
    congr 1
    apply List.ext_getElem
    · simp
    · intro i h1 h2
      simp at h1
      simp [addedTable_lt h1]
  rw [hsplit]
  rw [show c.N + 2 = c.N + 1 + 1 from rfl, List.range_succ, List.range_succ]
  simp only [List.flatMap_append, List.flatMap_cons, List.flatMap_nil, List.append_nil, List.filter_append]
  have hused : ∀ pr, ((List.range adds.length).map (addedTable c adds)).filter (fun t => decide (t.prio = pr)) =
      ((List.range adds.length).filter (fun k => prioOf adds k = pr)).map (addedTable c adds) := by
    intro pr
    rw [List.filter_map]
    congr 1
    apply List.filter_congr
    intro k hk
    simp only [Function.comp_def]
    rw [prioOf_eq (List.mem_range.1 hk)]
  have hnone : ∀ pr, c.N ≤ pr → (List.range adds.length).filter (fun k => prioOf adds k = pr) = [] := by
    intro pr hpr
    rw [List.filter_eq_nil_iff]
    intro k hk
    have hk := List.mem_range.1 hk
    have : prioOf adds k < c.N := by
      unfold prioOf; rw [List.getElem?_eq_getElem hk]; exact hp _ (List.getElem_mem hk)
    simp; omega
  have hrep : ∀ pr, pr ≠ c.N + 1 → (List.replicate (c.N - adds.length) (taskCoreInit c)).filter (fun t => decide (t.prio = pr)) = [] := by
    intro pr hpr
    rw [List.filter_eq_nil_iff]
    intro t ht
    rw [List.mem_replicate] at ht
    rw [ht.2, unused_prio hc]; simp; omega
  have hrep1 : (List.replicate (c.N - adds.length) (taskCoreInit c)).filter (fun t => decide (t.prio = c.N + 1)) =
      List.replicate (c.N - adds.length) (taskCoreInit c) := by
    rw [List.filter_eq_self]
    intro t ht
    rw [List.mem_replicate] at ht
    rw [ht.2, unused_prio hc]; simp
  rw [hused, hused, hnone _ (Nat.le_refl _), hnone (c.N + 1) (by omega), hrep _ (by omega), hrep1]
  simp only [List.map_nil, List.nil_append, List.append_nil]
  congr 1
  unfold roster
  rw [List.map_flatMap]
  unfold List.flatMap
  congr 1
  apply List.map_congr_left
  intro pr hpr
  have := List.mem_range.1 hpr
  rw [hused, hrep _ (by omega), List.append_nil]

theorem roster_length {c : Cfg} (hc : c.WF) {adds : List (Desc × Nat)} (hl : adds.length ≤ c.N) (hp : ∀ a ∈ adds, a.2 < c.N) :
    (roster c adds).length = adds.length := by
  obtain ⟨f, _, h⟩ := sortTasks_sorted hc hl
  have := congrArg List.length (sorted_roster hc h hl hp)
  simp at this
  omega

theorem sorted_at {c : Cfg} (hc : c.WF) {adds : List (Desc × Nat)} {f : Nat → Task c.tw} (h : Sorted c adds f)
    (hl : adds.length ≤ c.N) (hp : ∀ a ∈ adds, a.2 < c.N) {p k : Nat} (hk : (roster c adds)[p]? = some k) :
    f p = addedTable c adds k := by
  obtain ⟨hlt, hk⟩ := List.getElem?_eq_some_iff.1 hk
  have hlen := roster_length hc hl hp
  have h1 := congrArg (fun l => l[p]?) (sorted_roster hc h hl hp)
  rw [List.getElem?_append_left (by simpa using hlt)] at h1
  rw [List.getElem?_map, List.getElem?_map, List.getElem?_eq_getElem hlt, List.getElem?_range (by omega)] at h1
  simp at h1
  rw [h1, hk]

/-- counting the slots of a priority in the sorted table is counting the tasks of that priority in the roster -/
theorem cnt_roster {c : Cfg} (hc : c.WF) {adds : List (Desc × Nat)} {f : Nat → Task c.tw} (h : Sorted c adds f)
    (hl : adds.length ≤ c.N) (hp : ∀ a ∈ adds, a.2 < c.N) (m pr : Nat) (hm : m ≤ c.N) (hpr : pr < c.N) :
    cnt f m pr = (((roster c adds).take m).filter (fun k => prioOf adds k = pr)).length := by
  have hlen := roster_length hc hl hp
  induction m with
  | zero => simp [cnt]
  | succ m ih =>
    rw [cnt_succ, ih (by omega), List.take_add_one]
    rw [List.filter_append, List.length_append]
    congr 1
    rcases Nat.lt_or_ge m (roster c adds).length with h1 | h1
    · have hk : (roster c adds)[m]? = some (roster c adds)[m] := List.getElem?_eq_getElem h1
      rw [sorted_at hc h hl hp hk, hk, prioOf_eq (mem_roster (List.getElem_mem h1)).1]
      simp only [Option.toList_some, List.filter_cons, List.filter_nil]
      by_cases he : prioOf adds (roster c adds)[m] = pr <;> simp [he]
    · rw [List.getElem?_eq_none h1, h.unused hc hl hp m (by omega) (by omega), unused_prio hc, if_neg (by omega)]
      rfl

theorem cnt_sharing {c : Cfg} (hc : c.WF) {adds : List (Desc × Nat)} {f : Nat → Task c.tw} (h : Sorted c adds f)
    (hl : adds.length ≤ c.N) (hp : ∀ a ∈ adds, a.2 < c.N) {p k : Nat} (hk : (roster c adds)[p]? = some k) :
    cnt f c.N (f p).prio = sharing adds k := by
  have hm := mem_roster (List.mem_of_getElem? hk)
  rw [sorted_at hc h hl hp hk, prioOf_eq hm.1, cnt_roster hc h hl hp c.N _ (Nat.le_refl _) hm.2]
  rw [List.take_of_length_le (by rw [roster_length hc hl hp]; exact hl), roster_filter c adds _ hm.2]
  rfl

theorem cnt_rank {c : Cfg} (hc : c.WF) {adds : List (Desc × Nat)} {f : Nat → Task c.tw} (h : Sorted c adds f)
    (hl : adds.length ≤ c.N) (hp : ∀ a ∈ adds, a.2 < c.N) {p k : Nat} (hk : (roster c adds)[p]? = some k) :
    cnt f p (f p).prio = rank adds k := by
  have hm := mem_roster (List.mem_of_getElem? hk)
  have hlen := roster_length hc hl hp
  obtain ⟨hlt, hk'⟩ := List.getElem?_eq_some_iff.1 hk
  rw [sorted_at hc h hl hp hk, prioOf_eq hm.1, cnt_roster hc h hl hp p _ (by omega) hm.2]
  have hsplit : roster c adds = (roster c adds).take p ++ k :: (roster c adds).drop (p + 1) := by
    rw [← hk', ← List.drop_eq_getElem_cons hlt, List.take_append_drop]
  have hnd : ((roster c adds).filter (fun j => prioOf adds j = prioOf adds k)).Nodup := List.Pairwise.filter _ (roster_nodup c adds)
  have hL := roster_filter c adds _ hm.2
  have hr : List.range adds.length = List.range k ++ k :: List.range' (k + 1) (adds.length - (k + 1)) := by
    rw [range_split (Nat.le_of_lt hm.1)]
    congr 1
    have : adds.length - k = (adds.length - (k + 1)) + 1 := by have := hm.1; omega
    rw [this, List.range'_succ]
  have e1 : (roster c adds).filter (fun j => prioOf adds j = prioOf adds k) =
      ((roster c adds).take p).filter (fun j => prioOf adds j = prioOf adds k) ++ k ::
        ((roster c adds).drop (p + 1)).filter (fun j => prioOf adds j = prioOf adds k) := by
    conv => lhs; rw [hsplit]
    rw [List.filter_append, List.filter_cons]; simp
  have e2 : (List.range adds.length).filter (fun j => prioOf adds j = prioOf adds k) =
      (List.range k).filter (fun j => prioOf adds j = prioOf adds k) ++ k ::
        (List.range' (k + 1) (adds.length - (k + 1))).filter (fun j => prioOf adds j = prioOf adds k) := by
    rw [hr, List.filter_append, List.filter_cons]; simp
  rw [e1] at hnd
  have hnot1 : k ∉ ((roster c adds).take p).filter (fun j => prioOf adds j = prioOf adds k) := by
    rw [List.nodup_append] at hnd
    intro hmem; exact hnd.2.2 k hmem k (by simp) rfl
  have hnot2 : k ∉ (List.range k).filter (fun j => prioOf adds j = prioOf adds k) := by simp
  rw [e1, e2] at hL
  have h3 := congrArg (List.idxOf k) hL
  rw [List.idxOf_append, List.idxOf_append, if_neg hnot1, if_neg hnot2] at h3
  simpa [rank] using h3

/-! ## The relation -/

/-- life of a task in the code and in the specification -/
def StatusRel {tw : Nat} (now : BitVec tw) (t : Task tw) : Status → Prop
  | .ready => t.state = .ready
  | .asleep k => 0 < k ∧ t.state = .sleep ∧ (t.tick - now).toNat = k
  | .dead => t.state = .empty

structure Rel (c : Cfg) (adds : List (Desc × Nat)) (s : Core c.tw) (w : World) : Prop where
  inv : Inv c s
  tick : s.tick = now c w
  post : s.postponed = w.again
  run : w.running = (roster c adds)[s.index]?
  len : (roster c adds).length ≤ c.N
  shr : ∀ p k, (roster c adds)[p]? = some k → sharers c s p = sharing adds k
  trn : ∀ p k, (roster c adds)[p]? = some k → turn c s p = rank adds k
  st : ∀ p k, (roster c adds)[p]? = some k → StatusRel s.tick (s.task p) (w.status k)
  un : ∀ p, (roster c adds).length ≤ p → p < c.N → (s.task p).state = .empty
  miss : ∀ p k, (roster c adds)[p]? = some k → (s.task p).miss = w.late k
  sp : ∀ p, p < (roster c adds).length ∨ p = c.N → (s.task p).sp = w.ctx (roster c adds)[p]?
  bottom : ∀ p, p < (roster c adds).length ∨ p = c.N → (s.task p).bottom = (descOf c adds (roster c adds)[p]?).stack
  top : ∀ p, p < (roster c adds).length ∨ p = c.N → (s.task p).top =
    (descOf c adds (roster c adds)[p]?).stack + (descOf c adds (roster c adds)[p]?).stackCount

theorem Rel.used {c : Cfg} {adds : List (Desc × Nat)} {s : Core c.tw} {w : World} (h : Rel c adds s w) {p : Nat}
    (hp : p ≤ c.N) (ha : Avail c s p) : p < (roster c adds).length ∨ p = c.N := by
  by_cases h1 : p < (roster c adds).length
  · exact .inl h1
  · by_cases h2 : p = c.N
    · exact .inr h2
    · have := h.un p (by omega) (by omega)
      rw [ha.1] at this; cases this

theorem Rel.avail_iff {c : Cfg} {adds : List (Desc × Nat)} {s : Core c.tw} {w : World} (h : Rel c adds s w) {p k : Nat}
    (hk : (roster c adds)[p]? = some k) : Avail c s p ↔ eligible c adds w k = true := by
  have hlt := (List.getElem?_eq_some_iff.1 hk).1
  have hlen := h.len
  have h1 := h.inv.eligible_iff p
  have h2 : Avail c s p ↔ Eligible c s p := by
    rw [h1]; exact ⟨fun a => ⟨by omega, a⟩, fun a => a.2⟩
  rw [h2]
  unfold Eligible eligible
  rw [h.shr p k hk, h.trn p k hk, ← h.tick]
  have h3 := h.st p k hk
  simp only [Bool.and_eq_true, decide_eq_true_eq]
  constructor
  · rintro ⟨_, a, b⟩
    refine ⟨?_, b⟩
    cases hst : w.status k with
    | ready => rfl
    | asleep m => rw [hst] at h3; rw [h3.2.1] at a; cases a
    | dead => rw [hst] at h3; rw [show (s.task p).state = .empty from h3] at a; cases a
  · rintro ⟨a, b⟩
    rw [a] at h3
    exact ⟨by omega, h3, b⟩

theorem find_drop {α : Type} (P : α → Bool) : ∀ (l : List α) (i j : Nat), i ≤ j →
    (∀ q a, i ≤ q → q < j → l[q]? = some a → P a = false) → (∀ a, l[j]? = some a → P a = true) →
    (l.drop i).find? P = l[j]? := by
  intro l
  induction l with
  | nil => intro i j _ _ _; simp
  | cons x l ih =>
    intro i j hij h1 h2
    cases i with
    | succ i =>
      obtain ⟨j, rfl⟩ : ∃ j', j = j' + 1 := ⟨j - 1, by omega⟩
      simp only [List.drop_succ_cons, List.getElem?_cons_succ]
      exact ih i j (by omega) (fun q a b1 b2 b3 => h1 (q + 1) a (by omega) (by omega) (by simpa using b3))
        (fun a ha => h2 a (by simpa using ha))
    | zero =>
      cases j with
      | zero => simp only [List.drop_zero]; rw [List.find?_cons_of_pos (h2 x (by simp))]; simp
      | succ j =>
        simp only [List.drop_zero]
        rw [List.find?_cons_of_neg (by rw [h1 0 x (by omega) (by omega) (by simp)]; simp)]
        have := ih 0 j (by omega) (fun q a b1 b2 b3 => h1 (q + 1) a (by omega) (by omega) (by simpa using b3))
          (fun a ha => h2 a (by simpa using ha))
        simpa using this

/-- the choice of the specification, from the scan of the code -/
theorem Rel.choose_eq {c : Cfg} {adds : List (Desc × Nat)} {s : Core c.tw} {w : World} (h : Rel c adds s w) {i j : Nat}
    (hij : i ≤ j) (h1 : ∀ q, i ≤ q → q < j → ¬ Avail c s q) (h2 : j < (roster c adds).length → Avail c s j) :
    choose c adds w i = (roster c adds)[j]? := by
  apply find_drop _ _ _ _ hij
  · intro q a b1 b2 b3
    have := h1 q b1 b2
    rw [h.avail_iff b3] at this
    simpa using this
  · intro a ha
    exact (h.avail_iff ha).1 (h2 (List.getElem?_eq_some_iff.1 ha).1)

theorem roster_inj {c : Cfg} {adds : List (Desc × Nat)} {p q : Nat} (hlen : (roster c adds).length ≤ c.N)
    (hp : p < (roster c adds).length ∨ p = c.N) (hq : q < (roster c adds).length ∨ q = c.N)
    (h : (roster c adds)[p]? = (roster c adds)[q]?) : p = q := by
  have hnd := roster_nodup c adds
  by_cases h1 : p < (roster c adds).length
  · exact (List.getElem?_inj h1 hnd).1 h
  · by_cases h2 : q < (roster c adds).length
    · exact ((List.getElem?_inj h2 hnd).1 h.symm).symm
    · omega

theorem now_succ (c : Cfg) (w : World) (t : Nat) (h : t = w.ticks + 1) : BitVec.ofNat c.tw t - 1 = now c w + 1 := by
  subst h
  unfold now
  have : BitVec.ofNat c.tw (w.ticks + 1) = BitVec.ofNat c.tw w.ticks + 1 := by
    rw [BitVec.ofNat_add]; rfl
  rw [this]; grind

/-- what an event does to the saved stack pointers -/
theorem Rel.sp_save {c : Cfg} {adds : List (Desc × Nat)} {s s' : Core c.tw} {w : World} (h : Rel c adds s w) {sp : Nat}
    (h1 : ∀ q, q ≠ s.index → (s'.task q).sp = (s.task q).sp) (h2 : (s'.task s.index).sp = sp) (p : Nat)
    (hp : p < (roster c adds).length ∨ p = c.N) : (s'.task p).sp = (w.save sp).ctx (roster c adds)[p]? := by
  have hu := h.used h.inv.idx h.inv.av
  unfold World.save
  simp only []
  rw [h.run]
  by_cases hpi : p = s.index
  · subst hpi; rw [if_pos rfl, h2]
  · rw [if_neg (fun he => hpi (roster_inj h.len hp hu he)), h1 p hpi, h.sp p hp]

theorem rel_tick {c : Cfg} {adds : List (Desc × Nat)} {s s' : Core c.tw} {w : World} {e : Ev c.tw}
    (h : Rel c adds s w) (r : TickRes c s e s') : Rel c adds s' ((w.save e.sp).onTick c adds) := by
  have hp : ∀ q, (s'.task q).prio = (s.task q).prio := fun q => (r.static q).prio
  have hlen := h.len
  have htk : ∀ q, (s'.task q).tick = (s.task q).tick := by
    intro q
    by_cases hq : q = s.index
    · subst hq; exact r.curTick
    · exact (r.other q hq).tick
  have hms : ∀ q, (s'.task q).miss = (s.task q).miss := by
    intro q
    by_cases hq : q = s.index
    · subst hq; exact r.curMiss
    · exact (r.other q hq).miss
  -- the world before the choice
  let w1 : World := { w.save e.sp with ticks := w.ticks + 1, status := fun k => (w.status k).tick, again := false,
                                       running := (roster c adds)[s'.index]? }
  have hn : now c w1 = now c w + 1 := now_succ c w _ rfl
  have hrel : Rel c adds s' w1 := by
    refine ⟨inv_tick h.inv r, ?_, r.postponed, rfl, hlen, ?_, ?_, ?_, ?_, ?_, ?_, ?_, ?_⟩
    · rw [r.tick, hn, h.tick]
    · intro p k hk; rw [sharers_congr hp]; exact h.shr p k hk
    · intro p k hk; rw [turn_congr hp]; exact h.trn p k hk
    · intro p k hk
      have hlt := (List.getElem?_eq_some_iff.1 hk).1
      have h0 := h.st p k hk
      have h1 := r.state p (by omega)
      show StatusRel _ _ (w.status k).tick
      cases hst : w.status k with
      | ready =>
        rw [hst] at h0
        have h0 : (s.task p).state = .ready := h0
        show (s'.task p).state = .ready
        rw [h1, h0]; simp
      | dead =>
        rw [hst] at h0
        have h0 : (s.task p).state = .empty := h0
        show (s'.task p).state = .empty
        rw [h1, h0]; simp
      | asleep m =>
        rw [hst] at h0
        obtain ⟨h2, h3, h4⟩ := h0
        match m, h2, h4 with
        | 1, _, h4 =>
          show (s'.task p).state = .ready
          rw [h1, if_pos ⟨h3, (countdown_wake h4).2 rfl⟩]
        | m + 2, _, h4 =>
          refine ⟨by omega, ?_, ?_⟩
          · rw [h1, if_neg, h3]
            rintro ⟨_, h5⟩
            have := (countdown_wake h4).1 h5
            omega
          · rw [htk, r.tick]; exact countdown_step h4
    · intro p h1 h2; rw [r.state p (by omega), h.un p h1 h2]; simp
    · intro p k hk; rw [hms]; exact h.miss p k hk
    · exact h.sp_save (fun q hq => (r.other q hq).sp) r.curSp
    · intro p hp; rw [(r.static p).bottom]; exact h.bottom p hp
    · intro p hp; rw [(r.static p).top]; exact h.top p hp
  have hch := hrel.choose_eq (i := 0) (j := s'.index) (by omega) (fun q _ h2 => r.least q h2) (fun _ => r.av)
  have heq : (w.save e.sp).onTick c adds = w1 := by
    have hw : (choose c adds ({ w.save e.sp with ticks := w.ticks + 1, status := fun k => (w.status k).tick, again := false }) 0) =
        (roster c adds)[s'.index]? := hch
    unfold World.onTick
    show ({ w.save e.sp with ticks := w.ticks + 1, status := fun k => (w.status k).tick, again := false,
                              running := choose c adds ({ w.save e.sp with ticks := w.ticks + 1, status := fun k => (w.status k).tick, again := false }) 0 } : World) = w1
    rw [hw]
  rw [heq]; exact hrel

/-- what a call does to the caller -/
theorem call_facts {c : Cfg} {adds : List (Desc × Nat)} {s : Core c.tw} {w : World} {e : Ev c.tw} {k : Nat}
    (h : Rel c adds s w) (hk : (roster c adds)[s.index]? = some k) (hnp : nullPeriod e.call = false) :
    ((w.save e.sp).call c k e.call).2 = callerOut c s e ∧
    ((w.save e.sp).call c k e.call).1.again = callerPost s e.call ∧
    ((w.save e.sp).call c k e.call).1.ticks = w.ticks ∧
    ((w.save e.sp).call c k e.call).1.ctx = (w.save e.sp).ctx ∧
    (∀ j, j ≠ k → ((w.save e.sp).call c k e.call).1.status j = w.status j ∧ ((w.save e.sp).call c k e.call).1.late j = w.late j) ∧
    ((w.save e.sp).call c k e.call).1.late k = (callerTask c s e).miss ∧
    StatusRel s.tick (callerTask c s e) (((w.save e.sp).call c k e.call).1.status k) := by
  have hst := h.st _ k hk
  have hready : (s.task s.index).state = .ready := h.inv.av.1
  have hms := h.miss _ k hk
  have hpost := h.post
  have htick := h.tick
  have hwr : w.status k = .ready := by
    cases hw : w.status k with
    | ready => rfl
    | asleep m => rw [hw] at hst; rw [hst.2.1] at hready; cases hready
    | dead => rw [hw] at hst; rw [show (s.task s.index).state = .empty from hst] at hready; cases hready
  have hnow : ∀ sp, now c (w.save sp) = now c w := fun _ => rfl
  unfold callerOut callerTask
  cases hcall : e.call with
  | tick =>
    refine ⟨rfl, hpost.symm, rfl, rfl, fun j hj => ⟨rfl, rfl⟩, hms.symm, ?_⟩
    show StatusRel _ _ (w.status k); rw [hwr]; exact hready
  | postpone =>
    refine ⟨rfl, rfl, rfl, rfl, fun j hj => ⟨rfl, rfl⟩, hms.symm, ?_⟩
    show StatusRel _ _ (w.status k); rw [hwr]; exact hready
  | kill =>
    refine ⟨rfl, hpost.symm, rfl, rfl, fun j hj => ⟨?_, rfl⟩, hms.symm, ?_⟩
    · show upd w.status k _ j = _; rw [upd_ne _ _ hj]
    · show StatusRel _ _ (upd w.status k _ k); rw [upd_same]; rfl
  | sleep d =>
    by_cases hd : d.toNat = 0
    · have e1 : ((w.save e.sp).call c k (.sleep d)) = (w.save e.sp, 0, false) := by
        show ((if d.toNat = 0 then w.save e.sp else _), _, _) = _
        rw [if_pos hd]
      have e2 : syscallSleep s { s.task s.index with sp := e.sp } d = { s.task s.index with sp := e.sp } := by
        unfold syscallSleep; rw [if_neg (by omega)]
      rw [e1]; simp only []; rw [e2]
      refine ⟨trivial, hpost.symm, rfl, by trivial, fun j hj => ⟨rfl, rfl⟩, hms.symm, ?_⟩
      show StatusRel _ _ (w.status k); rw [hwr]; exact hready
    · have e1 : ((w.save e.sp).call c k (.sleep d)) = ((w.save e.sp).set k (.asleep d.toNat), 0, false) := by
        show ((if d.toNat = 0 then w.save e.sp else _), _, _) = _
        rw [if_neg hd]
      have e2 : syscallSleep s { s.task s.index with sp := e.sp } d =
          { s.task s.index with sp := e.sp, tick := s.tick + d, state := .sleep } := by
        unfold syscallSleep; rw [if_pos (by omega)]
      rw [e1]; simp only []; rw [e2]
      refine ⟨trivial, hpost.symm, rfl, rfl, fun j hj => ⟨?_, rfl⟩, hms.symm, ?_⟩
      · show upd w.status k _ j = _; rw [upd_ne _ _ hj]
      · show StatusRel _ _ (upd w.status k _ k); rw [upd_same]
        refine ⟨by omega, rfl, ?_⟩
        show (s.tick + d - s.tick).toNat = d.toNat
        congr 1; grind
  | sleepUntil ref period =>
    have hpd : period.toNat ≠ 0 := by
      rw [hcall] at hnp
      simpa [nullPeriod] using hnp
    by_cases hel : (s.tick - ref).toNat < period.toNat
    · have e1 : ((w.save e.sp).call c k (.sleepUntil ref period)) =
          ({ (w.save e.sp).set k (.asleep (period.toNat - (s.tick - ref).toNat)) with late := upd w.late k 0 }, ref + period, false) := by
        unfold World.call
        simp only []
        rw [hnow, ← htick, if_pos hel]; rfl
      have e2 : syscallSleepUntil c s { s.task s.index with sp := e.sp } ref period =
          ({ s.task s.index with sp := e.sp, tick := ref + period, state := .sleep, miss := 0 }, ref + period, false) := by
        unfold syscallSleepUntil; simp only []; rw [if_pos hel]
      rw [e1]; simp only []; rw [e2]
      refine ⟨rfl, hpost.symm, rfl, rfl, fun j hj => ⟨?_, ?_⟩, ?_, ?_⟩
      · show upd w.status k _ j = _; rw [upd_ne _ _ hj]
      · show upd w.late k _ j = _; rw [upd_ne _ _ hj]
      · show upd w.late k _ k = _; rw [upd_same]
      · show StatusRel _ _ (upd w.status k _ k); rw [upd_same]
        refine ⟨by omega, rfl, ?_⟩
        show (ref + period - s.tick).toNat = _
        have : ref + period - s.tick = period - (s.tick - ref) := by grind
        rw [this, BitVec.toNat_sub_of_le (by rw [BitVec.le_def]; omega)]
    · have e1 : ((w.save e.sp).call c k (.sleepUntil ref period)) =
          ({ w.save e.sp with late := upd w.late k ((w.late k + 1) % 2 ^ c.sw) },
            if (w.late k + 1) % 2 ^ c.sw > c.D then (s.tick, true) else (ref, false)) := by
        unfold World.call
        simp only []
        rw [hnow, ← htick, if_neg hel]
        show (if (w.late k + 1) % 2 ^ c.sw > c.D then _ else _) = _
        split
        · rw [htick]; rfl
        · rfl
      have e2 : syscallSleepUntil c s { s.task s.index with sp := e.sp } ref period =
          ({ s.task s.index with sp := e.sp, miss := ((s.task s.index).miss + 1) % 2 ^ c.sw, statMiss := ((s.task s.index).statMiss + 1) % 2 ^ c.sw },
            if ((s.task s.index).miss + 1) % 2 ^ c.sw > c.D then (s.tick, true) else (ref, false)) := by
        unfold syscallSleepUntil; simp only []; rw [if_neg hel]; split <;> rfl
      rw [e1]; simp only []; rw [e2]
      refine ⟨?_, hpost.symm, rfl, by trivial, fun j hj => ⟨rfl, ?_⟩, ?_, ?_⟩
      · rw [hms]
      · show upd w.late k _ j = _; rw [upd_ne _ _ hj]
      · show upd w.late k _ k = _; rw [upd_same, hms]
      · show StatusRel _ _ (w.status k); rw [hwr]; exact hready

theorem rel_sys {c : Cfg} {adds : List (Desc × Nat)} {s s' : Core c.tw} {w : World} {e : Ev c.tw} {k : Nat}
    (h : Rel c adds s w) (r : SysRes c s e s') (hu : s.index < c.N) (hk : (roster c adds)[s.index]? = some k)
    (hnp : nullPeriod e.call = false) :
    Rel c adds s' (((w.save e.sp).call c k e.call).1.yield c adds k) := by
  obtain ⟨_, f2, f3, f4, f5, f6, f7⟩ := call_facts h hk hnp
  generalize ((w.save e.sp).call c k e.call).1 = w1 at f2 f3 f4 f5 f6 f7 ⊢
  have hp : ∀ q, (s'.task q).prio = (s.task q).prio := fun q => (r.static q).prio
  have hlen := h.len
  have hnd := roster_nodup c adds
  have hlt := (List.getElem?_eq_some_iff.1 hk).1
  have hne : ∀ p j, (roster c adds)[p]? = some j → p ≠ s.index → j ≠ k := by
    intro p j hj hpi hjk
    subst hjk
    exact hpi ((List.getElem?_inj (List.getElem?_eq_some_iff.1 hj).1 hnd).1 (hj.trans hk.symm))
  let w2 : World := { w1 with running := (roster c adds)[s'.index]?, again := s'.postponed }
  have hrel : Rel c adds s' w2 := by
    refine ⟨inv_sys h.inv hu r, ?_, rfl, rfl, hlen, ?_, ?_, ?_, ?_, ?_, ?_, ?_, ?_⟩
    · rw [r.tick, h.tick]; show BitVec.ofNat _ w.ticks - 1 = BitVec.ofNat _ w1.ticks - 1; rw [f3]
    · intro p j hj; rw [sharers_congr hp]; exact h.shr p j hj
    · intro p j hj; rw [turn_congr hp]; exact h.trn p j hj
    · intro p j hj
      show StatusRel _ _ (w1.status j)
      rw [r.tick]
      by_cases hpi : p = s.index
      · subst hpi
        rw [hk] at hj; injection hj with hj; subst hj
        have hct := callerTask_facts c s e
        have e1 : (s'.task s.index).state = (callerTask c s e).state := r.curState.trans hct.2.2.2.1.symm
        have e2 : (s'.task s.index).tick = (callerTask c s e).tick := r.curTick.trans hct.2.2.1.symm
        unfold StatusRel at f7 ⊢
        rw [e1, e2]; exact f7
      · rw [(f5 j (hne p j hj hpi)).1]
        have := h.st p j hj
        unfold StatusRel at this ⊢
        rw [(r.other p hpi).2, (r.other p hpi).1.tick]; exact this
    · intro p h1 h2
      rw [(r.other p (by omega)).2]; exact h.un p h1 h2
    · intro p j hj
      show _ = w1.late j
      by_cases hpi : p = s.index
      · subst hpi
        rw [hk] at hj; injection hj with hj; subst hj
        rw [f6]; exact r.curMiss
      · rw [(f5 j (hne p j hj hpi)).2, (r.other p hpi).1.miss]; exact h.miss p j hj
    · intro p hp
      show _ = w1.ctx _
      rw [f4]
      exact h.sp_save (fun q hq => (r.other q hq).1.sp) r.curSp p hp
    · intro p hp; rw [(r.static p).bottom]; exact h.bottom p hp
    · intro p hp; rw [(r.static p).top]; exact h.top p hp
  have hidx : (roster c adds).idxOf k = s.index := by
    obtain ⟨hlt', hk'⟩ := List.getElem?_eq_some_iff.1 hk
    rw [← hk']; exact hnd.idxOf_getElem _ hlt'
  have hsame : ∀ i, choose c adds w1 i = choose c adds w2 i := fun _ => rfl
  have heq : w1.yield c adds k = w2 := by
    unfold World.yield
    rw [hidx, hsame, hsame, f2]
    have hg := r.goes
    show _ = ({ w1 with running := (roster c adds)[s'.index]?, again := s'.postponed } : World)
    generalize hb : s'.postponed = b at hg
    generalize hj : s'.index = j at hg
    cases hg with
    | next h1 h2 h3 h4 h5 =>
      rw [hrel.choose_eq (j := j) (by omega) (fun q a1 a2 => h4 q (by omega) a2) (fun _ => h3)]
      rcases hrel.used h2 h3 with hu' | hu'
      · rw [List.getElem?_eq_getElem hu']; try rw [← f2]
      · rw [List.getElem?_eq_none (by omega)]; simp only []
        rw [if_neg (by rw [h5 hu']; simp), ← f2]
    | wrap h1 h2 h3 h4 h5 =>
      rw [hrel.choose_eq (i := s.index + 1) (j := c.N) (by omega) (fun q a1 a2 => h2 q (by omega) a2) (fun h => by omega)]
      rw [List.getElem?_eq_none hlen]; simp only []
      rw [h1, if_pos rfl, hrel.choose_eq (i := 0) (j := j) (by omega) (fun q _ a2 => h5 q a2) (fun _ => h4)]
  rw [heq]; exact hrel

/-- one event: the code and the specification agree, and stay related -/
theorem rel_step {c : Cfg} (hc : c.WF) {adds : List (Desc × Nat)} {s : Core c.tw} {w : World} (h : Rel c adds s w) (e : Ev c.tw) :
    (∃ s' o w' a, step c s e = .ok (s', o) ∧ w.step c adds e = .ok (w', a) ∧ Rel c adds s' w' ∧
      o = ⟨(s'.task s'.index).sp, a.1, a.2⟩) ∨
    (step c s e = .fatal ∧ w.step c adds e = .fatal) := by
  have hu := h.used h.inv.idx h.inv.av
  have hb := h.bottom _ hu
  have ht := h.top _ hu
  rw [← h.run] at hb ht
  by_cases hsp : SpOk s e.sp
  · have hsp' := hsp
    unfold SpOk at hsp'
    rw [hb, ht] at hsp'
    by_cases htk : e.call = .tick
    · left
      obtain ⟨s', h1, h2⟩ := tickFn_spec hc s e h.inv hsp
      refine ⟨s', _, (w.save e.sp).onTick c adds, (0, false), ?_, ?_, rel_tick h h2, rfl⟩
      · unfold step; rw [htk]; exact h1
      · unfold World.step; simp only []; rw [if_pos hsp', htk]
    · by_cases hnp : nullPeriod e.call = true
      · right
        obtain ⟨r, p, hcall⟩ : ∃ r p, e.call = .sleepUntil r p := by
          cases hcall : e.call with
          | sleepUntil r p => exact ⟨r, p, rfl⟩
          | _ => rw [hcall] at hnp; cases hnp
        have hp0 : p.toNat = 0 := by rw [hcall] at hnp; simpa [nullPeriod] using hnp
        constructor
        · unfold step; rw [hcall]; simp [hp0]
        · unfold World.step; simp only []
          rw [if_pos hsp', hcall]
          cases (w.save e.sp).running with
          | none => rfl
          | some k => simp [nullPeriod, hp0]
      · have hnp : nullPeriod e.call = false := by simpa using hnp
        have hper : ∀ r p, e.call = .sleepUntil r p → p.toNat > 0 := by
          intro r p hcall
          rw [hcall] at hnp
          have : p.toNat ≠ 0 := by simpa [nullPeriod] using hnp
          omega
        have hst := step_syscall h.inv e htk hper
        rcases Nat.lt_or_ge s.index (roster c adds).length with hlt | hge
        · left
          have hN : s.index < c.N := Nat.lt_of_lt_of_le hlt h.len
          have hk : (roster c adds)[s.index]? = some (roster c adds)[s.index] := List.getElem?_eq_getElem hlt
          generalize (roster c adds)[s.index] = k at hk
          obtain ⟨s', h1, h2⟩ := syscall_spec hc s e h.inv hsp hN htk
          refine ⟨s', _, ((w.save e.sp).call c k e.call).1.yield c adds k, callerOut c s e, hst.trans h1, ?_,
            rel_sys h h2 hN hk hnp, rfl⟩
          have hcf := (call_facts (e := e) h hk hnp).1
          unfold World.step; simp only []
          rw [if_pos hsp']
          have hrun : (w.save e.sp).running = some k := h.run.trans hk
          rw [hrun]
          cases hcall : e.call with
          | tick => exact absurd hcall htk
          | _ => rw [hcall] at hnp hcf; simp only []; rw [hnp, ← hcf]; rfl
        · right
          have hN : s.index = c.N := by omega
          constructor
          · rw [hst]; exact syscall_idle hc s e hN
          · have hrun : (w.save e.sp).running = none := h.run.trans (List.getElem?_eq_none hge)
            unfold World.step; simp only []
            rw [if_pos hsp', hrun]
            cases hcall : e.call with
            | tick => exact absurd hcall htk
            | _ => rfl
  · right
    constructor
    · by_cases htk : e.call = .tick
      · unfold step; rw [htk]; exact tickFn_badSp s e hsp
      · by_cases hnp : ∀ r p, e.call = .sleepUntil r p → p.toNat > 0
        · rw [step_syscall h.inv e htk hnp]; exact syscall_badSp s e hsp
        · cases hcall : e.call with
          | sleepUntil r p =>
            have : p.toNat = 0 := by
              rcases Nat.eq_zero_or_pos p.toNat with h0 | h0
              · exact h0
              · exfalso; apply hnp; intro r' p' he; rw [hcall] at he; injection he with _ he; subst he; exact h0
            unfold step; rw [hcall]; simp [this]
          | _ => exact absurd (fun r p he => by rw [hcall] at he; cases he) hnp
    · unfold World.step; simp only []
      rw [if_neg]
      unfold SpOk at hsp; rw [hb, ht] at hsp; exact hsp

theorem rel_run {c : Cfg} (hc : c.WF) {adds : List (Desc × Nat)} : ∀ (evs : List (Ev c.tw)) (s : Core c.tw) (w : World),
    Rel c adds s w → implRun c s evs = w.run c adds evs := by
  intro evs
  induction evs with
  | nil => intro s w _; rfl
  | cons e es ih =>
    intro s w h
    rcases rel_step hc h e with ⟨s', o, w', a, h1, h2, h3, h4⟩ | ⟨h1, h2⟩
    · unfold implRun World.run
      rw [h1, h2]
      simp only [Res.ok_bind]
      rw [ih s' w' h3]
      have hu := h3.used h3.inv.idx h3.inv.av
      have : (⟨(s'.task s'.index).bottom, s'.tick, o.sp, o.ref, o.brk⟩ : Obs c.tw) = w'.obs c adds a := by
        rw [h4]
        unfold World.obs
        rw [h3.run, h3.bottom _ hu, h3.sp _ hu, h3.tick]
      rw [this]
    · unfold implRun World.run
      rw [h1, h2]; rfl

theorem rel_start {c : Cfg} (hc : c.WF) {strict : Bool} {adds : List (Desc × Nat)} {s : Core c.tw}
    (h : boot c strict adds = .ok s) : Rel c adds s (World.start c adds) := by
  obtain ⟨hp, hl⟩ := boot_legal hc h
  have hinv := boot_inv hc h
  obtain ⟨f, g, hf, hg, rfl⟩ := boot_shape hc h
  have hlen := roster_length hc hl hp
  have hN : numbered f c.N c.N = idleTask c := by unfold numbered; rw [if_neg (by omega)]; exact hf.idle
  have hat : ∀ p k, (roster c adds)[p]? = some k → ∃ hk : k < adds.length,
      numbered f c.N p = { addedTask c adds[k] with subPrio := cnt f p (f p).prio } := by
    intro p k hk
    have hlt := (List.getElem?_eq_some_iff.1 hk).1
    have hm := (mem_roster (List.mem_of_getElem? hk)).1
    refine ⟨hm, ?_⟩
    unfold numbered
    rw [if_pos (by omega)]
    conv => lhs; rw [show f p = addedTask c adds[k] by rw [sorted_at hc hf hl hp hk, addedTable_lt hm]]
    rw [show f p = addedTask c adds[k] by rw [sorted_at hc hf hl hp hk, addedTable_lt hm]]
  refine ⟨hinv, ?_, rfl, ?_, by omega, ?_, ?_, ?_, ?_, ?_, ?_, ?_, ?_⟩
  · show (-1 : BitVec c.tw) = BitVec.ofNat c.tw 0 - 1
    grind
  · show none = (roster c adds)[c.N]?
    rw [List.getElem?_eq_none (by omega)]
  · intro p k hk
    rw [← cnt_sharing hc hf hl hp hk]
    unfold sharers cnt; simp only [numbered_prio]
  · intro p k hk
    rw [← cnt_rank hc hf hl hp hk]
    unfold turn cnt; simp only [numbered_prio]
  · intro p k hk
    obtain ⟨_, h2⟩ := hat p k hk
    show (numbered f c.N p).state = .ready
    rw [h2]; rfl
  · intro p h1 h2
    show (numbered f c.N p).state = .empty
    rw [numbered_state, hf.unused hc hl hp p h2 (by omega)]; rfl
  · intro p k hk
    obtain ⟨_, h2⟩ := hat p k hk
    show (numbered f c.N p).miss = 0
    rw [h2]; rfl
  · rintro p (h1 | h1)
    · have hk : (roster c adds)[p]? = some (roster c adds)[p] := List.getElem?_eq_getElem h1
      obtain ⟨h3, h2⟩ := hat p _ hk
      show (numbered f c.N p).sp = _
      rw [h2, hk]
      simp only [World.start, descOf, List.getElem?_eq_getElem h3]; rfl
    · subst h1
      show (numbered f c.N c.N).sp = _
      rw [hN, List.getElem?_eq_none (by omega)]; rfl
  · rintro p (h1 | h1)
    · have hk : (roster c adds)[p]? = some (roster c adds)[p] := List.getElem?_eq_getElem h1
      obtain ⟨h3, h2⟩ := hat p _ hk
      show (numbered f c.N p).bottom = _
      rw [h2, hk]
      simp only [descOf, List.getElem?_eq_getElem h3]; rfl
    · subst h1
      show (numbered f c.N c.N).bottom = _
      rw [hN, List.getElem?_eq_none (by omega)]; rfl
  · rintro p (h1 | h1)
    · have hk : (roster c adds)[p]? = some (roster c adds)[p] := List.getElem?_eq_getElem h1
      obtain ⟨h3, h2⟩ := hat p _ hk
      show (numbered f c.N p).top = _
      rw [h2, hk]
      simp only [descOf, List.getElem?_eq_getElem h3]; rfl
    · subst h1
      show (numbered f c.N c.N).top = _
      rw [hN, List.getElem?_eq_none (by omega)]; rfl

/-- C47. Whatever the configuration, the tasks added and the history of timer ticks and calls, everything observed of the system -
which task runs, the system tick, the stack pointer a task resumes from, the result of `picoRTOS_sleep_until`, and the stalls - is what the
specification says. (The out-of-bounds write of `picoRTOS_start` with two unused slots, C13, is taken as harmless.) -/
theorem scheduler_refines_spec {c : Cfg} (hc : c.WF) (adds : List (Desc × Nat)) (evs : List (Ev c.tw)) :
    implTrace c adds evs = specTrace c adds evs := by
  unfold implTrace specTrace
  by_cases hl : adds.length ≤ c.N ∧ ∀ a ∈ adds, a.2 < c.N
  · rw [if_pos hl]
    obtain ⟨f, g, _, _, h3⟩ := boot_ok hc false hl.1 hl.2 (by simp)
    have hr := rel_start hc h3
    rw [h3]
    exact rel_run hc evs _ _ hr
  · rw [if_neg hl]
    unfold boot
    rw [addAll_iff hc, if_neg (fun h => hl ⟨h.2, h.1⟩)]
    rfl

/-- The same with the strict reading of `picoRTOS_start`, when at most one slot is unused. -/
theorem scheduler_refines_spec_strict {c : Cfg} (hc : c.WF) (adds : List (Desc × Nat)) (evs : List (Ev c.tw))
    (hfull : c.N ≤ adds.length + 1) : (do let s ← boot c true adds; implRun c s evs) = specTrace c adds evs := by
  unfold specTrace
  by_cases hl : adds.length ≤ c.N ∧ ∀ a ∈ adds, a.2 < c.N
  · rw [if_pos hl]
    obtain ⟨f, g, _, _, h3⟩ := boot_ok hc true hl.1 hl.2 (fun _ => hfull)
    have hr := rel_start hc h3
    rw [h3]
    exact rel_run hc evs _ _ hr
  · rw [if_neg hl]
    unfold boot
    rw [addAll_iff hc, if_neg (fun h => hl ⟨h.2, h.1⟩)]
    rfl

/-- A run of the demonstration system that observes a sleep, a postponement, a late `picoRTOS_sleep_until` and the death of a task. -/
example : (match specTrace Demo.cfg Demo.adds [Demo.ev .tick 5, Demo.ev (.sleep 2) 210, Demo.ev .tick 110, Demo.ev (.postpone) 310,
    Demo.ev .tick 320, Demo.ev (.sleepUntil 15 1) 211, Demo.ev .kill 110] with
    | .ok l => l.map (fun o => (o.stack, o.tick.toNat, o.sp))
    | _ => []) = [(200, 0, 249), (100, 0, 149), (300, 1, 349), (300, 1, 310), (200, 2, 210), (100, 2, 110), (0, 2, 5)] := by decide

end Pico.Sched
