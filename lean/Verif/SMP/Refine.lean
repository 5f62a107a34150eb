import Verif.SMP.AbsSpec
import Verif.SMP.Boot2
import Verif.SMP.Demo
import Verif.Sched.Refine

/-!
# The model of the SMP scheduler refines the specification of `Verif.SMP.AbsSpec`
-/

namespace Pico.SMP

open Pico.Sched (Desc Call Out Goes range_split eq_flatMap_of_sorted find_drop countdown_step countdown_wake)
open Abs

/-! ## The roster -/

theorem roster_filter (c : Cfg) (adds : List Add) (pr : Nat) (h : pr < c.N) :
    (roster c adds).filter (fun k => prioOf adds k = pr) = (List.range adds.length).filter (fun k => prioOf adds k = pr) := by
  unfold roster
  rw [List.filter_flatMap]
  have : ∀ N, pr < N → (List.range N).flatMap (fun q => List.filter (fun k => decide (prioOf adds k = pr))
      (List.filter (fun k => decide (prioOf adds k = q)) (List.range adds.length))) =
      (List.range adds.length).filter (fun k => prioOf adds k = pr) := by
    intro N
    induction N with
    | zero => intro h; omega
    | succ N ih =>
      intro h
      rw [List.range_succ, List.flatMap_append]
      simp only [List.flatMap_cons, List.flatMap_nil, List.append_nil]
      by_cases hN : pr = N
      · subst hN
        have e : (List.range pr).flatMap (fun q => List.filter (fun k => decide (prioOf adds k = pr))
            (List.filter (fun k => decide (prioOf adds k = q)) (List.range adds.length))) = [] := by
          rw [List.flatMap_eq_nil_iff]
          intro q hq
          have := List.mem_range.1 hq
          rw [List.filter_filter, List.filter_eq_nil_iff]
          intro a _
          simp only [Bool.and_eq_true, decide_eq_true_eq, not_and]
          omega
        rw [e, List.nil_append, List.filter_filter]
        congr 1; funext a; simp
      · rw [ih (by omega)]
        have e : List.filter (fun k => decide (prioOf adds k = pr)) (List.filter (fun k => decide (prioOf adds k = N)) (List.range adds.length)) = [] := by
          rw [List.filter_filter, List.filter_eq_nil_iff]
          intro a _
          simp only [Bool.and_eq_true, decide_eq_true_eq, not_and]
          omega
        rw [e, List.append_nil]
  exact this c.N h

theorem mem_roster {c : Cfg} {adds : List Add} {k : Nat} (h : k ∈ roster c adds) : k < adds.length ∧ prioOf adds k < c.N := by
  unfold roster at h
  rw [List.mem_flatMap] at h
  obtain ⟨pr, h1, h2⟩ := h
  simp only [List.mem_filter, List.mem_range, decide_eq_true_eq] at h1 h2
  exact ⟨h2.1, by omega⟩

theorem nodup_flatMap_filter (adds : List Add) : ∀ N, ((List.range N).flatMap
    (fun pr => (List.range adds.length).filter (fun k => prioOf adds k = pr))).Nodup := by
  intro N
  induction N with
  | zero => exact List.nodup_nil
  | succ N ih =>
    rw [List.range_succ, List.flatMap_append]
    simp only [List.flatMap_cons, List.flatMap_nil, List.append_nil]
    rw [List.nodup_append]
    refine ⟨ih, List.Pairwise.filter _ List.nodup_range, ?_⟩
    intro a ha b hb hab
    subst hab
    rw [List.mem_flatMap] at ha
    obtain ⟨q, hq, ha⟩ := ha
    simp only [List.mem_filter, List.mem_range, decide_eq_true_eq] at ha hb hq
    omega

theorem roster_nodup (c : Cfg) (adds : List Add) : (roster c adds).Nodup := nodup_flatMap_filter adds c.N

theorem prioOf_eq {c : Cfg} {adds : List Add} {k : Nat} (h : k < adds.length) :
    (addedTable c adds k).prio = prioOf adds k := by
  unfold addedTable prioOf; rw [List.getElem?_eq_getElem h]; rfl

/-- the sorted table, read through the roster -/
theorem sorted_roster {c : Cfg} (hc : c.WF) {adds : List Add} {f : Nat → Task c.tw} (h : Sorted c adds f)
    (hl : adds.length ≤ c.N) (hp : ∀ a ∈ adds, Legal c a) :
    (List.range c.N).map f = (roster c adds).map (addedTable c adds) ++ List.replicate (c.N - adds.length) (taskCoreInit c) := by
  have hK := hc.cores
  have h1 := eq_flatMap_of_sorted (fun t : Task c.tw => t.prio) (c.N + c.K + 1) ((List.range c.N).map f)
    (by
      rw [List.pairwise_map]
      refine List.Pairwise.imp_of_mem (R := fun a b => a < b) ?_ List.pairwise_lt_range
      intro a b ha hb hab
      exact h.sorted a b (by omega) (List.mem_range.1 hb))
    (by
      intro t ht
      rw [List.mem_map] at ht
      obtain ⟨q, hq, rfl⟩ := ht
      obtain ⟨r, h1, h2⟩ := h.exists q (List.mem_range.1 hq)
      rcases Nat.lt_or_ge r adds.length with hr | hr
      · rw [h2, addedTable_lt hr]
        have : (addedTask c adds[r]).prio < c.N := (hp _ (List.getElem_mem hr)).1
        omega
      · rw [h2, addedTable_ge hr (by omega), unused_prio hc]; omega)
  have h2 : ∀ pr, (((List.range c.N).map f).filter (fun t => decide (t.prio = pr))) =
      ((List.range c.N).map (addedTable c adds)).filter (fun t => decide (t.prio = pr)) := h.same
  rw [h1]
  simp only [h2]
  have hsplit : (List.range c.N).map (addedTable c adds) =
      (List.range adds.length).map (addedTable c adds) ++ List.replicate (c.N - adds.length) (taskCoreInit c) := by
    rw [map_addedTable hl]
    congr 1
    apply List.ext_getElem
    · simp
    · intro i h1 h2
      simp at h1
      simp [addedTable_lt h1]
  rw [hsplit]
  rw [List.range_succ, List.range_add]
  simp only [List.flatMap_append, List.flatMap_cons, List.flatMap_nil, List.append_nil, List.filter_append]
  have hused : ∀ pr, ((List.range adds.length).map (addedTable c adds)).filter (fun t => decide (t.prio = pr)) =
      ((List.range adds.length).filter (fun k => prioOf adds k = pr)).map (addedTable c adds) := by
    intro pr
    rw [List.filter_map]
    congr 1
    apply List.filter_congr
    intro k hk
    simp only [Function.comp_def]
    rw [prioOf_eq (List.mem_range.1 hk)]
  have hnone : ∀ pr, c.N ≤ pr → (List.range adds.length).filter (fun k => prioOf adds k = pr) = [] := by
    intro pr hpr
    rw [List.filter_eq_nil_iff]
    intro k hk
    have hk := List.mem_range.1 hk
    have : prioOf adds k < c.N := by
      unfold prioOf; rw [List.getElem?_eq_getElem hk]; exact (hp _ (List.getElem_mem hk)).1
    simp; omega
  have hrep : ∀ pr, pr ≠ c.N + c.K → (List.replicate (c.N - adds.length) (taskCoreInit c)).filter (fun t => decide (t.prio = pr)) = [] := by
    intro pr hpr
    rw [List.filter_eq_nil_iff]
    intro t ht
    rw [List.mem_replicate] at ht
    rw [ht.2, unused_prio hc]; simp; omega
  have hrep1 : (List.replicate (c.N - adds.length) (taskCoreInit c)).filter (fun t => decide (t.prio = c.N + c.K)) =
      List.replicate (c.N - adds.length) (taskCoreInit c) := by
    rw [List.filter_eq_self]
    intro t ht
    rw [List.mem_replicate] at ht
    rw [ht.2, unused_prio hc]; simp
  rw [hused, hnone (c.N + c.K) (by omega), hrep1]
  have hmid : ((List.range c.K).map (fun x => c.N + x)).flatMap (fun pr =>
      ((List.range adds.length).map (addedTable c adds)).filter (fun t => decide (t.prio = pr)) ++
      (List.replicate (c.N - adds.length) (taskCoreInit c)).filter (fun t => decide (t.prio = pr))) = [] := by
    rw [List.flatMap_eq_nil_iff]
    intro pr hpr
    rw [List.mem_map] at hpr
    obtain ⟨x, hx, rfl⟩ := hpr
    have := List.mem_range.1 hx
    rw [hused, hnone _ (by omega), hrep _ (by omega)]; rfl
  rw [hmid]
  simp only [List.map_nil, List.nil_append, List.append_nil]
  congr 1
  unfold roster
  rw [List.map_flatMap]
  unfold List.flatMap
  congr 1
  apply List.map_congr_left
  intro pr hpr
  have := List.mem_range.1 hpr
  rw [hused, hrep _ (by omega), List.append_nil]

theorem roster_length {c : Cfg} (hc : c.WF) {adds : List Add} (hl : adds.length ≤ c.N) (hp : ∀ a ∈ adds, Legal c a) :
    (roster c adds).length = adds.length := by
  obtain ⟨f, _, h⟩ := sortTasks_sorted hc hl
  have := congrArg List.length (sorted_roster hc h hl hp)
  simp at this
  omega

theorem sorted_at {c : Cfg} (hc : c.WF) {adds : List Add} {f : Nat → Task c.tw} (h : Sorted c adds f)
    (hl : adds.length ≤ c.N) (hp : ∀ a ∈ adds, Legal c a) {p k : Nat} (hk : (roster c adds)[p]? = some k) :
    f p = addedTable c adds k := by
  obtain ⟨hlt, hk⟩ := List.getElem?_eq_some_iff.1 hk
  have hlen := roster_length hc hl hp
  have h1 := congrArg (fun l => l[p]?) (sorted_roster hc h hl hp)
  rw [List.getElem?_append_left (by simpa using hlt)] at h1
  rw [List.getElem?_map, List.getElem?_map, List.getElem?_eq_getElem hlt, List.getElem?_range (by omega)] at h1
  simp at h1
  rw [h1, hk]

/-- counting the slots of a priority in the sorted table is counting the tasks of that priority in the roster -/
theorem cnt_roster {c : Cfg} (hc : c.WF) {adds : List Add} {f : Nat → Task c.tw} (h : Sorted c adds f)
    (hl : adds.length ≤ c.N) (hp : ∀ a ∈ adds, Legal c a) (m pr : Nat) (hm : m ≤ c.N) (hpr : pr < c.N) :
    cnt f m pr = (((roster c adds).take m).filter (fun k => prioOf adds k = pr)).length := by
  have hlen := roster_length hc hl hp
  induction m with
  | zero => simp [cnt]
  | succ m ih =>
    rw [cnt_succ, ih (by omega), List.take_add_one]
    rw [List.filter_append, List.length_append]
    congr 1
    rcases Nat.lt_or_ge m (roster c adds).length with h1 | h1
    · have hk : (roster c adds)[m]? = some (roster c adds)[m] := List.getElem?_eq_getElem h1
      rw [sorted_at hc h hl hp hk, hk, prioOf_eq (mem_roster (List.getElem_mem h1)).1]
      simp only [Option.toList_some, List.filter_cons, List.filter_nil]
      by_cases he : prioOf adds (roster c adds)[m] = pr <;> simp [he]
    · rw [List.getElem?_eq_none h1, h.unused hc hl hp m (by omega) (by omega), unused_prio hc, if_neg (by omega)]
      rfl

theorem cnt_sharing {c : Cfg} (hc : c.WF) {adds : List Add} {f : Nat → Task c.tw} (h : Sorted c adds f)
    (hl : adds.length ≤ c.N) (hp : ∀ a ∈ adds, Legal c a) {p k : Nat} (hk : (roster c adds)[p]? = some k) :
    cnt f c.N (f p).prio = sharing adds k := by
  have hm := mem_roster (List.mem_of_getElem? hk)
  rw [sorted_at hc h hl hp hk, prioOf_eq hm.1, cnt_roster hc h hl hp c.N _ (Nat.le_refl _) hm.2]
  rw [List.take_of_length_le (by rw [roster_length hc hl hp]; exact hl), roster_filter c adds _ hm.2]
  rfl

theorem cnt_rank {c : Cfg} (hc : c.WF) {adds : List Add} {f : Nat → Task c.tw} (h : Sorted c adds f)
    (hl : adds.length ≤ c.N) (hp : ∀ a ∈ adds, Legal c a) {p k : Nat} (hk : (roster c adds)[p]? = some k) :
    cnt f p (f p).prio = rank adds k := by
  have hm := mem_roster (List.mem_of_getElem? hk)
  have hlen := roster_length hc hl hp
  obtain ⟨hlt, hk'⟩ := List.getElem?_eq_some_iff.1 hk
  rw [sorted_at hc h hl hp hk, prioOf_eq hm.1, cnt_roster hc h hl hp p _ (by omega) hm.2]
  have hsplit : roster c adds = (roster c adds).take p ++ k :: (roster c adds).drop (p + 1) := by
    rw [← hk', ← List.drop_eq_getElem_cons hlt, List.take_append_drop]
  have hnd : ((roster c adds).filter (fun j => prioOf adds j = prioOf adds k)).Nodup := List.Pairwise.filter _ (roster_nodup c adds)
  have hL := roster_filter c adds _ hm.2
  have hr : List.range adds.length = List.range k ++ k :: List.range' (k + 1) (adds.length - (k + 1)) := by
    rw [range_split (Nat.le_of_lt hm.1)]
    congr 1
    have : adds.length - k = (adds.length - (k + 1)) + 1 := by have := hm.1; omega
    rw [this, List.range'_succ]
  have e1 : (roster c adds).filter (fun j => prioOf adds j = prioOf adds k) =
      ((roster c adds).take p).filter (fun j => prioOf adds j = prioOf adds k) ++ k ::
        ((roster c adds).drop (p + 1)).filter (fun j => prioOf adds j = prioOf adds k) := by
    conv => lhs; rw [hsplit]
    rw [List.filter_append, List.filter_cons]; simp
  have e2 : (List.range adds.length).filter (fun j => prioOf adds j = prioOf adds k) =
      (List.range k).filter (fun j => prioOf adds j = prioOf adds k) ++ k ::
        (List.range' (k + 1) (adds.length - (k + 1))).filter (fun j => prioOf adds j = prioOf adds k) := by
    rw [hr, List.filter_append, List.filter_cons]; simp
  rw [e1] at hnd
  have hnot1 : k ∉ ((roster c adds).take p).filter (fun j => prioOf adds j = prioOf adds k) := by
    rw [List.nodup_append] at hnd
    intro hmem; exact hnd.2.2 k hmem k (by simp) rfl
  have hnot2 : k ∉ (List.range k).filter (fun j => prioOf adds j = prioOf adds k) := by simp
  rw [e1, e2] at hL
  have h3 := congrArg (List.idxOf k) hL
  rw [List.idxOf_append, List.idxOf_append, if_neg hnot1, if_neg hnot2] at h3
  simpa [rank] using h3

/-! ## The relation -/

/-- life of a task in the code and in the specification -/
def StatusRel {tw : Nat} (now : BitVec tw) (t : Task tw) : Status → Prop
  | .ready => t.state = .ready
  | .running => t.state = .busy
  | .yielded => t.state = .done
  | .asleep k => 0 < k ∧ t.state = .sleep ∧ (t.tick - now).toNat = k
  | .dead => t.state = .empty

/-- everything but who runs where -/
structure StRel (c : Cfg) (adds : List Add) (s : Core c.tw) (w : World) : Prop where
  tick : s.tick = now c w
  cc : s.coreCounter = w.calls % c.K
  len : (roster c adds).length ≤ c.N
  shr : ∀ p k, (roster c adds)[p]? = some k → sharers c s p = sharing adds k
  trn : ∀ p k, (roster c adds)[p]? = some k → turn c s p = rank adds k
  msk : ∀ p k, (roster c adds)[p]? = some k → (s.task p).mask = maskOf adds k
  st : ∀ p k, (roster c adds)[p]? = some k → StatusRel s.tick (s.task p) (w.status k)
  un : ∀ p, (roster c adds).length ≤ p → p < c.N → (s.task p).state = .empty
  miss : ∀ p k, (roster c adds)[p]? = some k → (s.task p).miss = w.late k
  sp : ∀ p k, (roster c adds)[p]? = some k → (s.task p).sp = w.ctx k
  spI : ∀ i, i < c.K → (s.task (c.N + i)).sp = w.ctxIdle i
  bottom : ∀ i p k, (roster c adds)[p]? = some k → (s.task p).bottom = (descOf c adds i (some k)).stack
  top : ∀ i p k, (roster c adds)[p]? = some k → (s.task p).top =
    (descOf c adds i (some k)).stack + (descOf c adds i (some k)).stackCount
  bottomI : ∀ i, i < c.K → (s.task (c.N + i)).bottom = (c.idle i).stack
  topI : ∀ i, i < c.K → (s.task (c.N + i)).top = (c.idle i).stack + (c.idle i).stackCount

structure Rel (c : Cfg) (adds : List Add) (s : Core c.tw) (w : World) : Prop where
  inv : Inv c s
  str : StRel c adds s w
  post : s.postponed = w.again
  run : ∀ i, i < c.K → w.runs i = (roster c adds)[s.index i]?

theorem StRel.avail_iff {c : Cfg} {adds : List Add} {s : Core c.tw} {w : World} (h : StRel c adds s w) (hs : Static c s) {i p k : Nat}
    (hk : (roster c adds)[p]? = some k) : Avail c s i p ↔ eligible c adds w i k = true := by
  have hlt := (List.getElem?_eq_some_iff.1 hk).1
  have hlen := h.len
  have h3 := h.st p k hk
  unfold Avail AvailT eligible
  rw [h.msk p k hk, ← h.tick, ← h.shr p k hk, ← h.trn p k hk]
  simp only [Bool.and_eq_true, decide_eq_true_eq]
  have key : (s.task p).state = .ready → (s.sub (s.task p).prio = sharers c s p ∧ (s.task p).subPrio = turn c s p) := by
    intro hr
    exact hs.subEq p (by omega) (hs.userPrio p (by omega) (by rw [hr]; simp))
  constructor
  · rintro ⟨a1, a2, a3⟩
    rw [(key a2).1, (key a2).2] at a3
    refine ⟨⟨?_, a1⟩, a3⟩
    cases hst : w.status k with
    | ready => rfl
    | running => rw [hst] at h3; rw [show (s.task p).state = .busy from h3] at a2; cases a2
    | yielded => rw [hst] at h3; rw [show (s.task p).state = .done from h3] at a2; cases a2
    | asleep m => rw [hst] at h3; rw [h3.2.1] at a2; cases a2
    | dead => rw [hst] at h3; rw [show (s.task p).state = .empty from h3] at a2; cases a2
  · rintro ⟨⟨a1, a2⟩, a3⟩
    rw [a1] at h3
    have h3 : (s.task p).state = .ready := h3
    rw [(key h3).1, (key h3).2]
    exact ⟨a2, h3, a3⟩

/-- the choice of the specification, from the scan of the code -/
theorem StRel.choose_eq {c : Cfg} {adds : List Add} {s : Core c.tw} {w : World} (h : StRel c adds s w) (hs : Static c s) {k i j : Nat}
    (hij : i ≤ j) (h1 : ∀ q, i ≤ q → q < j → ¬ Avail c s k q) (h2 : j < (roster c adds).length → Avail c s k j) :
    choose c adds w k i = (roster c adds)[j]? := by
  apply find_drop _ _ _ _ hij
  · intro q a b1 b2 b3
    have := h1 q b1 b2
    rw [h.avail_iff hs b3] at this
    simpa using this
  · intro a ha
    exact (h.avail_iff hs ha).1 (h2 (List.getElem?_eq_some_iff.1 ha).1)

theorem slot_ne {c : Cfg} {adds : List Add} {p q k j : Nat} (hp : (roster c adds)[p]? = some k) (hq : (roster c adds)[q]? = some j)
    (h : p ≠ q) : k ≠ j := by
  intro he; subst he
  exact h ((List.getElem?_inj (List.getElem?_eq_some_iff.1 hp).1 (roster_nodup c adds)).1 (hp.trans hq.symm))

theorem take_status (w : World) (i : Nat) (j : Option Nat) (k : Nat) :
    (w.take i j).status k = if j = some k then .running else w.status k := by
  unfold World.take
  cases j with
  | none => simp
  | some m =>
    simp only [Option.some.injEq]
    by_cases h : m = k
    · subst h; simp
    · rw [upd_ne _ _ (fun a => h a.symm), if_neg h]

/-- the choice of the next task keeps the relation -/
theorem pick_rel {c : Cfg} {adds : List Add} {k : Nat} {sm s' : Core c.tw} {w : World} (hm : Mid c k sm) (hk : k < c.K)
    (h : StRel c adds sm w) (hrun : ∀ i, i < c.K → i ≠ k → w.runs i = (roster c adds)[sm.index i]?) (hp : Picked c k sm s')
    (hpost : s'.postponed = w.again) (hcc : s'.coreCounter = sm.coreCounter) :
    Rel c adds s' (w.take k (roster c adds)[s'.index k]?) := by
  have hpr : ∀ q, (s'.task q).prio = (sm.task q).prio := fun q => (hp.same q).prio
  refine ⟨hp.inv hm hk (by rw [hcc]; exact hm.count), ?_, hpost, ?_⟩
  · refine ⟨?_, ?_, h.len, ?_, ?_, ?_, ?_, ?_, ?_, ?_, ?_, ?_, ?_, ?_, ?_⟩
    · rw [hp.tick, h.tick]; rfl
    · rw [hcc, h.cc]; rfl
    · intro p j hj; rw [sharers_congr hpr]; exact h.shr p j hj
    · intro p j hj; rw [turn_congr hpr]; exact h.trn p j hj
    · intro p j hj; rw [(hp.same p).mask]; exact h.msk p j hj
    · intro p j hj
      rw [take_status]
      by_cases hq : p = s'.index k
      · subst hq; rw [if_pos hj]; exact hp.busy
      · rw [if_neg]
        · have := h.st p j hj
          unfold StatusRel at this ⊢
          rw [hp.stateO p hq, (hp.same p).tick, hp.tick]; exact this
        · intro he; exact slot_ne hj he hq rfl
    · intro p h1 h2
      rw [hp.stateO p]
      · exact h.un p h1 h2
      · intro he; subst he
        have := hp.av.2.1
        rw [h.un _ h1 h2] at this; cases this
    · intro p j hj; rw [(hp.same p).miss]; exact h.miss p j hj
    · intro p j hj; rw [(hp.same p).sp]; exact h.sp p j hj
    · intro i hi; rw [(hp.same _).sp]; exact h.spI i hi
    · intro i p j hj; rw [(hp.same p).bottom]; exact h.bottom i p j hj
    · intro i p j hj; rw [(hp.same p).top]; exact h.top i p j hj
    · intro i hi; rw [(hp.same _).bottom]; exact h.bottomI i hi
    · intro i hi; rw [(hp.same _).top]; exact h.topI i hi
  · intro i hi
    show upd w.runs k _ i = _
    by_cases hik : i = k
    · subst hik; rw [upd_same]
    · rw [upd_ne _ _ hik, hp.indexO i hik]; exact hrun i hi hik

theorem Rel.slot {c : Cfg} {adds : List Add} {s : Core c.tw} {w : World} (h : Rel c adds s w) {i : Nat} (hi : i < c.K) :
    (∃ k, w.runs i = some k ∧ (roster c adds)[s.index i]? = some k ∧ s.index i < c.N ∧ (s.task (s.index i)).state = .busy ∧
      w.status k = .running) ∨
    (w.runs i = none ∧ s.index i = c.N + i) := by
  have hr := h.run i hi
  by_cases h1 : s.index i < (roster c adds).length
  · left
    refine ⟨(roster c adds)[s.index i], by rw [hr, List.getElem?_eq_getElem h1], List.getElem?_eq_getElem h1, ?_, ?_, ?_⟩
    · have := h.str.len; omega
    · rcases h.inv.run i hi trivial with h2 | ⟨h2, _⟩
      · exact h2
      · have := h.str.len; omega
    · have hb : (s.task (s.index i)).state = .busy := by
        rcases h.inv.run i hi trivial with h2 | ⟨h2, _⟩
        · exact h2
        · have := h.str.len; omega
      have h3 := h.str.st _ _ (List.getElem?_eq_getElem h1)
      cases hst : w.status (roster c adds)[s.index i] with
      | running => rfl
      | ready => rw [hst] at h3; rw [show (s.task _).state = .ready from h3] at hb; cases hb
      | yielded => rw [hst] at h3; rw [show (s.task _).state = .done from h3] at hb; cases hb
      | asleep m => rw [hst] at h3; rw [h3.2.1] at hb; cases hb
      | dead => rw [hst] at h3; rw [show (s.task _).state = .empty from h3] at hb; cases hb
  · right
    refine ⟨by rw [hr, List.getElem?_eq_none (by omega)], ?_⟩
    have hlt := h.inv.idx i hi trivial
    rcases Nat.lt_or_ge (s.index i) c.N with h2 | h2
    · exfalso
      have h3 := h.str.un _ (by omega) h2
      rcases h.inv.run i hi trivial with h4 | ⟨h4, _⟩
      · rw [h3] at h4; cases h4
      · omega
    · exact h.inv.toStatic.avail_idle_only hi hlt h2 (h.inv.allowed i hi trivial)

theorem now_next {c : Cfg} (hc : c.WF) (w w1 : World) (h : w1.calls = w.calls + 1) :
    now c w1 = if w.calls % c.K = 0 then now c w + 1 else now c w := by
  unfold now
  rw [h]
  have hK := hc.cores
  have e1 : (w.calls + 1 + c.K - 1) / c.K = w.calls / c.K + 1 := by
    rw [show w.calls + 1 + c.K - 1 = w.calls + c.K by omega, Nat.add_div_right _ hK]
  rw [e1]
  have hdm := Nat.div_add_mod w.calls c.K
  have hml := Nat.mod_lt w.calls hK
  split
  · rename_i h0
    have e2 : (w.calls + c.K - 1) / c.K = w.calls / c.K := by
      rw [h0, Nat.add_zero] at hdm
      rw [← hdm, Nat.mul_div_cancel_left _ hK]
      rw [show c.K * (w.calls / c.K) + c.K - 1 = (c.K - 1) + c.K * (w.calls / c.K) by omega]
      rw [Nat.add_mul_div_left _ _ hK, Nat.div_eq_of_lt (by omega)]; omega
    rw [e2, BitVec.ofNat_add]
    show _ + 1 - 1 = _
    grind
  · have e2 : (w.calls + c.K - 1) / c.K = w.calls / c.K + 1 := by
      conv => lhs; rw [← hdm]
      rw [show c.K * (w.calls / c.K) + w.calls % c.K + c.K - 1 = (w.calls % c.K - 1 + c.K) + c.K * (w.calls / c.K) by omega]
      rw [Nat.add_mul_div_left _ _ hK, Nat.add_div_right _ hK, Nat.div_eq_of_lt (by omega)]; omega
    rw [e2]

theorem save_fields (w : World) (i sp : Nat) : (w.save i sp).calls = w.calls ∧ (w.save i sp).status = w.status ∧
    (w.save i sp).late = w.late ∧ (w.save i sp).runs = w.runs ∧ (w.save i sp).again = w.again := by
  unfold World.save
  split <;> exact ⟨rfl, rfl, rfl, rfl, rfl⟩

/-- what an event does to the saved stack pointers -/
theorem Rel.sp_save {c : Cfg} {adds : List Add} {s s' : Core c.tw} {w : World} (h : Rel c adds s w) {i sp : Nat} (hi : i < c.K)
    (h1 : ∀ q, q < c.taskCount → q ≠ s.index i → (s'.task q).sp = (s.task q).sp) (h2 : (s'.task (s.index i)).sp = sp) :
    (∀ p k, (roster c adds)[p]? = some k → (s'.task p).sp = (w.save i sp).ctx k) ∧
    (∀ j, j < c.K → (s'.task (c.N + j)).sp = (w.save i sp).ctxIdle j) := by
  have hlen := h.str.len
  have hT : ∀ p k, (roster c adds)[p]? = some k → p < c.N := by
    intro p k hk; have := (List.getElem?_eq_some_iff.1 hk).1; omega
  have hTC : c.taskCount = c.N + c.K := rfl
  rcases h.slot hi with ⟨m, r1, r2, r3, _, _⟩ | ⟨r1, r2⟩
  · unfold World.save; rw [r1]
    constructor
    · intro p k hk
      show _ = upd w.ctx m sp k
      by_cases hp : p = s.index i
      · subst hp; rw [r2] at hk; injection hk with hk; subst hk; rw [upd_same, h2]
      · rw [upd_ne _ _ (slot_ne hk r2 hp), h1 p (by have := hT p k hk; omega) hp]; exact h.str.sp p k hk
    · intro j hj
      rw [h1 _ (by omega) (by omega)]; exact h.str.spI j hj
  · unfold World.save; rw [r1]
    constructor
    · intro p k hk
      have := hT p k hk
      rw [h1 p (by omega) (by omega)]; exact h.str.sp p k hk
    · intro j hj
      show _ = upd w.ctxIdle i sp j
      by_cases hp : j = i
      · subst hp; rw [← r2, h2, upd_same]
      · rw [upd_ne _ _ hp, h1 _ (by omega) (by omega)]; exact h.str.spI j hj

theorem tickMid_miss {c : Cfg} {s : Core c.tw} {e : Ev c.tw} (q : Nat) : ((tickMid c s e).task q).miss = (s.task q).miss := by
  have h1 : (tickTask c s e q).miss = (s.task q).miss := by unfold tickTask; split <;> rfl
  show (if q < c.taskCount then woken (nextTick s) (tickTask c s e q) else tickTask c s e q).miss = _
  split
  · rw [(sameTask_woken _ _).miss, h1]
  · exact h1

/-- the world in the middle of a tick -/
def midTick (c : Cfg) (w : World) (i : Nat) : World :=
  let w := w.release i
  let w := if w.calls % c.K = 0 then { w with status := fun k => (w.status k).count, again := false } else w
  { w with calls := w.calls + 1, status := fun k => (w.status k).refresh }

theorem onTick_eq (c : Cfg) (adds : List Add) (w : World) (i : Nat) :
    w.onTick c adds i = (midTick c w i).take i (choose c adds (midTick c w i) i 0) := rfl

theorem release_fields (w : World) (i : Nat) : (w.release i).calls = w.calls ∧ (w.release i).late = w.late ∧
    (w.release i).runs = w.runs ∧ (w.release i).again = w.again ∧ (w.release i).ctx = w.ctx ∧ (w.release i).ctxIdle = w.ctxIdle ∧
    ∀ k, (w.release i).status k = if w.runs i = some k then .ready else w.status k := by
  unfold World.release
  split
  · rename_i m hm
    refine ⟨rfl, rfl, rfl, rfl, rfl, rfl, ?_⟩
    intro k
    show upd w.status m _ k = _
    rw [hm]
    by_cases h : k = m
    · subst h; simp
    · rw [upd_ne _ _ h, if_neg (by simp; exact fun a => h a.symm)]
  · rename_i hm
    refine ⟨rfl, rfl, rfl, rfl, rfl, rfl, ?_⟩
    intro k; rw [hm]; simp

theorem midTick_fields (c : Cfg) (w : World) (i : Nat) : (midTick c w i).calls = w.calls + 1 ∧ (midTick c w i).late = w.late ∧
    (midTick c w i).runs = w.runs ∧ (midTick c w i).again = (if w.calls % c.K = 0 then false else w.again) ∧
    (midTick c w i).ctx = w.ctx ∧ (midTick c w i).ctxIdle = w.ctxIdle ∧
    ∀ k, (midTick c w i).status k = if w.runs i = some k then .ready
      else if w.calls % c.K = 0 then (w.status k).count.refresh else (w.status k).refresh := by
  obtain ⟨f1, f2, f3, f4, f5, f6, f7⟩ := release_fields w i
  unfold midTick
  simp only [f1]
  by_cases h0 : w.calls % c.K = 0
  · simp only [h0, if_true]
    refine ⟨by trivial, f2, f3, by trivial, f5, f6, ?_⟩
    intro k
    rw [f7]
    split <;> rfl
  · simp only [h0, if_false]
    refine ⟨by rw [f1], f2, f3, f4, f5, f6, ?_⟩
    intro k
    rw [f7]
    split <;> rfl

theorem str_tick {c : Cfg} (hc : c.WF) {adds : List Add} {s : Core c.tw} {w : World} {e : Ev c.tw} (hk : e.core < c.K)
    (h : Rel c adds s w) : StRel c adds (tickMid c s e) (midTick c (w.save e.core e.sp) e.core) := by
  obtain ⟨f1, f2, f3, f4, f5, f6, f7⟩ := midTick_fields c (w.save e.core e.sp) e.core
  obtain ⟨g1, g2, g3, g4, g5⟩ := save_fields w e.core e.sp
  have hst := tickMid_static c s e
  have hpr : ∀ q, ((tickMid c s e).task q).prio = (s.task q).prio := fun q => (hst q).prio
  have hlt := h.inv.idx e.core hk trivial
  have hcur := tickMid_cur (e := e) hlt
  have hlen := h.str.len
  have hTC : c.taskCount = c.N + c.K := rfl
  have hcc := h.str.cc
  have hnt : nextTick s = now c (midTick c (w.save e.core e.sp) e.core) := by
    rw [now_next hc (w.save e.core e.sp) _ f1, g1]
    unfold nextTick
    rw [hcc, h.str.tick]
    have : now c (w.save e.core e.sp) = now c w := by unfold now; rw [g1]
    rw [this]
  have hsp := h.sp_save (s' := tickMid c s e) (sp := e.sp) hk (fun q h1 h2 => (tickMid_other (e := e) h1 h2).1.sp) hcur.2
  refine ⟨hnt, ?_, hlen, ?_, ?_, ?_, ?_, ?_, ?_, ?_, ?_, ?_, ?_, ?_, ?_⟩
  · show (if s.coreCounter + 1 = c.K then 0 else s.coreCounter + 1) = _
    have hK := hc.cores
    have hm := Nat.mod_lt w.calls hK
    rw [f1, g1, hcc, Nat.add_mod]
    by_cases hK1 : c.K = 1
    · simp [hK1, Nat.mod_one]
    · rw [Nat.mod_eq_of_lt (show 1 < c.K by omega)]
      by_cases h1 : w.calls % c.K + 1 = c.K
      · rw [if_pos h1, h1, Nat.mod_self]
      · rw [if_neg h1, Nat.mod_eq_of_lt (show w.calls % c.K + 1 < c.K by omega)]
  · intro p j hj; rw [sharers_congr hpr]; exact h.str.shr p j hj
  · intro p j hj; rw [turn_congr hpr]; exact h.str.trn p j hj
  · intro p j hj; rw [(hst p).mask]; exact h.str.msk p j hj
  · intro p j hj
    have hp := (List.getElem?_eq_some_iff.1 hj).1
    rw [f7, g4, g1, g2, h.run _ hk]
    by_cases hq : p = s.index e.core
    · subst hq; rw [if_pos hj]; exact hcur.1
    · rw [if_neg (fun he => slot_ne hj he hq rfl)]
      obtain ⟨o1, o2⟩ := tickMid_other (e := e) (s := s) (show p < c.taskCount by omega) hq
      have h0 := h.str.st p j hj
      have hnT : (tickMid c s e).tick = nextTick s := rfl
      have hn0 : nextTick s = if w.calls % c.K = 0 then s.tick + 1 else s.tick := by unfold nextTick; rw [hcc]
      cases hs : w.status j with
      | ready =>
        rw [hs] at h0
        have h0 : (s.task p).state = .ready := h0
        have : (if w.calls % c.K = 0 then (Status.ready).count.refresh else (Status.ready).refresh) = .ready := by split <;> rfl
        rw [this]
        show ((tickMid c s e).task p).state = .ready
        rw [o2, h0]; simp
      | running =>
        rw [hs] at h0
        have h0 : (s.task p).state = .busy := h0
        have : (if w.calls % c.K = 0 then (Status.running).count.refresh else (Status.running).refresh) = .running := by split <;> rfl
        rw [this]
        show ((tickMid c s e).task p).state = .busy
        rw [o2, h0]; simp
      | yielded =>
        rw [hs] at h0
        have h0 : (s.task p).state = .done := h0
        have : (if w.calls % c.K = 0 then (Status.yielded).count.refresh else (Status.yielded).refresh) = .ready := by split <;> rfl
        rw [this]
        show ((tickMid c s e).task p).state = .ready
        rw [o2, h0]; simp
      | dead =>
        rw [hs] at h0
        have h0 : (s.task p).state = .empty := h0
        have : (if w.calls % c.K = 0 then (Status.dead).count.refresh else (Status.dead).refresh) = .dead := by split <;> rfl
        rw [this]
        show ((tickMid c s e).task p).state = .empty
        rw [o2, h0]; simp
      | asleep m =>
        rw [hs] at h0
        obtain ⟨h2, h3, h4⟩ := h0
        by_cases hz : w.calls % c.K = 0
        · rw [if_pos hz] at hn0 ⊢
          match m, h2, h4 with
          | 1, _, h4 =>
            show ((tickMid c s e).task p).state = .ready
            rw [o2, hn0, if_pos (.inl ⟨h3, (countdown_wake h4).2 rfl⟩)]
          | m + 2, _, h4 =>
            refine ⟨by omega, ?_, ?_⟩
            · rw [o2, hn0, if_neg, h3]
              rw [h3]
              rintro (⟨_, h5⟩ | h5)
              · have := (countdown_wake h4).1 h5; omega
              · cases h5
            · rw [o1.tick, hnT, hn0]; exact countdown_step h4
        · rw [if_neg hz] at hn0 ⊢
          refine ⟨h2, ?_, ?_⟩
          · rw [o2, hn0, if_neg, h3]
            rw [h3]
            rintro (⟨_, h5⟩ | h5)
            · rw [h5, BitVec.sub_self] at h4; simp at h4; omega
            · cases h5
          · rw [o1.tick, hnT, hn0]; exact h4
  · intro p h1 h2
    have h3 := h.str.un p h1 h2
    have hne : p ≠ s.index e.core := by
      intro he; subst he
      rcases h.inv.run e.core hk trivial with h4 | ⟨_, h4⟩ <;> (rw [h3] at h4; cases h4)
    rw [(tickMid_other (e := e) (by omega) hne).2, h3]; simp
  · intro p j hj; rw [tickMid_miss, f2, g3]; exact h.str.miss p j hj
  · rw [f5]; exact hsp.1
  · rw [f6]; exact hsp.2
  · intro i p j hj; rw [(hst p).bottom]; exact h.str.bottom i p j hj
  · intro i p j hj; rw [(hst p).top]; exact h.str.top i p j hj
  · intro i hi; rw [(hst _).bottom]; exact h.str.bottomI i hi
  · intro i hi; rw [(hst _).top]; exact h.str.topI i hi

theorem rel_tick {c : Cfg} (hc : c.WF) {adds : List Add} {s s' : Core c.tw} {w : World} {e : Ev c.tw} (hk : e.core < c.K)
    (h : Rel c adds s w) (r : TickRes c s e s') : Rel c adds s' ((w.save e.core e.sp).onTick c adds e.core) := by
  obtain ⟨f1, f2, f3, f4, f5, f6, f7⟩ := midTick_fields c (w.save e.core e.sp) e.core
  obtain ⟨g1, g2, g3, g4, g5⟩ := save_fields w e.core e.sp
  have hst := str_tick hc hk h
  rw [onTick_eq, hst.choose_eq r.mid.toStatic (i := 0) (j := s'.index e.core) (by omega) (fun q _ h2 => r.least q h2) (fun _ => r.picked.av)]
  refine pick_rel r.mid hk hst ?_ r.picked ?_ r.counter
  · intro i hi hik; rw [f3, g4]; exact h.run i hi
  · rw [r.postponed, f4, g1, g5]
    show (if s.coreCounter = 0 then false else s.postponed) = _
    rw [h.str.cc, h.post]

/-- what a call does to the caller -/
theorem call_facts {c : Cfg} {adds : List Add} {s : Core c.tw} {w : World} {e : Ev c.tw} {k : Nat} (hc : e.core < c.K)
    (h : Rel c adds s w) (hk : (roster c adds)[s.index e.core]? = some k) (hb : (s.task (s.index e.core)).state = .busy)
    (hnp : nullPeriod e.call = false) (hnt : e.call ≠ .tick) :
    ((w.save e.core e.sp).call c k e.call).2 = callerOut c s e ∧
    ((w.save e.core e.sp).call c k e.call).1.again = callerPost s e.call ∧
    ((w.save e.core e.sp).call c k e.call).1.calls = w.calls ∧
    ((w.save e.core e.sp).call c k e.call).1.runs = w.runs ∧
    ((w.save e.core e.sp).call c k e.call).1.ctx = (w.save e.core e.sp).ctx ∧
    ((w.save e.core e.sp).call c k e.call).1.ctxIdle = (w.save e.core e.sp).ctxIdle ∧
    (∀ j, j ≠ k → ((w.save e.core e.sp).call c k e.call).1.status j = w.status j ∧
      ((w.save e.core e.sp).call c k e.call).1.late j = w.late j) ∧
    ((w.save e.core e.sp).call c k e.call).1.late k = (callerTask c s e).miss ∧
    StatusRel s.tick (leftTask c (callerTask c s e) e.since) (((w.save e.core e.sp).call c k e.call).1.status k) := by
  have hms := h.str.miss _ k hk
  have htick := h.str.tick
  obtain ⟨g1, g2, g3, g4, g5⟩ := save_fields w e.core e.sp
  have hpost : (w.save e.core e.sp).again = s.postponed := by rw [g5, h.post]
  have hnow : now c (w.save e.core e.sp) = s.tick := by rw [htick]; unfold now; rw [g1]
  generalize w.save e.core e.sp = w0 at *
  rw [← g3] at hms
  rw [← g1, ← g2, ← g3, ← g4]
  have hcf := callerTask_facts c s e hb hnt
  have hls := leftTask_same c (callerTask c s e) e.since
  have hlst := leftTask_state c (callerTask c s e) e.since
  rw [hcf.2.2.2] at hlst
  have hlt := hls.tick.trans hcf.2.2.1
  generalize leftTask c (callerTask c s e) e.since = t at hlst hlt
  unfold callerOut callerTask
  cases hcall : e.call with
  | tick => exact absurd hcall hnt
  | postpone =>
    rw [hcall] at hlst
    refine ⟨rfl, rfl, rfl, rfl, rfl, rfl, fun j hj => ⟨?_, rfl⟩, hms.symm, ?_⟩
    · show upd w0.status k _ j = _; rw [upd_ne _ _ hj]
    · show StatusRel _ _ (upd w0.status k _ k); rw [upd_same]; exact hlst
  | kill =>
    rw [hcall] at hlst
    refine ⟨rfl, hpost, rfl, rfl, rfl, rfl, fun j hj => ⟨?_, rfl⟩, hms.symm, ?_⟩
    · show upd w0.status k _ j = _; rw [upd_ne _ _ hj]
    · show StatusRel _ _ (upd w0.status k _ k); rw [upd_same]; exact hlst
  | sleep d =>
    rw [hcall] at hlst hlt
    refine ⟨rfl, hpost, rfl, rfl, rfl, rfl, fun j hj => ⟨?_, rfl⟩, ?_, ?_⟩
    · show upd w0.status k _ j = _; rw [upd_ne _ _ hj]
    · show w0.late k = (syscallSleep s _ d).miss
      rw [← hms]; unfold syscallSleep; split <;> rfl
    · show StatusRel _ _ (upd w0.status k _ k); rw [upd_same]
      unfold callerState at hlst
      unfold callerTick at hlt
      by_cases hd : d.toNat = 0
      · rw [if_pos hd]
        simp only [hd, Nat.lt_irrefl, gt_iff_lt, if_false] at hlst
        exact hlst
      · rw [if_neg hd]
        simp only [gt_iff_lt, Nat.pos_of_ne_zero hd, if_true] at hlst hlt
        refine ⟨by omega, hlst, ?_⟩
        rw [hlt]; congr 1; grind
  | sleepUntil ref period =>
    rw [hcall] at hlst hlt
    unfold callerState at hlst
    unfold callerTick at hlt
    by_cases hel : (s.tick - ref).toNat < period.toNat
    · have e1 : w0.call c k (.sleepUntil ref period) =
          ({ w0 with status := upd w0.status k (.asleep (period.toNat - (s.tick - ref).toNat)), late := upd w0.late k 0 }, ref + period, false) := by
        unfold World.call
        simp only []
        rw [hnow, if_pos hel]
      have e2 : syscallSleepUntil c s { s.task (s.index e.core) with sp := e.sp } ref period =
          ({ s.task (s.index e.core) with sp := e.sp, tick := ref + period, state := .sleep, miss := 0 }, ref + period, false) := by
        unfold syscallSleepUntil; simp only []; rw [if_pos hel]
      rw [e1]; simp only []; rw [e2]
      simp only [hel, if_true] at hlst hlt
      refine ⟨rfl, hpost, by trivial, by trivial, by trivial, by trivial, fun j hj => ⟨?_, ?_⟩, ?_, ?_⟩
      · rw [upd_ne _ _ hj]
      · rw [upd_ne _ _ hj]
      · rw [upd_same]
      · rw [upd_same]
        refine ⟨by omega, hlst, ?_⟩
        rw [hlt]
        have : ref + period - s.tick = period - (s.tick - ref) := by grind
        rw [this, BitVec.toNat_sub_of_le (by rw [BitVec.le_def]; omega)]
    · have e1 : w0.call c k (.sleepUntil ref period) =
          ({ w0 with status := upd w0.status k .yielded, late := upd w0.late k ((w0.late k + 1) % 2 ^ c.sw) },
            if (w0.late k + 1) % 2 ^ c.sw > c.D then (s.tick, true) else (ref, false)) := by
        unfold World.call
        simp only []
        rw [hnow, if_neg hel]
      have e2 : syscallSleepUntil c s { s.task (s.index e.core) with sp := e.sp } ref period =
          ({ s.task (s.index e.core) with sp := e.sp, miss := ((s.task (s.index e.core)).miss + 1) % 2 ^ c.sw,
                                          statMiss := ((s.task (s.index e.core)).statMiss + 1) % 2 ^ c.sw },
            if ((s.task (s.index e.core)).miss + 1) % 2 ^ c.sw > c.D then (s.tick, true) else (ref, false)) := by
        unfold syscallSleepUntil; simp only []; rw [if_neg hel]; split <;> rfl
      rw [e1]; simp only []; rw [e2]
      simp only [hel, if_false] at hlst
      refine ⟨?_, hpost, by trivial, by trivial, by trivial, by trivial, fun j hj => ⟨?_, ?_⟩, ?_, ?_⟩
      · rw [hms]
      · rw [upd_ne _ _ hj]
      · rw [upd_ne _ _ hj]
      · rw [upd_same, hms]
      · rw [upd_same]; exact hlst

theorem StRel.again {c : Cfg} {adds : List Add} {s : Core c.tw} {w : World} (h : StRel c adds s w) (b : Bool) :
    StRel c adds s { w with again := b } :=
  ⟨h.tick, h.cc, h.len, h.shr, h.trn, h.msk, h.st, h.un, h.miss, h.sp, h.spI, h.bottom, h.top, h.bottomI, h.topI⟩

theorem str_sys {c : Cfg} {adds : List Add} {s : Core c.tw} {w : World} {e : Ev c.tw} {k : Nat} (hc : e.core < c.K)
    (h : Rel c adds s w) (hk : (roster c adds)[s.index e.core]? = some k) (hb : (s.task (s.index e.core)).state = .busy)
    (hnp : nullPeriod e.call = false) (hnt : e.call ≠ .tick) :
    StRel c adds (sysMid c s e) ((w.save e.core e.sp).call c k e.call).1 := by
  obtain ⟨_, f2, f3, f4, f5, f6, f7, f8, f9⟩ := call_facts hc h hk hb hnp hnt
  have hst := sysMid_static (e := e) hb hnt
  have hcur := sysMid_cur (e := e) hb hnt
  have hpr : ∀ q, ((sysMid c s e).task q).prio = (s.task q).prio := fun q => (hst q).prio
  have hlen := h.str.len
  have hlt := (List.getElem?_eq_some_iff.1 hk).1
  have hsp := h.sp_save (s' := sysMid c s e) (sp := e.sp) hc (fun q _ h2 => by rw [sysMid_other h2]) hcur.2.1
  have hself : (sysMid c s e).task (s.index e.core) = leftTask c (callerTask c s e) e.since := upd_same _ _ _
  generalize ((w.save e.core e.sp).call c k e.call).1 = w1 at *
  refine ⟨?_, ?_, hlen, ?_, ?_, ?_, ?_, ?_, ?_, ?_, ?_, ?_, ?_, ?_, ?_⟩
  · show s.tick = _; rw [h.str.tick]; unfold now; rw [f3]
  · show s.coreCounter = _; rw [f3]; exact h.str.cc
  · intro p j hj; rw [sharers_congr hpr]; exact h.str.shr p j hj
  · intro p j hj; rw [turn_congr hpr]; exact h.str.trn p j hj
  · intro p j hj; rw [(hst p).mask]; exact h.str.msk p j hj
  · intro p j hj
    show StatusRel s.tick _ _
    by_cases hq : p = s.index e.core
    · subst hq; rw [hk] at hj; injection hj with hj; subst hj
      rw [hself]; exact f9
    · rw [sysMid_other hq, (f7 j (slot_ne hj hk hq)).1]; exact h.str.st p j hj
  · intro p h1 h2; rw [sysMid_other (by omega)]; exact h.str.un p h1 h2
  · intro p j hj
    by_cases hq : p = s.index e.core
    · subst hq; rw [hk] at hj; injection hj with hj; subst hj
      rw [hself, f8, (leftTask_same c _ _).miss]
    · rw [sysMid_other hq, (f7 j (slot_ne hj hk hq)).2]; exact h.str.miss p j hj
  · rw [f5]; exact hsp.1
  · rw [f6]; exact hsp.2
  · intro i p j hj; rw [(hst p).bottom]; exact h.str.bottom i p j hj
  · intro i p j hj; rw [(hst p).top]; exact h.str.top i p j hj
  · intro i hi; rw [(hst _).bottom]; exact h.str.bottomI i hi
  · intro i hi; rw [(hst _).top]; exact h.str.topI i hi

theorem rel_sys {c : Cfg} {adds : List Add} {s s' : Core c.tw} {w : World} {e : Ev c.tw} {k : Nat} (hc : e.core < c.K)
    (h : Rel c adds s w) (r : SysRes c s e s') (hk : (roster c adds)[s.index e.core]? = some k)
    (hb : (s.task (s.index e.core)).state = .busy) (hnp : nullPeriod e.call = false) (hnt : e.call ≠ .tick) :
    Rel c adds s' (((w.save e.core e.sp).call c k e.call).1.yield c adds e.core k) := by
  obtain ⟨_, f2, _, f4, _⟩ := call_facts hc h hk hb hnp hnt
  have hst := str_sys hc h hk hb hnp hnt
  have hlen := h.str.len
  have hlt := (List.getElem?_eq_some_iff.1 hk).1
  generalize ((w.save e.core e.sp).call c k e.call).1 = w1 at *
  have hidx : (roster c adds).idxOf k = s.index e.core := by
    obtain ⟨hlt', hk'⟩ := List.getElem?_eq_some_iff.1 hk
    rw [← hk']; exact (roster_nodup c adds).idxOf_getElem _ hlt'
  have hruns : ∀ i, i < c.K → i ≠ e.core → w1.runs i = (roster c adds)[(sysMid c s e).index i]? := by
    intro i hi _; rw [f4]; exact h.run i hi
  have hS := r.mid.toStatic
  have hg := r.goes
  unfold World.yield
  rw [hidx]
  generalize hb' : s'.postponed = b at hg
  generalize hj : s'.index e.core = j at hg
  cases hg with
  | next h1 h2 h3 h4 h5 =>
    rw [hst.choose_eq hS (j := j) (by omega) (fun q a1 a2 => h4 q (by omega) a2) (fun _ => h3)]
    rcases Nat.lt_or_ge j (roster c adds).length with hu | hu
    · rw [List.getElem?_eq_getElem hu]
      have := pick_rel r.mid hc hst hruns r.picked (by rw [hb', f2]) r.counter
      rw [hj, List.getElem?_eq_getElem hu] at this
      exact this
    · rw [List.getElem?_eq_none hu]; simp only []
      have hjN : j = c.N + e.core := by
        rcases Nat.lt_or_ge j c.N with h6 | h6
        · have := hst.un j hu h6
          rw [h3.2.1] at this; cases this
        · exact hS.avail_idle_only hc (by unfold Cfg.taskCount; omega) h6 h3.1
      rw [if_neg (by rw [f2, h5 hjN]; simp)]
      have := pick_rel r.mid hc hst hruns r.picked (by rw [hb', f2]) r.counter
      rw [hj, List.getElem?_eq_none hu] at this
      exact this
  | wrap h1 h2 h3 h4 h5 =>
    rw [hst.choose_eq hS (i := s.index e.core + 1) (j := c.N + e.core) (by omega) (fun q a1 a2 => h2 q (by omega) a2) (fun h => by omega)]
    rw [List.getElem?_eq_none (by omega)]; simp only []
    rw [f2, h1, if_pos rfl]
    rw [hst.choose_eq hS (i := 0) (j := j) (by omega) (fun q _ a2 => h5 q a2) (fun _ => h4)]
    have := pick_rel (w := { w1 with again := false }) r.mid hc (hst.again false) hruns r.picked hb' r.counter
    rw [hj] at this
    exact this

/-- what is seen of a core -/
theorem Rel.view {c : Cfg} {adds : List Add} {s : Core c.tw} {w : World} (h : Rel c adds s w) {i : Nat} (hi : i < c.K) :
    (s.task (s.index i)).bottom = (descOf c adds i (w.runs i)).stack ∧
    (s.task (s.index i)).top = (descOf c adds i (w.runs i)).stack + (descOf c adds i (w.runs i)).stackCount ∧
    (s.task (s.index i)).sp = w.spOf i := by
  unfold World.spOf
  rcases h.slot hi with ⟨m, r1, r2, r3, _, _⟩ | ⟨r1, r2⟩
  · rw [r1]; exact ⟨h.str.bottom i _ m r2, h.str.top i _ m r2, h.str.sp _ m r2⟩
  · rw [r1, r2]; exact ⟨h.str.bottomI i hi, h.str.topI i hi, h.str.spI i hi⟩

/-- a call of a core that runs its idle task stalls -/
theorem step_idle {c : Cfg} (hc : c.WF) {s : Core c.tw} {e : Ev c.tw} (h : Inv c s) (hk : e.core < c.K)
    (hi : c.N ≤ s.index e.core) (hnt : e.call ≠ .tick) : step c s e = .fatal := by
  by_cases hb : (s.task (s.index e.core)).state = .busy
  · by_cases hper : ∀ r p, e.call = .sleepUntil r p → p.toNat > 0
    · rw [step_syscall e hnt hb hper]; exact syscall_idle hc h hk hi hb hnt
    · unfold step
      cases hcall : e.call with
      | tick => exact absurd hcall hnt
      | sleepUntil r p =>
        have : p.toNat = 0 := by
          rcases Nat.eq_zero_or_pos p.toNat with h0 | h0
          · exact h0
          · exfalso; apply hper; intro r' p' he; rw [hcall] at he; injection he with _ he; subst he; exact h0
        simp [this]
      | _ => exact absurd (fun r p he => by rw [hcall] at he; cases he) hper
  · unfold step
    cases hcall : e.call with
    | tick => exact absurd hcall hnt
    | sleepUntil r p => by_cases hp : p.toNat > 0 <;> simp [hb, hp]
    | _ => simp [hb]

/-- one event: the code and the specification agree, and stay related -/
theorem rel_step {c : Cfg} (hc : c.WF) {adds : List Add} {s : Core c.tw} {w : World} (h : Rel c adds s w) (e : Ev c.tw) (hk : e.core < c.K) :
    (∃ s' o w' a, step c s e = .ok (s', o) ∧ w.step c adds e = .ok (w', a) ∧ Rel c adds s' w' ∧
      o = ⟨(s'.task (s'.index e.core)).sp, a.1, a.2⟩) ∨
    (step c s e = .fatal ∧ w.step c adds e = .fatal) := by
  obtain ⟨hb, ht, _⟩ := h.view hk
  by_cases hsp : SpOk s e.core e.sp
  · have hsp' := hsp
    unfold SpOk at hsp'
    rw [hb, ht] at hsp'
    by_cases htk : e.call = .tick
    · left
      obtain ⟨s', h1, h2⟩ := tickFn_spec hc s e h.inv hk hsp
      refine ⟨s', _, (w.save e.core e.sp).onTick c adds e.core, (0, false), ?_, ?_, rel_tick hc hk h h2, rfl⟩
      · unfold step; rw [htk]; exact h1
      · unfold World.step; simp only []; rw [if_pos hsp', htk]
    · rcases h.slot hk with ⟨k, r1, r2, r3, r4, _⟩ | ⟨r1, r2⟩
      · by_cases hnp : nullPeriod e.call = true
        · right
          obtain ⟨r, p, hcall⟩ : ∃ r p, e.call = .sleepUntil r p := by
            cases hcall : e.call with
            | sleepUntil r p => exact ⟨r, p, rfl⟩
            | _ => rw [hcall] at hnp; cases hnp
          have hp0 : p.toNat = 0 := by rw [hcall] at hnp; simpa [nullPeriod] using hnp
          constructor
          · unfold step; rw [hcall]; simp [hp0]
          · unfold World.step; simp only []
            rw [if_pos hsp', hcall, r1]
            simp [nullPeriod, hp0]
        · left
          have hnp : nullPeriod e.call = false := by simpa using hnp
          have hper : ∀ r p, e.call = .sleepUntil r p → p.toNat > 0 := by
            intro r p hcall
            rw [hcall] at hnp
            have : p.toNat ≠ 0 := by simpa [nullPeriod] using hnp
            omega
          have hst := step_syscall e htk r4 hper
          obtain ⟨s', h1, h2⟩ := syscall_spec hc s e h.inv hk hsp r3 r4 htk
          refine ⟨s', _, ((w.save e.core e.sp).call c k e.call).1.yield c adds e.core k, callerOut c s e, hst.trans h1, ?_,
            rel_sys hk h h2 r2 r4 hnp htk, rfl⟩
          have hcf := (call_facts (e := e) hk h r2 r4 hnp htk).1
          unfold World.step; simp only []
          rw [if_pos hsp', r1]
          cases hcall : e.call with
          | tick => exact absurd hcall htk
          | _ => rw [hcall] at hnp hcf; simp only []; rw [hnp, ← hcf]; rfl
      · right
        refine ⟨step_idle hc h.inv hk (by omega) htk, ?_⟩
        unfold World.step; simp only []
        rw [if_pos hsp', r1]
        cases hcall : e.call with
        | tick => exact absurd hcall htk
        | _ => rfl
  · right
    constructor
    · by_cases htk : e.call = .tick
      · unfold step; rw [htk]; exact tickFn_badSp s e hsp
      · rcases h.slot hk with ⟨k, r1, r2, r3, r4, _⟩ | ⟨r1, r2⟩
        · by_cases hnp : ∀ r p, e.call = .sleepUntil r p → p.toNat > 0
          · rw [step_syscall e htk r4 hnp]; exact syscall_badSp s e hsp
          · cases hcall : e.call with
            | sleepUntil r p =>
              have : p.toNat = 0 := by
                rcases Nat.eq_zero_or_pos p.toNat with h0 | h0
                · exact h0
                · exfalso; apply hnp; intro r' p' he; rw [hcall] at he; injection he with _ he; subst he; exact h0
              unfold step; rw [hcall]; simp [this]
            | _ => exact absurd (fun r p he => by rw [hcall] at he; cases he) hnp
        · exact step_idle hc h.inv hk (by omega) htk
    · unfold World.step; simp only []
      rw [if_neg]
      unfold SpOk at hsp; rw [hb, ht] at hsp; exact hsp

theorem rel_run {c : Cfg} (hc : c.WF) {adds : List Add} : ∀ (evs : List (Ev c.tw)) (s : Core c.tw) (w : World), OnCores c evs →
    Rel c adds s w → implRun c s evs = w.run c adds evs := by
  intro evs
  induction evs with
  | nil => intro s w _ _; rfl
  | cons e es ih =>
    intro s w ho h
    have hk : e.core < c.K := ho e (by simp)
    rcases rel_step hc h e hk with ⟨s', o, w', a, h1, h2, h3, h4⟩ | ⟨h1, h2⟩
    · unfold implRun World.run
      rw [h1, h2]
      simp only [Res.ok_bind]
      rw [ih s' w' (fun x hx => ho x (by simp [hx])) h3]
      have : (⟨(List.range c.K).map (fun j => (s'.task (s'.index j)).bottom), s'.tick, o.sp, o.ref, o.brk⟩ : Obs c.tw) =
          w'.obs c adds e.core a := by
        rw [h4]
        unfold World.obs
        have hl : (List.range c.K).map (fun j => (s'.task (s'.index j)).bottom) =
            (List.range c.K).map (fun j => (descOf c adds j (w'.runs j)).stack) := by
          apply List.map_congr_left
          intro j hj; exact (h3.view (List.mem_range.1 hj)).1
        rw [hl, h3.str.tick, (h3.view hk).2.2]
      rw [this]
    · unfold implRun World.run
      rw [h1, h2]; rfl

theorem rel_start {c : Cfg} (hc : c.WF) {strict : Bool} {adds : List Add} {s : Core c.tw}
    (h : boot c strict adds = .ok s) : Rel c adds s (World.start c adds) := by
  obtain ⟨hp, hl⟩ := boot_legal hc h
  have hinv := boot_inv hc h
  obtain ⟨f, g, hf, hg, rfl⟩ := boot_shape hc h
  have hlen := roster_length hc hl hp
  have hN : ∀ i, i < c.K → numbered f c.N (c.N + i) = idleTask c i := by
    intro i hi; unfold numbered; rw [if_neg (by omega)]; exact hf.idle i hi
  have hat : ∀ p k, (roster c adds)[p]? = some k → ∃ hk : k < adds.length,
      numbered f c.N p = { addedTask c adds[k] with subPrio := cnt f p (f p).prio } := by
    intro p k hk
    have hlt := (List.getElem?_eq_some_iff.1 hk).1
    have hm := (mem_roster (List.mem_of_getElem? hk)).1
    refine ⟨hm, ?_⟩
    unfold numbered
    rw [if_pos (by omega)]
    conv => lhs; rw [show f p = addedTask c adds[k] by rw [sorted_at hc hf hl hp hk, addedTable_lt hm]]
    rw [show f p = addedTask c adds[k] by rw [sorted_at hc hf hl hp hk, addedTable_lt hm]]
  refine ⟨hinv, ⟨?_, ?_, by omega, ?_, ?_, ?_, ?_, ?_, ?_, ?_, ?_, ?_, ?_, ?_, ?_⟩, rfl, ?_⟩
  · show (-1 : BitVec c.tw) = BitVec.ofNat c.tw ((0 + c.K - 1) / c.K) - 1
    rw [Nat.div_eq_of_lt (by have := hc.cores; omega)]
    grind
  · show 0 = 0 % c.K; simp
  · intro p k hk
    rw [← cnt_sharing hc hf hl hp hk]
    unfold sharers cnt; simp only [numbered_prio]
  · intro p k hk
    rw [← cnt_rank hc hf hl hp hk]
    unfold turn cnt; simp only [numbered_prio]
  · intro p k hk
    obtain ⟨h3, h2⟩ := hat p k hk
    show (numbered f c.N p).mask = _
    rw [h2]
    unfold maskOf; rw [List.getElem?_eq_getElem h3]; rfl
  · intro p k hk
    obtain ⟨_, h2⟩ := hat p k hk
    show (numbered f c.N p).state = .ready
    rw [h2]; rfl
  · intro p h1 h2
    show (numbered f c.N p).state = .empty
    rw [numbered_state, hf.unused hc hl hp p h2 (by omega)]; rfl
  · intro p k hk
    obtain ⟨_, h2⟩ := hat p k hk
    show (numbered f c.N p).miss = 0
    rw [h2]; rfl
  · intro p k hk
    obtain ⟨h3, h2⟩ := hat p k hk
    show (numbered f c.N p).sp = _
    rw [h2]
    simp only [World.start, descOf, List.getElem?_eq_getElem h3]; rfl
  · intro i hi
    show (numbered f c.N (c.N + i)).sp = _
    rw [hN i hi]; rfl
  · intro i p k hk
    obtain ⟨h3, h2⟩ := hat p k hk
    show (numbered f c.N p).bottom = _
    rw [h2]
    simp only [descOf, List.getElem?_eq_getElem h3]; rfl
  · intro i p k hk
    obtain ⟨h3, h2⟩ := hat p k hk
    show (numbered f c.N p).top = _
    rw [h2]
    simp only [descOf, List.getElem?_eq_getElem h3]; rfl
  · intro i hi
    show (numbered f c.N (c.N + i)).bottom = _
    rw [hN i hi]; rfl
  · intro i hi
    show (numbered f c.N (c.N + i)).top = _
    rw [hN i hi]; rfl
  · intro i hi
    show none = (roster c adds)[c.N + i]?
    rw [List.getElem?_eq_none (by omega)]

/-- C48. Whatever the configuration, the number of cores, the tasks and masks, and the interleaving of the ticks and calls of the cores,
everything observed of the SMP system - which task runs on which core, the system tick, the stack pointer a core resumes from, the
result of `picoRTOS_sleep_until`, and the stalls - is what the specification says. (The out-of-bounds write of `picoRTOS_start` with two
unused slots is taken as harmless.) -/
theorem smp_refines_spec {c : Cfg} (hc : c.WF) (adds : List Add) (evs : List (Ev c.tw)) (ho : OnCores c evs) :
    implTrace c adds evs = specTrace c adds evs := by
  unfold implTrace specTrace
  by_cases hl : adds.length ≤ c.N ∧ ∀ a ∈ adds, a.prio < c.N ∧ a.mask ≠ 0 ∧ a.mask < 2 ^ c.K
  · rw [if_pos hl]
    obtain ⟨f, g, _, _, h3⟩ := boot_ok hc false hl.1 hl.2 (by simp)
    have hr := rel_start hc h3
    rw [h3]
    exact rel_run hc evs _ _ ho hr
  · rw [if_neg hl]
    unfold boot
    rw [addAll_iff hc, if_neg (fun h => hl ⟨h.2, h.1⟩)]
    rfl

/-- The same with the strict reading of `picoRTOS_start`, when at most one slot is unused. -/
theorem smp_refines_spec_strict {c : Cfg} (hc : c.WF) (adds : List Add) (evs : List (Ev c.tw)) (ho : OnCores c evs)
    (hfull : c.N ≤ adds.length + 1) : (do let s ← boot c true adds; implRun c s evs) = specTrace c adds evs := by
  unfold specTrace
  by_cases hl : adds.length ≤ c.N ∧ ∀ a ∈ adds, a.prio < c.N ∧ a.mask ≠ 0 ∧ a.mask < 2 ^ c.K
  · rw [if_pos hl]
    obtain ⟨f, g, _, _, h3⟩ := boot_ok hc true hl.1 hl.2 (fun _ => hfull)
    have hr := rel_start hc h3
    rw [h3]
    exact rel_run hc evs _ _ ho hr
  · rw [if_neg hl]
    unfold boot
    rw [addAll_iff hc, if_neg (fun h => hl ⟨h.2, h.1⟩)]
    rfl

/-- A run of the demonstration system: both cores tick, a task sleeps, another is postponed, one dies. -/
example : (match specTrace Demo.cfg Demo.adds [Demo.ev 1 .tick 1105, Demo.ev 0 .tick 1005, Demo.ev 1 (.sleep 2) 110, Demo.ev 0 .postpone 210,
    Demo.ev 0 .tick 211, Demo.ev 1 .kill 310, Demo.ev 1 .tick 411, Demo.ev 0 .tick 212] with
    | .ok l => l.map (fun o => (o.stacks, o.tick.toNat, o.sp))
    | _ => []) = [([1000, 100], 0, 151), ([200, 100], 0, 251), ([200, 300], 0, 351), ([200, 300], 0, 210), ([200, 300], 1, 211),
      ([200, 400], 1, 451), ([200, 400], 1, 411), ([100, 400], 2, 110)] := by decide

end Pico.SMP
