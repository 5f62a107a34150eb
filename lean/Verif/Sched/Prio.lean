import Mathlib.Data.Finset.Card
import Mathlib.Data.Finset.Image
import Mathlib.Order.Interval.Finset.Nat
import Verif.Sched.Props3

/-! # Properties of the single-core scheduler: available-priority queries -/

namespace Pico.Sched

/-- some task added so far uses priority `r` -/
def PrioUsed (adds : List (Desc × Nat)) (r : Nat) : Prop := ∃ a ∈ adds, a.2 = r

/-- a task other than the first added one uses priority `r` -/
def PrioUsedLater (adds : List (Desc × Nat)) (r : Nat) : Prop := ∃ a ∈ adds.drop 1, a.2 = r

/-- no match from `pid` on -/
theorem prioSearch_miss {c : Cfg} (s : Core c.tw) (next : Nat → Nat) (pr : Nat) : ∀ (fuel pid : Nat),
    c.N < fuel + pid → 0 < fuel → (∀ q, pid ≤ q → q < c.N → (s.task q).prio ≠ pr) → prioSearch c s next fuel pid pr = .ok pr := by
  intro fuel
  induction fuel with
  | zero => intro pid _ h; omega
  | succ fuel ih =>
    intro pid h1 _ h2
    unfold prioSearch
    split
    · rename_i hp
      rw [if_neg (h2 pid (Nat.le_refl _) hp)]
      exact ih (pid + 1) (by omega) (by omega) (fun q hq => h2 q (by omega))
    · rfl

/-- a match at or after `pid` restarts the search at pid 1 -/
theorem prioSearch_hit {c : Cfg} (s : Core c.tw) (next : Nat → Nat) (pr m : Nat) (hm : m < c.N) (hpr : (s.task m).prio = pr) :
    ∀ (fuel pid : Nat), pid ≤ m → c.N < fuel →
    ∃ fuel', fuel ≤ fuel' + c.N ∧ prioSearch c s next fuel pid pr = prioSearch c s next fuel' 1 (next pr) := by
  have key : ∀ (fuel pid : Nat), pid ≤ m → c.N < fuel + pid →
      ∃ fuel', fuel ≤ fuel' + (m - pid) + 1 ∧ prioSearch c s next fuel pid pr = prioSearch c s next fuel' 1 (next pr) := by
    intro fuel
    induction fuel with
    | zero => intro pid _ _; omega
    | succ fuel ih =>
      intro pid h1 h2
      by_cases h : (s.task pid).prio = pr
      · refine ⟨fuel, by omega, ?_⟩
        rw [prioSearch, if_pos (by omega), if_pos h]
      · have : pid ≠ m := fun e => h (e ▸ hpr)
        obtain ⟨f', h3, h4⟩ := ih (pid + 1) (by omega) (by omega)
        refine ⟨f', by omega, ?_⟩
        rw [prioSearch, if_pos (by omega), if_neg h, h4]
  intro fuel pid h1 h2
  obtain ⟨f', h3, h4⟩ := key fuel pid h1 (by omega)
  exact ⟨f', by omega, h4⟩

/-- chain of matches from pid 1: priorities `g 0, …, g (k-1)` are used from pid 1 on, `g k` is not -/
theorem prioSearch_chain {c : Cfg} (s : Core c.tw) (next g : Nat → Nat) (hN : 1 ≤ c.N) : ∀ (k i fuel : Nat),
    (∀ j, i ≤ j → j < i + k → next (g j) = g (j + 1)) →
    (∀ j, i ≤ j → j < i + k → ∃ m, 1 ≤ m ∧ m < c.N ∧ (s.task m).prio = g j) →
    (∀ q, 1 ≤ q → q < c.N → (s.task q).prio ≠ g (i + k)) →
    (k + 1) * (c.N + 1) ≤ fuel → prioSearch c s next fuel 1 (g i) = .ok (g (i + k)) := by
  intro k
  induction k with
  | zero =>
    intro i fuel _ _ h3 h4
    exact prioSearch_miss s next _ fuel 1 (by omega) (by omega) h3
  | succ k ih =>
    intro i fuel h1 h2 h3 h4
    obtain ⟨m, m1, m2, m3⟩ := h2 i (Nat.le_refl _) (by omega)
    have hf : c.N < fuel := by
      have : (k + 1 + 1) * (c.N + 1) = (k + 1) * (c.N + 1) + (c.N + 1) := Nat.succ_mul _ _
      omega
    obtain ⟨f', h5, h6⟩ := prioSearch_hit s next (g i) m m2 m3 fuel 1 m1 hf
    rw [h6, h1 i (Nat.le_refl _) (by omega)]
    have h7 := ih (i + 1) f' (fun j a b => h1 j (by omega) (by omega)) (fun j a b => h2 j (by omega) (by omega))
      (by rw [show i + 1 + k = i + (k + 1) by omega]; exact h3)
      (by
        have : (k + 1 + 1) * (c.N + 1) = (k + 1) * (c.N + 1) + (c.N + 1) := Nat.succ_mul _ _
        omega)
    rw [h7, show i + 1 + k = i + (k + 1) by omega]

theorem slot_prio {c : Cfg} (hc : c.WF) {adds : List (Desc × Nat)} {q : Nat} (hq : q < c.N) :
    (∃ h : q < adds.length, ((addedCore c adds).task q).prio = adds[q].2) ∨
    (adds.length ≤ q ∧ ((addedCore c adds).task q).prio = c.N + 1) := by
  rcases Nat.lt_or_ge q adds.length with h | h
  · refine .inl ⟨h, ?_⟩
    show (addedTable c adds q).prio = _
    rw [addedTable_lt h]; rfl
  · refine .inr ⟨h, ?_⟩
    show (addedTable c adds q).prio = _
    rw [addedTable_ge h (by omega), unused_prio hc]

theorem later_iff {c : Cfg} (hc : c.WF) {adds : List (Desc × Nat)} (hl : adds.length ≤ c.N) (r : Nat) (hr : r < c.N) :
    PrioUsedLater adds r ↔ ∃ m, 1 ≤ m ∧ m < c.N ∧ ((addedCore c adds).task m).prio = r := by
  constructor
  · rintro ⟨a, ha, rfl⟩
    obtain ⟨i, hi, rfl⟩ := List.getElem_of_mem ha
    simp at hi
    refine ⟨i + 1, by omega, by omega, ?_⟩
    rcases slot_prio hc (adds := adds) (q := i + 1) (by omega) with ⟨h1, h2⟩ | ⟨h1, _⟩
    · rw [h2]; simp [Nat.add_comm]
    · omega
  · rintro ⟨m, m1, m2, m3⟩
    rcases slot_prio hc (adds := adds) (q := m) m2 with ⟨h1, h2⟩ | ⟨h1, h2⟩
    · refine ⟨adds[m], ?_, by rw [← h2, m3]⟩
      have : adds[m] = (adds.drop 1)[m - 1]'(by simp; omega) := by
        simp only [List.getElem_drop]; congr 1; omega
      rw [this]; exact List.getElem_mem _
    · omega

theorem used_slot_iff {c : Cfg} (hc : c.WF) {adds : List (Desc × Nat)} (hl : adds.length ≤ c.N) (r : Nat) (hr : r < c.N) :
    PrioUsed adds r ↔ ∃ m, m < c.N ∧ ((addedCore c adds).task m).prio = r := by
  constructor
  · rintro ⟨a, ha, rfl⟩
    obtain ⟨i, hi, rfl⟩ := List.getElem_of_mem ha
    refine ⟨i, by omega, ?_⟩
    rcases slot_prio hc (adds := adds) (q := i) (by omega) with ⟨h1, h2⟩ | ⟨h1, _⟩
    · exact h2
    · omega
  · rintro ⟨m, m2, m3⟩
    rcases slot_prio hc (adds := adds) (q := m) m2 with ⟨h1, h2⟩ | ⟨h1, h2⟩
    · exact ⟨adds[m], List.getElem_mem _, by rw [← h2, m3]⟩
    · omega

/-- the least number from 1 on that is not used later -/
theorem exists_first (P : Nat → Prop) : ∀ (n a : Nat), P (a + n) →
    ∃ k, k ≤ n ∧ P (a + k) ∧ ∀ j, j < k → ¬ P (a + j) := by
  classical
  intro n
  induction n with
  | zero => intro a h; exact ⟨0, Nat.le_refl _, h, fun j hj => by omega⟩
  | succ n ih =>
    intro a h
    by_cases h0 : P a
    · exact ⟨0, by omega, h0, fun j hj => by omega⟩
    · obtain ⟨k, h1, h2, h3⟩ := ih (a + 1) (by rw [show a + 1 + n = a + (n + 1) by omega]; exact h)
      refine ⟨k + 1, by omega, by rw [show a + (k + 1) = a + 1 + k by omega]; exact h2, ?_⟩
      intro j hj
      rcases Nat.eq_zero_or_pos j with rfl | hpos
      · exact h0
      · have := h3 (j - 1) (by omega)
        rwa [show a + 1 + (j - 1) = a + j by omega] at this

theorem addAll_core {c : Cfg} (hc : c.WF) {adds : List (Desc × Nat)} {s : Core c.tw}
    (h : addAll c (init c) adds = .ok s) : s = addedCore c adds ∧ (∀ a ∈ adds, a.2 < c.N) ∧ adds.length ≤ c.N := by
  rw [addAll_iff hc] at h
  by_cases hh : (∀ a ∈ adds, a.2 < c.N) ∧ adds.length ≤ c.N
  · rw [if_pos hh] at h; injection h with h; exact ⟨h.symm, hh⟩
  · rw [if_neg hh] at h; cases h

/-- C15, exact behaviour: 0 if no task uses it, else the smallest priority from 1 on that no task other
than the first added one uses, and a stall if there is none. -/
theorem get_next_prio_exact {c : Cfg} (hc : c.WF) {adds : List (Desc × Nat)} {s : Core c.tw}
    (h : addAll c (init c) adds = .ok s) :
    (¬ PrioUsed adds 0 ∧ getNextPrio c s = .ok 0) ∨
    (PrioUsed adds 0 ∧ ∃ r, 1 ≤ r ∧ r < c.N ∧ ¬ PrioUsedLater adds r ∧ (∀ r', 1 ≤ r' → r' < r → PrioUsedLater adds r') ∧
      getNextPrio c s = .ok r) ∨
    (PrioUsed adds 0 ∧ (∀ r', 1 ≤ r' → r' < c.N → PrioUsedLater adds r') ∧ getNextPrio c s = .fatal) := by
  obtain ⟨rfl, hp, hl⟩ := addAll_core hc h
  have hpos := hc.pos
  have hfits := hc.fits
  have hfuel : prioFuel c = (c.N + 3) * (c.N + 3) := rfl
  by_cases hu : PrioUsed adds 0
  · right
    obtain ⟨m, m1, m2⟩ := (used_slot_iff hc hl 0 hpos).1 hu
    have hf : c.N < prioFuel c := by
      rw [hfuel]; calc c.N < c.N + 3 := by omega
        _ = (c.N + 3) * 1 := by omega
        _ ≤ _ := Nat.mul_le_mul_left _ (by omega)
    obtain ⟨f', h1, h2⟩ := prioSearch_hit (addedCore c adds) (fun p => (p + 1) % 2 ^ c.pw) 0 m m1 m2 (prioFuel c) 0 (by omega) hf
    -- the stopping point
    have hstop : ¬ ∃ q, 1 ≤ q ∧ q < c.N ∧ ((addedCore c adds).task q).prio = 1 + (c.N - 1) := by
      rintro ⟨q, _, q2, q3⟩
      rcases slot_prio hc (adds := adds) (q := q) q2 with ⟨h3, h4⟩ | ⟨_, h4⟩
      · have := hp _ (List.getElem_mem h3); omega
      · omega
    obtain ⟨k, k1, k2, k3⟩ := exists_first (fun r => ¬ ∃ q, 1 ≤ q ∧ q < c.N ∧ ((addedCore c adds).task q).prio = r)
      (c.N - 1) 1 hstop
    have hsearch : prioSearch c (addedCore c adds) (fun p => (p + 1) % 2 ^ c.pw) (prioFuel c) 0 0 = .ok (1 + k) := by
      rw [h2]
      have h01 : (0 + 1) % 2 ^ c.pw = (fun i => 1 + i) 0 := by
        show (0 + 1) % 2 ^ c.pw = 1 + 0
        rw [Nat.mod_eq_of_lt (by omega)]
      rw [h01]
      have := prioSearch_chain (addedCore c adds) (fun p => (p + 1) % 2 ^ c.pw) (fun i => 1 + i) hpos k 0 f' ?_ ?_ ?_ ?_
      · simpa using this
      · intro j _ hj
        show (1 + j + 1) % 2 ^ c.pw = 1 + (j + 1)
        rw [Nat.mod_eq_of_lt (by omega)]; omega
      · intro j _ hj
        have := k3 j (by omega)
        exact Classical.not_not.1 this
      · intro q q1 q2 q3
        apply k2; refine ⟨q, q1, q2, ?_⟩
        rw [q3]; show 1 + (0 + k) = 1 + k; omega
      · have h5 : (k + 1) * (c.N + 1) ≤ c.N * (c.N + 1) := Nat.mul_le_mul_right _ (by omega)
        have h6 : (c.N + 3) * (c.N + 3) = c.N * (c.N + 1) + (c.N * 5 + 9) := by grind
        omega
    have hafter : ∀ r', 1 ≤ r' → r' < 1 + k → PrioUsedLater adds r' := by
      intro r' h5 h6
      have := Classical.not_not.1 (k3 (r' - 1) (by omega))
      rw [show 1 + (r' - 1) = r' by omega] at this
      exact (later_iff hc hl r' (by omega)).2 this
    by_cases hk : 1 + k < c.N
    · left
      refine ⟨hu, 1 + k, by omega, hk, fun h5 => k2 ((later_iff hc hl _ hk).1 h5), hafter, ?_⟩
      unfold getNextPrio; rw [hsearch]; simp [hk]
    · right
      refine ⟨hu, fun r' h5 h6 => hafter r' h5 (by omega), ?_⟩
      unfold getNextPrio; rw [hsearch]; simp [hk]
  · left
    refine ⟨hu, ?_⟩
    have h1 : ∀ q, 0 ≤ q → q < c.N → ((addedCore c adds).task q).prio ≠ 0 := by
      intro q _ hq he
      exact hu ((used_slot_iff hc hl 0 hpos).2 ⟨q, hq, he⟩)
    have := prioSearch_miss (addedCore c adds) (fun p => (p + 1) % 2 ^ c.pw) 0 (prioFuel c) 0
      (by rw [hfuel]
          have : (c.N + 3) * (c.N + 3) = c.N * (c.N + 1) + (c.N * 5 + 9) := by grind
          omega)
      (by rw [hfuel]; exact Nat.mul_pos (by omega) (by omega)) h1
    unfold getNextPrio; rw [this]; simp [hpos]

/-- C15. `picoRTOS_get_next_available_priority` returns the smallest unused priority and stalls iff there is
none — proved if no task was added yet or the first one added has priority 0 (e.g. because
it was itself obtained by this function). Missing: other first priorities, for which the property is
false (`get_next_prio_wrong`). -/
theorem get_next_prio_smallest_partial {c : Cfg} (hc : c.WF) {adds : List (Desc × Nat)} {s : Core c.tw}
    (h : addAll c (init c) adds = .ok s) (h0 : ∀ a, adds.head? = some a → a.2 = 0) :
    (∃ r, r < c.N ∧ ¬ PrioUsed adds r ∧ (∀ r', r' < r → PrioUsed adds r') ∧ getNextPrio c s = .ok r) ∨
    ((∀ r', r' < c.N → PrioUsed adds r') ∧ getNextPrio c s = .fatal) := by
  have hl : ∀ r, 1 ≤ r → (PrioUsedLater adds r ↔ PrioUsed adds r) := by
    intro r hr
    cases adds with
    | nil => constructor <;> rintro ⟨_, h, _⟩ <;> cases h
    | cons a l =>
      have ha := h0 a rfl
      unfold PrioUsedLater PrioUsed
      simp only [List.drop_one, List.tail_cons, List.mem_cons]
      constructor
      · rintro ⟨b, h1, h2⟩; exact ⟨b, .inr h1, h2⟩
      · rintro ⟨b, h1 | h1, h2⟩
        · subst h1; omega
        · exact ⟨b, h1, h2⟩
  rcases get_next_prio_exact hc h with ⟨h1, h2⟩ | ⟨h1, r, r1, r2, r3, r4, r5⟩ | ⟨h1, h2, h3⟩
  · exact .inl ⟨0, hc.pos, h1, fun r' h => by omega, h2⟩
  · refine .inl ⟨r, r2, fun h => r3 ((hl r r1).2 h), ?_, r5⟩
    intro r' hr'
    rcases Nat.eq_zero_or_pos r' with rfl | hp
    · exact h1
    · exact (hl r' hp).1 (r4 r' hp hr')
  · refine .inr ⟨?_, h3⟩
    intro r' hr'
    rcases Nat.eq_zero_or_pos r' with rfl | hp
    · exact h1
    · exact (hl r' hp).1 (h2 r' hp hr')

/-- C15 is false in general: with tasks of priorities 1 and 0 added in this order, priority 1 is returned
although it is in use (2 is the smallest unused one). -/
theorem get_next_prio_wrong : ∃ s, addAll Demo.cfg (init Demo.cfg) [(Demo.desc 1, 1), (Demo.desc 2, 0)] = .ok s ∧
    getNextPrio Demo.cfg s = .ok 1 ∧ PrioUsed [(Demo.desc 1, 1), (Demo.desc 2, 0)] 1 ∧
    ¬ PrioUsed [(Demo.desc 1, 1), (Demo.desc 2, 0)] 2 := by
  refine ⟨_, rfl, rfl, ⟨(Demo.desc 1, 1), by simp, rfl⟩, ?_⟩
  rintro ⟨a, h, h2⟩
  simp at h; rcases h with rfl | rfl <;> simp at h2

-- the hypotheses of `get_next_prio_smallest_partial` are met with a hole in the priorities
example : ∃ s, addAll Demo.cfg (init Demo.cfg) [(Demo.desc 1, 0), (Demo.desc 2, 2)] = .ok s ∧ getNextPrio Demo.cfg s = .ok 1 :=
  ⟨_, rfl, rfl⟩

/-- pigeonhole: if the slots 1..N-1 cover the priorities 0..N-2, they have no other priority -/
theorem cover_eq (N : Nat) (f : Nat → Nat) (h : ∀ r, r < N - 1 → ∃ m, 1 ≤ m ∧ m < N ∧ f m = r) :
    ∀ m, 1 ≤ m → m < N → f m < N - 1 := by
  have hsub : Finset.range (N - 1) ⊆ (Finset.Ico 1 N).image f := by
    intro r hr
    rw [Finset.mem_range] at hr
    obtain ⟨m, m1, m2, m3⟩ := h r hr
    rw [Finset.mem_image]; exact ⟨m, Finset.mem_Ico.2 ⟨m1, m2⟩, m3⟩
  have heq := Finset.eq_of_subset_of_card_le hsub (by
    refine Nat.le_trans Finset.card_image_le ?_
    simp)
  intro m m1 m2
  have : f m ∈ (Finset.Ico 1 N).image f := Finset.mem_image.2 ⟨m, Finset.mem_Ico.2 ⟨m1, m2⟩, rfl⟩
  rw [← heq] at this
  exact Finset.mem_range.1 this

/-- C16, exact behaviour: the largest priority if no task uses it, else the largest
smaller one that no task other than the first added one uses, and a stall if there is none. -/
theorem get_last_prio_exact {c : Cfg} (hc : c.WF) {adds : List (Desc × Nat)} {s : Core c.tw}
    (h : addAll c (init c) adds = .ok s) :
    (¬ PrioUsed adds (c.N - 1) ∧ getLastPrio c s = .ok (c.N - 1)) ∨
    (PrioUsed adds (c.N - 1) ∧ ∃ r, r < c.N - 1 ∧ ¬ PrioUsedLater adds r ∧
      (∀ r', r < r' → r' < c.N - 1 → PrioUsedLater adds r') ∧ getLastPrio c s = .ok r) ∨
    (PrioUsed adds (c.N - 1) ∧ (∀ r', r' < c.N - 1 → PrioUsedLater adds r') ∧ getLastPrio c s = .fatal) := by
  obtain ⟨rfl, hp, hl⟩ := addAll_core hc h
  have hpos := hc.pos
  have hfits := hc.fits
  have hfuel : prioFuel c = (c.N + 3) * (c.N + 3) := rfl
  have hfl : (c.N + 3) * (c.N + 3) = (c.N + 1) * (c.N + 1) + (c.N * 4 + 8) := by grind
  by_cases hu : PrioUsed adds (c.N - 1)
  · right
    obtain ⟨m, m1, m2⟩ := (used_slot_iff hc hl (c.N - 1) (by omega)).1 hu
    have hf : c.N < prioFuel c := by
      rw [hfuel, hfl]; omega
    let next : Nat → Nat := fun p => (p + (2 ^ c.pw - 1)) % 2 ^ c.pw
    obtain ⟨f', h1, h2⟩ := prioSearch_hit (addedCore c adds) next (c.N - 1) m m1 m2 (prioFuel c) 0 (by omega) hf
    -- sequence of tried priorities: N-2, ..., 0, 2^pw - 1
    let g : Nat → Nat := fun i => if i < c.N - 1 then c.N - 2 - i else 2 ^ c.pw - 1
    have hg0 : next (c.N - 1) = g 0 := by
      show (c.N - 1 + (2 ^ c.pw - 1)) % 2 ^ c.pw = if 0 < c.N - 1 then c.N - 2 - 0 else 2 ^ c.pw - 1
      split
      · have : c.N - 1 + (2 ^ c.pw - 1) = (c.N - 2) + 2 ^ c.pw := by omega
        rw [this, Nat.add_mod_right, Nat.mod_eq_of_lt (by omega)]; omega
      · have : c.N - 1 + (2 ^ c.pw - 1) = 2 ^ c.pw - 1 := by omega
        rw [this, Nat.mod_eq_of_lt (by omega)]
    have hgs : ∀ j, j < c.N - 1 → next (g j) = g (j + 1) := by
      intro j hj
      show ((if j < c.N - 1 then c.N - 2 - j else 2 ^ c.pw - 1) + (2 ^ c.pw - 1)) % 2 ^ c.pw =
        if j + 1 < c.N - 1 then c.N - 2 - (j + 1) else 2 ^ c.pw - 1
      rw [if_pos hj]
      split
      · have : c.N - 2 - j + (2 ^ c.pw - 1) = (c.N - 2 - (j + 1)) + 2 ^ c.pw := by omega
        rw [this, Nat.add_mod_right, Nat.mod_eq_of_lt (by omega)]
      · have : c.N - 2 - j + (2 ^ c.pw - 1) = 2 ^ c.pw - 1 := by omega
        rw [this, Nat.mod_eq_of_lt (by omega)]
    let P : Nat → Prop := fun i => ¬ ∃ q, 1 ≤ q ∧ q < c.N ∧ ((addedCore c adds).task q).prio = g i
    by_cases hall : ∀ i, i < c.N - 1 → ¬ P i
    · -- everything is used: the search ends at the wrapped priority, and stalls
      right
      have hcov : ∀ r, r < c.N - 1 → ∃ m, 1 ≤ m ∧ m < c.N ∧ ((addedCore c adds).task m).prio = r := by
        intro r hr
        have h3 := Classical.not_not.1 (hall (c.N - 2 - r) (by omega))
        obtain ⟨q, q1, q2, q3⟩ := h3
        refine ⟨q, q1, q2, q3.trans ?_⟩
        show (if c.N - 2 - r < c.N - 1 then c.N - 2 - (c.N - 2 - r) else 2 ^ c.pw - 1) = r
        rw [if_pos (by omega)]; omega
      have hlt := cover_eq c.N (fun m => ((addedCore c adds).task m).prio) hcov
      refine ⟨hu, fun r' hr' => (later_iff hc hl r' (by omega)).2 (hcov r' hr'), ?_⟩
      have hgl : g (c.N - 1) = 2 ^ c.pw - 1 := by
        show (if c.N - 1 < c.N - 1 then _ else _) = _
        rw [if_neg (by omega)]
      have hsearch := prioSearch_chain (addedCore c adds) next g hpos (c.N - 1) 0 f'
        (fun j _ hj => hgs j (by omega))
        (fun j _ hj => Classical.not_not.1 (hall j (by omega)))
        (by
          intro q q1 q2 q3
          have := hlt q q1 q2
          simp only [Nat.zero_add] at q3
          rw [hgl] at q3; omega)
        (by
          have h5 : (c.N - 1 + 1) * (c.N + 1) ≤ (c.N + 1) * (c.N + 1) := Nat.mul_le_mul_right _ (by omega)
          omega)
      unfold getLastPrio
      rw [show prioSearch c (addedCore c adds) (fun p => (p + (2 ^ c.pw - 1)) % 2 ^ c.pw) (prioFuel c) 0 (c.N - 1) =
        .ok (g (0 + (c.N - 1))) from by rw [← hsearch, ← hg0]; exact h2]
      simp only [Nat.zero_add, hgl, Res.ok_bind]
      have : ¬ (2 ^ c.pw - 1 < c.N) := by omega
      simp [this]
    · left
      have hex : ∃ i, i < c.N - 1 ∧ P i := by
        by_contra hcon
        exact hall fun i hi hPi => hcon ⟨i, hi, hPi⟩
      obtain ⟨i, hi, hPi⟩ := hex
      obtain ⟨k, k1, k2, k3⟩ := exists_first P i 0 (by simpa using hPi)
      have hk : k < c.N - 1 := by omega
      simp only [Nat.zero_add] at k2 k3
      have hgk : ∀ j, j < c.N - 1 → g j = c.N - 2 - j := fun j hj => if_pos hj
      have hsearch := prioSearch_chain (addedCore c adds) next g hpos k 0 f'
        (fun j _ hj => hgs j (by omega))
        (fun j _ hj => Classical.not_not.1 (k3 j (by omega)))
        (by
          intro q q1 q2 q3
          apply k2; refine ⟨q, q1, q2, ?_⟩; simpa using q3)
        (by
          have h5 : (k + 1) * (c.N + 1) ≤ (c.N + 1) * (c.N + 1) := Nat.mul_le_mul_right _ (by omega)
          omega)
      refine ⟨hu, c.N - 2 - k, by omega, ?_, ?_, ?_⟩
      · intro h5
        apply k2; rw [hgk k hk]; exact (later_iff hc hl _ (by omega)).1 h5
      · intro r' h5 h6
        apply (later_iff hc hl r' (by omega)).2
        have := Classical.not_not.1 (k3 (c.N - 2 - r') (by omega))
        rw [hgk _ (by omega), show c.N - 2 - (c.N - 2 - r') = r' by omega] at this
        exact this
      · unfold getLastPrio
        rw [show prioSearch c (addedCore c adds) (fun p => (p + (2 ^ c.pw - 1)) % 2 ^ c.pw) (prioFuel c) 0 (c.N - 1) =
          .ok (g (0 + k)) from by rw [← hsearch, ← hg0]; exact h2]
        have : c.N - 2 - k < c.N := by omega
        simp [hgk k hk, this]
  · left
    refine ⟨hu, ?_⟩
    have h1 : ∀ q, 0 ≤ q → q < c.N → ((addedCore c adds).task q).prio ≠ c.N - 1 := by
      intro q _ hq he
      exact hu ((used_slot_iff hc hl _ (by omega)).2 ⟨q, hq, he⟩)
    have := prioSearch_miss (addedCore c adds) (fun p => (p + (2 ^ c.pw - 1)) % 2 ^ c.pw) (c.N - 1) (prioFuel c) 0
      (by omega) (by omega) h1
    unfold getLastPrio; rw [this]
    have : c.N - 1 < c.N := by omega
    simp [this]

/-- C16. `picoRTOS_get_last_available_priority` returns the largest unused priority and stalls iff there is
none — proved if no task was added yet or the first one added has the largest priority (e.g. because
it was itself obtained by this function). Missing: other first priorities, for which the property is
false (`get_last_prio_wrong`). -/
theorem get_last_prio_largest_partial {c : Cfg} (hc : c.WF) {adds : List (Desc × Nat)} {s : Core c.tw}
    (h : addAll c (init c) adds = .ok s) (h0 : ∀ a, adds.head? = some a → a.2 = c.N - 1) :
    (∃ r, r < c.N ∧ ¬ PrioUsed adds r ∧ (∀ r', r < r' → r' < c.N → PrioUsed adds r') ∧ getLastPrio c s = .ok r) ∨
    ((∀ r', r' < c.N → PrioUsed adds r') ∧ getLastPrio c s = .fatal) := by
  have hpos := hc.pos
  have hl : ∀ r, r < c.N - 1 → (PrioUsedLater adds r ↔ PrioUsed adds r) := by
    intro r hr
    cases adds with
    | nil => constructor <;> rintro ⟨_, h, _⟩ <;> cases h
    | cons a l =>
      have ha := h0 a rfl
      unfold PrioUsedLater PrioUsed
      simp only [List.drop_one, List.tail_cons, List.mem_cons]
      constructor
      · rintro ⟨b, h1, h2⟩; exact ⟨b, .inr h1, h2⟩
      · rintro ⟨b, h1 | h1, h2⟩
        · subst h1; omega
        · exact ⟨b, h1, h2⟩
  have hcase : ∀ r', r' < c.N → r' = c.N - 1 ∨ r' < c.N - 1 := fun r' h => by omega
  rcases get_last_prio_exact hc h with ⟨h1, h2⟩ | ⟨h1, r, r2, r3, r4, r5⟩ | ⟨h1, h2, h3⟩
  · exact .inl ⟨c.N - 1, by omega, h1, fun r' h h' => by omega, h2⟩
  · refine .inl ⟨r, by omega, fun h => r3 ((hl r r2).2 h), ?_, r5⟩
    intro r' h5 h6
    rcases hcase r' h6 with rfl | h7
    · exact h1
    · exact (hl r' h7).1 (r4 r' h5 h7)
  · refine .inr ⟨?_, h3⟩
    intro r' h6
    rcases hcase r' h6 with rfl | h7
    · exact h1
    · exact (hl r' h7).1 (h2 r' h7)

/-- C16 is false in general: with tasks of priorities 1 and 2 added in this order (3 slots), priority 1 is
returned although it is in use (0 is the largest unused one). -/
theorem get_last_prio_wrong : ∃ s, addAll Demo.cfg (init Demo.cfg) [(Demo.desc 1, 1), (Demo.desc 2, 2)] = .ok s ∧
    getLastPrio Demo.cfg s = .ok 1 ∧ PrioUsed [(Demo.desc 1, 1), (Demo.desc 2, 2)] 1 ∧
    ¬ PrioUsed [(Demo.desc 1, 1), (Demo.desc 2, 2)] 0 := by
  refine ⟨_, rfl, rfl, ⟨(Demo.desc 1, 1), by simp, rfl⟩, ?_⟩
  rintro ⟨a, h, h2⟩
  simp at h; rcases h with rfl | rfl <;> simp at h2

-- the hypotheses of `get_last_prio_largest_partial` are met with a hole in the priorities
example : ∃ s, addAll Demo.cfg (init Demo.cfg) [(Demo.desc 1, 2), (Demo.desc 2, 0)] = .ok s ∧ getLastPrio Demo.cfg s = .ok 1 :=
  ⟨_, rfl, rfl⟩

end Pico.Sched
