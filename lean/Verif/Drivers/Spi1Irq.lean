import Verif.Drivers.Spi1
/-
spi_xfer driven by interrupts, spi-avr_irqdriven.c (C101): proofs.
-/
namespace Pico.Spi1.Irq

/-- bytes in the buffer of the client -/
def got (s : St) : Nat := s.done + s.recv.getD 0

structure Inv (cap : Nat) (m : List Byte) (old : Nat → Byte) (s : St) : Prop where
  idle : s.xfer = false → s.sh = none ∧ s.rx = none ∧ s.txf = [] ∧ s.rxf = [] ∧ s.recv = none ∧ s.count = 0
  cnt : s.xfer = true → 1 ≤ s.count ∧ s.count ≤ cap ∧ s.sel ≠ 0 ∧ s.sel * cap ≤ s.wire.length + cap
  rcv : s.recv.getD 0 ≤ s.count
  out : s.wire.map Prod.fst ++ s.sh.toList ++ s.txf = m.take (s.done + s.count)
  top : s.done + s.count ≤ m.length
  ans : s.resp.length = s.wire.length
  num : s.resp.length = got s + s.rxf.length + s.rx.toList.length
  data : ∀ i, i < got s → s.resp[i]? = some (s.buf i)
  pend : s.rxf ++ s.rx.toList = s.resp.drop (got s)
  rest : ∀ i, got s ≤ i → s.buf i = old i
  one : s.sh = none ∨ s.rx = none
  busy : s.sh = none → s.rx = none → s.txf = []
  lost : s.lost = 0
  selw : ∀ i e, s.wire[i]? = some e → e.2 = i / cap + 1
  seltop : s.done + s.count ≤ s.sel * cap ∧ (s.done + s.count = s.sel * cap ∨ s.done + s.count = m.length)

theorem inv_init (cap : Nat) (m : List Byte) (old : Nat → Byte) : Inv cap m old (init old) := by
  refine ⟨fun _ => ⟨rfl, rfl, rfl, rfl, rfl, rfl⟩, fun h => (by cases h), Nat.le_refl _, rfl, Nat.zero_le _, rfl, rfl, fun i h => absurd h (Nat.not_lt_zero _), rfl, fun _ _ => rfl, Or.inl rfl, fun _ _ => rfl, rfl, ?_, ?_⟩
  · intro i e h; cases h
  · show 0 ≤ 0 * cap ∧ (0 = 0 * cap ∨ _)
    rw [Nat.zero_mul]; exact ⟨Nat.le_refl _, Or.inl rfl⟩

theorem lens {cap : Nat} {m : List Byte} {old : Nat → Byte} {s : St} (h : Inv cap m old s) : s.wire.length + s.sh.toList.length + s.txf.length = s.done + s.count := by
  have := congrArg List.length h.out
  rw [List.length_append, List.length_append, List.length_map, List.length_take] at this
  have := h.top
  omega

theorem inv_start {cap : Nat} {m : List Byte} {old : Nat → Byte} {s : St} (hc : 1 ≤ cap) (h : Inv cap m old s) (hx : s.xfer = false) (hd : s.done < m.length) (g : Byte) : Inv cap m old (start cap m g s) := by
  obtain ⟨i1, i2, i3, i4, i5, i6⟩ := h.idle hx
  have hl := lens h
  rw [i1, i3, i6] at hl
  have hl : s.wire.length = s.done := hl
  have hg : got s = s.done := by unfold got; rw [i5]; rfl
  have ht : (m.drop s.done).take cap ≠ [] := by
    intro e
    have := congrArg List.length e
    rw [List.length_take, List.length_drop, List.length_nil] at this
    omega
  obtain ⟨b, t, hbt⟩ := List.exists_cons_of_ne_nil ht
  have hlen : (b :: t).length = min cap (m.length - s.done) := by rw [← hbt, List.length_take, List.length_drop]
  have hst : start cap m g s = { s with txf := t, sh := some b, xfer := true, count := (b :: t).length, sel := s.sel + 1 } := by
    unfold start; rw [hbt]; rfl
  have h1 := h.seltop
  rw [i6] at h1
  have hs : s.done = s.sel * cap := by omega
  have hm : (s.sel + 1) * cap = s.sel * cap + cap := Nat.succ_mul _ _
  rw [hst]
  refine ⟨fun q => (by cases q), fun _ => ?_, ?_, ?_, ?_, h.ans, h.num, h.data, h.pend, h.rest, Or.inr i2, fun q => (by cases q), h.lost, h.selw, ?_⟩
  · show 1 ≤ (b :: t).length ∧ (b :: t).length ≤ cap ∧ s.sel + 1 ≠ 0 ∧ (s.sel + 1) * cap ≤ s.wire.length + cap
    omega
  · show s.recv.getD 0 ≤ (b :: t).length
    rw [i5]; exact Nat.zero_le _
  · show s.wire.map Prod.fst ++ [b] ++ t = m.take (s.done + (b :: t).length)
    have h2 := h.out
    rw [i1, i3, i6] at h2
    have h2 : s.wire.map Prod.fst ++ [] ++ [] = m.take s.done := h2
    rw [List.append_nil, List.append_nil] at h2
    rw [h2, List.append_assoc, show [b] ++ t = b :: t from rfl, List.take_add, hlen]
    congr 1
    rw [← hbt]
    apply List.ext_getElem?
    intro i
    rw [List.getElem?_take, List.getElem?_take]
    by_cases q : i < cap
    · rw [if_pos q]
      by_cases q' : i < min cap (m.length - s.done)
      · rw [if_pos q']
      · rw [if_neg q', List.getElem?_eq_none (by rw [List.length_drop]; omega)]
    · rw [if_neg q, if_neg (by omega)]
  · show s.done + (b :: t).length ≤ m.length
    omega
  · show s.done + (b :: t).length ≤ (s.sel + 1) * cap ∧ (s.done + (b :: t).length = (s.sel + 1) * cap ∨ s.done + (b :: t).length = m.length)
    omega

/-- the end of a call with r bytes -/
theorem inv_end {cap : Nat} {m : List Byte} {old : Nat → Byte} {s : St} {r : Nat} (h : Inv cap m old s) (hr : s.recv = some r) (hx : s.xfer = true) :
    Inv cap m old { s with recv := none, done := s.done + r, count := s.count - r, xfer := decide (s.count ≠ r) } := by
  have hrc := h.rcv
  rw [hr] at hrc
  have hrc : r ≤ s.count := hrc
  have hg : got s = s.done + r := by unfold got; rw [hr]; rfl
  have hsum : s.done + r + (s.count - r) = s.done + s.count := by omega
  have hn := h.num
  have hl := lens h
  have ha := h.ans
  obtain ⟨c1, c2, c3, c4⟩ := h.cnt hx
  refine ⟨?_, ?_, Nat.zero_le _, ?_, ?_, ha, ?_, ?_, ?_, ?_, h.one, h.busy, h.lost, h.selw, ?_⟩
  · intro q
    have q : s.count = r := by simpa using q
    show s.sh = none ∧ s.rx = none ∧ s.txf = [] ∧ s.rxf = [] ∧ none = none ∧ s.count - r = 0
    have l1 : s.sh.toList.length = 0 ∧ s.txf.length = 0 ∧ s.rxf.length = 0 ∧ s.rx.toList.length = 0 := by omega
    refine ⟨?_, ?_, List.eq_nil_of_length_eq_zero l1.2.1, List.eq_nil_of_length_eq_zero l1.2.2.1, rfl, by omega⟩
    · cases e : s.sh with
      | none => rfl
      | some b => rw [e] at l1; exact absurd l1.1 (by simp)
    · cases e : s.rx with
      | none => rfl
      | some b => rw [e] at l1; exact absurd l1.2.2.2 (by simp)
  · intro q
    have q : s.count ≠ r := by simpa using q
    show 1 ≤ s.count - r ∧ s.count - r ≤ cap ∧ _
    exact ⟨by omega, by omega, c3, c4⟩
  · show s.wire.map Prod.fst ++ s.sh.toList ++ s.txf = m.take (s.done + r + (s.count - r))
    rw [hsum]; exact h.out
  · show s.done + r + (s.count - r) ≤ m.length
    rw [hsum]; exact h.top
  · show s.resp.length = s.done + r + 0 + _ + _
    rw [Nat.add_zero, ← hg]; exact hn
  · intro i hi
    exact h.data i (by rw [hg]; exact hi)
  · show s.rxf ++ s.rx.toList = s.resp.drop (s.done + r)
    rw [← hg]; exact h.pend
  · intro i hi
    exact h.rest i (by rw [hg]; exact hi)
  · show s.done + r + (s.count - r) ≤ s.sel * cap ∧ (s.done + r + (s.count - r) = s.sel * cap ∨ s.done + r + (s.count - r) = m.length)
    rw [hsum]; exact h.seltop

theorem inv_loop {cap : Nat} {m : List Byte} {old : Nat → Byte} {s : St} {r : Nat} (h : Inv cap m old s) (hr : s.recv = some r) : Inv cap m old (loop r s) := by
  have hx : s.xfer = true := by
    cases e : s.xfer with
    | true => rfl
    | false => rw [(h.idle e).2.2.2.2.1] at hr; cases hr
  have hrc := h.rcv
  rw [hr] at hrc
  have hrc : r ≤ s.count := hrc
  have hg : got s = s.done + r := by unfold got; rw [hr]; rfl
  have hend := inv_end h hr hx
  obtain ⟨c1, c2, c3, c4⟩ := h.cnt hx
  unfold loop
  cases hq : s.rxf with
  | nil =>
    dsimp only
    by_cases h0 : r = 0
    · rw [if_pos h0]
      subst h0
      rw [Nat.add_zero, Nat.sub_zero, decide_eq_true (by omega), ← hx, hq] at hend
      exact hend
    · rw [if_neg h0]
      rw [hq] at hend
      exact hend
  | cons f q =>
    dsimp only
    by_cases h0 : r = s.count
    · rw [if_pos h0]
      rw [← h0, Nat.sub_self, decide_eq_false (by omega), hq] at hend
      rw [decide_eq_false (by omega : ¬ r = 0)]
      exact hend
    · rw [if_neg h0]
      have hn := h.num
      rw [hq, hg] at hn
      have hp := h.pend
      rw [hq, hg] at hp
      have hf : s.resp[s.done + r]? = some f := by
        have := congrArg List.head? hp
        rw [List.head?_drop] at this
        exact this.symm
      refine ⟨fun q' => ?_, fun _ => h.cnt hx, ?_, h.out, h.top, h.ans, ?_, ?_, ?_, ?_, h.one, h.busy, h.lost, h.selw, h.seltop⟩
      · have q' : s.xfer = false := q'
        rw [hx] at q'; cases q'
      · show r + 1 ≤ s.count
        omega
      · show s.resp.length = s.done + (r + 1) + q.length + s.rx.toList.length
        rw [List.length_cons] at hn
        omega
      · intro i hi
        have hi : i < s.done + (r + 1) := hi
        show s.resp[i]? = some (if i = s.done + r then f else s.buf i)
        by_cases e : i = s.done + r
        · rw [if_pos e, e, hf]
        · rw [if_neg e]; exact h.data i (by rw [hg]; omega)
      · show q ++ s.rx.toList = s.resp.drop (s.done + (r + 1))
        have := congrArg List.tail hp
        rw [List.tail_drop] at this
        exact this
      · intro i hi
        have hi : s.done + (r + 1) ≤ i := hi
        show (if i = s.done + r then f else s.buf i) = old i
        rw [if_neg (by omega)]; exact h.rest i (by rw [hg]; omega)

theorem inv_isr {cap : Nat} {m : List Byte} {old : Nat → Byte} {s : St} {f : Byte} (h : Inv cap m old s) (hf : s.rx = some f) : Inv cap m old (isr cap f s) := by
  have hx : s.xfer = true := by
    cases e : s.xfer with
    | true => rfl
    | false => rw [(h.idle e).2.1] at hf; cases hf
  obtain ⟨c1, c2, c3, c4⟩ := h.cnt hx
  have hs : s.sh = none := by rcases h.one with q | q; exact q; rw [hf] at q; cases q
  have hl := lens h
  have hn := h.num
  have ha := h.ans
  rw [hf] at hn
  have hn : s.resp.length = got s + s.rxf.length + 1 := hn
  have hgd : s.done ≤ got s := Nat.le_add_right _ _
  have hroom : s.rxf.length < cap := by omega
  have hp := h.pend
  rw [hf] at hp
  have hp : s.rxf ++ [f] = s.resp.drop (got s) := hp
  have ho := h.out
  rw [hs] at ho
  unfold isr
  rw [if_pos hroom, if_pos hroom]
  cases ht : s.txf with
  | nil =>
    rw [ht] at ho
    refine ⟨fun q => ?_, fun _ => h.cnt hx, h.rcv, ?_, h.top, ha, ?_, h.data, ?_, h.rest, Or.inr rfl, fun _ _ => rfl, h.lost, h.selw, h.seltop⟩
    · have q : s.xfer = false := q
      rw [hx] at q; cases q
    · show s.wire.map Prod.fst ++ s.sh.toList ++ [] = _
      rw [hs]; exact ho
    · show s.resp.length = got s + (s.rxf ++ [f]).length + 0
      rw [List.length_append, List.length_singleton]; omega
    · show s.rxf ++ [f] ++ [] = s.resp.drop (got s)
      rw [List.append_nil]; exact hp
  | cons b t =>
    rw [ht] at ho
    refine ⟨fun q => ?_, fun _ => h.cnt hx, h.rcv, ?_, h.top, ha, ?_, h.data, ?_, h.rest, Or.inr rfl, fun q => (by cases q), h.lost, h.selw, h.seltop⟩
    · have q : s.xfer = false := q
      rw [hx] at q; cases q
    · show s.wire.map Prod.fst ++ [b] ++ t = _
      rw [List.append_assoc]
      show s.wire.map Prod.fst ++ (b :: t) = m.take (s.done + s.count)
      rw [← ho]; simp
    · show s.resp.length = got s + (s.rxf ++ [f]).length + 0
      rw [List.length_append, List.length_singleton]; omega
    · show s.rxf ++ [f] ++ [] = s.resp.drop (got s)
      rw [List.append_nil]; exact hp

theorem inv_shift {cap : Nat} {m : List Byte} {old : Nat → Byte} {s : St} {b f : Byte} (h : Inv cap m old s) (hs : s.sh = some b) :
    Inv cap m old { s with sh := none, rx := some f, wire := s.wire ++ [(b, s.sel)], resp := s.resp ++ [f] } := by
  have hx : s.xfer = true := by
    cases e : s.xfer with
    | true => rfl
    | false => rw [(h.idle e).1] at hs; cases hs
  obtain ⟨c1, c2, c3, c4⟩ := h.cnt hx
  have hr : s.rx = none := by rcases h.one with q | q; rw [hs] at q; cases q; exact q
  have hl := lens h
  rw [hs] at hl
  have hl : s.wire.length + 1 + s.txf.length = s.done + s.count := hl
  have hn := h.num
  rw [hr] at hn
  have hn : s.resp.length = got s + s.rxf.length := hn
  have ha := h.ans
  have hp := h.pend
  rw [hr] at hp
  have hp : s.rxf ++ [] = s.resp.drop (got s) := hp
  rw [List.append_nil] at hp
  have ht := h.seltop
  refine ⟨fun q => ?_, fun _ => ⟨c1, c2, c3, ?_⟩, h.rcv, ?_, h.top, ?_, ?_, ?_, ?_, h.rest, Or.inl rfl, fun _ q => (by cases q), h.lost, ?_, ht⟩
  · have q : s.xfer = false := q
    rw [hx] at q; cases q
  · show s.sel * cap ≤ (s.wire ++ [(b, s.sel)]).length + cap
    rw [List.length_append]; omega
  · show (s.wire ++ [(b, s.sel)]).map Prod.fst ++ [] ++ s.txf = m.take (s.done + s.count)
    rw [← h.out, hs, List.map_append, List.append_nil]; rfl
  · show (s.resp ++ [f]).length = (s.wire ++ [(b, s.sel)]).length
    rw [List.length_append, List.length_append, ha]; rfl
  · show (s.resp ++ [f]).length = got s + s.rxf.length + 1
    rw [List.length_append, hn]; rfl
  · intro i hi
    have hi : i < got s := hi
    show (s.resp ++ [f])[i]? = _
    rw [List.getElem?_append_left (by omega)]
    exact h.data i hi
  · show s.rxf ++ [f] = (s.resp ++ [f]).drop (got s)
    rw [List.drop_append_of_le_length (by omega), ← hp]
  · intro i e he
    have he : (s.wire ++ [(b, s.sel)])[i]? = some e := he
    by_cases q : i < s.wire.length
    · rw [List.getElem?_append_left q] at he
      exact h.selw i e he
    · rw [List.getElem?_append_right (by omega)] at he
      have q' : i = s.wire.length := by
        by_cases z : i - s.wire.length = 0
        · omega
        · rw [List.getElem?_eq_none (by show 1 ≤ _; omega)] at he; cases he
      rw [q', Nat.sub_self] at he
      have he : some (b, s.sel) = some e := he
      cases he
      show s.sel = i / cap + 1
      obtain ⟨k, hk⟩ : ∃ k, s.sel = k + 1 := ⟨s.sel - 1, by omega⟩
      have hm : (k + 1) * cap = k * cap + cap := Nat.succ_mul _ _
      rw [hk, hm] at c4 ht
      rw [hk, show i / cap = k from Nat.div_eq_of_lt_le (by omega) (by rw [hm]; omega)]

theorem inv_run {cap : Nat} (hc : 1 ≤ cap) {m : List Byte} {old : Nat → Byte} {s s' : St} (h : Inv cap m old s) (hr : Run cap m s s') : Inv cap m old s' := by
  induction hr with
  | refl => exact h
  | @step t t' a _ hs ih =>
    cases a with
    | call g =>
      unfold step at hs
      dsimp only at hs
      by_cases hd : t.recv = none ∧ t.done < m.length
      · rw [if_pos hd, Option.some.injEq] at hs
        cases hx : t.xfer with
        | false => rw [hx] at hs; rw [← hs]; exact inv_start hc ih hx hd.2 g
        | true =>
          rw [hx] at hs
          rw [← hs]
          have hg : got t = t.done := by unfold got; rw [hd.1]; rfl
          refine ⟨fun q => ?_, fun _ => ih.cnt hx, Nat.zero_le _, ih.out, ih.top, ih.ans, ?_, ?_, ?_, ?_, ih.one, ih.busy, ih.lost, ih.selw, ih.seltop⟩
          · cases q
          · have := ih.num; rw [hg] at this; exact this
          · have := ih.data; rw [hg] at this; exact this
          · have := ih.pend; rw [hg] at this; exact this
          · have := ih.rest; rw [hg] at this; exact this
      · rw [if_neg hd] at hs; cases hs
    | task =>
      unfold step at hs
      dsimp only at hs
      cases hr : t.recv with
      | none => rw [hr] at hs; cases hs
      | some r => rw [hr] at hs; cases hs; exact inv_loop ih hr
    | isr =>
      unfold step at hs
      dsimp only at hs
      cases hr : t.rx with
      | none => rw [hr] at hs; cases hs
      | some f => rw [hr] at hs; cases hs; exact inv_isr ih hr
    | shift f =>
      unfold step at hs
      dsimp only at hs
      cases hr : t.sh with
      | none => rw [hr] at hs; cases hs
      | some b => rw [hr] at hs; cases hs; exact inv_shift ih hr

/-- **C101, driven by interrupts**: at any moment of any transfer, what is on the wire is a beginning of the message, what was delivered is what the peer answered, in order and in its place, nothing else was written and nothing lost -/
theorem faithful (cap : Nat) (hc : 1 ≤ cap) (m : List Byte) (old : Nat → Byte) (s : St) (h : Run cap m (init old) s) :
    s.wire.map Prod.fst = m.take s.wire.length ∧ s.resp.length = s.wire.length ∧ (∀ i, i < s.done → s.resp[i]? = some (s.buf i)) ∧ (∀ i, m.length ≤ i → s.buf i = old i) ∧ s.done ≤ m.length ∧ s.lost = 0 := by
  have hi := inv_run hc (inv_init cap m old) h
  have hg : s.done ≤ got s := Nat.le_add_right _ _
  have ht := hi.top
  have hr := hi.rcv
  refine ⟨?_, hi.ans, fun i q => hi.data i (by omega), fun i q => hi.rest i (by unfold got; omega), by omega, hi.lost⟩
  have ho := congrArg (List.take s.wire.length) hi.out
  have hl := lens hi
  rw [List.append_assoc, List.take_append_of_le_length (by rw [List.length_map]; omega), List.take_take, Nat.min_eq_left (by omega)] at ho
  rw [← ho, List.take_of_length_le (by rw [List.length_map]; omega)]

/-- **C101, driven by interrupts**: when the client is done, the wire carried the message, once; every answer is in the buffer; the driver is as before the message -/
theorem complete (cap : Nat) (hc : 1 ≤ cap) (m : List Byte) (old : Nat → Byte) (s : St) (h : Run cap m (init old) s) (hd : s.done = m.length) :
    s.wire.map Prod.fst = m ∧ s.resp.length = m.length ∧ (∀ i, i < m.length → s.resp[i]? = some (s.buf i)) ∧ (∀ i, m.length ≤ i → s.buf i = old i) ∧
    s.xfer = false ∧ s.sh = none ∧ s.rx = none ∧ s.txf = [] ∧ s.rxf = [] := by
  have hi := inv_run hc (inv_init cap m old) h
  have hx : s.xfer = false := by
    cases e : s.xfer with
    | false => rfl
    | true => have := hi.cnt e; have := hi.top; omega
  obtain ⟨i1, i2, i3, i4, i5, i6⟩ := hi.idle hx
  obtain ⟨f1, f2, f3, f4, -⟩ := faithful cap hc m old s h
  have hl := lens hi
  rw [i1, i3, i6] at hl
  have hl : s.wire.length = s.done := hl
  refine ⟨?_, by omega, fun i q => f3 i (by omega), f4, hx, i1, i2, i3, i4⟩
  rw [f1, hl, hd, List.take_length]

theorem run_trans {cap : Nat} {m : List Byte} {s t u : St} (h : Run cap m s t) (h' : Run cap m t u) : Run cap m s u := by
  induction h' with
  | refl => exact h
  | step a _ hs ih => exact .step a ih hs

/-- a call comes to its end -/
theorem call_ends {cap : Nat} (hc : 1 ≤ cap) {m : List Byte} {old : Nat → Byte} : ∀ n, ∀ s, s.rxf.length = n → ∀ r, Inv cap m old s → s.recv = some r →
    ∃ s', Run cap m s s' ∧ s'.recv = none ∧ s.done + r ≤ s'.done ∧ (r = 0 → s.rxf ≠ [] → s.done < s'.done) := by
  intro n
  induction n with
  | zero =>
    intro s hn r hi hr
    have hq := List.eq_nil_of_length_eq_zero hn
    refine ⟨loop r s, .step .task .refl (by unfold step; dsimp only; rw [hr]), ?_⟩
    unfold loop
    rw [hq]
    dsimp only
    by_cases h0 : r = 0
    · rw [if_pos h0]; exact ⟨rfl, by show s.done + r ≤ s.done; omega, fun _ q => absurd rfl q⟩
    · rw [if_neg h0]; exact ⟨rfl, Nat.le_refl _, fun q => absurd q h0⟩
  | succ n ih =>
    intro s hn r hi hr
    have hs : step cap m s .task = some (loop r s) := by unfold step; dsimp only; rw [hr]
    cases hq : s.rxf with
    | nil => rw [hq] at hn; cases hn
    | cons f q =>
      by_cases h0 : r = s.count
      · have hx : s.xfer = true := by
          cases e : s.xfer with
          | true => rfl
          | false => rw [(hi.idle e).2.2.2.2.1] at hr; cases hr
        have := hi.cnt hx
        refine ⟨loop r s, .step .task .refl hs, ?_⟩
        unfold loop
        rw [hq]
        dsimp only
        rw [if_pos h0]
        exact ⟨rfl, Nat.le_refl _, fun _ => by omega⟩
      · have e : loop r s = { s with recv := some (r + 1), rxf := q, buf := fun i => if i = s.done + r then f else s.buf i } := by
          unfold loop; rw [hq]; dsimp only; rw [if_neg h0]
        have hi' := inv_loop hi hr
        rw [e] at hi' hs
        obtain ⟨s', r1, r2, r3, -⟩ := ih _ (by rw [hq, List.length_cons] at hn; show q.length = n; omega) (r + 1) hi' rfl
        have r3 : s.done + (r + 1) ≤ s'.done := r3
        exact ⟨s', run_trans (.step .task .refl hs) r1, r2, by omega, fun _ _ => by omega⟩

/-- **C101, driven by interrupts**: no transfer gets stuck: from any moment of any transfer, it can be brought to its end -/
theorem ends (cap : Nat) (hc : 1 ≤ cap) (m : List Byte) (old : Nat → Byte) (s : St) (h : Run cap m (init old) s) : ∃ s', Run cap m s s' ∧ s'.done = m.length := by
  -- a call with an answer waiting
  have got1 : ∀ t, Inv cap m old t → t.recv = none → t.done < m.length → t.xfer = true → t.rxf ≠ [] → ∃ t', Run cap m t t' ∧ t'.recv = none ∧ t.done < t'.done := by
    intro t hi hr hd hx hq
    have hs : step cap m t (.call 0#8) = some { t with recv := some 0 } := by unfold step; dsimp only; rw [if_pos ⟨hr, hd⟩, hx]; rfl
    have r0 : Run cap m t { t with recv := some 0 } := .step _ .refl hs
    obtain ⟨t', r1, r2, -, r3⟩ := call_ends hc _ _ rfl 0 (inv_run hc hi r0) rfl
    exact ⟨t', run_trans r0 r1, r2, r3 rfl hq⟩
  have got2 : ∀ t, Inv cap m old t → t.recv = none → t.done < m.length → t.rx.isSome = true → ∃ t', Run cap m t t' ∧ t'.recv = none ∧ t.done < t'.done := by
    intro t hi hr hd hq
    cases hf : t.rx with
    | none => rw [hf] at hq; cases hq
    | some f =>
      have hx : t.xfer = true := by
        cases e : t.xfer with
        | true => rfl
        | false => rw [(hi.idle e).2.1] at hf; cases hf
      have hs : step cap m t .isr = some (isr cap f t) := by unfold step; dsimp only; rw [hf]
      have r0 : Run cap m t (isr cap f t) := .step _ .refl hs
      have hne : (isr cap f t).rxf ≠ [] := by
        intro e
        have e : (if t.rxf.length < cap then t.rxf ++ [f] else t.rxf) = [] := e
        by_cases z : t.rxf.length < cap
        · rw [if_pos z] at e; simp at e
        · rw [if_neg z] at e; rw [e] at z; exact z hc
      obtain ⟨t', r1, r2, r3⟩ := got1 _ (inv_run hc hi r0) hr hd hx hne
      exact ⟨t', run_trans r0 r1, r2, r3⟩
  have got3 : ∀ t, Inv cap m old t → t.recv = none → t.done < m.length → t.sh.isSome = true → ∃ t', Run cap m t t' ∧ t'.recv = none ∧ t.done < t'.done := by
    intro t hi hr hd hq
    cases hb : t.sh with
    | none => rw [hb] at hq; cases hq
    | some b =>
      have hs : step cap m t (.shift 0#8) = some { t with sh := none, rx := some 0#8, wire := t.wire ++ [(b, t.sel)], resp := t.resp ++ [0#8] } := by unfold step; dsimp only; rw [hb]
      have r0 : Run cap m t _ := .step _ .refl hs
      obtain ⟨t', r1, r2, r3⟩ := got2 _ (inv_run hc hi r0) hr hd rfl
      exact ⟨t', run_trans r0 r1, r2, r3⟩
  have more : ∀ t, Inv cap m old t → t.recv = none → t.done < m.length → ∃ t', Run cap m t t' ∧ t'.recv = none ∧ t.done < t'.done := by
    intro t hi hr hd
    cases hx : t.xfer with
    | false =>
      have hs : step cap m t (.call 0#8) = some (start cap m 0#8 t) := by unfold step; dsimp only; rw [if_pos ⟨hr, hd⟩, hx]; rfl
      have r0 : Run cap m t (start cap m 0#8 t) := .step _ .refl hs
      obtain ⟨t', r1, r2, r3⟩ := got3 _ (inv_run hc hi r0) hr hd rfl
      exact ⟨t', run_trans r0 r1, r2, r3⟩
    | true =>
      cases hq : t.rxf with
      | cons f q => exact got1 t hi hr hd hx (by rw [hq]; exact List.cons_ne_nil _ _)
      | nil =>
        cases hf : t.rx with
        | some f => exact got2 t hi hr hd (by rw [hf]; rfl)
        | none =>
          cases hb : t.sh with
          | some b => exact got3 t hi hr hd (by rw [hb]; rfl)
          | none =>
            have ht := hi.busy hb hf
            have hl := lens hi
            rw [hb, ht] at hl
            have hn := hi.num
            rw [hq, hf] at hn
            have hg : got t = t.done := by unfold got; rw [hr]; rfl
            have ha := hi.ans
            have hcn := hi.cnt hx
            have hn : t.resp.length = got t + 0 + 0 := hn
            have hl : t.wire.length + 0 + 0 = t.done + t.count := hl
            omega
  have key : ∀ n, ∀ t, Inv cap m old t → t.recv = none → m.length - t.done = n → ∃ t', Run cap m t t' ∧ t'.done = m.length := by
    intro n
    induction n using Nat.strongRecOn with
    | ind n ih =>
      intro t hi hr hn
      by_cases hd : t.done < m.length
      · obtain ⟨u, r, q, z⟩ := more t hi hr hd
        have hu := inv_run hc hi r
        have := hu.top
        obtain ⟨v, r', q'⟩ := ih (m.length - u.done) (by omega) u hu q rfl
        exact ⟨v, run_trans r r', q'⟩
      · have := hi.top
        exact ⟨t, .refl, by omega⟩
  have hi := inv_run hc (inv_init cap m old) h
  cases hr : s.recv with
  | none => exact key _ s hi hr rfl
  | some r =>
    obtain ⟨t, r1, r2, -⟩ := call_ends hc _ s rfl r hi hr
    obtain ⟨u, r', q⟩ := key _ t (inv_run hc hi r1) r2 rfl
    exact ⟨u, run_trans r1 r', q⟩

/-- the i-th byte is sent under the selection i / cap + 1: a message that fits the FIFO is one selection -/
theorem select (cap : Nat) (hc : 1 ≤ cap) (m : List Byte) (old : Nat → Byte) (s : St) (h : Run cap m (init old) s) (i : Nat) (e : Byte × Nat) (he : s.wire[i]? = some e) : e.2 = i / cap + 1 := (inv_run hc (inv_init cap m old) h).selw i e he
theorem one_select_partial (cap : Nat) (m : List Byte) (hm : m.length ≤ cap) (old : Nat → Byte) (s : St) (h : Run cap m (init old) s) (e : Byte × Nat) (he : e ∈ s.wire) : e.2 = 1 := by
  by_cases hc : 1 ≤ cap
  · obtain ⟨i, hi, q⟩ := List.getElem_of_mem he
    have hq : s.wire[i]? = some e := by rw [List.getElem?_eq_getElem hi, q]
    have hl := (faithful cap hc m old s h).1
    have hl := congrArg List.length hl
    rw [List.length_map, List.length_take] at hl
    rw [select cap hc m old s h i e hq, Nat.div_eq_of_lt (by omega)]
  · have hm : m.length = 0 := by omega
    have key : ∀ s, Run cap m (init old) s → s = init old := by
      intro s h
      induction h with
      | refl => rfl
      | @step t t' a _ hs ih =>
        subst ih
        cases a with
        | call g => unfold step at hs; dsimp only at hs; rw [if_neg (by rw [hm]; omega)] at hs; cases hs
        | task => cases hs
        | isr => cases hs
        | shift f => cases hs
    rw [key s h] at he
    cases he
/-- **refuted for longer messages**: the peer is deselected in the middle: the byte number cap is under another selection than the first -/
theorem split_select (cap : Nat) (hc : 1 ≤ cap) (m : List Byte) (hm : cap < m.length) (old : Nat → Byte) (s : St) (h : Run cap m (init old) s) (hd : s.done = m.length) :
    ∃ e e', s.wire[0]? = some e ∧ s.wire[cap]? = some e' ∧ e.2 ≠ e'.2 := by
  have hw := congrArg List.length (complete cap hc m old s h hd).1
  rw [List.length_map] at hw
  have q0 : s.wire[0]? = some s.wire[0] := List.getElem?_eq_getElem (by omega)
  have q1 : s.wire[cap]? = some s.wire[cap] := List.getElem?_eq_getElem (by omega)
  refine ⟨_, _, q0, q1, ?_⟩
  rw [select cap hc m old s h 0 _ q0, select cap hc m old s h cap _ q1, Nat.zero_div, Nat.div_self (by omega)]
  decide

/-- **refuted for FIFOs with the mask 0 or 1** (accepted by spi_avr_setup_irqdriven): no byte of the message is ever transferred -/
theorem small_never (m : List Byte) (old : Nat → Byte) (s : St) (h : Run 0 m (init old) s) : s.done = 0 ∧ s.buf = old := by
  have key : s.done = 0 ∧ s.buf = old ∧ s.count = 0 ∧ s.rxf = [] ∧ s.recv.getD 0 = 0 := by
    induction h with
    | refl => exact ⟨rfl, rfl, rfl, rfl, rfl⟩
    | @step t t' a _ hs ih =>
      obtain ⟨h1, h2, h3, h4, h5⟩ := ih
      cases a with
      | call g =>
        unfold step at hs
        dsimp only at hs
        by_cases hd : t.recv = none ∧ t.done < m.length
        · rw [if_pos hd, Option.some.injEq] at hs
          cases hx : t.xfer with
          | false => rw [hx] at hs; rw [← hs]; exact ⟨h1, h2, by show ((m.drop t.done).take 0).length = 0; rw [List.take_zero]; rfl, h4, h5⟩
          | true => rw [hx] at hs; rw [← hs]; exact ⟨h1, h2, h3, h4, rfl⟩
        · rw [if_neg hd] at hs; cases hs
      | task =>
        unfold step at hs
        dsimp only at hs
        cases hr : t.recv with
        | none => rw [hr] at hs; cases hs
        | some r =>
          rw [hr] at hs h5
          have h5 : r = 0 := h5
          rw [Option.some.injEq] at hs
          rw [← hs]
          unfold loop
          rw [h4]
          dsimp only
          rw [if_pos h5]
          exact ⟨h1, h2, h3, rfl, rfl⟩
      | isr =>
        unfold step at hs
        dsimp only at hs
        cases hr : t.rx with
        | none => rw [hr] at hs; cases hs
        | some f =>
          rw [hr] at hs
          cases hs
          refine ⟨h1, h2, h3, ?_, h5⟩
          show (if t.rxf.length < 0 then t.rxf ++ [f] else t.rxf) = []
          rw [if_neg (by omega)]; exact h4
      | shift f =>
        unfold step at hs
        dsimp only at hs
        cases hr : t.sh with
        | none => rw [hr] at hs; cases hs
        | some b => rw [hr] at hs; cases hs; exact ⟨h1, h2, h3, h4, h5⟩
  exact ⟨key.1, key.2.1⟩

def runs (cap : Nat) (m : List Byte) : St → List Cmd → Option St
  | s, [] => some s
  | s, a :: l => (step cap m s a).bind fun s => runs cap m s l
theorem runs_run {cap : Nat} {m : List Byte} {s s' : St} (l : List Cmd) (h : runs cap m s l = some s') : Run cap m s s' := by
  have key : ∀ l s0 s, Run cap m s0 s → runs cap m s l = some s' → Run cap m s0 s' := by
    intro l
    induction l with
    | nil => intro s0 s hr h; cases h; exact hr
    | cons a l ih =>
      intro s0 s hr h
      obtain ⟨t, ht, h⟩ := Option.bind_eq_some_iff.mp h
      exact ih s0 t (.step a hr ht) h
  exact key l s s .refl h

/-- three bytes through FIFOs of two: two selections -/
theorem sample (a b c f g h : Byte) (old : Nat → Byte) : ∃ s, Run 2 [a, b, c] (init old) s ∧ s.done = 3 ∧ s.wire = [(a, 1), (b, 1), (c, 2)] ∧ s.buf 2 = h :=
  ⟨_, runs_run [.call 0#8, .shift f, .isr, .call 0#8, .task, .shift g, .isr, .task, .task, .call 0#8, .shift h, .isr, .call 0#8, .task, .task] rfl, rfl, rfl, rfl⟩

end Pico.Spi1.Irq
