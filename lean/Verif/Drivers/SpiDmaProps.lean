import Verif.Drivers.SpiDma
/- C104: spi_xfer with DMA -/
namespace Pico.SpiDma

variable {α : Type}

theorem run_trans {q : Cfg} {s t u : St α} (h1 : Run q s t) (h2 : Run q t u) : Run q s u := by
  induction h2 with
  | refl => exact h1
  | step a _ e ih => exact ih.step a e

theorem run_one {q : Cfg} {s t : St α} (a : Cmd α) (e : step q s a = some t) : Run q s t := (Run.refl).step a e

/-- what the finished messages have put on the wire: every frame of the message that was counted, with its answer -/
def seen (q : Cfg) (l : List (Msg α × List α × Nat)) : List (α × α) := l.flatMap fun p => (p.1.tx.take (p.1.count q)).zip p.2.1

theorem seen_snoc (q : Cfg) (l : List (Msg α × List α × Nat)) (p : Msg α × List α × Nat) :
    seen q (l ++ [p]) = seen q l ++ (p.1.tx.take (p.1.count q)).zip p.2.1 := by simp [seen]

structure Inv (q : Cfg) (s : St α) (w : List (α × α)) : Prop where
  wire : s.wire = seen q s.fin ++ w
  ok : ∀ m, s.cur = some m → m.extra < q.fw
  fin : ∀ p ∈ s.fin, p.2.1.length = p.1.count q ∧ p.2.2 = p.1.bytes q
  idle : s.wait = false → w = [] ∧ s.fill = [] ∧ s.txf = [] ∧ s.rxf = [] ∧ s.left = 0 ∧ s.lost = 0
  busy : s.wait = true → s.req = true ∧ ∃ m, s.cur = some m ∧ w.map Prod.fst ++ s.txf ++ s.fill = m.tx.take (m.count q) ∧
    s.buf.length + s.left = m.count q ∧ s.buf.length + s.rxf.length + s.lost = w.length ∧ (s.lost = 0 → w.map Prod.snd = s.buf ++ s.rxf)

theorem count_le (q : Cfg) (h : 0 < q.fw) (m : Msg α) (e : m.extra < q.fw) : m.count q ≤ m.tx.length := by
  have : m.bytes q / q.fw = m.tx.length := by
    unfold Msg.bytes
    rw [Nat.mul_comm, Nat.mul_add_div h, Nat.div_eq_of_lt e]; rfl
  unfold Msg.count
  rw [this]
  exact Nat.mod_le _ _

theorem zip_maps : ∀ (w : List (α × α)) (a b : List α), w.map Prod.fst = a → w.map Prod.snd = b → w = a.zip b
  | [], _, _, h1, h2 => by subst h1 h2; rfl
  | (x, y) :: w, _, _, h1, h2 => by
    subst h1 h2
    have := zip_maps w _ _ rfl rfl
    show (x, y) :: w = (x, y) :: (w.map Prod.fst).zip (w.map Prod.snd)
    rw [← this]

theorem inv_step {q : Cfg} (hf : 0 < q.fw) {s s' : St α} {w : List (α × α)} (a : Cmd α) (i : Inv q s w) (h : step q s a = some s') :
    ∃ w', Inv q s' w' := by
  cases a with
  | begin m =>
    simp only [step] at h
    by_cases hc : (s.cur.isNone && decide (m.extra < q.fw) && decide (0 < m.bytes q)) = true
    · rw [if_pos hc, Option.some.injEq] at h
      subst h
      simp only [Bool.and_eq_true, decide_eq_true_eq] at hc
      refine ⟨w, ⟨i.wire, fun m' h' => (by cases h'; exact hc.1.2), i.fin, i.idle, fun hw => ?_⟩⟩
      obtain ⟨_, m', e, _⟩ := i.busy hw
      rw [e] at hc; exact Bool.noConfusion hc.1.1
    · rw [if_neg hc] at h; cases h
  | call =>
    cases hc : s.cur with
    | none => simp [step, hc] at h
    | some m =>
      simp only [step, hc, Option.map_some, Option.some.injEq] at h
      subst h
      unfold call
      by_cases hw : s.wait = true
      · rw [if_pos hw]
        unfold poll
        by_cases hd : (s.fill.isEmpty && s.left == 0) = true
        · rw [if_pos hd]
          simp only [Bool.and_eq_true, List.isEmpty_iff, beq_iff_eq] at hd
          obtain ⟨hreq, m', e, h1, h2, h3, h4⟩ := i.busy hw
          have e : m = m' := by rw [hc] at e; exact Option.some.inj e
          subst e
          have hlen : w.length + s.txf.length = m.count q := by
            have := congrArg List.length h1
            rw [hd.1, List.append_nil, List.length_append, List.length_map, List.length_take, Nat.min_eq_left (count_le q hf m (i.ok m hc))] at this
            exact this
          have hl : s.lost = 0 := by omega
          have hx : s.txf = [] := List.eq_nil_of_length_eq_zero (by omega)
          have hr : s.rxf = [] := List.eq_nil_of_length_eq_zero (by omega)
          rw [hx, hd.1, List.append_nil, List.append_nil] at h1
          have h4 := h4 hl
          rw [hr, List.append_nil] at h4
          refine ⟨[], ⟨?_, fun m' h' => (by cases h'), ?_, fun _ => ⟨rfl, hd.1, hx, hr, hd.2, hl⟩, fun hh => Bool.noConfusion hh⟩⟩
          · show s.wire = seen q (s.fin ++ [(m, s.buf, m.bytes q)]) ++ []
            rw [seen_snoc, List.append_nil, i.wire, zip_maps w _ _ h1 h4]
          · intro p hp
            rcases List.mem_append.mp hp with hp | hp
            · exact i.fin p hp
            · rw [List.mem_singleton.mp hp]; exact ⟨by show s.buf.length = m.count q; omega, rfl⟩
        · rw [if_neg hd]; exact ⟨w, i⟩
      · rw [if_neg hw]
        obtain ⟨j1, j2, j3, j4, j5, j6⟩ := i.idle (Bool.eq_false_iff.mpr hw)
        subst j1
        exact ⟨[], ⟨i.wire, i.ok, i.fin, fun hh => Bool.noConfusion hh, fun _ => ⟨rfl, m, hc, (by show [] ++ s.txf ++ _ = _; rw [j3]; rfl), (by show 0 + m.count q = _; omega), (by show 0 + s.rxf.length + s.lost = 0; rw [j4, j6]; rfl), fun _ => (by show [] = [] ++ s.rxf; rw [j4]; rfl)⟩⟩⟩
  | fill =>
    cases hl : s.fill with
    | nil => simp [step, hl] at h
    | cons b l =>
      simp only [step, hl] at h
      by_cases hc : (s.req && decide (s.txf.length < q.depth)) = true
      · rw [if_pos hc, Option.some.injEq] at h
        subst h
        have hw : s.wait = true := by
          cases hw : s.wait with
          | true => rfl
          | false => have := (i.idle hw).2.1; rw [hl] at this; cases this
        obtain ⟨hreq, m, e, h1, h2, h3, h4⟩ := i.busy hw
        refine ⟨w, ⟨i.wire, i.ok, i.fin, fun hh => ?_, fun _ => ⟨hreq, m, e, ?_, h2, h3, h4⟩⟩⟩
        · exact absurd (show s.wait = false from hh) (by rw [hw]; exact Bool.noConfusion)
        · rw [hl] at h1
          show w.map Prod.fst ++ (s.txf ++ [b]) ++ l = _
          rw [← h1]; simp
      · rw [if_neg hc] at h; cases h
  | drain =>
    cases hr : s.rxf with
    | nil => simp [step, hr] at h
    | cons b l =>
      cases hl : s.left with
      | zero => simp [step, hr, hl] at h
      | succ k =>
        simp only [step, hr, hl] at h
        by_cases hq : s.req = true
        · rw [if_pos hq, Option.some.injEq] at h
          subst h
          have hw : s.wait = true := by
            cases hw : s.wait with
            | true => rfl
            | false => have := (i.idle hw).2.2.2.1; rw [hr] at this; cases this
          obtain ⟨hreq, m, e, h1, h2, h3, h4⟩ := i.busy hw
          refine ⟨w, ⟨i.wire, i.ok, i.fin, fun hh => ?_, fun _ => ⟨hreq, m, e, h1, ?_, ?_, fun z => ?_⟩⟩⟩
          · exact absurd (show s.wait = false from hh) (by rw [hw]; exact Bool.noConfusion)
          · show (s.buf ++ [b]).length + k = _
            rw [List.length_append]; simp only [List.length_singleton]; omega
          · rw [hr] at h3
            show (s.buf ++ [b]).length + l.length + s.lost = _
            simp only [List.length_append, List.length_cons, List.length_nil] at h3 ⊢; omega
          · have := h4 z
            rw [hr] at this
            show _ = (s.buf ++ [b]) ++ l
            rw [this]; simp
        · rw [if_neg hq] at h; cases h
  | shift a =>
    cases hx : s.txf with
    | nil => simp [step, hx] at h
    | cons b l =>
      have hw : s.wait = true := by
        cases hw : s.wait with
        | true => rfl
        | false => have := (i.idle hw).2.2.1; rw [hx] at this; cases this
      have hn : ¬ s.wait = false := by rw [hw]; exact Bool.noConfusion
      obtain ⟨hreq, m, e, h1, h2, h3, h4⟩ := i.busy hw
      rw [hx] at h1
      have k1 : (w ++ [(b, a)]).map Prod.fst ++ l ++ s.fill = m.tx.take (m.count q) := by rw [← h1]; simp
      have k0 : s.wire ++ [(b, a)] = seen q s.fin ++ (w ++ [(b, a)]) := by rw [i.wire, List.append_assoc]
      simp only [step, hx] at h
      by_cases hd : s.rxf.length < q.depth
      · rw [if_pos hd, Option.some.injEq] at h
        subst h
        refine ⟨w ++ [(b, a)], ⟨k0, i.ok, i.fin, fun hh => absurd hh hn, fun _ => ⟨hreq, m, e, k1, h2, ?_, fun z => ?_⟩⟩⟩
        · show s.buf.length + (s.rxf ++ [a]).length + s.lost = _
          rw [List.length_append, List.length_append]; simp only [List.length_singleton]; omega
        · show _ = s.buf ++ (s.rxf ++ [a])
          rw [List.map_append, h4 z]; simp
      · rw [if_neg hd, Option.some.injEq] at h
        subst h
        refine ⟨w ++ [(b, a)], ⟨k0, i.ok, i.fin, fun hh => absurd hh hn, fun _ => ⟨hreq, m, e, k1, h2, ?_, fun z => ?_⟩⟩⟩
        · show s.buf.length + s.rxf.length + (s.lost + 1) = _
          rw [List.length_append]; simp only [List.length_singleton]; omega
        · exact absurd z (by show ¬ s.lost + 1 = 0; omega)

theorem inv_run {q : Cfg} (hf : 0 < q.fw) {s : St α} (r : Run q (init q) s) : ∃ w, Inv q s w := by
  induction r with
  | refl => exact ⟨[], ⟨rfl, (fun _ h => (by cases h)), (fun _ h => (by cases h)), fun _ => ⟨rfl, rfl, rfl, rfl, rfl, rfl⟩, fun h => Bool.noConfusion h⟩⟩
  | step a _ e ih => obtain ⟨w, i⟩ := ih; exact inv_step hf a i e

/-- all the frames of a message are counted -/
theorem count_eq {q : Cfg} (hf : 0 < q.fw) {m : Msg α} (he : m.extra < q.fw) (hl : m.tx.length < 2 ^ q.w) : m.count q = m.tx.length := by
  have : m.bytes q / q.fw = m.tx.length := by
    unfold Msg.bytes
    rw [Nat.mul_comm, Nat.mul_add_div hf, Nat.div_eq_of_lt he]; rfl
  unfold Msg.count
  rw [this, Nat.mod_eq_of_lt hl]

/-- Safety. In every execution: what was on the wire is, message by message in order, each frame counted together with the answer the client finds at its place in the buffer, and beyond them only frames of the message under way. -/
theorem wire_seen {q : Cfg} (hf : 0 < q.fw) {s : St α} (r : Run q (init q) s) :
    ∃ w, s.wire = seen q s.fin ++ w ∧ (s.cur = none → w = []) ∧ (∀ m, s.cur = some m → w.map Prod.fst <+: m.tx) ∧
      ∀ p ∈ s.fin, p.2.1.length = p.1.count q ∧ p.2.2 = p.1.bytes q := by
  obtain ⟨w, i⟩ := inv_run hf r
  refine ⟨w, i.wire, fun h => ?_, fun m h => ?_, i.fin⟩
  · cases hw : s.wait with
    | false => exact (i.idle hw).1
    | true => obtain ⟨_, m, e, _⟩ := i.busy hw; rw [h] at e; cases e
  · cases hw : s.wait with
    | false => rw [(i.idle hw).1]; exact List.nil_prefix
    | true =>
      obtain ⟨_, m', e, h1, _⟩ := i.busy hw
      have : m = m' := by rw [h] at e; exact Option.some.inj e
      subst this
      refine List.IsPrefix.trans ?_ (List.take_prefix (m.count q) m.tx)
      rw [← h1, List.append_assoc]
      exact List.prefix_append _ _

/-- Messages of whole frames that fit the counters: the wire had all of each message in order, every frame with the answer the client finds at its place, and the value returned is the number of bytes exchanged. -/
theorem done_right_partial {q : Cfg} (hf : 0 < q.fw) {s : St α} (r : Run q (init q) s) (he : ∀ p ∈ s.fin, p.1.extra = 0 ∧ p.1.tx.length < 2 ^ q.w) :
    (∃ w, s.wire = (s.fin.flatMap fun p => p.1.tx.zip p.2.1) ++ w ∧ (s.cur = none → w = [])) ∧
      ∀ p ∈ s.fin, p.2.1.length = p.1.tx.length ∧ p.2.2 = p.1.tx.length * q.fw := by
  obtain ⟨w, h0, hn, _, h⟩ := wire_seen hf r
  have c : ∀ p ∈ s.fin, p.1.count q = p.1.tx.length := fun p hp => count_eq hf (by have := (he p hp).1; omega) (he p hp).2
  refine ⟨⟨w, ?_, hn⟩, fun p hp => ?_⟩
  · rw [h0]
    congr 1
    unfold seen
    have : ∀ l : List (Msg α × List α × Nat), (∀ p ∈ l, p.1.count q = p.1.tx.length) →
        (l.flatMap fun p => (p.1.tx.take (p.1.count q)).zip p.2.1) = l.flatMap fun p => p.1.tx.zip p.2.1 := by
      intro l
      induction l with
      | nil => intro _; rfl
      | cons p l ih =>
        intro hh
        rw [List.flatMap_cons, List.flatMap_cons, ih (fun x hx => hh x (List.mem_cons_of_mem _ hx)), hh p List.mem_cons_self, List.take_length]
    exact this _ c
  · obtain ⟨h1, h2⟩ := h p hp
    refine ⟨by rw [h1, c p hp], ?_⟩
    rw [h2]; unfold Msg.bytes; rw [(he p hp).1]; rfl

/-- Once an answer was lost (the FIFO of reception was full) the call never ends: it is not reported, but nothing wrong is either. -/
theorem lost_stuck {q : Cfg} (hf : 0 < q.fw) {s t : St α} (r : Run q (init q) s) (hl : 0 < s.lost) (r2 : Run q s t) : t.fin = s.fin ∧ 0 < t.lost ∧ t.wait = true := by
  induction r2 with
  | refl =>
    obtain ⟨w, i⟩ := inv_run hf r
    refine ⟨rfl, hl, ?_⟩
    cases hw : s.wait with
    | true => rfl
    | false => have := (i.idle hw).2.2.2.2.2; omega
  | @step u u' a ru e ih =>
    obtain ⟨f, l, wt⟩ := ih
    obtain ⟨w, i⟩ := inv_run hf (run_trans r ru)
    obtain ⟨w', i'⟩ := inv_step hf a i e
    have keep : u'.fin = u.fin ∧ u.lost ≤ u'.lost := by
      cases a with
      | begin m =>
        simp only [step] at e
        by_cases hc : (u.cur.isNone && decide (m.extra < q.fw) && decide (0 < m.bytes q)) = true
        · rw [if_pos hc, Option.some.injEq] at e; rw [← e]; exact ⟨rfl, Nat.le_refl _⟩
        · rw [if_neg hc] at e; cases e
      | call =>
        cases hc : u.cur with
        | none => simp [step, hc] at e
        | some m =>
          simp only [step, hc, Option.map_some, Option.some.injEq] at e
          subst e
          unfold call
          rw [if_pos wt]
          unfold poll
          by_cases hd : (u.fill.isEmpty && u.left == 0) = true
          · rw [Bool.and_eq_true, List.isEmpty_iff, beq_iff_eq] at hd
            obtain ⟨_, m', em, h1, h2, h3, _⟩ := i.busy wt
            have em : m = m' := by rw [hc] at em; exact Option.some.inj em
            subst em
            have := congrArg List.length h1
            rw [hd.1, List.append_nil, List.length_append, List.length_map, List.length_take, Nat.min_eq_left (count_le q hf m (i.ok m hc))] at this
            omega
          · rw [if_neg hd]; exact ⟨rfl, Nat.le_refl _⟩
      | fill =>
        cases hl : u.fill with
        | nil => simp [step, hl] at e
        | cons b l =>
          simp only [step, hl] at e
          by_cases hc : (u.req && decide (u.txf.length < q.depth)) = true
          · rw [if_pos hc, Option.some.injEq] at e; rw [← e]; exact ⟨rfl, Nat.le_refl _⟩
          · rw [if_neg hc] at e; cases e
      | drain =>
        cases hr : u.rxf with
        | nil => simp [step, hr] at e
        | cons b l =>
          cases hl : u.left with
          | zero => simp [step, hr, hl] at e
          | succ k =>
            simp only [step, hr, hl] at e
            by_cases hq : u.req = true
            · rw [if_pos hq, Option.some.injEq] at e; rw [← e]; exact ⟨rfl, Nat.le_refl _⟩
            · rw [if_neg hq] at e; cases e
      | shift a =>
        cases hx : u.txf with
        | nil => simp [step, hx] at e
        | cons b l =>
          simp only [step, hx] at e
          by_cases hd : u.rxf.length < q.depth
          · rw [if_pos hd, Option.some.injEq] at e; rw [← e]; exact ⟨rfl, Nat.le_refl _⟩
          · rw [if_neg hd, Option.some.injEq] at e; rw [← e]; exact ⟨rfl, Nat.le_succ _⟩
    refine ⟨keep.1.trans f, by omega, ?_⟩
    cases hw : u'.wait with
    | true => rfl
    | false => have := (i'.idle hw).2.2.2.2.2; omega

/-- the transfer under way can be brought to its end: `n` is what is left to move -/
theorem ends_busy {q : Cfg} (hf : 0 < q.fw) (hd : 0 < q.depth) {m : Msg α} : ∀ (n : Nat) (s : St α) (w : List (α × α)), Inv q s w → s.wait = true → s.cur = some m → s.lost = 0 →
    3 * s.fill.length + 2 * s.txf.length + s.rxf.length = n → ∃ t b, Run q s t ∧ t.lost = 0 ∧ t.cur = none ∧ t.fin = s.fin ++ [(m, b, m.bytes q)] := by
  intro n
  induction n using Nat.strongRecOn with
  | _ n ih =>
    intro s w i hw hc hl hn
    obtain ⟨hreq, m', e, h1, h2, h3, h4⟩ := i.busy hw
    have e : m = m' := by rw [hc] at e; exact Option.some.inj e
    subst e
    have hlen : w.length + s.txf.length + s.fill.length = m.count q := by
      have := congrArg List.length h1
      rw [List.length_append, List.length_append, List.length_map, List.length_take, Nat.min_eq_left (count_le q hf m (i.ok m hc))] at this
      exact this
    cases hr : s.rxf with
    | cons b l =>
      rw [hr, List.length_cons] at h3 hn
      obtain ⟨k, hk⟩ : ∃ k, s.left = k + 1 := ⟨s.left - 1, by omega⟩
      have st : step q s .drain = some { s with rxf := l, left := k, buf := s.buf ++ [b] } := by simp only [step, hr, hk]; rw [if_pos hreq]
      obtain ⟨w', i'⟩ := inv_step hf _ i st
      obtain ⟨t, bb, r, z⟩ := ih (3 * s.fill.length + 2 * s.txf.length + l.length) (by omega) _ w' i' hw hc hl rfl
      exact ⟨t, bb, run_trans (run_one _ st) r, z⟩
    | nil =>
      rw [hr, List.length_nil] at h3 hn
      cases hx : s.txf with
      | cons b l =>
        rw [hx, List.length_cons] at hn
        have st : step q s (.shift b) = some { s with txf := l, rxf := s.rxf ++ [b], wire := s.wire ++ [(b, b)] } := by simp only [step, hx]; rw [if_pos (by rw [hr]; exact hd)]
        obtain ⟨w', i'⟩ := inv_step hf _ i st
        obtain ⟨t, bb, r, z⟩ := ih (3 * s.fill.length + 2 * l.length + 1) (by omega) _ w' i' hw hc hl (by show 3 * s.fill.length + 2 * l.length + (s.rxf ++ [b]).length = _; rw [hr]; rfl)
        exact ⟨t, bb, run_trans (run_one _ st) r, z⟩
      | nil =>
        rw [hx, List.length_nil] at hn hlen
        cases hfl : s.fill with
        | cons b l =>
          rw [hfl, List.length_cons] at hn
          have st : step q s .fill = some { s with fill := l, txf := s.txf ++ [b] } := by simp only [step, hfl]; rw [if_pos (by rw [hreq, hx]; simpa using hd)]
          obtain ⟨w', i'⟩ := inv_step hf _ i st
          obtain ⟨t, bb, r, z⟩ := ih (3 * l.length + 2) (by omega) _ w' i' hw hc hl (by show 3 * l.length + 2 * (s.txf ++ [b]).length + s.rxf.length = _; rw [hx, hr]; rfl)
          exact ⟨t, bb, run_trans (run_one _ st) r, z⟩
        | nil =>
          rw [hfl, List.length_nil] at hlen
          have st : step q s .call = some { s with wait := false, req := !q.en, cur := none, fin := s.fin ++ [(m, s.buf, m.bytes q)] } := by
            simp only [step, hc, Option.map_some, call]
            rw [if_pos hw]; unfold poll
            rw [if_pos (by rw [hfl]; simp only [List.isEmpty_nil, Bool.true_and, beq_iff_eq]; omega)]
          exact ⟨_, s.buf, run_one _ st, hl, rfl, rfl⟩

/-- Liveness. Whatever the execution so far, as long as no answer was lost the message under way can be brought to its end: the channels move every frame, and a last call returns. -/
theorem ends {q : Cfg} (hf : 0 < q.fw) (hd : 0 < q.depth) {s : St α} (r : Run q (init q) s) {m : Msg α} (hc : s.cur = some m) (hl : s.lost = 0) :
    ∃ t b, Run q s t ∧ t.lost = 0 ∧ t.cur = none ∧ t.fin = s.fin ++ [(m, b, m.bytes q)] := by
  obtain ⟨w, i⟩ := inv_run hf r
  by_cases hw : s.wait = true
  · exact ends_busy hf hd _ s w i hw hc hl rfl
  · have st : step q s .call = some (start q m s) := by simp only [step, hc, Option.map_some, call]; rw [if_neg hw]
    obtain ⟨w', i'⟩ := inv_step hf _ i st
    obtain ⟨t, b, r', z⟩ := ends_busy hf hd _ _ w' i' rfl hc hl rfl
    exact ⟨t, b, run_trans (run_one _ st) r', z⟩

/-- The channels are the only ones to put frames on the wire: between messages nothing is exchanged, and no request is left enabled (en). -/
theorem quiet {q : Cfg} (hf : 0 < q.fw) {s : St α} (r : Run q (init q) s) (hc : s.cur = none) :
    s.txf = [] ∧ s.rxf = [] ∧ s.fill = [] ∧ s.left = 0 ∧ ∀ a, step q s (.shift a) = none := by
  obtain ⟨w, i⟩ := inv_run hf r
  cases hw : s.wait with
  | false => obtain ⟨_, a, b, c, d, _⟩ := i.idle hw; exact ⟨b, c, a, d, fun x => (by simp only [step, b])⟩
  | true => obtain ⟨_, m, e, _⟩ := i.busy hw; rw [hc] at e; cases e

/-- Refuted: the bytes beyond the last whole frame are not exchanged, yet the value returned counts them - a message shorter than a frame returns its length and nothing was on the wire -/
theorem extra_lost (q : Cfg) (m : Msg α) (ht : m.tx = []) (h0 : 0 < m.extra) (he : m.extra < q.fw) :
    ∃ s : St α, Run q (init q) s ∧ s.fin = [(m, [], m.extra)] ∧ s.wire = [] := by
  have hb : m.bytes q = m.extra := by unfold Msg.bytes; rw [ht]; simp
  have hcnt : m.count q = 0 := by unfold Msg.count; rw [hb, Nat.div_eq_of_lt he]; simp
  have s1 : step q (init q) (.begin m) = some { init q (α := α) with cur := some m } := by
    simp only [step]; rw [if_pos (by simp [init, he, hb, h0])]
  have s2 : step q { init q (α := α) with cur := some m } .call = some (start q m { init q with cur := some m }) := rfl
  have s3 : step q (start q m { init q with cur := some m }) .call = some { start q m { init q with cur := some m } with wait := false, req := !q.en, cur := none, fin := [] ++ [(m, [], m.bytes q)] } := by
    show some (poll q m _) = _
    unfold poll
    rw [if_pos (by simp [start, ht, hcnt])]; rfl
  refine ⟨_, ((run_one _ s1).step _ s2).step _ s3, ?_, rfl⟩
  show [] ++ [(m, [], m.bytes q)] = _
  rw [hb]; rfl

/-- Refuted: a message of 2^w frames exchanges nothing, and returns its length -/
theorem long_lost (q : Cfg) (hf : 0 < q.fw) (m : Msg α) (hl : m.tx.length = 2 ^ q.w) (he : m.extra = 0) :
    ∃ s : St α, Run q (init q) s ∧ s.fin = [(m, [], m.tx.length * q.fw)] ∧ s.wire = [] := by
  have hb : m.bytes q = m.tx.length * q.fw := by unfold Msg.bytes; omega
  have hcnt : m.count q = 0 := by unfold Msg.count; rw [hb, Nat.mul_div_cancel _ hf, hl, Nat.mod_self]
  have s1 : step q (init q) (.begin m) = some { init q (α := α) with cur := some m } := by
    simp only [step]; rw [if_pos (by simp [init, he, hf, hb, hl, Nat.mul_pos (Nat.two_pow_pos q.w) hf])]
  have s2 : step q { init q (α := α) with cur := some m } .call = some (start q m { init q with cur := some m }) := rfl
  have s3 : step q (start q m { init q with cur := some m }) .call = some { start q m { init q with cur := some m } with wait := false, req := !q.en, cur := none, fin := [] ++ [(m, [], m.bytes q)] } := by
    show some (poll q m _) = _
    unfold poll
    rw [if_pos (by simp [start, hcnt])]; rfl
  refine ⟨_, ((run_one _ s1).step _ s2).step _ s3, ?_, rfl⟩
  show [] ++ [(m, [], m.bytes q)] = _
  rw [hb]; rfl

/- a case: a pl022 with half words, two messages; in the second the answers come while frames are still filled -/
def exQ : Cfg := ⟨true, 2, 2, 16⟩
def exec (q : Cfg) : List (Cmd Nat) → St Nat → Option (St Nat)
  | [], s => some s
  | a :: l, s => (step q s a).bind (exec q l)
example : (exec exQ [.begin ⟨[7], 0⟩, .call, .fill, .call, .shift 9, .drain, .call, .begin ⟨[1, 2, 3], 0⟩, .call, .fill, .fill, .shift 11, .fill, .shift 12, .drain, .call, .shift 13, .drain, .drain, .call] (init exQ)).map
    (fun s => (s.fin, s.wire, s.cur)) = some ([(⟨[7], 0⟩, [9], 2), (⟨[1, 2, 3], 0⟩, [11, 12, 13], 6)], [(7, 9), (1, 11), (2, 12), (3, 13)], none) := by decide
/- and one where an answer is lost: no call returns any more (lost_stuck) -/
example : (exec exQ [.begin ⟨[1, 2, 3], 0⟩, .call, .fill, .fill, .shift 11, .fill, .shift 12, .shift 13, .drain, .drain, .call] (init exQ)).map
    (fun s => (s.fin, s.lost, s.left, s.fill)) = some ([], 1, 1, []) := by decide
theorem exec_run {q : Cfg} {s0 : St Nat} : ∀ (l : List (Cmd Nat)) (s t : St Nat), Run q s0 s → exec q l s = some t → Run q s0 t
  | [], _, _, r, h => by simp only [exec, Option.some.injEq] at h; exact h ▸ r
  | a :: l, s, t, r, h => by
    cases e : step q s a with
    | none => simp [exec, e] at h
    | some u => simp only [exec, e, Option.bind_some] at h; exact exec_run l u t (r.step a e) h

end Pico.SpiDma
