import Verif.Drivers.Spi1
/-
spi_xfer without FIFOs (C101): proofs.
-/
namespace Pico.Spi1

/-- **the specification**: what is on the wire is a beginning of the message; what was delivered is what the peer answered, in order, at its place; nothing else was written, nothing lost -/
structure Faithful (m : List Byte) (old : Nat → Byte) (s : St) : Prop where
  wire : s.wire = m.take s.wire.length
  answers : s.resp.length = s.wire.length
  ahead : s.done ≤ s.wire.length ∧ s.done ≤ m.length
  data : ∀ i, i < s.done → s.resp[i]? = some (s.buf i)
  rest : ∀ i, s.done ≤ i → s.buf i = old i
  lost : s.lost = 0

/-- where the transfer is -/
inductive Phase (k : Kind) (m : List Byte) (s : St) : Prop where
  | idle (hx : k = .avr → s.xfer = false) (hs : s.sh = none) (hr : s.rx = none) (hw : s.wire.length = s.done)
  | sending (hx : k = .avr → s.xfer = true) (b : Byte) (hb : m[s.done]? = some b) (hs : s.sh = some b) (hr : s.rx = none) (hw : s.wire.length = s.done)
  | received (hx : k = .avr → s.xfer = true) (f : Byte) (hm : s.mid = false) (hs : s.sh = none) (hr : s.rx = some f) (hw : s.wire.length = s.done + 1) (hf : s.resp[s.done]? = some f)

structure Inv (k : Kind) (m : List Byte) (old : Nat → Byte) (s : St) : Prop where
  ok : Faithful m old s
  phase : Phase k m s
  dry : s.txb = none
  nomid : k = .avr ∨ k = .ch552 → s.mid = false

theorem get_some (m : List Byte) (i : Nat) (h : i < m.length) : m[i]? = some (m.getD i 0#8) := by
  rw [List.getD_eq_getElem?_getD, List.getElem?_eq_getElem h]; rfl

theorem take_ok {k : Kind} {m : List Byte} {old : Nat → Byte} {s : St} {f : Byte} (h : Inv k m old s) (hr : s.rx = some f) : Faithful m old (take f s) ∧ (take f s).sh = none ∧ (take f s).wire.length = (take f s).done := by
  obtain ⟨ok, ph, -, -⟩ := h
  cases ph with
  | idle hx hs hr' hw => rw [hr] at hr'; cases hr'
  | sending hx b hb hs hr' hw => rw [hr] at hr'; cases hr'
  | received hx f' hm hs hr' hw hf =>
    rw [hr] at hr'; cases hr'
    refine ⟨⟨ok.wire, ok.answers, ?_, ?_, ?_, ok.lost⟩, hs, hw⟩
    · show s.done + 1 ≤ s.wire.length ∧ s.done + 1 ≤ m.length
      refine ⟨by omega, ?_⟩
      have := congrArg List.length ok.wire
      rw [List.length_take] at this
      omega
    · intro i hi
      have hi : i < s.done + 1 := hi
      show s.resp[i]? = some (if i = s.done then f else s.buf i)
      by_cases e : i = s.done
      · rw [if_pos e, e, hf]
      · rw [if_neg e]; exact ok.data i (by omega)
    · intro i hi
      have hi : s.done + 1 ≤ i := hi
      show (if i = s.done then f else s.buf i) = old i
      rw [if_neg (by omega)]; exact ok.rest i (by omega)

/-- the three drivers whose calls can be trusted: avr and ch552 always, n76e003 when it isn't interrupted -/
def Fine (k : Kind) (quiet : Bool) : Prop := k = .avr ∨ k = .ch552 ∨ (k = .n76 ∧ quiet = true)

theorem inv_call {k : Kind} {m : List Byte} {old : Nat → Byte} {s : St} (hk : k ≠ .s08) (hd : s.done < m.length) (h : Inv k m old s) : Inv k m old (call k m s) := by
  have hgs := get_some m s.done hd
  cases k with
  | s08 => exact absurd rfl hk
  | avr =>
    have hm := h.nomid (Or.inl rfl)
    unfold call
    dsimp only
    cases hph : h.phase with
    | idle hx hs hr hw =>
      have hx := hx rfl
      rw [if_pos hx]
      unfold write
      rw [if_neg (by decide), hs, Option.isNone_none, if_pos rfl]
      exact ⟨⟨h.ok.wire, h.ok.answers, h.ok.ahead, h.ok.data, h.ok.rest, h.ok.lost⟩, .sending (fun _ => rfl) _ hgs rfl hr hw, h.dry, fun _ => hm⟩
    | sending hx b hb hs hr hw =>
      have hx := hx rfl
      rw [if_neg (by rw [hx]; decide), hr]
      exact h
    | received hx f _ hs hr hw hf =>
      have hx := hx rfl
      obtain ⟨t1, t2, t3⟩ := take_ok h hr
      rw [if_neg (by rw [hx]; decide), hr]
      dsimp only
      by_cases h1 : 1 < m.length - s.done
      · rw [if_pos h1]
        unfold write
        rw [if_neg (by decide), t2, Option.isNone_none, if_pos rfl]
        refine ⟨⟨t1.wire, t1.answers, t1.ahead, t1.data, t1.rest, t1.lost⟩, .sending (fun _ => hx) _ (get_some m (s.done + 1) (by omega)) rfl rfl t3, h.dry, fun _ => hm⟩
      · rw [if_neg h1]
        exact ⟨⟨t1.wire, t1.answers, t1.ahead, t1.data, t1.rest, t1.lost⟩, .idle (fun _ => rfl) t2 rfl t3, h.dry, fun _ => hm⟩
  | ch552 =>
    have hm := h.nomid (Or.inr rfl)
    unfold call
    dsimp only
    cases hph : h.phase with
    | idle hx hs hr hw =>
      rw [hs, Option.isNone_none, if_pos rfl, hr]
      dsimp only
      unfold write
      rw [if_neg (by decide), hs, Option.isNone_none, if_pos rfl]
      exact ⟨⟨h.ok.wire, h.ok.answers, h.ok.ahead, h.ok.data, h.ok.rest, h.ok.lost⟩, .sending (fun q => by cases q) _ hgs rfl hr hw, h.dry, fun _ => hm⟩
    | sending hx b hb hs hr hw =>
      rw [hs, Option.isNone_some, if_neg (by decide)]
      exact h
    | received hx f _ hs hr hw hf =>
      obtain ⟨t1, t2, t3⟩ := take_ok h hr
      rw [hs, Option.isNone_none, if_pos rfl, hr]
      exact ⟨t1, .idle (fun q => by cases q) t2 rfl t3, h.dry, fun _ => hm⟩
  | n76 =>
    unfold call
    dsimp only
    cases hph : h.phase with
    | idle hx hs hr hw =>
      cases hm : s.mid with
      | true =>
        rw [if_pos rfl, show room .n76 s = true by unfold room; rw [if_neg (by decide), hs]; rfl, if_pos rfl]
        unfold write
        rw [if_neg (by decide), hs, Option.isNone_none, if_pos rfl]
        exact ⟨⟨h.ok.wire, h.ok.answers, h.ok.ahead, h.ok.data, h.ok.rest, h.ok.lost⟩, .sending (fun q => by cases q) _ hgs rfl hr hw, h.dry, fun _ => rfl⟩
      | false =>
        rw [if_neg (by decide), hr]
        exact ⟨⟨h.ok.wire, h.ok.answers, h.ok.ahead, h.ok.data, h.ok.rest, h.ok.lost⟩, .idle (fun q => by cases q) hs rfl hw, h.dry, fun q => by rcases q with q | q <;> cases q⟩
    | sending hx b hb hs hr hw =>
      cases hm : s.mid with
      | true =>
        rw [if_pos rfl, show room .n76 s = false by unfold room; rw [if_neg (by decide), hs]; rfl, if_neg (by decide)]
        exact ⟨⟨h.ok.wire, h.ok.answers, h.ok.ahead, h.ok.data, h.ok.rest, h.ok.lost⟩, .sending (fun q => by cases q) b hb hs hr hw, h.dry, fun _ => rfl⟩
      | false =>
        rw [if_neg (by decide), hr]
        exact ⟨⟨h.ok.wire, h.ok.answers, h.ok.ahead, h.ok.data, h.ok.rest, h.ok.lost⟩, .sending (fun q => by cases q) b hb hs rfl hw, h.dry, fun q => by rcases q with q | q <;> cases q⟩
    | received hx f hm hs hr hw hf =>
      obtain ⟨t1, t2, t3⟩ := take_ok h hr
      rw [hm, if_neg (by decide), hr]
      exact ⟨t1, .idle (fun q => by cases q) t2 rfl t3, h.dry, fun _ => hm⟩

theorem inv_shift {k : Kind} {m : List Byte} {old : Nat → Byte} {s s' : St} {f : Byte} (hm : s.mid = false) (h : Inv k m old s) (hs : step k m s (.shift f) = some s') : Inv k m old s' := by
  unfold step at hs
  dsimp only at hs
  cases hph : h.phase with
  | idle hx h1 h2 hw => rw [h1] at hs; cases hs
  | received hx g _ h1 h2 hw hf => rw [h1] at hs; cases hs
  | sending hx b hb h1 h2 hw =>
    rw [h1, h2] at hs
    have hs : some { s with sh := none, rx := some f, wire := s.wire ++ [b], resp := s.resp ++ [f] } = some s' := hs
    rw [Option.some.injEq] at hs
    have hl : s.done < m.length := by
      by_cases q : s.done < m.length
      · exact q
      · rw [List.getElem?_eq_none (by omega)] at hb; cases hb
    have hwl : (s.wire ++ [b]).length = s.done + 1 := by rw [List.length_append, hw]; rfl
    have ha := h.ok.answers
    rw [← hs]
    refine ⟨⟨?_, ?_, ?_, ?_, h.ok.rest, h.ok.lost⟩, .received hx f hm rfl rfl hwl ?_, h.dry, fun _ => hm⟩
    · show s.wire ++ [b] = m.take (s.wire ++ [b]).length
      rw [hwl, List.take_add_one, hb]
      have := h.ok.wire
      rw [hw] at this
      rw [← this]; rfl
    · show (s.resp ++ [f]).length = (s.wire ++ [b]).length
      rw [List.length_append, List.length_append, ha]; rfl
    · show s.done ≤ (s.wire ++ [b]).length ∧ s.done ≤ m.length
      omega
    · intro i hi
      have hi : i < s.done := hi
      show (s.resp ++ [f])[i]? = _
      rw [List.getElem?_append_left (by omega)]
      exact h.ok.data i hi
    · show (s.resp ++ [f])[s.done]? = some f
      rw [List.getElem?_append_right (by omega), ha, hw, Nat.sub_self]; rfl

theorem inv_init (k : Kind) (m : List Byte) (old : Nat → Byte) : Inv k m old (init old) :=
  ⟨⟨rfl, rfl, ⟨Nat.le_refl _, Nat.zero_le _⟩, fun i hi => absurd hi (Nat.not_lt_zero _), fun _ _ => rfl, rfl⟩, .idle (fun _ => rfl) rfl rfl rfl, rfl, fun _ => rfl⟩

theorem inv_run {k : Kind} {quiet : Bool} (hk : Fine k quiet) {m : List Byte} {old : Nat → Byte} {s s' : St} (h : Inv k m old s) (hr : Run k quiet m s s') : Inv k m old s' := by
  have hn : k ≠ .s08 := by rcases hk with q | q | q <;> (intro e; rw [e] at q; simp at q)
  induction hr with
  | refl => exact h
  | @step t t' a _ hq hs ih =>
    cases a with
    | call =>
      unfold step at hs
      dsimp only at hs
      by_cases hd : t.done < m.length
      · rw [if_pos hd, Option.some.injEq] at hs
        rw [← hs]; exact inv_call hn hd ih
      · rw [if_neg hd] at hs; cases hs
    | load =>
      unfold step at hs
      dsimp only at hs
      rw [if_neg (fun q => hn q.1)] at hs
      cases hs
    | shift f =>
      refine inv_shift ?_ ih hs
      rcases hk with q | q | ⟨q, q'⟩
      · exact ih.nomid (Or.inl q)
      · exact ih.nomid (Or.inr q)
      · cases hm : t.mid with
        | false => rfl
        | true => cases hq q' hm

/-- **C101**: at any moment of any transfer by spi-avr.c (and by spi-avr_irqdriven.c in its normal mode) -/
theorem avr_faithful (m : List Byte) (old : Nat → Byte) (s : St) (h : Run .avr false m (init old) s) : Faithful m old s := (inv_run (Or.inl rfl) (inv_init _ m old) h).ok
/-- **C101**: by spi-ch552.c -/
theorem ch552_faithful (m : List Byte) (old : Nat → Byte) (s : St) (h : Run .ch552 false m (init old) s) : Faithful m old s := (inv_run (Or.inr (Or.inl rfl)) (inv_init _ m old) h).ok
/-- **C101**: by spi-n76e003.c, if no byte ends while a call is under way.  Missing: `n76_twice` -/
theorem n76_faithful_partial (m : List Byte) (old : Nat → Byte) (s : St) (h : Run .n76 true m (init old) s) : Faithful m old s := (inv_run (Or.inr (Or.inr ⟨rfl, rfl⟩)) (inv_init _ m old) h).ok

/-- **C101**: when the client is done, the wire carried the message, once; every answer is in the buffer; and the driver is as before the message -/
theorem complete {k : Kind} {quiet : Bool} (hk : Fine k quiet) (m : List Byte) (old : Nat → Byte) (s : St) (h : Run k quiet m (init old) s) (hd : s.done = m.length) :
    s.wire = m ∧ s.resp.length = m.length ∧ (∀ i, i < m.length → s.resp[i]? = some (s.buf i)) ∧ (∀ i, m.length ≤ i → s.buf i = old i) ∧ s.sh = none ∧ s.rx = none ∧ (k = .avr → s.xfer = false) := by
  have hi := inv_run hk (inv_init _ m old) h
  have hw := hi.ok.wire
  have hl := congrArg List.length hw
  rw [List.length_take] at hl
  have ha := hi.ok.ahead
  cases hph : hi.phase with
  | idle hx hs hr hwl =>
    refine ⟨?_, by rw [hi.ok.answers]; omega, fun i q => hi.ok.data i (by omega), fun i q => hi.ok.rest i (by omega), hs, hr, hx⟩
    rw [hw, hwl, hd, List.take_length]
  | sending hx b hb hs hr hwl =>
    rw [List.getElem?_eq_none (by omega)] at hb; cases hb
  | received hx f hm hs hr hwl hf => omega

theorem run_trans {k : Kind} {quiet : Bool} {m : List Byte} {s t u : St} (h : Run k quiet m s t) (h' : Run k quiet m t u) : Run k quiet m s u := by
  induction h' with
  | refl => exact h
  | step a _ hq hs ih => exact .step a ih hq hs

/-- one byte more -/
theorem one_more {k : Kind} {quiet : Bool} (hk : Fine k quiet) {m : List Byte} {old : Nat → Byte} {s : St} (h : Inv k m old s) (hd : s.done < m.length) (f : Byte) : ∃ s', Run k quiet m s s' ∧ s'.done = s.done + 1 := by
  have hn : k ≠ .s08 := by rcases hk with q | q | q <;> (intro e; rw [e] at q; simp at q)
  -- a call from the state that received ends the byte
  have fin : ∀ t, Inv k m old t → t.rx.isSome = true → t.done < m.length → ∃ s', Run k quiet m t s' ∧ s'.done = t.done + 1 := by
    intro t ht hr hd
    refine ⟨call k m t, .step .call .refl (fun _ _ => rfl) (by unfold step; dsimp only; rw [if_pos hd]), ?_⟩
    cases hph : ht.phase with
    | idle hx h1 h2 hw => rw [h2] at hr; cases hr
    | sending hx b hb h1 h2 hw => rw [h2] at hr; cases hr
    | received hx g hm h1 h2 hw hf =>
      unfold call
      cases k with
      | s08 => exact absurd rfl hn
      | avr =>
        dsimp only
        rw [if_neg (by rw [hx rfl]; decide), h2]
        dsimp only
        by_cases q : 1 < m.length - t.done
        · rw [if_pos q]
          unfold write
          rw [if_neg (by decide), show (take g t).sh = none from h1, Option.isNone_none, if_pos rfl]; rfl
        · rw [if_neg q]; rfl
      | ch552 => dsimp only; rw [h1, Option.isNone_none, if_pos rfl, h2]; rfl
      | n76 => dsimp only; rw [hm, if_neg (by decide), h2]; rfl
  have snd : ∀ t, Inv k m old t → t.sh.isSome = true → t.mid = false → t.done < m.length → ∃ s', Run k quiet m t s' ∧ s'.done = t.done + 1 := by
    intro t ht hs hm hd
    cases hph : ht.phase with
    | idle hx h1 h2 hw => rw [h1] at hs; cases hs
    | received hx g _ h1 h2 hw hf => rw [h1] at hs; cases hs
    | sending hx b hb h1 h2 hw =>
      have e : step k m t (.shift f) = some { t with sh := none, rx := some f, wire := t.wire ++ [b], resp := t.resp ++ [f] } := by unfold step; dsimp only; rw [h1, h2]
      obtain ⟨s', r, q⟩ := fin _ (inv_shift hm ht e) rfl hd
      exact ⟨s', run_trans (.step _ .refl (fun _ z => by rw [hm] at z; cases z) e) r, q⟩
  -- a call, if it changes neither done nor starts in the middle, sends
  have callr : ∀ t, t.done < m.length → Run k quiet m t (call k m t) := fun t hd => .step .call .refl (fun _ _ => rfl) (by unfold step; dsimp only; rw [if_pos hd])
  have sndm : ∀ t, Inv k m old t → t.sh.isSome = true → t.done < m.length → ∃ s', Run k quiet m t s' ∧ s'.done = t.done + 1 := by
    intro t ht hs hd
    cases hm : t.mid with
    | false => exact snd t ht hs hm hd
    | true =>
      have kn : k = .n76 := by
        rcases hk with q | q | ⟨q, -⟩
        · rw [ht.nomid (Or.inl q)] at hm; cases hm
        · rw [ht.nomid (Or.inr q)] at hm; cases hm
        · exact q
      subst kn
      have e : call .n76 m t = { t with mid := false } := by
        unfold call room
        dsimp only
        rw [hm, if_pos rfl]
        cases q : t.sh with
        | none => rw [q] at hs; cases hs
        | some b => rfl
      have hi := inv_call hn hd ht
      have r := callr t hd
      rw [e] at hi r
      obtain ⟨s', r', q⟩ := snd _ hi hs rfl hd
      exact ⟨s', run_trans r r', q⟩
  cases hph : h.phase with
  | received hx g hm h1 h2 hw hf => exact fin s h (by rw [h2]; rfl) hd
  | sending hx b hb h1 h2 hw => exact sndm s h (by rw [h1]; rfl) hd
  | idle hx h1 h2 hw =>
    have hi := inv_call hn hd h
    cases k with
    | s08 => exact absurd rfl hn
    | avr =>
      have e : call .avr m s = { s with sh := some (m.getD s.done 0#8), xfer := true } := by
        unfold call write
        dsimp only
        rw [if_pos (hx rfl), if_neg (by decide), h1, Option.isNone_none, if_pos rfl]
      have r := callr s hd
      rw [e] at hi r
      obtain ⟨s', r', q⟩ := sndm _ hi rfl hd
      exact ⟨s', run_trans r r', q⟩
    | ch552 =>
      have e : call .ch552 m s = { s with sh := some (m.getD s.done 0#8) } := by
        unfold call write
        dsimp only
        rw [h1, Option.isNone_none, if_pos rfl, h2]
        rfl
      have r := callr s hd
      rw [e] at hi r
      obtain ⟨s', r', q⟩ := sndm _ hi rfl hd
      exact ⟨s', run_trans r r', q⟩
    | n76 =>
      have two : ∀ t, Inv .n76 m old t → t.sh = none → t.mid = true → t.done < m.length → ∃ s', Run .n76 quiet m t s' ∧ s'.done = t.done + 1 := by
        intro t ht hs hm hd
        have e : call .n76 m t = { t with sh := some (m.getD t.done 0#8), mid := false } := by
          unfold call write room
          dsimp only
          rw [hm, if_pos rfl, hs]; rfl
        have hi := inv_call hn hd ht
        have r := callr t hd
        rw [e] at hi r
        obtain ⟨s', r', q⟩ := sndm _ hi rfl hd
        exact ⟨s', run_trans r r', q⟩
      cases hm : s.mid with
      | true => exact two s h h1 hm hd
      | false =>
        have e : call .n76 m s = { s with mid := true } := by
          unfold call
          dsimp only
          rw [hm, if_neg (by decide), h2]
        have r := callr s hd
        rw [e] at hi r
        obtain ⟨s', r', q⟩ := two _ hi h1 rfl hd
        exact ⟨s', run_trans r r', q⟩

/-- **C101**: no transfer gets stuck: from any moment of any transfer, it can be brought to its end -/
theorem ends {k : Kind} {quiet : Bool} (hk : Fine k quiet) (m : List Byte) (old : Nat → Byte) (s : St) (h : Run k quiet m (init old) s) : ∃ s', Run k quiet m s s' ∧ s'.done = m.length := by
  have key : ∀ n, ∀ s, Inv k m old s → m.length - s.done = n → ∃ s', Run k quiet m s s' ∧ s'.done = m.length := by
    intro n
    induction n with
    | zero =>
      intro s hi hn
      exact ⟨s, .refl, by have := hi.ok.ahead; omega⟩
    | succ n ih =>
      intro s hi hn
      obtain ⟨t, r, q⟩ := one_more hk hi (by omega) 0#8
      obtain ⟨u, r', q'⟩ := ih t (inv_run hk hi r) (by omega)
      exact ⟨u, run_trans r r', q'⟩
  exact key _ s (inv_run hk (inv_init _ m old) h) rfl

/-- a run given as a list of commands -/
def runs (k : Kind) (m : List Byte) : St → List Cmd → Option St
  | s, [] => some s
  | s, a :: l => (step k m s a).bind fun s => runs k m s l
theorem runs_run {k : Kind} {m : List Byte} {s s' : St} (l : List Cmd) (h : runs k m s l = some s') : Run k false m s s' := by
  have key : ∀ l s0 s, Run k false m s0 s → runs k m s l = some s' → Run k false m s0 s' := by
    intro l
    induction l with
    | nil => intro s0 s hr h; cases h; exact hr
    | cons a l ih =>
      intro s0 s hr h
      obtain ⟨t, ht, h⟩ := Option.bind_eq_some_iff.mp h
      exact ih s0 t (.step a hr (fun q => by cases q) ht) h
  exact key l s s .refl h

/-- **C101 refuted, n76e003**: a byte that ends between the two tests of a call is sent again: of the message `a b` the peer sees `a a` when the client has got two answers -/
theorem n76_twice (a b f g : Byte) (old : Nat → Byte) : ∃ s, Run .n76 false [a, b] (init old) s ∧ s.done = 2 ∧ s.wire = [a, a] :=
  ⟨_, runs_run [.call, .call, .call, .shift f, .call, .call, .shift g, .call] rfl, rfl, rfl⟩
/-- **C101 refuted, mc9s08ptxx**: the transmitter has room for the next byte while it shifts one; a call in the meantime sends the same byte again -/
theorem s08_twice (a b f g : Byte) (old : Nat → Byte) : ∃ s, Run .s08 false [a, b] (init old) s ∧ s.done = 2 ∧ s.wire = [a, a] :=
  ⟨_, runs_run [.call, .call, .load, .call, .call, .shift f, .load, .call, .shift g, .call] rfl, rfl, rfl⟩
/-- and this is what happens even if no byte ends during a call -/
theorem s08_twice_quiet (a b f g : Byte) (old : Nat → Byte) : ∃ s, Run .s08 true [a, b] (init old) s ∧ s.done = 2 ∧ s.wire = [a, a] := by
  refine ⟨_, .step .call (.step (.shift g) (.step .call (.step .load (.step (.shift f) (.step .call (.step .call (.step .load (.step .call (.step .call .refl ?_ rfl) ?_ rfl) ?_ rfl) ?_ rfl) ?_ rfl) ?_ rfl) ?_ rfl) ?_ rfl) ?_ rfl) ?_ rfl, rfl, rfl⟩ <;>
    (intro _ h; first | rfl | cases h)

/-- two bytes by each of the drivers that are right -/
theorem sample_avr (a b f g : Byte) (old : Nat → Byte) : ∃ s, Run .avr false [a, b] (init old) s ∧ s.done = 2 ∧ s.wire = [a, b] ∧ s.buf 1 = g :=
  ⟨_, runs_run [.call, .call, .shift f, .call, .shift g, .call] rfl, rfl, rfl, rfl⟩
theorem sample_ch552 (a b f g : Byte) (old : Nat → Byte) : ∃ s, Run .ch552 false [a, b] (init old) s ∧ s.done = 2 ∧ s.wire = [a, b] ∧ s.buf 1 = g :=
  ⟨_, runs_run [.call, .call, .shift f, .call, .call, .shift g, .call] rfl, rfl, rfl, rfl⟩

end Pico.Spi1
