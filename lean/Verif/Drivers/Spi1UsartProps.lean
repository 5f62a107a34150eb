import Verif.Drivers.Spi1Usart
import Verif.Drivers.Spi1Props
/-
spi-avr_usart.c (C101): proofs.
-/
namespace Pico.Spi1.Usart
open Pico.Spi1

/-- what the client and the peer see -/
structure Faithful (m : List Byte) (old : Nat → Byte) (s : St) : Prop where
  wire : s.wire = m.take s.wire.length
  answers : s.resp.length = s.wire.length
  ahead : s.done ≤ s.wire.length ∧ s.done ≤ m.length
  data : ∀ i, i < s.done → s.resp[i]? = some (s.buf i)
  rest : ∀ i, s.done ≤ i → s.buf i = old i
  lost : s.lost = 0

inductive Phase (m : List Byte) (s : St) : Prop where
  | idle (x : s.xfer = false) (md : s.mid = false) (tb : s.txb = none) (sh : s.sh = none) (tp : s.tp = false) (tc : s.txc = false) (rp : s.rp = none) (rx : s.rx = none) (w : s.wire.length = s.done)
  | waiting (b : Byte) (hb : m[s.done]? = some b) (x : s.xfer = true) (md : s.mid = false) (tb : s.txb = some b) (sh : s.sh = none) (tp : s.tp = false) (tc : s.txc = false) (rp : s.rp = none) (rx : s.rx = none) (w : s.wire.length = s.done)
  | sending (b : Byte) (hb : m[s.done]? = some b) (x : s.xfer = true) (md : s.mid = false) (tb : s.txb = none) (sh : s.sh = some b) (tp : s.tp = false) (tc : s.txc = false) (rp : s.rp = none) (rx : s.rx = none) (w : s.wire.length = s.done)
  | shifted (f : Byte) (hf : s.resp[s.done]? = some f) (x : s.xfer = true) (tb : s.txb = none) (sh : s.sh = none) (t : s.txc = !s.tp) (r : s.rp = some f ∧ s.rx = none ∧ s.mid = false ∨ s.rp = none ∧ s.rx = some f) (w : s.wire.length = s.done + 1)

structure Inv (m : List Byte) (old : Nat → Byte) (s : St) : Prop where
  ok : Faithful m old s
  ph : Phase m s

theorem inv_init (m : List Byte) (old : Nat → Byte) : Inv m old (init old) :=
  ⟨⟨by simp [init], rfl, ⟨Nat.le_refl _, Nat.zero_le _⟩, fun i h => absurd h (Nat.not_lt_zero i), fun _ _ => rfl, rfl⟩, .idle rfl rfl rfl rfl rfl rfl rfl rfl rfl⟩

theorem take_ok {m : List Byte} {old : Nat → Byte} {s : St} {f : Byte} (ok : Faithful m old s) (hr : s.rx = some f) (hf : s.resp[s.done]? = some f) (w : s.wire.length = s.done + 1) : Faithful m old (take s) := by
  refine ⟨ok.wire, ok.answers, ?_, ?_, ?_, ok.lost⟩
  · show s.done + 1 ≤ s.wire.length ∧ s.done + 1 ≤ m.length
    refine ⟨by omega, ?_⟩
    have := congrArg List.length ok.wire
    rw [List.length_take] at this
    omega
  · intro i hi
    have hi : i < s.done + 1 := hi
    show s.resp[i]? = some (if i = s.done then s.rx.getD 0#8 else s.buf i)
    by_cases e : i = s.done
    · rw [if_pos e, e, hf, hr]; rfl
    · rw [if_neg e]; exact ok.data i (by omega)
  · intro i hi
    have hi : s.done + 1 ≤ i := hi
    show (if i = s.done then s.rx.getD 0#8 else s.buf i) = old i
    rw [if_neg (by omega)]; exact ok.rest i (by omega)

theorem inv_call {m : List Byte} {old : Nat → Byte} {s : St} (hd : s.done < m.length) (h : Inv m old s) : Inv m old (call m s) := by
  obtain ⟨ok, ph⟩ := h
  cases ph with
  | idle x md tb sh tp tc rp rx w =>
    have e : call m s = { s with txb := some (m.getD s.done 0#8), xfer := true } := by simp [call, md, x, write, tb]
    rw [e]
    exact ⟨⟨ok.wire, ok.answers, ok.ahead, ok.data, ok.rest, ok.lost⟩, .waiting _ (get_some m s.done hd) rfl md rfl sh tp tc rp rx w⟩
  | waiting b hb x md tb sh tp tc rp rx w =>
    have e : call m s = s := by simp [call, md, x, rx]
    rw [e]; exact ⟨ok, .waiting b hb x md tb sh tp tc rp rx w⟩
  | sending b hb x md tb sh tp tc rp rx w =>
    have e : call m s = s := by simp [call, md, x, rx]
    rw [e]; exact ⟨ok, .sending b hb x md tb sh tp tc rp rx w⟩
  | shifted f hf x tb sh t r w =>
    rcases r with ⟨rp, rx, md⟩ | ⟨rp, rx⟩
    · have e : call m s = s := by simp [call, md, x, rx]
      rw [e]; exact ⟨ok, .shifted f hf x tb sh t (.inl ⟨rp, rx, md⟩) w⟩
    · cases hmd : s.mid with
      | false =>
        have e : call m s = { s with mid := true } := by simp [call, hmd, x, rx]
        rw [e]
        exact ⟨⟨ok.wire, ok.answers, ok.ahead, ok.data, ok.rest, ok.lost⟩, .shifted f hf x tb sh t (.inr ⟨rp, rx⟩) w⟩
      | true =>
        cases htc : s.txc with
        | false =>
          have e : call m s = { s with mid := false } := by simp [call, hmd, htc]
          rw [e]
          exact ⟨⟨ok.wire, ok.answers, ok.ahead, ok.data, ok.rest, ok.lost⟩, .shifted f hf x tb sh t (.inr ⟨rp, rx⟩) w⟩
        | true =>
          have ok' := take_ok ok rx hf w
          have tp : s.tp = false := by rw [htc] at t; simpa using t.symm
          by_cases c : 1 < m.length - s.done
          · have e : call m s = { take s with txb := some (m.getD (s.done + 1) 0#8) } := by
              simp only [call, hmd, htc, if_true, if_pos c]
              have : (take s).txb.isNone = true := by show s.txb.isNone = true; rw [tb]; rfl
              simp only [write, this, if_true]
            rw [e]
            exact ⟨⟨ok'.wire, ok'.answers, ok'.ahead, ok'.data, ok'.rest, ok'.lost⟩, .waiting _ (get_some m (s.done + 1) (by omega)) x rfl rfl sh tp rfl rp rfl w⟩
          · have e : call m s = { take s with xfer := false } := by simp only [call, hmd, htc, if_true, if_neg c]
            rw [e]
            exact ⟨⟨ok'.wire, ok'.answers, ok'.ahead, ok'.data, ok'.rest, ok'.lost⟩, .idle rfl rfl tb sh tp rfl rp rfl w⟩

theorem inv_step {m : List Byte} {old : Nat → Byte} {s s' : St} (a : Cmd) (h : Inv m old s) (hs : step m s a = some s') : Inv m old s' := by
  cases a with
  | call =>
    by_cases c : s.done < m.length
    · simp only [step, if_pos c, Option.some.injEq] at hs
      rw [← hs]; exact inv_call c h
    · simp only [step, if_neg c] at hs; cases hs
  | load =>
    obtain ⟨ok, ph⟩ := h
    cases ph with
    | waiting b hb x md tb sh tp tc rp rx w =>
      simp only [step, sh, tp, tb, Option.isNone_none, Option.isSome_some, and_self, if_true, Option.some.injEq] at hs
      rw [← hs]
      exact ⟨⟨ok.wire, ok.answers, ok.ahead, ok.data, ok.rest, ok.lost⟩, .sending b hb x md rfl rfl rfl tc rp rx w⟩
    | idle x md tb sh tp tc rp rx w => simp [step, tb] at hs
    | sending b hb x md tb sh tp tc rp rx w => simp [step, tb] at hs
    | shifted f hf x tb sh t r w => simp [step, tb] at hs
  | shift f =>
    obtain ⟨ok, ph⟩ := h
    cases ph with
    | sending b hb x md tb sh tp tc rp rx w =>
      simp only [step, sh, rp, Option.isNone_none, if_true, Option.some.injEq] at hs
      rw [← hs]
      have hl := ok.answers
      refine ⟨⟨?_, ?_, ?_, ?_, ok.rest, ok.lost⟩, .shifted f ?_ x tb rfl (by simp [tc]) (.inl ⟨rfl, rx, md⟩) ?_⟩
      · show s.wire ++ [b] = m.take (s.wire ++ [b]).length
        rw [List.length_append, List.length_singleton, List.take_add_one, ← ok.wire, w, hb]; rfl
      · show (s.resp ++ [f]).length = (s.wire ++ [b]).length
        simp [hl]
      · show s.done ≤ (s.wire ++ [b]).length ∧ _
        rw [List.length_append]; exact ⟨by omega, ok.ahead.2⟩
      · intro i hi
        show (s.resp ++ [f])[i]? = some (s.buf i)
        have hi : i < s.done := hi
        rw [List.getElem?_append_left (by omega)]; exact ok.data i hi
      · show (s.resp ++ [f])[s.done]? = some f
        rw [List.getElem?_append_right (by omega), show s.done - s.resp.length = 0 by omega]; rfl
      · show (s.wire ++ [b]).length = s.done + 1
        simp [w]
    | idle x md tb sh tp tc rp rx w => simp [step, sh] at hs
    | waiting b hb x md tb sh tp tc rp rx w => simp [step, sh] at hs
    | shifted f hf x tb sh t r w => simp [step, sh] at hs
  | store =>
    obtain ⟨ok, ph⟩ := h
    cases ph with
    | shifted f hf x tb sh t r w =>
      rcases r with ⟨rp, rx, md⟩ | ⟨rp, rx⟩
      · simp only [step, rp, rx, Option.isNone_none, if_true, Option.some.injEq] at hs
        rw [← hs]
        exact ⟨⟨ok.wire, ok.answers, ok.ahead, ok.data, ok.rest, ok.lost⟩, .shifted f hf x tb sh t (.inr ⟨rfl, rfl⟩) w⟩
      · simp [step, rp] at hs
    | idle x md tb sh tp tc rp rx w => simp [step, rp] at hs
    | waiting b hb x md tb sh tp tc rp rx w => simp [step, rp] at hs
    | sending b hb x md tb sh tp tc rp rx w => simp [step, rp] at hs
  | flag =>
    obtain ⟨ok, ph⟩ := h
    cases ph with
    | shifted f hf x tb sh t r w =>
      cases tp : s.tp with
      | false => simp [step, tp] at hs
      | true =>
        simp only [step, tp, tb, if_true, Option.isNone_none, Bool.or_true, Option.some.injEq] at hs
        rw [← hs]
        exact ⟨⟨ok.wire, ok.answers, ok.ahead, ok.data, ok.rest, ok.lost⟩, .shifted f hf x rfl sh rfl r w⟩
    | idle x md tb sh tp tc rp rx w => simp [step, tp] at hs
    | waiting b hb x md tb sh tp tc rp rx w => simp [step, tp] at hs
    | sending b hb x md tb sh tp tc rp rx w => simp [step, tp] at hs

theorem inv_run {m : List Byte} {old : Nat → Byte} {s0 s : St} (h0 : Inv m old s0) (h : Run m s0 s) : Inv m old s := by
  induction h with
  | refl => exact h0
  | step a _ hs ih => exact inv_step a ih hs

/-- **C101**: at any moment of any transfer by spi-avr_usart.c -/
theorem faithful (m : List Byte) (old : Nat → Byte) (s : St) (h : Run m (init old) s) : Faithful m old s := (inv_run (inv_init m old) h).ok

/-- **C101**: when the client is done, the wire carried the message, once; every answer is in the buffer; the driver and the USART are as before the message -/
theorem complete (m : List Byte) (old : Nat → Byte) (s : St) (h : Run m (init old) s) (hd : s.done = m.length) :
    s.wire = m ∧ s.resp.length = m.length ∧ (∀ i, i < m.length → s.resp[i]? = some (s.buf i)) ∧ (∀ i, m.length ≤ i → s.buf i = old i) ∧
    s.xfer = false ∧ s.mid = false ∧ s.txb = none ∧ s.sh = none ∧ s.tp = false ∧ s.txc = false ∧ s.rp = none ∧ s.rx = none := by
  obtain ⟨ok, ph⟩ := inv_run (inv_init m old) h
  have hw := ok.wire
  have hl := congrArg List.length hw
  rw [List.length_take] at hl
  cases ph with
  | idle x md tb sh tp tc rp rx w =>
    refine ⟨?_, by rw [ok.answers]; omega, fun i q => ok.data i (by omega), fun i q => ok.rest i (by omega), x, md, tb, sh, tp, tc, rp, rx⟩
    rw [hw, w, hd, List.take_length]
  | waiting b hb x md tb sh tp tc rp rx w => rw [List.getElem?_eq_none (by omega)] at hb; cases hb
  | sending b hb x md tb sh tp tc rp rx w => rw [List.getElem?_eq_none (by omega)] at hb; cases hb
  | shifted f hf x tb sh t r w => omega

theorem run_trans {m : List Byte} {s t u : St} (h : Run m s t) (h' : Run m t u) : Run m s u := by
  induction h' with
  | refl => exact h
  | step a _ hs ih => exact .step a ih hs

/-- one byte more -/
theorem one_more {m : List Byte} {old : Nat → Byte} {s : St} (h : Inv m old s) (hd : s.done < m.length) (f : Byte) : ∃ s', Run m s s' ∧ s'.done = s.done + 1 := by
  -- with both flags
  have fin : ∀ t : St, Inv m old t → t.done < m.length → t.rx.isSome = true → t.txc = true → ∃ s', Run m t s' ∧ s'.done = t.done + 1 := by
    intro t ht hd hr hc
    have last : ∀ t : St, t.done < m.length → t.mid = true → t.txc = true → ∃ s', Run m t s' ∧ s'.done = t.done + 1 := by
      intro t hd hm hc
      refine ⟨call m t, .step .call .refl (by simp only [step, if_pos hd]), ?_⟩
      simp only [call, hm, hc, if_true]
      split
      · unfold write; split <;> rfl
      · rfl
    cases hm : t.mid with
    | true => exact last t hd hm hc
    | false =>
      have hx : t.xfer = true := by
        obtain ⟨_, ph⟩ := ht
        cases ph with
        | idle x md tb sh tp tc rp rx w => rw [rx] at hr; cases hr
        | waiting b hb x md tb sh tp tc rp rx w => exact x
        | sending b hb x md tb sh tp tc rp rx w => exact x
        | shifted f hf x tb sh t r w => exact x
      have e : call m t = { t with mid := true } := by
        cases hrx : t.rx with
        | none => rw [hrx] at hr; cases hr
        | some g => simp [call, hm, hx, hrx]
      obtain ⟨s', r, q⟩ := last { t with mid := true } hd rfl hc
      exact ⟨s', run_trans (.step .call .refl (by simp only [step, if_pos hd, e])) r, q⟩
  have shifted : ∀ t : St, Inv m old t → t.done < m.length → t.wire.length = t.done + 1 → ∃ s', Run m t s' ∧ s'.done = t.done + 1 := by
    have flagged : ∀ t : St, Inv m old t → t.done < m.length → t.rx.isSome = true → ∃ s', Run m t s' ∧ s'.done = t.done + 1 := by
      intro t ht hd hr
      obtain ⟨ok, ph⟩ := ht
      cases ph with
      | idle x md tb sh tp tc rp rx w => rw [rx] at hr; cases hr
      | waiting b hb x md tb sh tp tc rp rx w => rw [rx] at hr; cases hr
      | sending b hb x md tb sh tp tc rp rx w => rw [rx] at hr; cases hr
      | shifted f hf x tb sh tt r w =>
        cases htp : t.tp with
        | false => exact fin t ⟨ok, .shifted f hf x tb sh tt r w⟩ hd hr (by rw [tt, htp]; rfl)
        | true =>
          have e : step m t .flag = some { t with tp := false, txc := t.txc || t.txb.isNone } := by simp [step, htp]
          obtain ⟨s', rr, q⟩ := fin _ (inv_step .flag ⟨ok, .shifted f hf x tb sh tt r w⟩ e) hd hr (by simp [tb])
          exact ⟨s', run_trans (.step .flag .refl e) rr, q⟩
    intro t ht hd hw
    obtain ⟨ok, ph⟩ := ht
    cases ph with
    | idle x md tb sh tp tc rp rx w => omega
    | waiting b hb x md tb sh tp tc rp rx w => omega
    | sending b hb x md tb sh tp tc rp rx w => omega
    | shifted f hf x tb sh tt r w =>
      rcases r with ⟨rp, rx, md⟩ | ⟨rp, rx⟩
      · have e : step m t .store = some { t with rp := none, rx := some f } := by simp [step, rp, rx]
        obtain ⟨s', rr, q⟩ := flagged _ (inv_step .store ⟨ok, .shifted f hf x tb sh tt (.inl ⟨rp, rx, md⟩) w⟩ e) hd rfl
        exact ⟨s', run_trans (.step .store .refl e) rr, q⟩
      · exact flagged t ⟨ok, .shifted f hf x tb sh tt (.inr ⟨rp, rx⟩) w⟩ hd (by rw [rx]; rfl)
  have sending : ∀ t : St, Inv m old t → t.done < m.length → t.sh.isSome = true → ∃ s', Run m t s' ∧ s'.done = t.done + 1 := by
    intro t ht hd hs
    obtain ⟨ok, ph⟩ := ht
    cases ph with
    | idle x md tb sh tp tc rp rx w => rw [sh] at hs; cases hs
    | waiting b hb x md tb sh tp tc rp rx w => rw [sh] at hs; cases hs
    | shifted f hf x tb sh tt r w => rw [sh] at hs; cases hs
    | sending b hb x md tb sh tp tc rp rx w =>
      have e : step m t (.shift f) = some { t with sh := none, tp := true, rp := some f, wire := t.wire ++ [b], resp := t.resp ++ [f] } := by simp [step, sh, rp]
      obtain ⟨s', rr, q⟩ := shifted _ (inv_step (.shift f) ⟨ok, .sending b hb x md tb sh tp tc rp rx w⟩ e) hd (by simp [w])
      exact ⟨s', run_trans (.step (.shift f) .refl e) rr, q⟩
  have waiting : ∀ t : St, Inv m old t → t.done < m.length → t.txb.isSome = true → ∃ s', Run m t s' ∧ s'.done = t.done + 1 := by
    intro t ht hd hs
    obtain ⟨ok, ph⟩ := ht
    cases ph with
    | idle x md tb sh tp tc rp rx w => rw [tb] at hs; cases hs
    | sending b hb x md tb sh tp tc rp rx w => rw [tb] at hs; cases hs
    | shifted f hf x tb sh tt r w => rw [tb] at hs; cases hs
    | waiting b hb x md tb sh tp tc rp rx w =>
      have e : step m t .load = some { t with sh := t.txb, txb := none } := by simp [step, sh, tp, tb]
      obtain ⟨s', rr, q⟩ := sending _ (inv_step .load ⟨ok, .waiting b hb x md tb sh tp tc rp rx w⟩ e) hd (by simp [tb])
      exact ⟨s', run_trans (.step .load .refl e) rr, q⟩
  cases hph : h.ph with
  | idle x md tb sh tp tc rp rx w =>
    have ec : call m s = { s with txb := some (m.getD s.done 0#8), xfer := true } := by simp [call, md, x, write, tb]
    have e : step m s .call = some { s with txb := some (m.getD s.done 0#8), xfer := true } := by simp only [step, if_pos hd, ec]
    obtain ⟨s', rr, q⟩ := waiting _ (inv_step .call h e) hd rfl
    exact ⟨s', run_trans (.step .call .refl e) rr, q⟩
  | waiting b hb x md tb sh tp tc rp rx w => exact waiting s h hd (by rw [tb]; rfl)
  | sending b hb x md tb sh tp tc rp rx w => exact sending s h hd (by rw [sh]; rfl)
  | shifted f hf x tb sh tt r w => exact shifted s h hd w

/-- **C101**: no transfer gets stuck: from any moment of any transfer, it can be brought to its end -/
theorem ends (m : List Byte) (old : Nat → Byte) (s : St) (h : Run m (init old) s) : ∃ s', Run m s s' ∧ s'.done = m.length := by
  have hi := inv_run (inv_init m old) h
  suffices H : ∀ n (s : St), Inv m old s → m.length - s.done = n → ∃ s', Run m s s' ∧ s'.done = m.length from H _ s hi rfl
  intro n
  induction n with
  | zero => intro s hi hn; exact ⟨s, .refl, by have := hi.ok.ahead.2; omega⟩
  | succ n ih =>
    intro s hi hn
    obtain ⟨t, r, q⟩ := one_more hi (by omega) 0#8
    obtain ⟨u, r', q'⟩ := ih t (inv_run hi r) (by omega)
    exact ⟨u, run_trans r r', q'⟩

theorem run_list {m : List Byte} : ∀ (c : List Cmd) (s t : St), c.foldlM (step m) s = some t → Run m s t := by
  intro c
  induction c with
  | nil => intro s t h; cases h; exact .refl
  | cons x c ih =>
    intro s t h
    rw [List.foldlM_cons] at h
    cases hx : step m s x with
    | none => rw [hx] at h; cases h
    | some u => rw [hx] at h; exact run_trans (.step x .refl hx) (ih u t h)

/-- two bytes; the flags come in both orders -/
theorem sample : ∃ s, Run [1, 2] (init fun _ => 9) s ∧ s.done = 2 ∧ s.wire = [1, 2] ∧ s.buf 0 = 5 ∧ s.buf 1 = 6 ∧ s.buf 2 = 9 := by
  have h : ∃ t, [Cmd.call, .load, .call, .shift 5, .store, .call, .call, .flag, .call, .call, .load, .shift 6, .flag, .call, .store, .call, .call].foldlM (step [1, 2]) (init fun _ => 9) = some t ∧
      t.done = 2 ∧ t.wire = [1, 2] ∧ t.buf 0 = 5 ∧ t.buf 1 = 6 ∧ t.buf 2 = 9 := by
    simp [List.foldlM_cons, step, call, init, write, take]
  obtain ⟨t, e, q⟩ := h
  exact ⟨t, run_list _ _ _ e, q⟩

end Pico.Spi1.Usart
