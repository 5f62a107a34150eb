import Verif.Drivers.TwiF28Props
/-
C117: the TWI master of the C2000: reading, and what goes wrong.
-/
namespace Pico.TwiF28
open Pico.Twi

theorem works_na (q : Par) (i : Nat) (h : Hw) : works q (Wk.none.a i) h = h := rfl
theorem works_nb (q : Par) (i : Nat) (h : Hw) : works q (Wk.none.b i) h = h := rfl
theorem rSent_pos {n : Nat} (h : 0 < n) : rSent n = .sent n := if_neg (by omega)

theorem wLoop_step (q : Par) (b : Byte) (l : List Byte) (p : Nat) (h : Hw) (ht : h.tx.length ≤ 16) (hi : h.txil = 16) (hn : h.nack = false) :
    wLoop q (b :: l) p Wk.none h = wLoop q l (p + 1) Wk.none (push b h) := by
  rw [wLoop]
  simp [works_na, works_nb, hn, txffint, hi, ht]

theorem rLoop_step (q : Par) (n : Nat) (got : List Byte) (h : Hw) (hi : h.rxint = true) :
    rLoop q (n + 1) got Wk.none h = rLoop q n (got ++ [(pop h).1]) Wk.none (pop h).2 := by
  rw [rLoop]
  simp [works_na, works_nb, hi]

/-- the loop of a write during which the bus does not move -/
theorem wLoop_none (q : Par) : ∀ (l : List Byte) (p : Nat) (h : Hw), h.tx.length ≤ 16 → h.txil = 16 → h.nack = false →
    wLoop q l p Wk.none h = (.idle, { h with tx := (h.tx ++ l).take 16 }, rSent (p + l.length)) := by
  intro l
  induction l with
  | nil => intro p h ht hi hn; rw [wLoop]; simp [List.take_of_length_le ht]
  | cons b l ih =>
    intro p h ht hi hn
    rw [wLoop_step q b l p h ht hi hn]
    by_cases c : h.tx.length < 16
    · have e : push b h = { h with tx := h.tx ++ [b] } := by simp [push, depth, c]
      rw [e]
      have := ih (p + 1) { h with tx := h.tx ++ [b] } (by simp; omega) hi hn
      rw [this]
      simp only [List.append_assoc, List.cons_append, List.nil_append, List.length_cons, Nat.add_assoc, Nat.add_comm 1]
    · have e : push b h = h := by simp [push, depth, c]
      rw [e]
      have := ih (p + 1) h ht hi hn
      rw [this]
      have e16 : h.tx.length = 16 := by omega
      rw [List.take_left' e16, List.take_left' e16, List.length_cons, Nat.add_assoc, Nat.add_comm 1]

/-- a call of twi_write during which the bus does not move -/
theorem write_none (q : Par) (l : List Byte) (h : Hw) (hp : h.ph = .idle) (ht : h.tx.length ≤ 16) (hi : h.txil = 16) (hn : h.nack = false) :
    write q l Wk.none .idle h = (.idle, { h with cnt := cntOf l.length, stt := true, trx := true, tx := (h.tx ++ l).take 16 }, rSent l.length) := by
  have e : write q l Wk.none .idle h = wLoop q l 0 Wk.none { h with cnt := cntOf l.length, stt := true, trx := true } := by simp [write, wIdle, bb, hp]
  rw [e, wLoop_none q l 0 { h with cnt := cntOf l.length, stt := true, trx := true } ht hi hn]
  simp

theorem works_append (q : Par) (a b : List (Bool × Byte)) (h : Hw) : works q (a ++ b) h = works q b (works q a h) := List.foldl_append ..

/-- the slave takes the bytes of the FIFO -/
theorem drain (q : Par) : ∀ (m r : List Byte) (es : List (Bool × Byte)) (h : Hw), (∀ e ∈ es, e.1 = true) → es.length = m.length → h.ph = .w → h.tx = m ++ r → m.length ≤ h.cnt →
    works q es h = { h with tx := r, cnt := h.cnt - m.length, bus := h.bus ++ txs m } := by
  intro m
  induction m with
  | nil =>
    intro r es h he hl hp ht hc
    have : es = [] := List.length_eq_zero_iff.mp hl
    subst this
    obtain ⟨⟩ := h
    simp only [List.nil_append] at ht
    simp [works, txs, ht]
  | cons b m ih =>
    intro r es h he hl hp ht hc
    cases es with
    | nil => simp at hl
    | cons e es =>
      have e1 := he e (by simp)
      simp only [List.length_cons] at hl hc
      have eg : go q e.1 e.2 h = { h with tx := m ++ r, cnt := h.cnt - 1, bus := h.bus ++ [.tx b true] } := by
        simp [go, hp, ht, e1, show h.cnt ≠ 0 by omega]
      show works q es (go q e.1 e.2 h) = _
      rw [eg, ih r es { h with tx := m ++ r, cnt := h.cnt - 1, bus := h.bus ++ [.tx b true] } (fun e h => he e (by simp [h])) (by omega) hp rfl (by show m.length ≤ h.cnt - 1; omega)]
      simp [txs, Nat.sub_sub, Nat.add_comm]

/-- a module that waits for data moves no more -/
theorem go_stuck (q : Par) (h : Hw) (hp : h.ph = .w) (ht : h.tx = []) (hc : 0 < h.cnt) (ack : Bool) (d : Byte) : go q ack d h = h := by
  simp [go, hp, ht, show h.cnt ≠ 0 by omega]

theorem works_stuck (q : Par) (es : List (Bool × Byte)) (h : Hw) (hp : h.ph = .w) (ht : h.tx = []) (hc : 0 < h.cnt) : works q es h = h := by
  induction es with
  | nil => rfl
  | cons e es ih => show works q es (go q e.1 e.2 h) = h; rw [go_stuck q h hp ht hc]; exact ih

/-- while BB is set every call is refused -/
theorem busy_again (q : Par) (h : Hw) (hp : h.ph ≠ .idle) (l : List Byte) (n : Nat) (k : Wk) :
    write q l k .idle h = (.idle, h, .again) ∧ read q n k .idle h = (.idle, h, .again) := by
  simp [write, wIdle, read, rIdle, bb, hp]

/-- **C117 refuted**: a message of more than 16 bytes is reported as written, its bytes from the 17th on are lost, the frame never ends, and every call after that is refused, for ever -/
theorem twi_write_long (q : Par) (l : List Byte) (h : Hw) (h17 : 16 < l.length) (hm : l.length ≤ 65536) (hq : Quiet h) :
    (write q l Wk.none .idle h).1 = .idle ∧ (write q l Wk.none .idle h).2.2 = .sent l.length ∧
    ∀ (es : List (Bool × Byte)), (∀ e ∈ es, e.1 = true) → 17 ≤ es.length →
      let y := works q es (write q l Wk.none .idle h).2.1
      y.bus = h.bus ++ [.start, .addr (sla q.a false) true] ++ (l.take 16).map (fun b => .tx b true) ∧
      (∀ ack d, go q ack d y = y) ∧ (∀ l' k, write q l' k .idle y = (.idle, y, .again)) ∧ ∀ n k, read q n k .idle y = (.idle, y, .again) := by
  rw [write_none q l h hq.ph (by simp [hq.tx]) hq.txil hq.nack]
  refine ⟨rfl, rSent_pos (by omega), ?_⟩
  intro es he hl
  have hc : cntOf l.length = l.length := cntOf_small (by omega) hm
  cases es with
  | nil => simp at hl
  | cons e es =>
    have e1 := he e (by simp)
    simp only [List.length_cons] at hl
    have hes : es = es.take 16 ++ es.drop 16 := (List.take_append_drop 16 es).symm
    have eg : go q e.1 e.2 { h with cnt := cntOf l.length, stt := true, trx := true, tx := (h.tx ++ l).take 16 } =
        { h with ph := .w, cnt := l.length, stt := false, trx := true, tx := l.take 16, bus := h.bus ++ [.start, .addr (sla q.a false) true] } := by
      simp [go, hq.ph, e1, hq.tx, hc]
    have ed := drain q (l.take 16) [] (es.take 16) { h with ph := .w, cnt := l.length, stt := false, trx := true, tx := l.take 16, bus := h.bus ++ [.start, .addr (sla q.a false) true] }
      (fun e h => he e (by simp [List.mem_of_mem_take h])) (by simp; omega) rfl (by simp) (by simp; omega)
    have ey : works q (e :: es) { h with cnt := cntOf l.length, stt := true, trx := true, tx := (h.tx ++ l).take 16 } =
        { h with ph := .w, cnt := l.length - (l.take 16).length, stt := false, trx := true, tx := [], bus := h.bus ++ [.start, .addr (sla q.a false) true] ++ txs (l.take 16) } := by
      show works q es (go q e.1 e.2 _) = _
      rw [eg, hes, works_append, ed]
      exact works_stuck q _ _ rfl rfl (by simp; omega)
    simp only [ey]
    refine ⟨rfl, go_stuck q _ rfl rfl (by simp; omega), fun l' k => (busy_again q _ (by simp) l' 0 k).1, fun n k => (busy_again q _ (by simp) [] n k).2⟩

/-- **C117 refuted**: a message for a slave that is not there is reported as written; the next write gets the error, whatever its message, or, if the module doesn't end the frame by itself,
every call is refused, for ever -/
theorem twi_write_absent (q : Par) (l : List Byte) (h : Hw) (h0 : 0 < l.length) (hq : Quiet h) (d : Byte) :
    (write q l Wk.none .idle h).2.2 = .sent l.length ∧
    (let y := go q false d (write q l Wk.none .idle h).2.1
     if q.stops then y.bus = h.bus ++ seen q.a (.write l true true, .absent) ∧ ∀ b l', (write q (b :: l') Wk.none .idle y).2.2 = .pipe
     else (∀ ack d, go q ack d y = y) ∧ (∀ l' k, write q l' k .idle y = (.idle, y, .again)) ∧ ∀ n k, read q n k .idle y = (.idle, y, .again)) := by
  rw [write_none q l h hq.ph (by simp [hq.tx]) hq.txil hq.nack]
  refine ⟨rSent_pos (by omega), ?_⟩
  cases hs : q.stops with
  | true =>
    simp only [if_true]
    refine ⟨by simp [go, hq.ph, refuse, hs, seen], fun b l' => ?_⟩
    simp [go, hq.ph, refuse, hs, write, wIdle, bb, wLoop, works, Wk.none]
  | false =>
    simp only [Bool.false_eq_true, if_false]
    refine ⟨fun ack d => ?_, fun l' k => (busy_again q _ ?_ l' 0 k).1, fun n k => (busy_again q _ ?_ [] n k).2⟩
    · simp [go, hq.ph, refuse, hs]
    · simp [go, hq.ph, refuse, hs]
    · simp [go, hq.ph, refuse, hs]

/-- **C117 refuted**: two messages written one after the other, before the START of the first is on the wires, are both reported as written, and one frame comes on the bus -/
theorem twi_write_twice (q : Par) (l m : List Byte) (h : Hw) (h0 : 0 < l.length) (h8 : l.length ≤ 8) (hm : m.length = l.length) (hq : Quiet h) :
    let y := (write q l Wk.none .idle h).2.1
    (write q l Wk.none .idle h).2.2 = .sent l.length ∧ (write q m Wk.none .idle y).2.2 = .sent m.length ∧
    ∀ (es : List (Bool × Byte)), (∀ e ∈ es, e.1 = true) → es.length = l.length + 2 →
      let z := works q es (write q m Wk.none .idle y).2.1
      z.bus = h.bus ++ seen q.a (.write l true true, .wrote) ∧ z.tx = m ∧ ∀ ack d, go q ack d z = z := by
  have e1 := write_none q l h hq.ph (by simp [hq.tx]) hq.txil hq.nack
  have ht : (h.tx ++ l).take 16 = l := by rw [hq.tx]; exact List.take_of_length_le (by simp; omega)
  rw [ht] at e1
  have e2 := write_none q m { h with cnt := cntOf l.length, stt := true, trx := true, tx := l } hq.ph (by show l.length ≤ 16; omega) hq.txil hq.nack
  have ht2 : (l ++ m).take 16 = l ++ m := List.take_of_length_le (by simp; omega)
  simp only [ht2] at e2
  simp only [e1, e2]
  refine ⟨rSent_pos (by omega), rSent_pos (by omega), ?_⟩
  intro es he hl
  cases es with
  | nil => simp at hl
  | cons e es =>
    have ea := he e (by simp)
    simp only [List.length_cons] at hl
    have hes : es = es.take l.length ++ es.drop l.length := (List.take_append_drop _ es).symm
    have hd : (es.drop l.length).length = 1 := by simp; omega
    obtain ⟨f, hf⟩ := List.length_eq_one_iff.mp hd
    have hc : cntOf m.length = l.length := by rw [hm]; exact cntOf_small h0 (by omega)
    have eg : go q e.1 e.2 { h with cnt := cntOf m.length, stt := true, trx := true, tx := l ++ m } =
        { h with ph := .w, cnt := l.length, stt := false, trx := true, tx := l ++ m, bus := h.bus ++ [.start, .addr (sla q.a false) true] } := by
      simp [go, hq.ph, ea, hc]
    have ed := drain q l m (es.take l.length) { h with ph := .w, cnt := l.length, stt := false, trx := true, tx := l ++ m, bus := h.bus ++ [.start, .addr (sla q.a false) true] }
      (fun e h => he e (by simp [List.mem_of_mem_take h])) (by simp; omega) rfl rfl (Nat.le_refl _)
    have ey : works q (e :: es) { h with cnt := cntOf m.length, stt := true, trx := true, tx := l ++ m } =
        { h with ph := .idle, cnt := 0, stt := false, trx := true, tx := m, bus := h.bus ++ [.start, .addr (sla q.a false) true] ++ txs l ++ [.stop] } := by
      show works q es (go q e.1 e.2 _) = _
      rw [eg, hes, works_append, ed, hf]
      simp [works, go]
    simp only [ey]
    refine ⟨by rw [seen_write]; simp [head], trivial, fun ack d => by simp [go]⟩

/-! ### Reading -/

/-- the loop of a read that finds the flag set and the FIFO empty -/
theorem rLoop_empty (q : Par) : ∀ (n : Nat) (got : List Byte) (h : Hw), h.rxint = true → h.rx = [] →
    rLoop q n got Wk.none h = (.idle, h, rGot (got ++ List.replicate n h.drr)) := by
  intro n
  induction n with
  | zero => intro got h _ _; simp [rLoop]
  | succ n ih =>
    intro got h hi hr
    have e : pop h = (h.drr, h) := by simp [pop, hr]
    rw [rLoop_step q n got h hi, e]
    have := ih (got ++ [h.drr]) h hi hr
    rw [this]
    simp [List.replicate_succ]

/-- and with bytes in it -/
theorem rLoop_some (q : Par) (n : Nat) : ∀ (ds got : List Byte) (h : Hw), h.rxint = true → h.rx = ds →
    rLoop q (ds.length + n) got Wk.none h = rLoop q n (got ++ ds) Wk.none { h with rx := [], drr := ds.getLastD h.drr } := by
  intro ds
  induction ds with
  | nil =>
    intro got h hi hr
    obtain ⟨⟩ := h
    simp only at hr
    simp [hr]
  | cons d ds ih =>
    intro got h hi hr
    rw [show (d :: ds).length + n = (ds.length + n) + 1 by simp; omega]
    have e : pop h = (d, { h with rx := ds, drr := d }) := by simp [pop, hr]
    rw [rLoop_step q (ds.length + n) got h hi, e]
    have := ih (got ++ [d]) { h with rx := ds, drr := d } hi rfl
    rw [this]
    simp only [List.append_assoc, List.cons_append, List.nil_append, List.getLastD_cons]

/-- what a call of twi_read returns once RXFFINT is set: what is in the FIFO, then as many times as needed what I2CDRR held -/
theorem rLoop_flag (q : Par) (n : Nat) (ds : List Byte) (h : Hw) (hi : h.rxint = true) (hr : h.rx = ds) :
    rLoop q (ds.length + n) [] Wk.none h = (.idle, { h with rx := [], drr := ds.getLastD h.drr }, rGot (ds ++ List.replicate n (ds.getLastD h.drr))) := by
  rw [rLoop_some q n ds [] h hi hr]
  have := rLoop_empty q n ([] ++ ds) { h with rx := [], drr := ds.getLastD h.drr } hi rfl
  simpa using this

/-- the slave sends its bytes -/
theorem receive (q : Par) : ∀ (ds : List Byte) (h : Hw), ds ≠ [] → h.ph = .r → h.cnt = ds.length → h.rx.length + ds.length ≤ 16 →
    works q (ds.map (fun d => (true, d))) h = { h with ph := .idle, cnt := 0, rx := h.rx ++ ds, rxint := true, bus := h.bus ++ rxs ds ++ [.stop] } := by
  intro ds
  induction ds with
  | nil => intro h h0; exact absurd rfl h0
  | cons d ds ih =>
    intro h _ hp hc hr
    simp only [List.length_cons] at hc hr
    show works q (ds.map (fun d => (true, d))) (go q true d h) = _
    have hf : ¬ (h.rx.length ≥ depth) := by simp [depth]; omega
    cases ds with
    | nil =>
      simp only [List.length_nil, Nat.zero_add] at hc
      simp [works, go, hp, hc, hf, rxs]
    | cons e ds =>
      have eg : go q true d h = { h with cnt := h.cnt - 1, rx := h.rx ++ [d], rxint := true, bus := h.bus ++ [.rx d true] } := by
        simp only [List.length_cons] at hc
        simp [go, hp, hf, show h.cnt ≠ 1 by omega]
      rw [eg, ih { h with cnt := h.cnt - 1, rx := h.rx ++ [d], rxint := true, bus := h.bus ++ [.rx d true] } (by simp) hp (by show h.cnt - 1 = _; omega) (by simp only [List.length_append, List.length_singleton]; omega)]
      simp [rxs]

theorem rGot_some {l : List Byte} (h : l ≠ []) : rGot l = .got l := by cases l with
  | nil => exact absurd rfl h
  | cons => rfl

/-- **C117, the first read**: when no byte was received since the module was reset, at most 16 bytes are read, and (`zero`) an empty FIFO does not set RXFFINT, a task that calls once, waits for the end of
the frame and calls again gets the bytes of the slave -/
theorem twi_read_partial (q : Par) (ds : List Byte) (h : Hw) (h0 : ds ≠ []) (h16 : ds.length ≤ 16) (hq : Quiet h) (hr : h.rx = []) (hi : h.rxint = false) (d : Byte) :
    let y := read q ds.length Wk.none .idle h
    let z := works q ((true, d) :: ds.map (fun d => (true, d))) y.2.1
    y.1 = .xfer ∧ y.2.2 = .again ∧ z.bus = h.bus ++ seen q.a (.read ds.length true true, .got ds) ∧
    (read q ds.length Wk.none y.1 z).1 = .idle ∧ (read q ds.length Wk.none y.1 z).2.2 = .got ds ∧ Quiet (read q ds.length Wk.none y.1 z).2.1 := by
  obtain ⟨m, hm⟩ : ∃ m, ds.length = m + 1 := ⟨ds.length - 1, by have := List.length_pos_iff.mpr h0; omega⟩
  have hc : cntOf ds.length = ds.length := cntOf_small (by omega) (by omega)
  have e1 : read q ds.length Wk.none .idle h = (.xfer, { h with cnt := ds.length, stt := true, trx := false }, .again) := by
    simp only [read, rIdle, bb, hq.ph, hc]
    rw [hm, rLoop]
    simp [works, Wk.none, hi, rGot]
  have e2 : works q ((true, d) :: ds.map (fun d => (true, d))) { h with cnt := ds.length, stt := true, trx := false } =
      { h with ph := .idle, cnt := 0, stt := false, trx := false, rx := ds, rxint := true, bus := h.bus ++ [.start, .addr (sla q.a true) true] ++ rxs ds ++ [.stop] } := by
    have eg : go q true d { h with cnt := ds.length, stt := true, trx := false } =
        { h with ph := .r, cnt := ds.length, stt := false, trx := false, bus := h.bus ++ [.start, .addr (sla q.a true) true] } := by simp [go, hq.ph]
    show works q (ds.map (fun d => (true, d))) (go q true d _) = _
    rw [eg, receive q ds _ h0 rfl rfl (by simp [hr, h16])]
    simp [hr]
  simp only [e1, e2]
  have e3 := rLoop_flag q 0 ds { h with ph := .idle, cnt := 0, stt := false, trx := false, rx := ds, rxint := true, bus := h.bus ++ [.start, .addr (sla q.a true) true] ++ rxs ds ++ [.stop] } rfl rfl
  simp only [Nat.add_zero, List.replicate_zero, List.append_nil, rGot_some h0] at e3
  refine ⟨trivial, trivial, by simp [seen], ?_⟩
  simp only [read, e3]
  exact ⟨trivial, trivial, rfl, rfl, hq.tx, hq.nack, hq.txil⟩

/-- RXFFINT, once set, is never cleared, but after an error of a write -/
theorem rxint_go (q : Par) (ack : Bool) (d : Byte) (h : Hw) (hi : h.rxint = true) : (go q ack d h).rxint = true := by
  unfold go refuse
  cases h.ph <;> dsimp only <;> (repeat' split) <;> simp_all

theorem rxint_works (q : Par) (es : List (Bool × Byte)) (h : Hw) (hi : h.rxint = true) : (works q es h).rxint = true := by
  induction es generalizing h with
  | nil => exact hi
  | cons e es ih => exact ih _ (rxint_go q e.1 e.2 h hi)

theorem rxint_pop (h : Hw) (hi : h.rxint = true) : (pop h).2.rxint = true := by unfold pop; split <;> exact hi

theorem rxint_rLoop (q : Par) (k : Wk) : ∀ (n : Nat) (got : List Byte) (h : Hw), h.rxint = true → (rLoop q n got k h).2.1.rxint = true := by
  intro n
  induction n with
  | zero => intro got h hi; exact hi
  | succ n ih =>
    intro got h hi
    rw [rLoop]
    simp only [rxint_works q _ h hi, Bool.true_eq_false, if_false]
    exact ih _ _ (rxint_pop _ (rxint_works q _ _ (rxint_works q _ h hi)))

theorem rxint_wLoop (q : Par) (k : Wk) : ∀ (l : List Byte) (p : Nat) (h : Hw), h.rxint = true → (wLoop q l p k h).2.1.rxint = true ∨ (wLoop q l p k h).2.2 = .pipe := by
  intro l
  induction l with
  | nil => intro p h hi; exact .inl hi
  | cons b l ih =>
    intro p h hi
    rw [wLoop]
    have h1 := rxint_works q (k.a p) h hi
    have h2 := rxint_works q (k.b p) _ h1
    dsimp only
    split
    · exact .inr rfl
    · split
      · exact .inl h2
      · exact ih _ _ h2

/-- **C117**: once a byte was received, RXFFINT stays set, whatever is called and whatever comes, until a write fails -/
theorem twi_flag_stays (q : Par) (h : Hw) (hi : h.rxint = true) (s : State) (k : Wk) :
    (∀ ack d, (go q ack d h).rxint = true) ∧ (∀ n, (read q n k s h).2.1.rxint = true) ∧ ∀ l, (write q l k s h).2.1.rxint = true ∨ (write q l k s h).2.2 = .pipe := by
  refine ⟨fun ack d => rxint_go q ack d h hi, fun n => ?_, fun l => ?_⟩
  · cases s with
    | idle => simp only [read, rIdle]; split
              · exact hi
              · exact rxint_rLoop q k _ _ _ hi
    | xfer => exact rxint_rLoop q k _ _ _ hi
  · cases s with
    | idle => simp only [write, wIdle]; split
              · exact .inl hi
              · exact rxint_wLoop q k _ _ _ hi
    | xfer => exact rxint_wLoop q k _ _ _ hi

/-- **C117 refuted**: from then on (or from the start, if an empty FIFO sets RXFFINT) twi_read returns at once n bytes that nobody sent, before anything is on the bus; the bytes of the slave come after,
and the next read returns them, again before its own frame -/
theorem twi_read_late (q : Par) (ds : List Byte) (h : Hw) (h0 : ds ≠ []) (h16 : ds.length ≤ 16) (hq : Quiet h) (hr : h.rx = []) (hi : h.rxint = true) (d : Byte) :
    let y := read q ds.length Wk.none .idle h
    let z := works q ((true, d) :: ds.map (fun d => (true, d))) y.2.1
    y.1 = .idle ∧ y.2.2 = .got (List.replicate ds.length h.drr) ∧ y.2.1.bus = h.bus ∧
    z.bus = h.bus ++ seen q.a (.read ds.length true true, .got ds) ∧
    (read q ds.length Wk.none .idle z).2.2 = .got ds ∧ (read q ds.length Wk.none .idle z).2.1.bus = z.bus := by
  have hpos := List.length_pos_iff.mpr h0
  have hc : cntOf ds.length = ds.length := cntOf_small hpos (by omega)
  have e1 : read q ds.length Wk.none .idle h = (.idle, { h with cnt := ds.length, stt := true, trx := false }, .got (List.replicate ds.length h.drr)) := by
    have := rLoop_empty q ds.length [] { h with cnt := ds.length, stt := true, trx := false } hi hr
    have e0 : read q ds.length Wk.none .idle h = rLoop q ds.length [] Wk.none { h with cnt := ds.length, stt := true, trx := false } := by
      simp [read, rIdle, bb, hq.ph, hc]
    simp only [List.nil_append] at this
    rw [rGot_some (by simp [h0])] at this
    rw [e0, this]
  have e2 : works q ((true, d) :: ds.map (fun d => (true, d))) { h with cnt := ds.length, stt := true, trx := false } =
      { h with ph := .idle, cnt := 0, stt := false, trx := false, rx := ds, rxint := true, bus := h.bus ++ [.start, .addr (sla q.a true) true] ++ rxs ds ++ [.stop] } := by
    have eg : go q true d { h with cnt := ds.length, stt := true, trx := false } =
        { h with ph := .r, cnt := ds.length, stt := false, trx := false, bus := h.bus ++ [.start, .addr (sla q.a true) true] } := by simp [go, hq.ph]
    show works q (ds.map (fun d => (true, d))) (go q true d _) = _
    rw [eg, receive q ds _ h0 rfl rfl (by simp [hr, h16])]
    simp [hr]
  simp only [e1, e2]
  have e3 := rLoop_flag q 0 ds { h with ph := .idle, cnt := ds.length, stt := true, trx := false, rx := ds, rxint := true, bus := h.bus ++ [.start, .addr (sla q.a true) true] ++ rxs ds ++ [.stop] } rfl rfl
  simp only [Nat.add_zero, List.replicate_zero, List.append_nil, rGot_some h0] at e3
  refine ⟨trivial, trivial, trivial, by simp [seen], ?_⟩
  simp only [read, rIdle, bb, hc]
  rw [if_neg (by simp), e3]
  exact ⟨rfl, rfl⟩

/-- **C117 refuted, in the first read too**: when the task calls after the first byte of n has come, twi_read returns n times that byte -/
theorem twi_read_split (q : Par) (n : Nat) (h : Hw) (h2 : 2 ≤ n) (hn : n ≤ 65536) (hq : Quiet h) (hr : h.rx = []) (hi : h.rxint = false) (d e : Byte) :
    let y := read q n Wk.none .idle h
    let z := works q [(true, d), (true, e)] y.2.1
    y.2.2 = .again ∧ z.bus = h.bus ++ [.start, .addr (sla q.a true) true, .rx e true] ∧ (read q n Wk.none y.1 z).2.2 = .got (List.replicate n e) := by
  obtain ⟨m, hm⟩ : ∃ m, n = 1 + m := ⟨n - 1, by omega⟩
  have hc : cntOf n = n := cntOf_small (by omega) hn
  have e1 : read q n Wk.none .idle h = (.xfer, { h with cnt := n, stt := true, trx := false }, .again) := by
    simp only [read, rIdle, bb, hq.ph, hc]
    rw [hm, Nat.add_comm, rLoop]
    simp [works, Wk.none, hi, rGot]
  have e2 : works q [(true, d), (true, e)] { h with cnt := n, stt := true, trx := false } =
      { h with ph := .r, cnt := n - 1, stt := false, trx := false, rx := [e], rxint := true, bus := h.bus ++ [.start, .addr (sla q.a true) true, .rx e true] } := by
    simp [works, go, hq.ph, hr, depth, show n ≠ 1 by omega]
  simp only [e1, e2]
  have e3 := rLoop_flag q m [e] { h with ph := .r, cnt := n - 1, stt := false, trx := false, rx := [e], rxint := true, bus := h.bus ++ [.start, .addr (sla q.a true) true, .rx e true] } rfl rfl
  simp only [List.length_singleton, ← hm] at e3
  refine ⟨trivial, trivial, ?_⟩
  simp only [read, e3]
  rw [hm, Nat.add_comm, List.replicate_succ]
  rfl

/-- the hypotheses are met: the module after reset(), with either reading of RXFFIL = 0 -/
example : Quiet (reset ⟨0x50, false, true⟩ ⟨.w, true, true, 3, 0, true, [1], [2], true, 0, []⟩) ∧ (reset ⟨0x50, false, true⟩ ⟨.w, true, true, 3, 0, true, [1], [2], true, 0, []⟩).rxint = false ∧
    (reset ⟨0x50, true, true⟩ ⟨.w, true, true, 3, 0, true, [1], [2], true, 0, []⟩).rxint = true := ⟨reset_quiet _ _, rfl, rfl⟩

example : ((wRun ⟨0x50, false, true⟩ [1, 2] ([.call Wk.none] ++ List.replicate 4 (.hw true 0)) ⟨.idle, reset ⟨0x50, false, true⟩ ⟨.w, true, true, 3, 0, true, [1], [2], true, 0, []⟩, 0⟩).hw.bus) =
    [.start, .addr 0xa0 true, .tx 1 true, .tx 2 true, .stop] := by decide

end Pico.TwiF28
