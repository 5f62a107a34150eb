import Verif.Drivers.TwiSercomProps
/-
C118: the TWI master of the SERCOM: what goes wrong.
-/
namespace Pico.TwiSercom
open Pico.Twi

theorem works_none {q : Par} {h : Hw} (hp : h.pend = none) (es : List (Bool × Byte)) : works q es h = h := by
  induction es with
  | nil => rfl
  | cons e es ih => show works q es (go q e.1 e.2 h) = h; rw [go_none hp]; exact ih

/-- **C118**: a slave that is not there is reported, as 0 bytes, and the frame is ended -/
theorem twi_write_absent (q : Par) (b : Byte) (l : List Byte) (la : R) (h : Hw) (hq : Quiet h) (d e : Byte) :
    let x := wRun q (b :: l) [.call .none, .hw false d, .call .none, .hw true e] (App.of la h)
    x.eot = true ∧ x.pos = 0 ∧ x.hw.bus = h.bus ++ seen q.a (.write (b :: l) true true, .absent) ∧ x.c.st = .idle ∧ x.hw.rxnack = !q.clears := by
  cases hc : q.clears <;> simp [wRun, wStep, App.of, write, hq.rxnack, hq.own, works, Wk.none, ask, go, stopM, sendStop, seen, hc]

/-- the host after a NACK and a STOP that didn't clear RXNACK -/
structure Dead (h : Hw) : Prop where
  rxnack : h.rxnack = true
  mb : h.mb = false
  pend : h.pend = none ∨ h.pend = some .stop

theorem dead_go {q : Par} {h : Hw} (hd : Dead h) (ack : Bool) (d : Byte) : Dead (go q ack d h) := by
  rcases hd.pend with p | p
  · rw [go_none p]; exact hd
  · have e : go q ack d h = { h with pend := none, own := false, bus := h.bus ++ [.stop] } := by simp [go, p]
    rw [e]; exact ⟨hd.rxnack, hd.mb, .inl rfl⟩

theorem dead_works {q : Par} (es : List (Bool × Byte)) : ∀ {h : Hw}, Dead h → Dead (works q es h) := by
  induction es with
  | nil => intro h hd; exact hd
  | cons e es ih => intro h hd; exact ih (dead_go hd e.1 e.2)

/-- **C118 refuted**: if STOP does not clear RXNACK, every call after that returns -EAGAIN, for ever, whatever is asked for and whoever is on the bus -/
theorem twi_dead (q : Par) (h : Hw) (hd : Dead h) (c : Ctx) (k : Wk) :
    (∀ ack d, Dead (go q ack d h)) ∧
    (∀ b l, (write q b l k c h).2.2 = .again ∧ Dead (write q b l k c h).2.1) ∧
    ∀ n, (read q n k c h).2.2.1 = .again ∧ Dead (read q n k c h).2.1 := by
  have hw := dead_works (q := q) k.a hd
  refine ⟨fun ack d => dead_go hd ack d, fun b l => ?_, fun n => ?_⟩
  · have e : write q b l k c h = (⟨.stop, .num 0⟩, works q k.a h, .again) := by
      unfold write; rw [hd.rxnack]; simp [stopM, sendStop, hw.mb]
    rw [e]; exact ⟨rfl, hw⟩
  · have e : read q n k c h = (⟨.stop, .again⟩, works q k.a h, .again, none) := by
      unfold read; rw [hd.rxnack]; simp [stopM, sendStop, hw.mb]
    rw [e]; exact ⟨rfl, hw⟩

/-- the host is in that state after a message to a slave that is not there -/
theorem twi_write_absent_dead (q : Par) (hc : q.clears = false) (b : Byte) (l : List Byte) (la : R) (h : Hw) (hq : Quiet h) (d : Byte) :
    Dead (wRun q (b :: l) [.call .none, .hw false d, .call .none] (App.of la h)).hw := by
  refine ⟨?_, ?_, .inr ?_⟩ <;> simp [wRun, wStep, App.of, write, hq.rxnack, hq.own, works, Wk.none, ask, go, stopM, sendStop, hc]

/-- **C118 refuted**: when the NACK comes between the reads of STATUS and of INTFLAG, the byte is sent to nobody and counted as written -/
theorem twi_write_race (q : Par) (b c : Byte) (l : List Byte) (la : R) (h : Hw) (hq : Quiet h) (d e : Byte) (ack : Bool) :
    let x := wRun q (b :: c :: l) [.call .none, .call ⟨[(false, d)], []⟩, .hw ack e] (App.of la h)
    x.pos = 1 ∧ x.eot = false ∧ x.hw.bus = h.bus ++ [.start, .addr (sla q.a false) false, .tx b ack] := by
  simp [wRun, wStep, App.of, write, hq.rxnack, hq.own, works, Wk.none, ask, go]

/-! ### Reading -/

/-- where a read can be -/
inductive L (q : Par) (n : Nat) (base : List Bus) (x : App) : Prop where
  | rest (st : x.c.st = .idle) (hp : x.pos = 0) (pend : x.hw.pend = none) (sb : x.hw.sb = false) (own : x.hw.own = false) (bus : x.hw.bus = base) (buf : x.buf = [])
  | addr (st : x.c.st = .data) (hp : x.pos = 0) (pend : x.hw.pend = some (.addr true)) (sb : x.hw.sb = false) (act : x.hw.ackact = decide (n = 1)) (bus : x.hw.bus = base) (buf : x.buf = [])
  | got (d : Byte) (st : x.c.st = .data ∨ x.c.st = .stop) (hp : x.pos < n) (pend : x.hw.pend = none) (data : x.hw.data = d)
      (bus : x.hw.bus = base ++ [.start, .addr (sla q.a true) true, .rx d (decide (n ≠ 1))]) (buf : x.buf = List.replicate x.pos d)

theorem rStep_L {q n base x} (h0 : 0 < n) {e : Ev} (hg : e.good) (he : x.eot = false) (hr : x.hw.rxnack = false) (hm : x.hw.mb = false) (hl : L q n base x) :
    L q n base (rStep q n x e) ∧ (rStep q n x e).eot = false ∧ (rStep q n x e).hw.rxnack = false ∧ (rStep q n x e).hw.mb = false := by
  have hgo : ∀ d, L q n base { x with hw := go q true d x.hw } ∧ (go q true d x.hw).rxnack = false ∧ (go q true d x.hw).mb = false := by
    intro d
    cases hl with
    | rest st hp pend sb own bus buf => rw [go_none pend]; exact ⟨.rest st hp pend sb own bus buf, hr, hm⟩
    | addr st hp pend sb act bus buf =>
      have e : go q true d x.hw = { x.hw with pend := none, own := true, sb := true, rxnack := false, data := d, bus := x.hw.bus ++ [.start, .addr (sla q.a true) true, .rx d (!x.hw.ackact)] } := by
        simp [go, pend]
      rw [e]
      refine ⟨.got d (.inl st) (by show x.pos < n; omega) rfl rfl (by simp [bus, act]) (by simp [hp, buf]), rfl, hm⟩
    | got d' st hp pend data bus buf => rw [go_none pend]; exact ⟨.got d' st hp pend data bus buf, hr, hm⟩
  cases e with
  | hw ack d =>
    have ha : ack = true := hg
    subst ha
    exact ⟨(hgo d).1, he, (hgo d).2.1, (hgo d).2.2⟩
  | call k =>
    have hw : ∀ (es : List (Bool × Byte)), (∀ e ∈ es, e.1 = true) → L q n base { x with hw := works q es x.hw } ∧ (works q es x.hw).rxnack = false ∧ (works q es x.hw).mb = false := by
      intro es he
      cases es with
      | nil => exact ⟨hl, hr, hm⟩
      | cons e es =>
        have e1 := he e (by simp)
        have hp : (go q true e.2 x.hw).pend = none := by
          cases hl with
          | rest st hp pend sb own bus buf => rw [go_none pend]; exact pend
          | addr st hp pend sb act bus buf => simp [go, pend]
          | got d' st hp pend data bus buf => rw [go_none pend]; exact pend
        have : works q (e :: es) x.hw = go q true e.2 x.hw := by
          show works q es (go q e.1 e.2 x.hw) = _
          rw [e1, works_none hp]
        rw [this]
        exact hgo e.2
    obtain ⟨l1, r1, m1⟩ := hw k.a hg.1
    have hpos : x.pos < n := by
      cases hl with
      | rest st hp pend sb own bus buf => omega
      | addr st hp pend sb act bus buf => omega
      | got d' st hp pend data bus buf => exact hp
    have es : rStep q n x (.call k) = match read q (n - x.pos) k x.c x.hw with
        | (c, h, .num j, b) => { x with c := c, hw := h, pos := x.pos + j, buf := x.buf ++ b.toList, eot := decide (j = 0) }
        | (c, h, .again, _) => { x with c := c, hw := h } := by
      simp only [rStep, he, Bool.false_or, decide_eq_true_eq, if_neg (show ¬ x.pos ≥ n by omega)]
      generalize read q (n - x.pos) k x.c x.hw = z
      obtain ⟨c, h, r, b⟩ := z
      cases r <;> rfl
    have er : read q (n - x.pos) k x.c x.hw = (match x.c.st with
        | .idle => if (works q k.a x.hw).own then (x.c, works q k.a x.hw, .again, none)
                   else ({ x.c with st := .data }, ask (.addr true) { works q k.a x.hw with ackact := decide (n - x.pos = 1) }, .again, none)
        | .data =>
          if (works q k.a x.hw).sb = false then (x.c, works q k.a x.hw, .again, none)
          else
            let h := works q k.b { works q k.a x.hw with ackact := (works q k.a x.hw).ackact || decide (n - x.pos = 2) }
            if n - x.pos = 1 then ((stopM q (.num 1) h).1, (stopM q (.num 1) h).2.1, (stopM q (.num 1) h).2.2, some h.data) else (x.c, h, .num 1, some h.data)
        | .stop => ((sendStop q x.c (works q k.a x.hw)).1, (sendStop q x.c (works q k.a x.hw)).2.1, (sendStop q x.c (works q k.a x.hw)).2.2, none)) := by
      unfold read; rw [hr]; rfl
    rw [es, er]
    generalize works q k.a x.hw = y at *
    cases l1 with
    | rest st hp pend sb own bus buf =>
      simp only at st hp pend sb own bus buf
      rw [st]
      simp only [own, Bool.false_eq_true, if_false]
      exact ⟨.addr rfl hp rfl rfl (by simp [ask, hp]) bus buf, he, r1, rfl⟩
    | addr st hp pend sb act bus buf =>
      simp only at st hp pend sb act bus buf
      rw [st]
      simp only [sb, if_true]
      exact ⟨.addr st hp pend sb act bus buf, he, r1, m1⟩
    | got d st hp pend data bus buf =>
      simp only at st hp pend data bus buf
      rcases st with st | st
      · rw [st]
        by_cases cs : y.sb = false
        · simp only [cs, if_true]
          exact ⟨.got d (.inl st) hp pend data bus buf, he, r1, m1⟩
        · rw [if_neg cs]
          have ew : works q k.b { y with ackact := y.ackact || decide (n - x.pos = 2) } = { y with ackact := y.ackact || decide (n - x.pos = 2) } := works_none (h := { y with ackact := y.ackact || decide (n - x.pos = 2) }) pend _
          simp only [ew]
          by_cases c1 : n - x.pos = 1
          · simp only [if_pos c1, stopM, sendStop, m1, if_true]
            exact ⟨.got d (.inr rfl) hp pend data bus buf, he, r1, trivial⟩
          · simp only [if_neg c1]
            refine ⟨.got d (.inl st) (by show x.pos + 1 < n; omega) pend data bus ?_, rfl, r1, m1⟩
            show x.buf ++ [y.data] = List.replicate (x.pos + 1) d
            rw [buf, data, List.replicate_succ']
      · rw [st]
        simp only [sendStop, m1, if_true]
        exact ⟨.got d (.inr st) hp pend data bus buf, he, r1, trivial⟩

/-- **C118 refuted: no read ever ends**: whatever the calls and the schedule, a read of n bytes from a slave that is there takes one byte of the slave, gives that same byte again and again, n - 1 times at most, and no STOP
ever comes on the bus -/
theorem twi_read_never (q : Par) (n : Nat) (h0 : 0 < n) (la : R) (h : Hw) (hq : Quiet h) (evs : List Ev) (hg : ∀ e ∈ evs, e.good) :
    let x := rRun q n evs (App.of la h)
    x.pos < n ∧ x.eot = false ∧ (x.buf = [] ∧ x.hw.bus = h.bus ∨ ∃ d, x.buf = List.replicate x.pos d ∧ x.hw.bus = h.bus ++ [.start, .addr (sla q.a true) true, .rx d (decide (n ≠ 1))]) := by
  suffices H : ∀ (evs : List Ev), (∀ e ∈ evs, e.good) → ∀ (x : App), x.eot = false → x.hw.rxnack = false → x.hw.mb = false → L q n h.bus x →
      (rRun q n evs x).eot = false ∧ L q n h.bus (rRun q n evs x) by
    obtain ⟨he, hl⟩ := H evs hg (App.of la h) rfl hq.rxnack hq.mb (.rest rfl rfl hq.pend hq.sb hq.own rfl rfl)
    dsimp only
    generalize rRun q n evs (App.of la h) = x at *
    cases hl with
    | rest st hp pend sb own bus buf => exact ⟨by omega, he, .inl ⟨buf, bus⟩⟩
    | addr st hp pend sb act bus buf => exact ⟨by omega, he, .inl ⟨buf, bus⟩⟩
    | got d st hp pend data bus buf => exact ⟨hp, he, .inr ⟨d, buf, bus⟩⟩
  intro evs
  induction evs with
  | nil => intro _ x he _ _ hl; exact ⟨he, hl⟩
  | cons e evs ih =>
    intro hg x he hr hm hl
    obtain ⟨a, b, c, d⟩ := rStep_L h0 (hg e (by simp)) he hr hm hl
    exact ih (fun e h => hg e (by simp [h])) _ b c d a

/-- a byte does come: the hypotheses, and the second case, are met -/
example : let x := rRun ⟨0x50, true⟩ 3 [.call .none, .hw true 7, .call .none, .hw true 8, .call .none, .call .none, .call .none] (App.of .again ⟨none, false, false, false, false, false, 0, []⟩)
    x.buf = [7, 7] ∧ x.hw.bus = [.start, .addr 0xa1 true, .rx 7 true] := by decide

example : let x := wRun ⟨0x50, true⟩ [1, 2] (rounds (List.replicate 8 (0, Wk.none))) (App.of .again ⟨none, false, false, false, false, false, 0, []⟩)
    x.pos = 2 ∧ x.hw.bus = [.start, .addr 0xa0 true, .tx 1 true, .tx 2 true, .stop] := by decide

end Pico.TwiSercom
