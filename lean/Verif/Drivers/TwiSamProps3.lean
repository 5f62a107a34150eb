import Verif.Drivers.TwiSamProps2
/-
C116: what fails.
-/
namespace Pico.TwiSam
open Pico.Twi

/-! ### Reading two bytes and more -/

/-- each byte of the slave is read before the next one comes -/
def promptly (ds : List Byte) : List Ev := ds.flatMap (fun d => [.hw true d, .call .none])

theorem rRun_append (q : Par) (n : Nat) (a b : List Ev) (x : App) : rRun q n (a ++ b) x = rRun q n b (rRun q n a x) := by simp [rRun, List.foldl_append]
theorem wRun_append (q : Par) (l : List Byte) (a b : List Ev) (x : App) : wRun q l (a ++ b) x = wRun q l b (wRun q l a x) := by simp [wRun, List.foldl_append]

/-- the task after a byte -/
def aft (n : Nat) (x : App) (d : Byte) : App :=
  { x with st := if x.buf.length + 1 = n then .idle else .xfer,
           hw := { x.hw with rhr := none, stop := decide (x.buf.length + 1 = n), bus := x.hw.bus ++ [.rx d true] }, buf := x.buf ++ [d] }

/-- the call after a byte -/
theorem read_byte (q : Par) (n : Nat) (x : App) (hb : x.buf.length < n) (st : x.st = .xfer) (ph : x.hw.ph = .r) (so : x.hw.stop = false) (na : x.hw.nack = false) (d : Byte) :
    rStep q n (rStep q n x (.hw true d)) (.call .none) =
      aft n x d := by
  unfold aft
  obtain ⟨m, hm⟩ : ∃ m, n - x.buf.length = m + 1 := ⟨n - x.buf.length - 1, by omega⟩
  have e1 : rStep q n x (.hw true d) = { x with hw := { x.hw with rhr := some d, bus := x.hw.bus ++ [.rx d true] } } := by simp [rStep, go, ph, so]
  rw [e1]
  have hlt : ¬ x.buf.length ≥ n := by omega
  simp only [rStep, if_neg hlt, hm, read, st]
  rw [rLoop]
  simp only [works, Wk.none, List.foldl_nil, na, Bool.false_eq_true, if_false]
  by_cases c : m = 0
  · have c2 : x.buf.length + 1 = n := by omega
    subst c
    simp [rLoop, rGot, sr, cr, ph, na, c2]
  · have c2 : ¬ x.buf.length + 1 = n := by omega
    obtain ⟨m', hm'⟩ : ∃ m', m = m' + 1 := ⟨m - 1, by omega⟩
    subst hm'
    rw [rLoop]
    simp [rGot, sr, cr, na, c2, works, so]

theorem read_bytes (q : Par) (n : Nat) (ds : List Byte) : ∀ (x : App), x.buf.length + ds.length = n → 0 < ds.length → x.st = .xfer → x.hw.ph = .r → x.hw.stop = false → x.hw.nack = false →
    rRun q n (promptly ds) x = { x with st := .idle, hw := { x.hw with rhr := none, stop := true, bus := x.hw.bus ++ ds.map (fun d => .rx d true) }, buf := x.buf ++ ds } := by
  induction ds with
  | nil => intro x _ h; simp at h
  | cons d ds ih =>
    intro x hl _ st ph so na
    simp only [List.length_cons] at hl
    show rRun q n (promptly ds) (rStep q n (rStep q n x (.hw true d)) (.call .none)) = _
    rw [read_byte q n x (by omega) st ph so na d]
    cases ds with
    | nil =>
      have c : x.buf.length + 1 = n := by simpa using hl
      simp [promptly, rRun, c, aft]
    | cons d2 ds =>
      have c : ¬ x.buf.length + 1 = n := by simp only [List.length_cons] at hl; omega
      rw [ih (aft n x d) (by simp only [aft, List.length_append, List.length_cons, List.length_nil] at hl ⊢; omega) (by simp) (by simp [c, aft]) ph (by simp [c, aft]) na]
      simp [aft]

/-- **C116 refuted**: a read of two bytes or more: the last byte is acknowledged and STOP is asked for only then, so that one more byte is taken from the slave, which stays in the controller -/
theorem twi_read_one_more (q : Par) (h : Hw) (hq : Quiet h) (ds : List Byte) (h2 : 2 ≤ ds.length) (e : Byte) :
    (rRun q ds.length ([.call .none, .hw true 0] ++ promptly ds ++ [.hw true e]) (App.of h)).buf = ds ∧
    (rRun q ds.length ([.call .none, .hw true 0] ++ promptly ds ++ [.hw true e]) (App.of h)).hw.bus =
      h.bus ++ [.start, .addr (sla q.a true) true] ++ ds.map (fun d => .rx d true) ++ [.rx e false, .stop] ∧
    (rRun q ds.length ([.call .none, .hw true 0] ++ promptly ds ++ [.hw true e]) (App.of h)).hw.bus ≠ h.bus ++ seen q.a (.read ds.length true true, .got ds) ∧
    (rRun q ds.length ([.call .none, .hw true 0] ++ promptly ds ++ [.hw true e]) (App.of h)).hw.rhr = some e ∧
    (rRun q ds.length ([.call .none, .hw true 0] ++ promptly ds ++ [.hw true e]) (App.of h)).hw.ph = .idle ∧
    txcomp (rRun q ds.length ([.call .none, .hw true 0] ++ promptly ds ++ [.hw true e]) (App.of h)).hw = true ∧
    (rRun q ds.length ([.call .none, .hw true 0] ++ promptly ds ++ [.hw true e]) (App.of h)).hw.nack = false := by
  have e1 : rRun q ds.length [.call .none, .hw true 0] (App.of h) =
      ⟨.xfer, { h with ph := .r, mread := true, start := false, bus := h.bus ++ [.start, .addr (sla q.a true) true] }, 0, []⟩ := by
    have hn : ¬ (0 ≥ ds.length) := by omega
    have hn1 : ¬ ds.length = 1 := by omega
    have hn0 : ¬ ds = [] := by intro g; rw [g] at h2; simp at h2
    have hna := hq.nack
    have hst := hq.start
    simp [rRun, rStep, App.of, read, rIdle, txcomp, hq.ph, hq.thr, hst, cr, sr, go, hn1, hn0]
    exact hna
  rw [rRun_append, rRun_append, e1, read_bytes q ds.length ds _ (by simp) (by omega) rfl rfl hq.stop hq.nack]
  refine ⟨by simp [rRun, rStep], by simp [rRun, rStep, go], ?_, by simp [rRun, rStep, go], by simp [rRun, rStep, go], by simp [rRun, rStep, go, txcomp, hq.thr], by simp [rRun, rStep, go, hq.nack]⟩
  intro g
  have := congrArg List.length g
  have hne : ds ≠ [] := by intro g; rw [g] at h2; simp at h2
  have hlast : ds.getLast?.toList.length = 1 := by
    rw [List.getLast?_eq_some_getLast hne]; rfl
  simp [rRun, rStep, go, seen, rxs, hlast] at this
  omega

/-- **C116 refuted**: and the next read gets that byte as its first one, before anything has been asked of the slave -/
theorem twi_read_stale (q : Par) (n : Nat) (hn : 0 < n) (h : Hw) (e : Byte) (hr : h.rhr = some e) (ht : txcomp h = true) :
    (rRun q n [.call .none, .call .none] (App.of h)).buf = [e] ∧ (rRun q n [.call .none, .call .none] (App.of h)).hw.bus = h.bus := by
  have hn0 : ¬ n = 0 := by omega
  obtain ⟨m, hm⟩ : ∃ m, n = m + 1 := ⟨n - 1, by omega⟩
  subst hm
  have e1 : rRun q (m + 1) [.call .none] (App.of h) = ⟨.xfer, cr q true (decide (m + 1 = 1)) { sr h with mread := true }, 0, []⟩ := by
    simp [rRun, rStep, App.of, read, rIdle, ht]
  have e2 : rRun q (m + 1) [.call .none, .call .none] (App.of h) = rStep q (m + 1) (rRun q (m + 1) [.call .none] (App.of h)) (.call .none) := rfl
  rw [e2, e1]
  simp only [rStep, List.length_nil, Nat.sub_zero, read]
  rw [if_neg (by omega), rLoop]
  simp only [works, Wk.none, List.foldl_nil, cr, sr, hr, Bool.false_eq_true, if_false]
  cases m with
  | zero => simp [rLoop, rGot]
  | succ m =>
    rw [rLoop]
    simp [works, rGot, sr]

/-- **C116 refuted**: a byte that is not read before the next one is lost -/
theorem twi_read_lost (q : Par) (n : Nat) (x : App) (hb : x.buf.length < n) (st : x.st = .xfer) (ph : x.hw.ph = .r) (so : x.hw.stop = false) (na : x.hw.nack = false) (d e : Byte) :
    (rRun q n [.hw true d, .hw true e, .call .none] x).buf = x.buf ++ [e] ∧ (rRun q n [.hw true d, .hw true e, .call .none] x).hw.bus = x.hw.bus ++ [.rx d true, .rx e true] := by
  have e1 : rRun q n [.hw true d, .hw true e, .call .none] x = rStep q n (rStep q n (rStep q n x (.hw true d)) (.hw true e)) (.call .none) := rfl
  have e2 : rStep q n x (.hw true d) = { x with hw := { x.hw with rhr := some d, bus := x.hw.bus ++ [.rx d true] } } := by simp [rStep, go, ph, so]
  have e3 : (rStep q n x (.hw true d)).st = .xfer ∧ (rStep q n x (.hw true d)).hw.ph = .r ∧ (rStep q n x (.hw true d)).hw.stop = false ∧ (rStep q n x (.hw true d)).hw.nack = false ∧
      (rStep q n x (.hw true d)).buf = x.buf := by rw [e2]; exact ⟨st, ph, so, na, rfl⟩
  rw [e1, read_byte q n (rStep q n x (.hw true d)) (by rw [e3.2.2.2.2]; exact hb) e3.1 e3.2.1 e3.2.2.1 e3.2.2.2.1 e]
  rw [e2]
  simp [aft]

/-- the slave sends a byte of ds before each turn of the loop -/
def during (ds : List Byte) : Wk := ⟨fun i => [(true, ds.getD i 0)], fun _ => [], fun _ => []⟩

/-- **C116**: bytes that come while the task is in twi_read are returned in the order they came -/
theorem twi_read_order (q : Par) (ds : List Byte) (h : Hw) (ph : h.ph = .r) (so : h.stop = false) (na : h.nack = false) :
    (rLoop q ds.length [] (during ds) h).2.2 = rGot ds := by
  suffices H : ∀ (n : Nat) (got : List Byte) (h : Hw), got = ds.take got.length → got.length + n = ds.length → h.ph = .r → (n ≠ 0 → h.stop = false) → h.nack = false →
      (rLoop q n got (during ds) h).2.2 = rGot ds from H ds.length [] h (by simp) (by simp) ph (fun _ => so) na
  intro n
  induction n with
  | zero =>
    intro got h hg hn _ _ _
    have e : got = ds := hg.trans (by rw [show got.length = ds.length by omega, List.take_length])
    rw [e]; rfl
  | succ n ih =>
    intro got h hg hn ph so na
    have e1 : works q ((during ds).a got.length) h = { h with rhr := some (ds.getD got.length 0), bus := h.bus ++ [.rx (ds.getD got.length 0) true] } := by
      simp [works, during, go, ph, so (by omega)]
    rw [rLoop]
    simp only [e1, na, Bool.false_eq_true, if_false]
    simp only [works, during, List.foldl_nil, sr, cr, Option.getD_some]
    refine ih _ _ ?_ (by simp; omega) ph ?_ rfl
    · rw [List.length_append, List.length_singleton, List.take_add_one, ← hg]
      have hlt : got.length < ds.length := by omega
      simp [List.getElem?_eq_getElem hlt]
    · intro hn0; simp [hn0, so (by omega)]

/-! ### Writing -/

/-- the first calls of a message of two bytes or more -/
theorem write_start (q : Par) (b c : Byte) (l : List Byte) (h : Hw) (hp : h.ph = .idle) (ht : h.thr = none) (hs : h.start = false) :
    wRun q (b :: c :: l) [.call .none, .call .none] (App.of h) = ⟨.xfer, { h with nack := false, mread := false, thr := some b }, 1, []⟩ := by
  simp [wRun, wStep, App.of, write, wIdle, txcomp, hp, ht, hs, wLoop, works, Wk.none, sr, cr, rSent]

/-- **C116 refuted**: a byte that the slave does not take is counted as written, no error is returned, and the bytes after it are written in a new frame, of their own -/
theorem twi_write_nack (q : Par) (b c : Byte) (l : List Byte) (h : Hw) (hq : Quiet h) :
    (wRun q (b :: c :: l) [.call .none, .call .none, .hw true 0, .hw false 0, .call .none, .call .none, .call .none, .hw true 0, .hw true 0] (App.of h)).pos = 2 ∧
    (wRun q (b :: c :: l) [.call .none, .call .none, .hw true 0, .hw false 0, .call .none, .call .none, .call .none, .hw true 0, .hw true 0] (App.of h)).hw.bus =
      h.bus ++ head q ++ [.tx b false, .stop] ++ head q ++ [.tx c true] := by
  have e1 := wRun_append q (b :: c :: l) [.call .none, .call .none] [.hw true 0, .hw false 0, .call .none, .call .none, .call .none, .hw true 0, .hw true 0] (App.of h)
  simp only [List.cons_append, List.nil_append] at e1
  rw [e1, write_start q b c l h hq.ph hq.thr hq.start]
  cases l with
  | nil => simp [wRun, wStep, go, refuse, hq.ph, write, wIdle, txcomp, wLoop, works, Wk.none, sr, cr, rSent, head]
  | cons d l => simp [wRun, wStep, go, refuse, hq.ph, write, wIdle, txcomp, wLoop, works, Wk.none, sr, cr, rSent, head]

/-- **C116 refuted**: when there is no slave at that address, a write of one byte is reported as done -/
theorem twi_write_absent (q : Par) (b : Byte) (h : Hw) (hq : Quiet h) :
    (wRun q [b] [.call .none, .call .none, .hw false 0] (App.of h)).pos = 1 ∧
    (wRun q [b] [.call .none, .call .none, .hw false 0] (App.of h)).hw.bus = h.bus ++ seen q.a (.write [b] true true, .absent) := by
  simp [wRun, wStep, App.of, write, wIdle, txcomp, hq.ph, hq.thr, hq.start, wLoop, works, Wk.none, sr, cr, rSent, go, refuse, seen]

/-- a frame without an end: the controller never moves again -/
theorem stuck_run (q : Par) (l : List Byte) (evs : List Ev) : ∀ (x : App), x.st = .idle → x.hw.ph = .w → x.hw.thr = none → x.hw.stop = false →
    (wRun q l evs x).hw.bus = x.hw.bus ∧ (wRun q l evs x).pos = x.pos := by
  induction evs with
  | nil => intro x _ _ _ _; exact ⟨rfl, rfl⟩
  | cons e evs ih =>
    intro x a b c d
    have key : (wStep q l x e).st = .idle ∧ (wStep q l x e).hw.ph = .w ∧ (wStep q l x e).hw.thr = none ∧ (wStep q l x e).hw.stop = false ∧ (wStep q l x e).hw.bus = x.hw.bus ∧ (wStep q l x e).pos = x.pos := by
      cases e with
      | hw ack dd =>
        have : go q ack dd x.hw = x.hw := by simp [go, b, c, d]
        have e9 : wStep q l x (.hw ack dd) = x := by show { x with hw := go q ack dd x.hw } = x; rw [this]
        rw [e9]; exact ⟨a, b, c, d, rfl, rfl⟩
      | call k =>
        simp only [wStep]
        split
        · exact ⟨a, b, c, d, rfl, rfl⟩
        · simp [write, a, wIdle, txcomp, b, sr, c, d]
    obtain ⟨k1, k2, k3, k4, k5, k6⟩ := key
    have := ih _ k1 k2 k3 k4
    exact ⟨by show (wRun q l evs (wStep q l x e)).hw.bus = _; rw [this.1, k5], by show (wRun q l evs (wStep q l x e)).pos = _; rw [this.2, k6]⟩

/-- **C116 refuted**, if a STOP at rest is ignored: a write of one byte leaves the frame open, and no message after it is ever written: every call returns -EAGAIN, whatever happens -/
theorem twi_write_one_stuck (q : Par) (hl : q.latch = false) (b : Byte) (h : Hw) (hq : Quiet h) :
    (wRun q [b] [.call .none, .call .none, .hw true 0, .hw true 0] (App.of h)).pos = 1 ∧
    ∀ (l : List Byte) (evs : List Ev),
      (wRun q l evs (App.of (wRun q [b] [.call .none, .call .none, .hw true 0, .hw true 0] (App.of h)).hw)).hw.bus = h.bus ++ head q ++ [.tx b true] ∧
      (wRun q l evs (App.of (wRun q [b] [.call .none, .call .none, .hw true 0, .hw true 0] (App.of h)).hw)).pos = 0 := by
  have e1 : wRun q [b] [.call .none, .call .none, .hw true 0, .hw true 0] (App.of h) =
      ⟨.idle, { h with ph := .w, thr := none, nack := false, mread := false, stop := false, bus := h.bus ++ head q ++ [.tx b true] }, 1, []⟩ := by
    simp [wRun, wStep, App.of, write, wIdle, txcomp, hq.ph, hq.thr, hq.start, hq.stop, wLoop, works, Wk.none, sr, cr, rSent, go, head, hl]
  rw [e1]
  refine ⟨rfl, fun l evs => ?_⟩
  have := stuck_run q l evs (App.of { h with ph := .w, thr := none, nack := false, mread := false, stop := false, bus := h.bus ++ head q ++ [.tx b true] }) rfl rfl rfl rfl
  exact ⟨by rw [this.1]; rfl, by rw [this.2]; rfl⟩

/-- **C116 refuted**, if a STOP at rest is kept: after a read of one byte, a message of two bytes or more is cut after its first byte -/
theorem twi_write_cut (q : Par) (hl : q.latch = true) (d b c : Byte) (l : List Byte) (h : Hw) (hq : Quiet h) (hr : Hw)
    (he : hr = (rRun q 1 [.call .none, .hw true d, .hw true d, .call .none] (App.of h)).hw) :
    (wRun q (b :: c :: l) [.call .none, .call .none, .hw true 0, .hw true 0, .hw true 0] (App.of hr)).pos = 1 ∧
    (wRun q (b :: c :: l) [.call .none, .call .none, .hw true 0, .hw true 0, .hw true 0] (App.of hr)).hw.bus = hr.bus ++ seen q.a (.write [b] true true, .wrote) := by
  have g := twi_read_one_ends q h hq d
  rw [← he] at g
  obtain ⟨_, g2, g3⟩ := g
  have g4 : hr.thr = none ∧ hr.start = false := by
    obtain ⟨p1, p2, p3, p4, p5, p6⟩ := hq
    rw [he]
    simp [rRun, rStep, App.of, read, rIdle, txcomp, p1, p2, p3, p4, p5, cr, sr, go, rLoop, works, Wk.none, rGot]
  have e1 := wRun_append q (b :: c :: l) [.call .none, .call .none] [.hw true 0, .hw true 0, .hw true 0] (App.of hr)
  simp only [List.cons_append, List.nil_append] at e1
  rw [e1, write_start q b c l hr g3 g4.1 g4.2]
  simp [wRun, wStep, go, g2, g3, hl, seen]

/-- the bus moves between the writes of TWI_CR and of TWI_THR -/
def between : Wk := ⟨fun _ => [], fun _ => [], fun _ => [(true, 0)]⟩

/-- **C116 refuted**: STOP is asked for before the last byte is given: if the controller acts on it first, the last byte goes out in a new frame, of its own, that does not end, and no message
after it is ever written -/
theorem twi_write_stop_first (q : Par) (b c : Byte) (h : Hw) (hq : Quiet h) (x : App)
    (hx : x = wRun q [b, c] [.call .none, .call .none, .hw true 0, .hw true 0, .call between, .hw true 0, .hw true 0] (App.of h)) :
    x.pos = 2 ∧ ∀ (l : List Byte) (evs : List Ev),
      (wRun q l evs (App.of x.hw)).hw.bus = h.bus ++ seen q.a (.write [b] true true, .wrote) ++ head q ++ [.tx c true] ∧ (wRun q l evs (App.of x.hw)).pos = 0 := by
  have e1 := wRun_append q [b, c] [.call .none, .call .none] [.hw true 0, .hw true 0, .call between, .hw true 0, .hw true 0] (App.of h)
  simp only [List.cons_append, List.nil_append] at e1
  rw [write_start q b c [] h hq.ph hq.thr hq.start] at e1
  have e2 : x = ⟨.idle, { h with ph := .w, thr := none, nack := false, mread := false, stop := false, bus := h.bus ++ seen q.a (.write [b] true true, .wrote) ++ head q ++ [.tx c true] }, 2, []⟩ := by
    rw [hx, e1]
    simp [wRun, wStep, go, hq.ph, hq.start, hq.stop, write, wLoop, works, between, sr, cr, rSent, seen, head]
  rw [e2]
  refine ⟨rfl, fun l evs => ?_⟩
  have := stuck_run q l evs (App.of { h with ph := .w, thr := none, nack := false, mread := false, stop := false, bus := h.bus ++ seen q.a (.write [b] true true, .wrote) ++ head q ++ [.tx c true] }) rfl rfl rfl rfl
  exact ⟨by rw [this.1]; rfl, by rw [this.2]; rfl⟩

/-- **C116**: once a NACK has been seen by twi_write, or by twi_read, the message is given up: whatever the controller does meanwhile, the call gives it nothing more, and the next one, of
either, starts again from the beginning: as long as the controller is not at rest it returns -EAGAIN and asks for nothing -/
theorem twi_nack_gives_up (q : Par) (b : Byte) (l : List Byte) (n : Nat) (k : Wk) (h : Hw) (hn : h.nack = true) (hk : k.a 0 = []) (k' : Wk) (l' : List Byte) (n' : Nat) (g : Hw) (ht : txcomp g = false) :
    (write q (b :: l) k .xfer h).2 = (sr h, .again) ∧ (read q (n + 1) k .xfer h).2 = (sr h, .again) ∧
    write q l' k' (write q (b :: l) k .xfer h).1 g = (.idle, sr g, .again) ∧ read q n' k' (write q (b :: l) k .xfer h).1 g = (.idle, sr g, .again) ∧
    write q l' k' (read q (n + 1) k .xfer h).1 g = (.idle, sr g, .again) ∧ read q n' k' (read q (n + 1) k .xfer h).1 g = (.idle, sr g, .again) := by
  simp [write, read, wLoop, rLoop, wIdle, rIdle, works, hk, hn, ht, rSent, rGot]

/-- a controller at rest, and a schedule: the hypotheses are met -/
def rest : Hw := ⟨.idle, none, none, false, false, false, false, []⟩
theorem rest_quiet : Quiet rest := ⟨rfl, rfl, rfl, rfl, rfl, rfl⟩
theorem rounds_ok : ∀ e ∈ rounds 7, e.good := rounds_good 7

end Pico.TwiSam
