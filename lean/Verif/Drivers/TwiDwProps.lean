/-
drivers/twi/twi-dw_apb_i2c.c as a master (C80): theorems.
-/
import Verif.Drivers.TwiDw
namespace Pico.TwiDw
open Pico.Twi

def exp (q : Par) (f : List (M × Res)) : List Bus := f.flatMap (fun r => seen q.a (r.1.msg, r.2))

/-- what the commands of the FIFO will put on the bus (writes, all acknowledged) -/
def emit (a : BitVec 7) : Option Bool → List Cmd → List Bus
  | _, [] => []
  | d, c :: l => (if d ≠ some false then [.start, .addr (sla a false) true] else []) ++ [.tx c.dat true] ++ (if c.stop then [.stop] else []) ++
      emit a (if c.stop then none else some false) l

def endDir : Option Bool → List Cmd → Option Bool
  | d, [] => d
  | _, c :: l => endDir (if c.stop then none else some false) l

theorem endDir_snoc (l : List Cmd) (c : Cmd) : ∀ d, endDir d (l ++ [c]) = if c.stop then none else some false := by
  induction l with
  | nil => intro d; rfl
  | cons b l ih => intro d; exact ih _

theorem emit_snoc (a : BitVec 7) (l : List Cmd) (c : Cmd) : ∀ d, emit a d (l ++ [c]) = emit a d l ++ emit a (endDir d l) [c] := by
  induction l with
  | nil => intro d; rfl
  | cons b l ih =>
    intro d
    show _ ++ emit a (if b.stop then none else some false) (l ++ [c]) = (_ ++ emit a (if b.stop then none else some false) l) ++ emit a (endDir (if b.stop then none else some false) l) [c]
    rw [ih]; simp only [List.append_assoc]

/-- the FIFO holds writes only; bus and FIFO together make `B`; after that the master is in state `e` -/
structure W (q : Par) (h : Hw) (B : List Bus) (e : Option Bool) : Prop where
  wr : ∀ c ∈ h.txf, c.read = false
  dir : h.dir ≠ some true
  abrt : h.abrt = none
  rxf : h.rxf = []
  bus : h.bus ++ emit q.a h.dir h.txf = B
  fin : endDir h.dir h.txf = e

theorem W_go (q : Par) (h : Hw) (B : List Bus) (e : Option Bool) (d : Byte) (w : W q h B e) : W q (go q true d h) B e := by
  cases ht : h.txf with
  | nil => simp only [go, ht]; exact w
  | cons c l =>
    have hr : c.read = false := w.wr c (by rw [ht]; simp)
    by_cases hd : h.dir = some false
    · have e1 : go q true d h = { h with txf := l, dir := if c.stop then none else h.dir, bus := h.bus ++ [.tx c.dat true] ++ (if c.stop then [.stop] else []) } := by
        simp [go, ht, hr, hd]
      rw [e1]
      have hb := w.bus
      have hf := w.fin
      rw [ht, hd] at hb hf
      refine ⟨fun x hx => w.wr x (by rw [ht]; exact List.mem_cons_of_mem _ hx), ?_, w.abrt, w.rxf, ?_, ?_⟩
      · show (if c.stop then none else h.dir) ≠ some true
        rw [hd]; cases c.stop <;> simp
      · show h.bus ++ [.tx c.dat true] ++ (if c.stop then [.stop] else []) ++ emit q.a (if c.stop then none else h.dir) l = B
        rw [← hb, hd]; simp [emit]
      · show endDir (if c.stop then none else h.dir) l = e
        rw [← hf, hd]; rfl
    · have e1 : go q true d h = { h with dir := some false, bus := h.bus ++ [.start, .addr (sla q.a false) true] } := by
        simp [go, ht, hr, hd]
      rw [e1]
      have hb := w.bus
      have hf := w.fin
      rw [ht] at hb hf
      refine ⟨w.wr, by simp, w.abrt, w.rxf, ?_, ?_⟩
      · show h.bus ++ [.start, .addr (sla q.a false) true] ++ emit q.a (some false) h.txf = B
        rw [← hb, ht]; simp [emit, hd]
      · show endDir (some false) h.txf = e
        rw [← hf, ht]; rfl

theorem W_works (q : Par) (l : List (Bool × Byte)) (hl : ∀ p ∈ l, p.1 = true) : ∀ (h : Hw) (B : List Bus) (e : Option Bool), W q h B e → W q (works q l h) B e := by
  induction l with
  | nil => intro h B e w; exact w
  | cons p l ih =>
    intro h B e w
    have hp := hl p (by simp)
    show W q (works q l (go q p.1 p.2 h)) B e
    rw [hp]
    exact ih (fun x hx => hl x (List.mem_cons_of_mem _ hx)) _ _ _ (W_go q h B e p.2 w)

def txs (l : List Byte) : List Bus := l.map (fun b => .tx b true)

/-- the beginning of a write message, `k` bytes of it -/
def part (a : BitVec 7) (l : List Byte) (k : Nat) : List Bus :=
  if k = 0 then [] else [.start, .addr (sla a false) true] ++ txs (l.take k) ++ (if k = l.length then [.stop] else [])

def edir (l : List Byte) (k : Nat) : Option Bool := if k = 0 ∨ k = l.length then none else some false

theorem take_snoc (l : List Byte) (k : Nat) (h : k < l.length) : txs (l.take (k + 1)) = txs (l.take k) ++ [.tx (l.getD k 0) true] := by
  have : l.take (k + 1) = l.take k ++ [l.getD k 0] := by
    rw [List.take_succ_eq_append_getElem h]
    simp [List.getD, h]
  rw [this]; simp [txs]

theorem W_push (q : Par) (h : Hw) (E : List Bus) (l : List Byte) (k : Nat) (hk : k < l.length) (w : W q h (E ++ part q.a l k) (edir l k)) :
    W q (push ⟨l.getD k 0, false, decide (k + 1 = l.length)⟩ h) (E ++ part q.a l (k + 1)) (edir l (k + 1)) := by
  have e1 : push ⟨l.getD k 0, false, decide (k + 1 = l.length)⟩ h = { h with txf := h.txf ++ [⟨l.getD k 0, false, decide (k + 1 = l.length)⟩] } := by
    simp [push, w.abrt]
  rw [e1]
  refine ⟨?_, w.dir, w.abrt, w.rxf, ?_, ?_⟩
  · intro c hc
    rcases List.mem_append.1 hc with hc | hc
    · exact w.wr c hc
    · rw [List.mem_singleton] at hc; rw [hc]
  · show h.bus ++ emit q.a h.dir (h.txf ++ [_]) = _
    rw [emit_snoc, ← List.append_assoc, w.bus, w.fin]
    have hk2 : ¬ k = l.length := by omega
    by_cases h0 : k = 0
    · subst h0
      simp only [part, edir, true_or, if_true, Nat.zero_add, Nat.one_ne_zero, if_false, emit, take_snoc l 0 hk]
      by_cases hl : 1 = l.length <;> simp [hl, txs, emit]
    · simp only [part, edir, h0, hk2, or_self, if_false, Nat.add_one_ne_zero, emit, take_snoc l k hk]
      by_cases hl : k + 1 = l.length <;> simp [hl]
  · show endDir h.dir (h.txf ++ [_]) = _
    rw [endDir_snoc]
    by_cases hl : k + 1 = l.length <;> simp [edir, hl]

theorem drop_cons (l : List Byte) (k : Nat) (h : k < l.length) : l.drop k = l.getD k 0 :: l.drop (k + 1) := by
  rw [List.drop_eq_getElem_cons h]; simp [List.getD, h]

/-- the loop of a write call -/
theorem W_loop (q : Par) (E : List Bus) (L : List Byte) (P : Nat) (ev : Nat → List (Bool × Byte)) (hev : ∀ i, ∀ p ∈ ev i, p.1 = true) (hP : P < L.length) :
    ∀ n sent h, P + sent + n = L.length → W q h (E ++ part q.a L (P + sent)) (edir L (P + sent)) →
    ∃ k, sent ≤ k ∧ P + k ≤ L.length ∧ (wLoop q (L.drop (P + sent)) sent ev h).2.2 = (if k = 0 then .again else .sent k) ∧
      (wLoop q (L.drop (P + sent)) sent ev h).1 = (if P + k = L.length then .idle else .xfer) ∧
      W q (wLoop q (L.drop (P + sent)) sent ev h).2.1 (E ++ part q.a L (P + k)) (edir L (P + k)) := by
  intro n
  induction n with
  | zero =>
    intro sent h hn w
    rw [List.drop_eq_nil_of_le (by omega)]
    exact ⟨sent, Nat.le_refl _, by omega, rfl, by rw [if_pos (by omega)]; rfl, w⟩
  | succ n ih =>
    intro sent h hn w
    rw [drop_cons L (P + sent) (by omega)]
    have w1 := W_works q (ev sent) (hev sent) h _ _ w
    simp only [wLoop, checkAbort, w1.abrt]
    by_cases hf : tfnf q (works q (ev sent) h) = true
    · simp only [hf, Bool.not_true, Bool.false_eq_true, if_false]
      have hst : (L.drop (P + sent + 1)).isEmpty = decide (P + sent + 1 = L.length) := by
        by_cases c : P + sent + 1 = L.length
        · rw [List.drop_eq_nil_of_le (by omega)]; simp [c]
        · rw [drop_cons L (P + sent + 1) (by omega)]; simp [c]
      rw [hst]
      have w2 := W_push q _ E L (P + sent) (by omega) w1
      obtain ⟨k, k1, k2, k3, k4, k5⟩ := ih (sent + 1) _ (by omega) w2
      exact ⟨k, by omega, k2, k3, k4, k5⟩
    · have hf : tfnf q (works q (ev sent) h) = false := by simpa using hf
      simp only [hf, Bool.not_false, if_true]
      refine ⟨sent, Nat.le_refl _, by omega, rfl, ?_, w1⟩
      rw [if_neg (by omega)]

def hdR (a : BitVec 7) : List Bus := [.start, .addr (sla a true) true]

def rbuf (l : List Byte) : List Bus := l.map (fun d => .rx d true)

def Phase (q : Par) (x : App) : Option M → State → Prop
  | none, .idle => x.pos = 0 ∧ x.buf = [] ∧ W q x.hw (exp q x.fin) none
  | some m, .idle => okMsg m = true ∧ x.pos = 0 ∧ x.buf = [] ∧ W q x.hw (exp q x.fin) none
  | some (.write l), .xfer => x.pos < l.length ∧ x.buf = [] ∧ W q x.hw (exp q x.fin ++ part q.a l x.pos) (edir l x.pos)
  | some (.read n), .req => x.pos < n ∧ x.buf.length = x.pos ∧ x.hw.abrt = none ∧ x.hw.txf = [] ∧ x.hw.rxf = [] ∧
      x.hw.dir = (if x.pos = 0 then none else some true) ∧ x.hw.bus = exp q x.fin ++ (if x.pos = 0 then [] else hdR q.a) ++ rbuf x.buf
  | some (.read n), .xfer => x.pos < n ∧ x.buf.length = x.pos ∧ x.hw.abrt = none ∧
      ((x.hw.txf = [⟨0, true, decide (n - x.pos = 1)⟩] ∧ x.hw.rxf = [] ∧
         ((x.pos = 0 ∧ x.hw.dir = none ∧ x.hw.bus = exp q x.fin) ∨ (x.hw.dir = some true ∧ x.hw.bus = exp q x.fin ++ hdR q.a ++ rbuf x.buf))) ∨
       (x.hw.txf = [] ∧ ∃ d, x.hw.rxf = [d] ∧ x.hw.dir = (if n - x.pos = 1 then none else some true) ∧
          x.hw.bus = exp q x.fin ++ hdR q.a ++ rbuf x.buf ++ [.rx d (!decide (n - x.pos = 1))] ++ (if n - x.pos = 1 then [.stop] else [])))
  | _, _ => False

def Inv (q : Par) (x : App) : Prop := x.wrong = false ∧ x.failed = [] ∧ (∀ r ∈ x.fin, fits (r.1.msg, r.2)) ∧ Phase q x x.cur x.state

/-- all is acknowledged -/
def evOk : Ev → Prop
  | .hw ack _ => ack = true
  | .call ev => ∀ i, ∀ p ∈ ev i, p.1 = true
  | .begin _ => True

theorem inv_boot (q : Par) : Inv q boot := ⟨rfl, rfl, (by intro r hr; cases hr), rfl, rfl, ⟨(by intro c hc; cases hc), by simp [boot], rfl, rfl, rfl, rfl⟩⟩

theorem inv_begin (q : Par) (x : App) (m : M) (h : Inv q x) : Inv q (step q x (.begin m)) := by
  obtain ⟨h1, h2, h3, h4⟩ := h
  simp only [step]
  by_cases c : x.cur = none ∧ okMsg m = true
  · rw [if_pos c]
    rw [c.1] at h4
    cases hs : x.state <;> rw [hs] at h4 <;> try exact h4.elim
    refine ⟨h1, h2, h3, ?_⟩
    show Phase q _ (some m) .idle
    cases m <;> exact ⟨c.2, rfl, rfl, h4.2.2⟩
  · rw [if_neg c]; exact ⟨h1, h2, h3, h4⟩

theorem inv_hw (q : Par) (x : App) (d : Byte) (h : Inv q x) : Inv q (step q x (.hw true d)) := by
  obtain ⟨h1, h2, h3, h4⟩ := h
  refine ⟨h1, h2, h3, ?_⟩
  show Phase q (step q x (.hw true d)) x.cur x.state
  cases hc : x.cur with
  | none =>
    rw [hc] at h4
    cases hs : x.state <;> rw [hs] at h4 <;> try exact h4.elim
    exact ⟨h4.1, h4.2.1, W_go q _ _ _ d h4.2.2⟩
  | some m =>
    rw [hc] at h4
    cases m with
    | write l =>
      cases hs : x.state <;> rw [hs] at h4
      · exact ⟨h4.1, h4.2.1, h4.2.2.1, W_go q _ _ _ d h4.2.2.2⟩
      · exact h4.elim
      · exact ⟨h4.1, h4.2.1, W_go q _ _ _ d h4.2.2⟩
    | read n =>
      cases hs : x.state <;> rw [hs] at h4
      · exact ⟨h4.1, h4.2.1, h4.2.2.1, W_go q _ _ _ d h4.2.2.2⟩
      · have e : step q x (.hw true d) = x := by
          obtain ⟨_, _, _, g, _⟩ := h4
          simp [step, go, g]
        rw [e]; exact h4
      · obtain ⟨g1, g2, g3, g4⟩ := h4
        rcases g4 with ⟨p1, p2, p3⟩ | ⟨p1, p2⟩
        · rcases p3 with ⟨k1, k2, k3⟩ | ⟨k1, k2⟩
          · have e : step q x (.hw true d) = { x with hw := { x.hw with dir := some true, bus := x.hw.bus ++ [.start, .addr (sla q.a true) true] } } := by
              simp [step, go, p1, k2]
            rw [e]
            refine ⟨g1, g2, g3, Or.inl ⟨p1, p2, Or.inr ⟨rfl, ?_⟩⟩⟩
            show x.hw.bus ++ _ = exp q x.fin ++ hdR q.a ++ rbuf x.buf
            have : x.buf = [] := List.length_eq_zero_iff.1 (by omega)
            rw [this, k3]; simp [rbuf, hdR]
          · by_cases hn : n - x.pos = 1
            · have e : step q x (.hw true d) = { x with hw := { x.hw with txf := [], rxf := x.hw.rxf ++ [d], dir := none, bus := x.hw.bus ++ [.rx d false] ++ [.stop] } } := by
                simp [step, go, p1, k1, hn]
              rw [e]
              refine ⟨g1, g2, g3, Or.inr ⟨rfl, d, ?_, ?_, ?_⟩⟩
              · show x.hw.rxf ++ [d] = [d]; rw [p2]; rfl
              · show none = (if n - x.pos = 1 then none else some true); rw [if_pos hn]
              · show x.hw.bus ++ [.rx d false] ++ [.stop] = exp q x.fin ++ hdR q.a ++ rbuf x.buf ++ [.rx d (!decide (n - x.pos = 1))] ++ (if n - x.pos = 1 then [.stop] else [])
                rw [if_pos hn, k2, decide_eq_true hn]; rfl
            · have e : step q x (.hw true d) = { x with hw := { x.hw with txf := [], rxf := x.hw.rxf ++ [d], dir := x.hw.dir, bus := x.hw.bus ++ [.rx d true] ++ [] } } := by
                simp [step, go, p1, k1, hn]
              rw [e]
              refine ⟨g1, g2, g3, Or.inr ⟨rfl, d, ?_, ?_, ?_⟩⟩
              · show x.hw.rxf ++ [d] = [d]; rw [p2]; rfl
              · show x.hw.dir = (if n - x.pos = 1 then none else some true); rw [if_neg hn, k1]
              · show x.hw.bus ++ [.rx d true] ++ [] = exp q x.fin ++ hdR q.a ++ rbuf x.buf ++ [.rx d (!decide (n - x.pos = 1))] ++ (if n - x.pos = 1 then [.stop] else [])
                rw [if_neg hn, k2, decide_eq_false hn]; rfl
        · have e : step q x (.hw true d) = x := by simp [step, go, p1]
          rw [e]; exact ⟨g1, g2, g3, Or.inr ⟨p1, p2⟩⟩

theorem exp_snoc (q : Par) (f : List (M × Res)) (r : M × Res) : exp q (f ++ [r]) = exp q f ++ seen q.a (r.1.msg, r.2) := by simp [exp]

theorem idle_empty (q : Par) (hp : q.prompt = true) (h : Hw) (ha : activity q h = false) : h.dir = none ∧ h.txf = [] := by
  simp only [activity, hp, Bool.true_and, Bool.or_eq_false_iff] at ha
  refine ⟨?_, ?_⟩
  · cases hd : h.dir with
    | none => rfl
    | some d => rw [hd] at ha; simp at ha
  · cases ht : h.txf with
    | nil => rfl
    | cons c l => rw [ht] at ha; simp at ha

theorem inv_call (q : Par) (hp : q.prompt = true) (hq : 0 < q.depth) (x : App) (ev : Nat → List (Bool × Byte)) (hev : ∀ i, ∀ p ∈ ev i, p.1 = true) (h : Inv q x) :
    Inv q (step q x (.call ev)) := by
  obtain ⟨h1, h2, h3, h4⟩ := h
  show Inv q (call q ev x)
  cases hc : x.cur with
  | none =>
    have e : call q ev x = x := by simp [call, hc]
    rw [e]; exact ⟨h1, h2, h3, h4⟩
  | some m =>
    have h4' := h4
    rw [hc] at h4
    cases m with
    | write l =>
      cases hs : x.state <;> rw [hs] at h4
      · obtain ⟨g1, g2, g3, g4⟩ := h4
        have hl : 0 < l.length := by
          cases l with
          | nil => simp [okMsg] at g1
          | cons b l => simp
        cases ha : activity q x.hw
        · obtain ⟨d1, d2⟩ := idle_empty q hp x.hw ha
          have e : call q ev x = { x with state := .xfer, hw := reenable x.hw } := by
            simp [call, hc, write, hs, wIdle, ha, tfnf, reenable, hq]
          rw [e]
          refine ⟨h1, h2, h3, ?_⟩
          show Phase q _ x.cur .xfer
          rw [hc]
          refine ⟨by show x.pos < _; omega, g3, ?_⟩
          show W q (reenable x.hw) (exp q x.fin ++ part q.a l x.pos) (edir l x.pos)
          have e2 : reenable x.hw = x.hw := by
            have := g4.rxf
            cases hw : x.hw; rw [hw] at d2 this; simp only at d2 this; simp [reenable, d2, this]
          rw [e2, g2]
          simpa [part, edir] using g4
        · have e : call q ev x = x := by
            simp [call, hc, write, hs, wIdle, ha]
            rw [← hc, ← hs]
          rw [e]; exact ⟨h1, h2, h3, h4'⟩
      · exact h4.elim
      · obtain ⟨g1, g2, g3⟩ := h4
        obtain ⟨k, k1, k2, k3, k4, k5⟩ := W_loop q (exp q x.fin) l x.pos ev hev g1 (l.length - x.pos) 0 x.hw (by omega) (by simpa using g3)
        simp only [Nat.add_zero] at k3 k4 k5
        generalize hr : wLoop q (l.drop x.pos) 0 ev x.hw = r at k3 k4 k5
        obtain ⟨s', h', r'⟩ := r
        simp only at k3 k4 k5
        by_cases k0 : k = 0
        · subst k0
          have e : call q ev x = { x with state := .xfer, hw := h' } := by
            rw [if_pos rfl] at k3
            rw [if_neg (by omega)] at k4
            simp [call, hc, write, hs, hr, k3, k4]
          rw [e]
          refine ⟨h1, h2, h3, ?_⟩
          show Phase q _ x.cur .xfer
          rw [hc]
          exact ⟨g1, g2, k5⟩
        · rw [if_neg k0] at k3
          by_cases kl : x.pos + k = l.length
          · rw [if_pos kl] at k4
            have e : call q ev x = { x with state := .idle, hw := h', cur := none, pos := 0, fin := x.fin ++ [(.write l, .wrote)] } := by
              simp [call, hc, write, hs, hr, k3, k4, kl]
            rw [e]
            refine ⟨h1, h2, ?_, ?_⟩
            · intro r hr
              rcases List.mem_append.1 hr with hr | hr
              · exact h3 r hr
              · rw [List.mem_singleton] at hr; rw [hr]; trivial
            · refine ⟨rfl, g2, ?_⟩
              show W q h' (exp q (x.fin ++ [(M.write l, Res.wrote)])) none
              rw [kl] at k5
              have e1 : edir l l.length = none := by simp [edir]
              have e2 : part q.a l l.length = seen q.a (.write l true true, .wrote) := by
                have : ¬ l.length = 0 := by omega
                simp [part, this, seen, txs]
              rw [e1, e2] at k5
              rw [exp_snoc]; exact k5
          · rw [if_neg kl] at k4
            have e : call q ev x = { x with state := .xfer, hw := h', pos := x.pos + k } := by
              have : ¬ l.length < x.pos + k := by omega
              simp [call, hc, write, hs, hr, k3, k4, kl, k0, this]
            rw [e]
            refine ⟨h1, h2, h3, ?_⟩
            show Phase q _ x.cur .xfer
            rw [hc]
            exact ⟨by show x.pos + k < l.length; omega, g2, k5⟩
    | read n =>
      cases hs : x.state <;> rw [hs] at h4
      · obtain ⟨g1, g2, g3, g4⟩ := h4
        have hn : 0 < n := by simpa [okMsg] using g1
        cases ha : activity q x.hw
        · obtain ⟨d1, d2⟩ := idle_empty q hp x.hw ha
          have e : call q ev x = { x with state := .req, hw := reenable x.hw } := by
            simp [call, hc, read, hs, rIdle, ha]
          rw [e]
          refine ⟨h1, h2, h3, ?_⟩
          show Phase q _ x.cur .req
          rw [hc]
          refine ⟨by show x.pos < _; omega, by show x.buf.length = x.pos; rw [g3, g2]; rfl, g4.abrt, rfl, rfl, ?_, ?_⟩
          · show x.hw.dir = _
            rw [d1]; simp [g2]
          · show x.hw.bus = exp q x.fin ++ (if x.pos = 0 then [] else hdR q.a) ++ rbuf x.buf
            have := g4.bus
            rw [d2] at this
            rw [if_pos g2, g3, ← this]; simp [emit, rbuf]
        · have e : call q ev x = x := by
            simp [call, hc, read, hs, rIdle, ha]
            rw [← hc, ← hs]
          rw [e]; exact ⟨h1, h2, h3, h4'⟩
      · obtain ⟨g1, g2, g3, g4, g5, g6, g7⟩ := h4
        have e : call q ev x = { x with state := .xfer, hw := { x.hw with txf := [⟨0, true, decide (n - x.pos = 1)⟩] } } := by
          simp [call, hc, read, hs, rReq, tfnf, g4, hq, checkAbort, g3, push]
        rw [e]
        refine ⟨h1, h2, h3, ?_⟩
        show Phase q _ x.cur .xfer
        rw [hc]
        refine ⟨g1, g2, g3, Or.inl ⟨rfl, g5, ?_⟩⟩
        by_cases h0 : x.pos = 0
        · rw [if_pos h0] at g6 g7
          have : x.buf = [] := List.length_eq_zero_iff.1 (by omega)
          exact Or.inl ⟨h0, g6, by rw [this] at g7; simpa [rbuf] using g7⟩
        · rw [if_neg h0] at g6 g7
          exact Or.inr ⟨g6, g7⟩
      · obtain ⟨g1, g2, g3, g4⟩ := h4
        rcases g4 with ⟨p1, p2, p3⟩ | ⟨p1, d, p2, p3, p4⟩
        · have e : call q ev x = x := by
            simp [call, hc, read, hs, rXfer, checkAbort, g3, p2]
            rw [← hc, ← hs]
          rw [e]; exact ⟨h1, h2, h3, h4'⟩
        · by_cases hn : n - x.pos = 1
          · have hn2 : x.pos + 1 = n := by omega
            have e : call q ev x = { x with state := .idle, hw := { x.hw with rxf := [] }, cur := none, pos := 0, buf := [], fin := x.fin ++ [(.read n, .got (x.buf ++ [d]))] } := by
              simp [call, hc, read, hs, rXfer, checkAbort, g3, p2, hn, hn2]
            rw [e]
            refine ⟨h1, h2, ?_, ?_⟩
            · intro r hr
              rcases List.mem_append.1 hr with hr | hr
              · exact h3 r hr
              · rw [List.mem_singleton] at hr; rw [hr]
                show (x.buf ++ [d]).length = n
                rw [List.length_append, g2]; exact hn2
            · refine ⟨rfl, rfl, ?_⟩
              rw [if_pos hn] at p3 p4
              refine ⟨(by intro c hc; rw [show (_ : Hw).txf = x.hw.txf from rfl, p1] at hc; cases hc), by show x.hw.dir ≠ _; rw [p3]; simp, g3, rfl, ?_, ?_⟩
              · show x.hw.bus ++ emit q.a x.hw.dir x.hw.txf = exp q (x.fin ++ [(M.read n, Res.got (x.buf ++ [d]))])
                rw [exp_snoc, p1, p4, decide_eq_true hn]
                simp [emit, seen, M.msg, rxs, hdR, rbuf]
              · show endDir x.hw.dir x.hw.txf = none
                rw [p1, p3]; rfl
          · have hn2 : ¬ x.pos + 1 = n := by omega
            have hn3 : n - x.pos > 1 := by omega
            have e : call q ev x = { x with state := .req, hw := { x.hw with rxf := [] }, pos := x.pos + 1, buf := x.buf ++ [d] } := by
              simp [call, hc, read, hs, rXfer, checkAbort, g3, p2, hn2]
              omega
            rw [e]
            refine ⟨h1, h2, h3, ?_⟩
            show Phase q _ x.cur .req
            rw [hc]
            rw [if_neg hn] at p3 p4
            refine ⟨by show x.pos + 1 < n; omega, ?_, g3, p1, rfl, ?_, ?_⟩
            · show (x.buf ++ [d]).length = x.pos + 1
              rw [List.length_append, g2]; rfl
            · show x.hw.dir = (if x.pos + 1 = 0 then none else some true)
              rw [if_neg (by omega), p3]
            · show x.hw.bus = exp q x.fin ++ (if x.pos + 1 = 0 then [] else hdR q.a) ++ rbuf (x.buf ++ [d])
              rw [if_neg (by omega), p4, decide_eq_false hn]
              simp [rbuf]

theorem inv_run (q : Par) (hp : q.prompt = true) (hq : 0 < q.depth) (l : List Ev) : ∀ x, Inv q x → (∀ e ∈ l, evOk e) → Inv q (run q l x) := by
  induction l with
  | nil => intro x h _; exact h
  | cons e l ih =>
    intro x h hk
    apply ih _ _ (fun e he => hk e (List.mem_cons_of_mem _ he))
    have hk := hk e (by simp)
    cases e with
    | begin m => exact inv_begin q x m h
    | call ev => exact inv_call q hp hq x ev hk h
    | hw ack d =>
      have : ack = true := hk
      subst this
      exact inv_hw q x d h

theorem prefix_app {α : Type} (l1 l2 l3 : List α) : l2 <+: l3 → l1 ++ l2 <+: l1 ++ l3 := by
  rintro ⟨t, rfl⟩; exact ⟨t, by simp⟩

theorem rxs_prefix (n : Nat) (buf : List Byte) (h : buf.length < n) : ∃ l : List Byte, l.length = n ∧ rbuf buf <+: rxs l := by
  refine ⟨buf ++ List.replicate (n - buf.length) 0, by simp; omega, ?_⟩
  obtain ⟨k, hk⟩ : ∃ k, n - buf.length = k + 1 := ⟨n - buf.length - 1, by omega⟩
  rw [hk, List.replicate_succ', ← List.append_assoc]
  refine ⟨(List.replicate k 0).map (fun d => Bus.rx d true) ++ [.rx 0 false], ?_⟩
  simp [rxs, rbuf]

theorem part_prefix (a : BitVec 7) (l : List Byte) (k : Nat) : part a l k <+: seen a (.write l true true, .wrote) := by
  by_cases h0 : k = 0
  · simp [part, h0]
  · simp only [part, h0, if_false, seen, if_true]
    by_cases hl : k = l.length
    · rw [if_pos hl, hl, List.take_length]; exact List.prefix_refl _
    · rw [if_neg hl, List.append_nil, List.append_assoc]
      apply prefix_app
      refine ⟨txs (l.drop k) ++ [.stop], ?_⟩
      simp only [txs, ← List.append_assoc, ← List.map_append, List.take_append_drop]

/-- C80 (partial): with a device that acknowledges everything, and the activity flag set as soon as there is something to send: whatever the messages, the moments of
the calls and the speed of the interface: no call fails or returns an unexpected value; bytes received are given in order, as many as asked; what has been on the bus is
a beginning of what the finished messages and the one under way ask for (START, address, bytes in order, STOP), all of it for the finished ones once the interface has
nothing left to do.
Missing: devices that don't acknowledge (`dw_absent`), late activity flag (`dw_lost`), TWI_F_S, TWI_F_P (ignored: `M.msg`). -/
theorem twi_dw_partial (q : Par) (hp : q.prompt = true) (hq : 0 < q.depth) (l : List Ev) (hl : ∀ e ∈ l, evOk e) :
    (run q l boot).wrong = false ∧ (run q l boot).failed = [] ∧
    (∀ r ∈ (run q l boot).fin, fits (r.1.msg, r.2)) ∧
    (match (run q l boot).cur with
     | none => (run q l boot).hw.bus <+: exp q (run q l boot).fin ∧ ((run q l boot).hw.txf = [] → (run q l boot).hw.bus = exp q (run q l boot).fin)
     | some m => ∃ r, fits (m.msg, r) ∧ (run q l boot).hw.bus <+: exp q (run q l boot).fin ++ seen q.a (m.msg, r)) := by
  have hi := inv_run q hp hq l boot (inv_boot q) hl
  generalize run q l boot = x at hi ⊢
  obtain ⟨h1, h2, h3, h4⟩ := hi
  refine ⟨h1, h2, h3, ?_⟩
  cases hc : x.cur with
  | none =>
    rw [hc] at h4
    cases hs : x.state <;> rw [hs] at h4 <;> try exact h4.elim
    have w := h4.2.2
    refine ⟨⟨_, w.bus⟩, ?_⟩
    intro ht
    have := w.bus
    rw [ht] at this
    simpa [emit] using this
  | some m =>
    rw [hc] at h4
    have any : ∀ B, x.hw.bus <+: exp q x.fin ++ B → (∃ r, fits (m.msg, r) ∧ B <+: seen q.a (m.msg, r)) →
        ∃ r, fits (m.msg, r) ∧ x.hw.bus <+: exp q x.fin ++ seen q.a (m.msg, r) := by
      rintro B hB ⟨r, hr, hp⟩
      exact ⟨r, hr, hB.trans (prefix_app _ _ _ hp)⟩
    have nil : W q x.hw (exp q x.fin) none → ∃ r, fits (m.msg, r) ∧ x.hw.bus <+: exp q x.fin ++ seen q.a (m.msg, r) := by
      intro w
      apply any [] (by rw [List.append_nil]; exact ⟨_, w.bus⟩)
      cases m
      · exact ⟨.wrote, trivial, List.nil_prefix⟩
      · rename_i n; exact ⟨.got (List.replicate n 0), by simp [fits, M.msg], List.nil_prefix⟩
    cases m with
    | write l =>
      cases hs : x.state <;> rw [hs] at h4
      · exact nil h4.2.2.2
      · exact h4.elim
      · apply any _ ⟨_, h4.2.2.bus⟩
        exact ⟨.wrote, trivial, part_prefix _ _ _⟩
    | read n =>
      have rd : ∀ b : List Byte, b.length < n → ∃ r, fits ((M.read n).msg, r) ∧ hdR q.a ++ rbuf b <+: seen q.a ((M.read n).msg, r) := by
        intro b hb
        obtain ⟨l, hl, hp⟩ := rxs_prefix n b hb
        refine ⟨.got l, hl, ?_⟩
        simp only [seen, M.msg, if_true, List.append_assoc]
        exact prefix_app _ _ _ (hp.trans (List.prefix_append _ _))
      cases hs : x.state <;> rw [hs] at h4
      · exact nil h4.2.2.2
      · obtain ⟨g1, g2, g3, g4, g5, g6, g7⟩ := h4
        by_cases h0 : x.pos = 0
        · rw [if_pos h0] at g7
          have hb : x.buf = [] := List.length_eq_zero_iff.1 (by omega)
          apply any [] (by rw [g7, hb]; simp [rbuf])
          exact ⟨.got (List.replicate n 0), by simp [fits, M.msg], List.nil_prefix⟩
        · rw [if_neg h0, List.append_assoc] at g7
          apply any _ (by rw [g7]; exact List.prefix_refl _)
          exact rd x.buf (by omega)
      · obtain ⟨g1, g2, g3, g4⟩ := h4
        rcases g4 with ⟨p1, p2, p3⟩ | ⟨p1, d, p2, p3, p4⟩
        · rcases p3 with ⟨k1, k2, k3⟩ | ⟨k1, k2⟩
          · apply any [] (by rw [k3]; simp)
            exact ⟨.got (List.replicate n 0), by simp [fits, M.msg], List.nil_prefix⟩
          · rw [List.append_assoc] at k2
            apply any _ (by rw [k2]; exact List.prefix_refl _)
            exact rd x.buf (by omega)
        · simp only [List.append_assoc] at p4
          apply any _ (by rw [p4]; exact List.prefix_refl _)
          by_cases hn : n - x.pos = 1
          · refine ⟨.got (x.buf ++ [d]), by show (x.buf ++ [d]).length = n; simp; omega, ?_⟩
            rw [if_pos hn, decide_eq_true hn]
            simp [seen, M.msg, rxs, hdR, rbuf]
          · rw [if_neg hn, decide_eq_false hn]
            obtain ⟨r, hr, hp⟩ := rd (x.buf ++ [d]) (by simp; omega)
            refine ⟨r, hr, ?_⟩
            simpa [rbuf] using hp

/-- work left to the master -/
def left (h : Hw) : Nat := 2 * h.txf.length + (if h.dir = some false then 0 else 1)

theorem go_left (q : Par) (h : Hw) (B : List Bus) (e : Option Bool) (d : Byte) (w : W q h B e) (hne : h.txf ≠ []) : left (go q true d h) < left h := by
  cases ht : h.txf with
  | nil => exact absurd ht hne
  | cons c l =>
    have hr : c.read = false := w.wr c (by rw [ht]; simp)
    by_cases hd : h.dir = some false
    · cases hst : c.stop <;> simp [go, ht, hr, hd, hst, left] <;> omega
    · simp [go, ht, hr, hd, left]

/-- C80: once the messages are done, what is left in the FIFO gets to the bus if the master is let to work: the bus has then seen all of them, to the last STOP -/
theorem twi_dw_drain (q : Par) (hp : q.prompt = true) (hq : 0 < q.depth) (l : List Ev) (hl : ∀ e ∈ l, evOk e) (hc : (run q l boot).cur = none) :
    ∃ k, k ≤ 2 * q.depth + 1 + 2 * (run q l boot).hw.txf.length ∧
      (works q (List.replicate k (true, 0)) (run q l boot).hw).bus = exp q (run q l boot).fin ∧ (works q (List.replicate k (true, 0)) (run q l boot).hw).txf = [] := by
  have hi := inv_run q hp hq l boot (inv_boot q) hl
  generalize run q l boot = x at hi hc ⊢
  obtain ⟨h1, h2, h3, h4⟩ := hi
  rw [hc] at h4
  cases hs : x.state <;> rw [hs] at h4 <;> try exact h4.elim
  have w := h4.2.2
  have key : ∀ n, ∀ h, left h ≤ n → W q h (exp q x.fin) none → ∃ k, k ≤ n ∧ (works q (List.replicate k (true, 0)) h).bus = exp q x.fin ∧ (works q (List.replicate k (true, 0)) h).txf = [] := by
    intro n
    induction n with
    | zero =>
      intro h hn w
      have ht : h.txf = [] := by
        apply List.length_eq_zero_iff.1
        unfold left at hn; omega
      refine ⟨0, Nat.le_refl _, ?_, ht⟩
      have := w.bus
      rw [ht] at this
      simpa [emit, works] using this
    | succ n ih =>
      intro h hn w
      by_cases ht : h.txf = []
      · refine ⟨0, Nat.zero_le _, ?_, ht⟩
        have := w.bus
        rw [ht] at this
        simpa [emit, works] using this
      · have := go_left q h _ _ 0 w ht
        obtain ⟨k, k1, k2, k3⟩ := ih (go q true 0 h) (by omega) (W_go q h _ _ 0 w)
        exact ⟨k + 1, by omega, k2, k3⟩
  have hle : left x.hw ≤ 2 * x.hw.txf.length + 1 := by
    unfold left
    by_cases c : x.hw.dir = some false
    · rw [if_pos c]; omega
    · rw [if_neg c]; omega
  obtain ⟨k, k1, k2, k3⟩ := key _ x.hw hle w
  exact ⟨k, by omega, k2, k3⟩

/-- the hypotheses are met: three bytes through a FIFO of two, then a read of two bytes -/
def demo : List Ev :=
  [.begin (.write [1, 2, 3]), .call (fun _ => []), .call (fun _ => []), .hw true 0, .hw true 0, .call (fun _ => []), .hw true 0, .hw true 0,
   .begin (.read 2), .call (fun _ => []), .call (fun _ => []), .hw true 0, .hw true 7, .call (fun _ => []), .call (fun _ => []), .hw true 8, .call (fun _ => [])]

example : (run ⟨0x50#7, 2, true⟩ demo boot).fin = [(.write [1, 2, 3], .wrote), (.read 2, .got [7, 8])] ∧
    (run ⟨0x50#7, 2, true⟩ demo boot).hw.bus =
      [.start, .addr 0xa0#8 true, .tx 1 true, .tx 2 true, .tx 3 true, .stop, .start, .addr 0xa1#8 true, .rx 7 true, .rx 8 false, .stop] := by decide

example : ∀ e ∈ demo, evOk e := by
  intro e he
  simp only [demo, List.mem_cons, List.not_mem_nil, or_false] at he
  rcases he with rfl | rfl | rfl | rfl | rfl | rfl | rfl | rfl | rfl | rfl | rfl | rfl | rfl | rfl | rfl | rfl | rfl <;> simp [evOk]

/-! ### What is missing -/

/-- if the activity flag is not yet set when the next message is begun, the FIFO is flushed: a message reported as written never gets to the bus -/
theorem dw_lost (q : Par) (hp : q.prompt = false) (hq : 0 < q.depth) (b c : Byte) :
    let x := run q [.begin (.write [b]), .call (fun _ => []), .call (fun _ => []), .begin (.write [c]), .call (fun _ => []), .call (fun _ => []), .hw true 0, .hw true 0] boot
    x.fin = [(.write [b], .wrote), (.write [c], .wrote)] ∧ x.hw.txf = [] ∧ x.hw.bus = [.start, .addr (sla q.a false) true, .tx c true, .stop] := by
  simp [run, step, boot, okMsg, call, write, wIdle, activity, hp, reenable, tfnf, hq, wLoop, works, checkAbort, push, go]

/-- nobody at the address: a message that fits in the FIFO is reported as written; the error is given to the next message, which is not sent -/
theorem dw_absent (q : Par) (hp : q.prompt = true) (hq : 0 < q.depth) (b c : Byte) :
    let x := run q [.begin (.write [b]), .call (fun _ => []), .call (fun _ => []), .hw false 0, .begin (.write [c]), .call (fun _ => []), .call (fun _ => [])] boot
    x.fin = [(.write [b], .wrote)] ∧ x.failed = [.write [c]] ∧ x.hw.txf = [] ∧ x.hw.bus = [.start, .addr (sla q.a false) false, .stop] := by
  simp [run, step, boot, okMsg, call, write, wIdle, activity, hp, reenable, tfnf, hq, wLoop, works, checkAbort, push, go]

end Pico.TwiDw
