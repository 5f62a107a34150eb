import Verif.Drivers.TwiSercom
/-
C118: the TWI master of the SERCOM.
-/
namespace Pico.TwiSercom
open Pico.Twi

def head (q : Par) : List Bus := [.start, .addr (sla q.a false) true]
def txs (l : List Byte) : List Bus := l.map (fun b => .tx b true)

theorem seen_write (q : Par) (l : List Byte) : seen q.a (.write l true true, .wrote) = head q ++ txs l ++ [.stop] := by simp [seen, head, txs]

theorem txs_take {l : List Byte} {p : Nat} {b : Byte} (hb : l[p]? = some b) : txs (l.take (p + 1)) = txs (l.take p) ++ [.tx b true] := by
  rw [List.take_add_one, hb, txs, List.map_append]; rfl

/-- where the driver and the host can be once p bytes of l were counted; `m`: steps left -/
inductive K (q : Par) (l : List Byte) (base : List Bus) (p : Nat) (c : Ctx) (h : Hw) (m : Nat) : Prop where
  | before (hp : p = 0) (st : c.st = .idle) (pend : h.pend = some .stop) (mb : h.mb = false) (own : h.own = true) (bus : h.bus ++ [.stop] = base) (hm : m = 2 * l.length + 5)
  | rest (hp : p = 0) (st : c.st = .idle) (pend : h.pend = none) (mb : h.mb = false) (own : h.own = false) (bus : h.bus = base) (hm : m = 2 * l.length + 4)
  | addr (hp : p = 0) (st : c.st = .data) (pend : h.pend = some (.addr false)) (mb : h.mb = false) (bus : h.bus = base) (hm : m = 2 * l.length + 3)
  | ready (hp : p < l.length) (st : c.st = .data) (pend : h.pend = none) (mb : h.mb = true) (own : h.own = true) (bus : h.bus = base ++ head q ++ txs (l.take p)) (hm : m = 2 * (l.length - p) + 2)
  | fly (b : Byte) (j : Nat) (hj : p = j + 1) (hp : p < l.length) (hb : l[j]? = some b) (st : c.st = .data) (pend : h.pend = some (.byte b)) (mb : h.mb = false) (own : h.own = true)
      (bus : h.bus = base ++ head q ++ txs (l.take j)) (hm : m = 2 * (l.length - p) + 3)
  | last (b : Byte) (hp : p + 1 = l.length) (hb : l[p]? = some b) (st : c.st = .stop) (la : c.last = .num 1) (pend : h.pend = some (.byte b)) (mb : h.mb = false) (own : h.own = true)
      (bus : h.bus = base ++ head q ++ txs (l.take p)) (hm : m = 3)
  | sent (hp : p + 1 = l.length) (st : c.st = .stop) (la : c.last = .num 1) (pend : h.pend = none) (mb : h.mb = true) (own : h.own = true) (bus : h.bus = base ++ head q ++ txs l) (hm : m = 2)
  | stopping (hp : p = l.length) (st : c.st = .idle) (pend : h.pend = some .stop) (mb : h.mb = false) (own : h.own = true) (bus : h.bus = base ++ head q ++ txs l) (hm : m = 1)
  | over (hp : p = l.length) (st : c.st = .idle) (pend : h.pend = none) (mb : h.mb = false) (own : h.own = false) (bus : h.bus = base ++ head q ++ txs l ++ [.stop]) (hm : m = 0)

/-- and what does not change -/
structure Fix (h : Hw) : Prop where
  rxnack : h.rxnack = false
  sb : h.sb = false

/-- the host has nothing to do -/
theorem go_none {q : Par} {h : Hw} (hp : h.pend = none) (ack : Bool) (d : Byte) : go q ack d h = h := by simp [go, hp]

theorem go_K {q l base p c h m} (h0 : 0 < l.length) (hf : Fix h) (hk : K q l base p c h m) (d : Byte) :
    ∃ m', K q l base p c (go q true d h) m' ∧ Fix (go q true d h) ∧ m' ≤ m ∧ (h.pend ≠ none → m' < m) := by
  obtain ⟨f1, f2⟩ := hf
  cases hk with
  | before hp st pend mb own bus hm =>
    have e : go q true d h = { h with pend := none, own := false, bus := h.bus ++ [.stop] } := by simp [go, pend]
    rw [e]
    exact ⟨2 * l.length + 4, .rest hp st rfl mb rfl bus rfl, ⟨f1, f2⟩, by omega, fun _ => by omega⟩
  | rest hp st pend mb own bus hm => rw [go_none pend]; exact ⟨m, .rest hp st pend mb own bus hm, ⟨f1, f2⟩, Nat.le_refl _, fun h => absurd pend h⟩
  | addr hp st pend mb bus hm =>
    have e : go q true d h = { h with pend := none, own := true, mb := true, rxnack := false, bus := h.bus ++ [.start, .addr (sla q.a false) true] } := by simp [go, pend]
    rw [e]
    exact ⟨2 * (l.length - p) + 2, .ready (by omega) st rfl rfl rfl (by simp [bus, head, txs, hp]) rfl, ⟨rfl, f2⟩, by omega, fun _ => by omega⟩
  | ready hp st pend mb own bus hm => rw [go_none pend]; exact ⟨m, .ready hp st pend mb own bus hm, ⟨f1, f2⟩, Nat.le_refl _, fun h => absurd pend h⟩
  | fly b j hj hp hb st pend mb own bus hm =>
    have e : go q true d h = { h with pend := none, mb := true, rxnack := false, bus := h.bus ++ [.tx b true] } := by simp [go, pend]
    rw [e]
    refine ⟨2 * (l.length - p) + 2, .ready hp st rfl rfl own ?_ rfl, ⟨rfl, f2⟩, by omega, fun _ => by omega⟩
    show h.bus ++ [.tx b true] = _
    rw [bus, hj, txs_take hb]; simp only [List.append_assoc]
  | last b hp hb st la pend mb own bus hm =>
    have e : go q true d h = { h with pend := none, mb := true, rxnack := false, bus := h.bus ++ [.tx b true] } := by simp [go, pend]
    rw [e]
    refine ⟨2, .sent hp st la rfl rfl own ?_ rfl, ⟨rfl, f2⟩, by omega, fun _ => by omega⟩
    show h.bus ++ [.tx b true] = _
    have := txs_take hb
    rw [hp, List.take_length] at this
    rw [bus, this]; simp only [List.append_assoc]
  | sent hp st la pend mb own bus hm => rw [go_none pend]; exact ⟨m, .sent hp st la pend mb own bus hm, ⟨f1, f2⟩, Nat.le_refl _, fun h => absurd pend h⟩
  | stopping hp st pend mb own bus hm =>
    have e : go q true d h = { h with pend := none, own := false, bus := h.bus ++ [.stop] } := by simp [go, pend]
    rw [e]
    exact ⟨0, .over hp st rfl mb rfl (by simp [bus]) rfl, ⟨f1, f2⟩, by omega, fun _ => by omega⟩
  | over hp st pend mb own bus hm => rw [go_none pend]; exact ⟨m, .over hp st pend mb own bus hm, ⟨f1, f2⟩, Nat.le_refl _, fun h => absurd pend h⟩

theorem works_K {q l base p c} (h0 : 0 < l.length) (es : List (Bool × Byte)) (he : ∀ e ∈ es, e.1 = true) : ∀ {h : Hw} {m : Nat}, Fix h → K q l base p c h m →
    ∃ m', K q l base p c (works q es h) m' ∧ Fix (works q es h) ∧ m' ≤ m := by
  induction es with
  | nil => intro h m hf hk; exact ⟨m, hk, hf, Nat.le_refl _⟩
  | cons e es ih =>
    intro h m hf hk
    have e1 := he e (by simp)
    obtain ⟨m1, g1, g2, g3, _⟩ := go_K h0 hf hk e.2
    show ∃ m', K q l base p c (works q es (go q e.1 e.2 h)) m' ∧ Fix (works q es (go q e.1 e.2 h)) ∧ m' ≤ m
    rw [e1]
    obtain ⟨m2, i1, i2, i3⟩ := ih (fun e h => he e (by simp [h])) g2 g1
    exact ⟨m2, i1, i2, by omega⟩

/-- sendStop, from the last states of a frame -/
theorem sendStop_K {q l base p c h m} (hs : c.st = .stop) (hf : Fix h) (hk : K q l base p c h m) :
    ∃ m', m' ≤ m ∧ (h.pend = none → m' < m) ∧ Fix (sendStop q c h).2.1 ∧
      (((sendStop q c h).2.2 = .again ∧ K q l base p (sendStop q c h).1 (sendStop q c h).2.1 m') ∨
       ((sendStop q c h).2.2 = .num 1 ∧ K q l base (p + 1) (sendStop q c h).1 (sendStop q c h).2.1 m')) := by
  obtain ⟨f1, f2⟩ := hf
  cases hk with
  | before hp st pend mb own bus hm => rw [hs] at st; cases st
  | rest hp st pend mb own bus hm => rw [hs] at st; cases st
  | addr hp st pend mb bus hm => rw [hs] at st; cases st
  | ready hp st pend mb own bus hm => rw [hs] at st; cases st
  | fly b j hj hp hb st pend mb own bus hm => rw [hs] at st; cases st
  | last b hp hb st la pend mb own bus hm =>
    have e : sendStop q c h = (c, h, .again) := by simp [sendStop, mb]
    rw [e]
    exact ⟨m, Nat.le_refl _, fun h => (by rw [pend] at h; cases h), ⟨f1, f2⟩, .inl ⟨rfl, .last b hp hb st la pend mb own bus hm⟩⟩
  | sent hp st la pend mb own bus hm =>
    have e : sendStop q c h = ({ c with st := .idle }, ask .stop { h with rxnack := if q.clears then false else h.rxnack }, .num 1) := by simp [sendStop, mb, la]
    rw [e]
    refine ⟨1, by omega, fun _ => by omega, ⟨?_, rfl⟩, .inr ⟨rfl, .stopping hp rfl rfl rfl own bus rfl⟩⟩
    show (if q.clears then false else h.rxnack) = false
    rw [f1]; split <;> rfl
  | stopping hp st pend mb own bus hm => rw [hs] at st; cases st
  | over hp st pend mb own bus hm => rw [hs] at st; cases st

/-- a call of twi_write -/
theorem write_K {q l base p c h m b l'} (h0 : 0 < l.length) (hd : l.drop p = b :: l') {k : Wk} (hg : k.good) (hf : Fix h) (hk : K q l base p c h m) :
    ∃ m', m' ≤ m ∧ (h.pend = none → m' < m) ∧ Fix (write q b l' k c h).2.1 ∧
      (((write q b l' k c h).2.2 = .again ∧ K q l base p (write q b l' k c h).1 (write q b l' k c h).2.1 m') ∨
       ((write q b l' k c h).2.2 = .num 1 ∧ K q l base (p + 1) (write q b l' k c h).1 (write q b l' k c h).2.1 m')) := by
  have hlt : p < l.length := by
    rcases Nat.lt_or_ge p l.length with c | c
    · exact c
    · rw [List.drop_eq_nil_of_le c] at hd; cases hd
  have hb : l[p]? = some b := by
    have := congrArg (fun x => x[0]?) hd
    simpa [List.getElem?_drop] using this
  have hl' : l'.isEmpty = decide (p + 1 = l.length) := by
    have := congrArg List.length hd
    simp only [List.length_drop, List.length_cons] at this
    rw [Bool.eq_iff_iff, List.isEmpty_iff_length_eq_zero, decide_eq_true_iff]
    omega
  obtain ⟨m1, k1, f1, hm1⟩ := works_K h0 k.a hg.1 hf hk
  have hpn : h.pend = none → (works q k.a h).pend = none := by
    intro hp
    have : works q k.a h = h := by
      clear hm1 k1 f1
      generalize k.a = es
      induction es with
      | nil => rfl
      | cons e es ih => show works q es (go q e.1 e.2 h) = h; rw [go_none hp]; exact ih
    rw [this]; exact hp
  have ew : write q b l' k c h = match c.st with
      | .idle => if (works q k.a h).own then (c, works q k.a h, .again) else ({ c with st := .data }, ask (.addr false) (works q k.a h), .again)
      | .data =>
        if (works q k.a h).mb = false then (c, works q k.a h, .again)
        else if l'.isEmpty then stopM q (.num 1) (works q k.b (ask (.byte b) (works q k.a h))) else (c, works q k.b (ask (.byte b) (works q k.a h)), .num 1)
      | .stop => sendStop q c (works q k.a h) := by
    unfold write
    rw [hf.rxnack]
    rfl
  rw [ew]
  generalize works q k.a h = y at *
  cases hs : c.st with
  | stop =>
    obtain ⟨m2, a1, a2, a3, a4⟩ := sendStop_K hs f1 k1
    exact ⟨m2, by omega, fun hp => by have := a2 (hpn hp); omega, a3, a4⟩
  | idle =>
    cases k1 with
    | before hp st pend mb own bus hm =>
      simp only [own, if_true]
      exact ⟨m1, hm1, fun h => (by rw [hpn h] at pend; cases pend), f1, .inl ⟨trivial, .before hp st pend mb own bus hm⟩⟩
    | rest hp st pend mb own bus hm =>
      simp only [own]
      exact ⟨2 * l.length + 3, by omega, fun _ => by omega, ⟨f1.rxnack, rfl⟩, .inl ⟨rfl, .addr hp rfl rfl rfl bus rfl⟩⟩
    | addr hp st pend mb bus hm => rw [hs] at st; cases st
    | ready hp st pend mb own bus hm => rw [hs] at st; cases st
    | fly b j hj hp hb st pend mb own bus hm => rw [hs] at st; cases st
    | last b hp hb st la pend mb own bus hm => rw [hs] at st; cases st
    | sent hp st la pend mb own bus hm => rw [hs] at st; cases st
    | stopping hp st pend mb own bus hm => omega
    | over hp st pend mb own bus hm => omega
  | data =>
    cases k1 with
    | before hp st pend mb own bus hm => rw [hs] at st; cases st
    | rest hp st pend mb own bus hm => rw [hs] at st; cases st
    | addr hp st pend mb bus hm =>
      simp only [mb, if_true]
      exact ⟨m1, hm1, fun h => (by rw [hpn h] at pend; cases pend), f1, .inl ⟨trivial, .addr hp st pend mb bus hm⟩⟩
    | fly b j hj hp hb st pend mb own bus hm =>
      simp only [mb, if_true]
      exact ⟨m1, hm1, fun h => (by rw [hpn h] at pend; cases pend), f1, .inl ⟨trivial, .fly b j hj hp hb st pend mb own bus hm⟩⟩
    | last b hp hb st la pend mb own bus hm => rw [hs] at st; cases st
    | sent hp st la pend mb own bus hm => rw [hs] at st; cases st
    | stopping hp st pend mb own bus hm => rw [hs] at st; cases st
    | over hp st pend mb own bus hm => rw [hs] at st; cases st
    | ready hp st pend mb own bus hm =>
      simp only [mb, Bool.true_eq_false, if_false]
      have fa : Fix (ask (.byte b) y) := ⟨f1.rxnack, rfl⟩
      by_cases ce : p + 1 = l.length
      · rw [hl', decide_eq_true ce]
        simp only [if_true, stopM]
        have ka : K q l base p ⟨.stop, .num 1⟩ (ask (.byte b) y) 3 := .last b ce hb rfl rfl rfl rfl own bus rfl
        obtain ⟨m2, k2, f2, hm2⟩ := works_K h0 k.b hg.2 fa ka
        obtain ⟨m3, a1, a2, a3, a4⟩ := sendStop_K (q := q) rfl f2 k2
        exact ⟨m3, by omega, fun _ => by omega, a3, a4⟩
      · rw [hl', decide_eq_false ce]
        simp only [Bool.false_eq_true, if_false]
        have ka : K q l base (p + 1) c (ask (.byte b) y) (2 * (l.length - (p + 1)) + 3) := .fly b p rfl (by omega) hb st rfl rfl own bus rfl
        obtain ⟨m2, k2, f2, hm2⟩ := works_K h0 k.b hg.2 fa ka
        exact ⟨m2, by omega, fun _ => by omega, f2, .inr ⟨trivial, k2⟩⟩

/-- one step of a task that writes, or of the bus -/
theorem wStep_K {q l base x m} (h0 : 0 < l.length) {e : Ev} (hg : e.good) (he : x.eot = false) (hf : Fix x.hw) (hk : K q l base x.pos x.c x.hw m) :
    ∃ m', K q l base (wStep q l x e).pos (wStep q l x e).c (wStep q l x e).hw m' ∧ Fix (wStep q l x e).hw ∧ (wStep q l x e).eot = false ∧ m' ≤ m ∧
      ((match e with | .hw _ _ => x.hw.pend ≠ none | .call _ => x.hw.pend = none ∧ x.pos < l.length) → m' < m) := by
  cases e with
  | hw ack d =>
    have ha : ack = true := hg
    subst ha
    obtain ⟨m', a, b, c, d'⟩ := go_K h0 hf hk d
    exact ⟨m', a, b, he, c, d'⟩
  | call k =>
    cases hd : l.drop x.pos with
    | nil =>
      have e : wStep q l x (.call k) = x := by simp [wStep, he, hd]
      rw [e]
      refine ⟨m, hk, hf, he, Nat.le_refl _, fun h => ?_⟩
      have := congrArg List.length hd
      simp at this
      omega
    | cons b l' =>
      obtain ⟨m', a1, a2, a3, a4⟩ := write_K h0 hd hg hf hk
      rcases a4 with ⟨r, kk⟩ | ⟨r, kk⟩
      · have e : wStep q l x (.call k) = { x with c := (write q b l' k x.c x.hw).1, hw := (write q b l' k x.c x.hw).2.1 } := by
          simp only [wStep, he, hd, Bool.false_eq_true, if_false, r]
        rw [e]
        exact ⟨m', kk, a3, he, a1, fun h => a2 h.1⟩
      · have e : wStep q l x (.call k) = { x with c := (write q b l' k x.c x.hw).1, hw := (write q b l' k x.c x.hw).2.1, pos := x.pos + 1, eot := false } := by
          simp only [wStep, he, hd, Bool.false_eq_true, if_false, r]; rfl
        rw [e]
        exact ⟨m', kk, a3, rfl, a1, fun h => a2 h.1⟩

theorem wRun_K {q l base} (h0 : 0 < l.length) : ∀ (evs : List Ev), (∀ e ∈ evs, e.good) → ∀ {x : App} {m : Nat}, x.eot = false → Fix x.hw → K q l base x.pos x.c x.hw m →
    ∃ m', K q l base (wRun q l evs x).pos (wRun q l evs x).c (wRun q l evs x).hw m' ∧ Fix (wRun q l evs x).hw ∧ (wRun q l evs x).eot = false ∧ m' ≤ m := by
  intro evs
  induction evs with
  | nil => intro _ x m he hf hk; exact ⟨m, hk, hf, he, Nat.le_refl _⟩
  | cons e evs ih =>
    intro hg x m he hf hk
    obtain ⟨m1, a, b, c, d, _⟩ := wStep_K h0 (hg e (by simp)) he hf hk
    obtain ⟨m2, a2, b2, c2, d2⟩ := ih (fun e h => hg e (by simp [h])) c b a
    exact ⟨m2, a2, b2, c2, by omega⟩

/-- where a write starts -/
theorem start_K {q : Par} {l : List Byte} {la : R} {h : Hw} (hq : Quiet h ∨ Ending h) :
    Fix h ∧ ∃ m, m ≤ 2 * l.length + 5 ∧ K q l (settled h) (App.of la h).pos (App.of la h).c (App.of la h).hw m := by
  rcases hq with hq | hq
  · exact ⟨⟨hq.rxnack, hq.sb⟩, _, by omega, .rest rfl rfl hq.pend hq.mb hq.own (by simp [settled, hq.pend, App.of]) rfl⟩
  · exact ⟨⟨hq.rxnack, hq.sb⟩, _, Nat.le_refl _, .before rfl rfl hq.pend hq.mb hq.own (by simp [settled, hq.pend, App.of]) rfl⟩

/-- **C118, writes that the slave takes**: whatever the schedule, what is on the bus is the frame asked for, or its beginning; all its bytes are there when the task is told so; the frame is complete when the bus is at rest again,
and the host is ready for another.  The task may start while the STOP of the frame before is still to be sent -/
theorem twi_write_partial {q : Par} {l : List Byte} {la : R} {h : Hw} (h0 : 0 < l.length) (hq : Quiet h ∨ Ending h) (evs : List Ev) (hg : ∀ e ∈ evs, e.good) :
    let x := wRun q l evs (App.of la h)
    x.eot = false ∧ x.pos ≤ l.length ∧
    (∃ rest, x.hw.bus ++ rest = settled h ++ seen q.a (.write l true true, .wrote)) ∧
    (x.pos = l.length → x.hw.bus = settled h ++ [.start, .addr (sla q.a false) true] ++ l.map (fun b => .tx b true) ∧ Ending x.hw ∨
      x.hw.bus = settled h ++ seen q.a (.write l true true, .wrote) ∧ Quiet x.hw ∧ x.c.st = .idle) := by
  obtain ⟨f0, m0, -, k0⟩ := start_K (q := q) (l := l) (la := la) hq
  obtain ⟨m, hk, hf, he, _⟩ := wRun_K h0 evs hg (x := App.of la h) rfl f0 k0
  dsimp only
  generalize wRun q l evs (App.of la h) = x at *
  rw [seen_write]
  have part : ∀ j, settled h ++ head q ++ txs (l.take j) ++ (txs (l.drop j) ++ [.stop]) = settled h ++ (head q ++ txs l ++ [.stop]) := by
    intro j
    have : txs (l.take j) ++ txs (l.drop j) = txs l := by rw [txs, txs, ← List.map_append, List.take_append_drop]; rfl
    rw [← this]; simp only [List.append_assoc]
  refine ⟨he, ?_⟩
  cases hk with
  | before hp st pend mb own bus hm => exact ⟨by omega, ⟨.stop :: (head q ++ txs l ++ [.stop]), by rw [← bus]; simp⟩, fun h => by omega⟩
  | rest hp st pend mb own bus hm => exact ⟨by omega, ⟨_, by rw [bus]⟩, fun h => by omega⟩
  | addr hp st pend mb bus hm => exact ⟨by omega, ⟨_, by rw [bus]⟩, fun h => by omega⟩
  | ready hp st pend mb own bus hm => exact ⟨by omega, ⟨_, by rw [bus]; exact part _⟩, fun h => by omega⟩
  | fly b j hj hp hb st pend mb own bus hm => exact ⟨by omega, ⟨_, by rw [bus]; exact part _⟩, fun h => by omega⟩
  | last b hp hb st la pend mb own bus hm => exact ⟨by omega, ⟨_, by rw [bus]; exact part _⟩, fun h => by omega⟩
  | sent hp st la pend mb own bus hm => exact ⟨by omega, ⟨[.stop], by rw [bus]; simp only [List.append_assoc]⟩, fun h => by omega⟩
  | stopping hp st pend mb own bus hm => exact ⟨by omega, ⟨[.stop], by rw [bus]; simp only [List.append_assoc]⟩, fun _ => .inl ⟨bus, pend, mb, hf.sb, hf.rxnack, own⟩⟩
  | over hp st pend mb own bus hm => exact ⟨by omega, ⟨[], by rw [bus]; simp only [List.append_assoc, List.append_nil]⟩, fun _ => .inr ⟨by rw [bus]; simp only [List.append_assoc], ⟨pend, mb, hf.sb, hf.rxnack, own⟩, st⟩⟩

/-- rounds: the bus moves, the task calls -/
def rounds (l : List (Byte × Wk)) : List Ev := l.flatMap fun e => [.hw true e.1, .call e.2]

/-- **C118**: and all of it is written, and the frame complete, after 2 |l| + 5 moves of the bus and calls -/
theorem twi_write_ends_partial {q : Par} {l : List Byte} {la : R} {h : Hw} (h0 : 0 < l.length) (hq : Quiet h ∨ Ending h) (es : List (Byte × Wk)) (hg : ∀ e ∈ es, e.2.good) (hn : 2 * l.length + 5 ≤ es.length) :
    let x := wRun q l (rounds es) (App.of la h)
    x.pos = l.length ∧ x.hw.bus = settled h ++ seen q.a (.write l true true, .wrote) ∧ Quiet x.hw := by
  suffices H : ∀ (es : List (Byte × Wk)), (∀ e ∈ es, e.2.good) → ∀ (x : App) (m : Nat), x.eot = false → Fix x.hw → K q l (settled h) x.pos x.c x.hw m →
      ∃ m', m' ≤ m - es.length ∧ K q l (settled h) (wRun q l (rounds es) x).pos (wRun q l (rounds es) x).c (wRun q l (rounds es) x).hw m' ∧ Fix (wRun q l (rounds es) x).hw by
    obtain ⟨f0, m0, hm0, k0⟩ := start_K (q := q) (l := l) (la := la) hq
    obtain ⟨m, hm, hk, hf⟩ := H es hg (App.of la h) _ rfl f0 k0
    have hz : m = 0 := by omega
    dsimp only
    generalize wRun q l (rounds es) (App.of la h) = x at *
    cases hk with
    | over hp st pend mb own bus hm => exact ⟨hp, by rw [bus, seen_write]; simp only [List.append_assoc], pend, mb, hf.sb, hf.rxnack, own⟩
    | _ => omega
  intro es
  induction es with
  | nil => intro _ x m he hf hk; exact ⟨m, Nat.le_refl _, hk, hf⟩
  | cons e es ih =>
    intro hg x m he hf hk
    have er : wRun q l (rounds (e :: es)) x = wRun q l (rounds es) (wStep q l (wStep q l x (.hw true e.1)) (.call e.2)) := rfl
    rw [er]
    obtain ⟨m1, a1, b1, c1, d1, s1⟩ := wStep_K (e := .hw true e.1) h0 rfl he hf hk
    obtain ⟨m2, a2, b2, c2, d2, s2⟩ := wStep_K (e := .call e.2) h0 (hg e (by simp)) c1 b1 a1
    obtain ⟨m3, d3, a3, b3⟩ := ih (fun e h => hg e (by simp [h])) _ m2 c2 b2 a2
    refine ⟨m3, ?_, a3, b3⟩
    simp only [List.length_cons]
    by_cases c : x.hw.pend = none
    · have eh : wStep q l x (.hw true e.1) = x := by simp only [wStep, go_none c]
      rw [eh] at s2
      by_cases cp : x.pos < l.length
      · have := s2 ⟨c, cp⟩; omega
      · have : m = 0 := by
          cases hk with
          | over hp st pend mb own bus hm => exact hm
          | stopping hp st pend mb own bus hm => rw [c] at pend; cases pend
          | _ => omega
        omega
    · have := s1 c; omega

/-- two messages, one right after the other: the second starts while the STOP of the first is to be sent -/
example : let h : Hw := ⟨some .stop, false, false, false, false, true, 0, [.start, .addr 0xa0 true, .tx 1 true]⟩
    let y := wRun ⟨0x50, false⟩ [2] ([.call .none] ++ rounds (List.replicate 8 (0, .none))) (App.of .again h)
    Ending h ∧ y.pos = 1 ∧ y.hw.bus = h.bus ++ [.stop, .start, .addr 0xa0 true, .tx 2 true, .stop] := ⟨⟨rfl, rfl, rfl, rfl, rfl⟩, by decide⟩

end Pico.TwiSercom
