import Verif.Drivers.TwiPic
/-
C119: the writes of the TWI master of the PIC32MX.
-/
namespace Pico.TwiPic
open Pico.Twi

def head (q : Par) : List Bus := [.start, .addr (sla q.a false) true]
def txs (l : List Byte) : List Bus := l.map (fun b => .tx b true)

theorem seen_write (q : Par) (l : List Byte) : seen q.a (.write l true true, .wrote) = head q ++ txs l ++ [.stop] := by simp [seen, head, txs]

theorem txs_take {l : List Byte} {p : Nat} {b : Byte} (hb : l[p]? = some b) : txs (l.take (p + 1)) = txs (l.take p) ++ [.tx b true] := by
  rw [List.take_add_one, hb, txs, List.map_append]; rfl

/-- where the driver and the module can be once p bytes of l were counted; `m`: steps left -/
inductive K (q : Par) (l : List Byte) (base : List Bus) (p : Nat) (c : Ctx) (h : Hw) (m : Nat) : Prop where
  | before (hp : p = 0) (st : c.st = .idle) (pend : h.pend = some .stop) (bus : h.bus ++ [.stop] = base) (hm : m = 2 * l.length + 7)
  | rest (hp : p = 0) (st : c.st = .idle) (pend : h.pend = none) (bus : h.bus = base) (hm : m = 2 * l.length + 6)
  | start (hp : p = 0) (st : c.st = .sla) (pend : h.pend = some .start) (bus : h.bus = base) (hm : m = 2 * l.length + 5)
  | started (hp : p = 0) (st : c.st = .sla) (pend : h.pend = none) (fr : h.fresh = true) (bus : h.bus = base ++ [.start]) (hm : m = 2 * l.length + 4)
  | addr (hp : p = 0) (st : c.st = .data) (pend : h.pend = some (.byte (sla q.a false))) (fr : h.fresh = true) (bus : h.bus = base ++ [.start]) (hm : m = 2 * l.length + 3)
  | ready (hp : p < l.length) (st : c.st = .data) (pend : h.pend = none) (fr : h.fresh = false) (bus : h.bus = base ++ head q ++ txs (l.take p)) (hm : m = 2 * (l.length - p) + 2)
  | fly (b : Byte) (j : Nat) (hj : p = j + 1) (hp : p < l.length) (hb : l[j]? = some b) (st : c.st = .data) (pend : h.pend = some (.byte b)) (fr : h.fresh = false)
      (bus : h.bus = base ++ head q ++ txs (l.take j)) (hm : m = 2 * (l.length - p) + 3)
  | last (b : Byte) (hp : p + 1 = l.length) (hb : l[p]? = some b) (st : c.st = .stop) (la : c.last = 1) (pend : h.pend = some (.byte b)) (fr : h.fresh = false)
      (bus : h.bus = base ++ head q ++ txs (l.take p)) (hm : m = 3)
  | sent (hp : p + 1 = l.length) (st : c.st = .stop) (la : c.last = 1) (pend : h.pend = none) (bus : h.bus = base ++ head q ++ txs l) (hm : m = 2)
  | stopping (hp : p = l.length) (st : c.st = .idle) (pend : h.pend = some .stop) (bus : h.bus = base ++ head q ++ txs l) (hm : m = 1)
  | over (hp : p = l.length) (st : c.st = .idle) (pend : h.pend = none) (bus : h.bus = base ++ head q ++ txs l ++ [.stop]) (hm : m = 0)

theorem go_none {h : Hw} (hp : h.pend = none) (ack : Bool) : go ack h = h := by simp [go, hp]

theorem works_none {h : Hw} (hp : h.pend = none) (es : List Bool) : works es h = h := by
  induction es with
  | nil => rfl
  | cons e es ih => show works es (go e h) = h; rw [go_none hp]; exact ih

theorem go_K {q l base p c h m} (h0 : 0 < l.length) (hf : h.ackstat = false) (hk : K q l base p c h m) :
    ∃ m', K q l base p c (go true h) m' ∧ (go true h).ackstat = false ∧ m' ≤ m ∧ (h.pend ≠ none → m' < m) := by
  cases hk with
  | before hp st pend bus hm =>
    have e : go true h = { h with pend := none, bus := h.bus ++ [.stop] } := by simp [go, pend]
    rw [e]
    exact ⟨2 * l.length + 6, .rest hp st rfl bus rfl, hf, by omega, fun _ => by omega⟩
  | rest hp st pend bus hm => rw [go_none pend]; exact ⟨m, .rest hp st pend bus hm, hf, Nat.le_refl _, fun h => absurd pend h⟩
  | start hp st pend bus hm =>
    have e : go true h = { h with pend := none, fresh := true, bus := h.bus ++ [.start] } := by simp [go, pend]
    rw [e]
    exact ⟨2 * l.length + 4, .started hp st rfl rfl (by simp [bus]) rfl, hf, by omega, fun _ => by omega⟩
  | started hp st pend fr bus hm => rw [go_none pend]; exact ⟨m, .started hp st pend fr bus hm, hf, Nat.le_refl _, fun h => absurd pend h⟩
  | addr hp st pend fr bus hm =>
    have e : go true h = { h with pend := none, ackstat := false, fresh := false, bus := h.bus ++ [.addr (sla q.a false) true] } := by simp [go, pend, fr]
    rw [e]
    exact ⟨2 * (l.length - p) + 2, .ready (by omega) st rfl rfl (by simp [bus, head, txs, hp]) rfl, rfl, by omega, fun _ => by omega⟩
  | ready hp st pend fr bus hm => rw [go_none pend]; exact ⟨m, .ready hp st pend fr bus hm, hf, Nat.le_refl _, fun h => absurd pend h⟩
  | fly b j hj hp hb st pend fr bus hm =>
    have e : go true h = { h with pend := none, ackstat := false, fresh := false, bus := h.bus ++ [.tx b true] } := by simp [go, pend, fr]
    rw [e]
    refine ⟨2 * (l.length - p) + 2, .ready hp st rfl rfl ?_ rfl, rfl, by omega, fun _ => by omega⟩
    show h.bus ++ [.tx b true] = _
    rw [bus, hj, txs_take hb]; simp only [List.append_assoc]
  | last b hp hb st la pend fr bus hm =>
    have e : go true h = { h with pend := none, ackstat := false, fresh := false, bus := h.bus ++ [.tx b true] } := by simp [go, pend, fr]
    rw [e]
    refine ⟨2, .sent hp st la rfl ?_ rfl, rfl, by omega, fun _ => by omega⟩
    show h.bus ++ [.tx b true] = _
    have := txs_take hb
    rw [hp, List.take_length] at this
    rw [bus, this]; simp only [List.append_assoc]
  | sent hp st la pend bus hm => rw [go_none pend]; exact ⟨m, .sent hp st la pend bus hm, hf, Nat.le_refl _, fun h => absurd pend h⟩
  | stopping hp st pend bus hm =>
    have e : go true h = { h with pend := none, bus := h.bus ++ [.stop] } := by simp [go, pend]
    rw [e]
    exact ⟨0, .over hp st rfl (by simp [bus]) rfl, hf, by omega, fun _ => by omega⟩
  | over hp st pend bus hm => rw [go_none pend]; exact ⟨m, .over hp st pend bus hm, hf, Nat.le_refl _, fun h => absurd pend h⟩

theorem works_K {q l base p c} (h0 : 0 < l.length) (es : List Bool) (he : ∀ e ∈ es, e = true) : ∀ {h : Hw} {m : Nat}, h.ackstat = false → K q l base p c h m →
    ∃ m', K q l base p c (works es h) m' ∧ (works es h).ackstat = false ∧ m' ≤ m := by
  induction es with
  | nil => intro h m hf hk; exact ⟨m, hk, hf, Nat.le_refl _⟩
  | cons e es ih =>
    intro h m hf hk
    have e1 := he e (by simp)
    obtain ⟨m1, g1, g2, g3, _⟩ := go_K h0 hf hk
    show ∃ m', K q l base p c (works es (go e h)) m' ∧ (works es (go e h)).ackstat = false ∧ m' ≤ m
    rw [e1]
    obtain ⟨m2, i1, i2, i3⟩ := ih (fun e h => he e (by simp [h])) g2 g1
    exact ⟨m2, i1, i2, by omega⟩

theorem ask_none {x : Act} {h : Hw} (hp : h.pend = none) : ask x h = { h with pend := some x } := by simp [ask, hp]

/-- a call of twi_write -/
theorem write_K {q l base p c h m b l'} (h0 : 0 < l.length) (hd : l.drop p = b :: l') {k : List Bool} (hg : ∀ e ∈ k, e = true) (hf : h.ackstat = false) (hk : K q l base p c h m) :
    ∃ m', m' ≤ m ∧ (h.pend = none → m' < m) ∧ (write q b l' k c h).2.1.ackstat = false ∧
      (((write q b l' k c h).2.2 = .again ∧ K q l base p (write q b l' k c h).1 (write q b l' k c h).2.1 m') ∨
       ((write q b l' k c h).2.2 = .num 1 ∧ K q l base (p + 1) (write q b l' k c h).1 (write q b l' k c h).2.1 m')) := by
  have hlt : p < l.length := by
    rcases Nat.lt_or_ge p l.length with c | c
    · exact c
    · rw [List.drop_eq_nil_of_le c] at hd; cases hd
  have hb : l[p]? = some b := by
    have := congrArg (fun x => x[0]?) hd
    simpa [List.getElem?_drop] using this
  have hl' : l'.isEmpty = decide (p + 1 = l.length) := by
    have := congrArg List.length hd
    simp only [List.length_drop, List.length_cons] at this
    rw [Bool.eq_iff_iff, List.isEmpty_iff_length_eq_zero, decide_eq_true_iff]
    omega
  obtain ⟨m1, k1, f1, hm1⟩ := works_K h0 k hg hf hk
  have hpn : h.pend = none → (works k h).pend = none := by
    intro hp; rw [works_none hp]; exact hp
  unfold write
  dsimp only
  rw [hf]
  generalize works k h = y at *
  cases k1 with
  | before hp st pend bus hm =>
    simp only [st, pend, if_true]
    exact ⟨m1, hm1, fun h => (by rw [hpn h] at pend; cases pend), f1, .inl ⟨trivial, .before hp st pend bus hm⟩⟩
  | rest hp st pend bus hm =>
    simp only [st, pend, ask_none]
    exact ⟨2 * l.length + 5, by omega, fun _ => by omega, f1, .inl ⟨rfl, .start hp rfl rfl bus rfl⟩⟩
  | start hp st pend bus hm =>
    simp only [st, pend, if_true]
    exact ⟨m1, hm1, fun h => (by rw [hpn h] at pend; cases pend), f1, .inl ⟨trivial, .start hp st pend bus hm⟩⟩
  | started hp st pend fr bus hm =>
    simp only [st, pend, ask_none]
    exact ⟨2 * l.length + 3, by omega, fun _ => by omega, f1, .inl ⟨rfl, .addr hp rfl rfl fr bus rfl⟩⟩
  | addr hp st pend fr bus hm =>
    simp only [st, pend]
    exact ⟨m1, hm1, fun h => (by rw [hpn h] at pend; cases pend), f1, .inl ⟨rfl, .addr hp st pend fr bus hm⟩⟩
  | ready hp st pend fr bus hm =>
    simp only [st, pend, ask_none, hl']
    by_cases ce : p + 1 = l.length
    · simp only [decide_eq_true ce, if_true]
      exact ⟨3, by omega, fun _ => by omega, f1, .inl ⟨rfl, .last b ce hb rfl rfl rfl fr bus rfl⟩⟩
    · simp only [decide_eq_false ce]
      exact ⟨2 * (l.length - (p + 1)) + 3, by omega, fun _ => by omega, f1, .inr ⟨rfl, .fly b p rfl (by omega) hb st rfl fr bus rfl⟩⟩
  | fly b j hj hp hb st pend fr bus hm =>
    simp only [st, pend]
    exact ⟨m1, hm1, fun h => (by rw [hpn h] at pend; cases pend), f1, .inl ⟨rfl, .fly b j hj hp hb st pend fr bus hm⟩⟩
  | last b hp hb st la pend fr bus hm =>
    simp only [st, pend]
    exact ⟨m1, hm1, fun h => (by rw [hpn h] at pend; cases pend), f1, .inl ⟨rfl, .last b hp hb st la pend fr bus hm⟩⟩
  | sent hp st la pend bus hm =>
    simp only [st, pend, ask_none, la]
    exact ⟨1, by omega, fun _ => by omega, f1, .inr ⟨rfl, .stopping hp rfl rfl bus rfl⟩⟩
  | stopping hp st pend bus hm => omega
  | over hp st pend bus hm => omega

/-- one step of a task that writes, or of the bus -/
theorem wStep_K {q l base x m} (h0 : 0 < l.length) {e : Ev} (hg : e.good) (he : x.eot = false) (hf : x.hw.ackstat = false) (hk : K q l base x.pos x.c x.hw m) :
    ∃ m', K q l base (wStep q l x e).pos (wStep q l x e).c (wStep q l x e).hw m' ∧ (wStep q l x e).hw.ackstat = false ∧ (wStep q l x e).eot = false ∧ m' ≤ m ∧
      ((match e with | .hw _ => x.hw.pend ≠ none | .call _ => x.hw.pend = none ∧ x.pos < l.length) → m' < m) := by
  cases e with
  | hw ack =>
    have ha : ack = true := hg
    subst ha
    obtain ⟨m', a, b, c, d'⟩ := go_K h0 hf hk
    exact ⟨m', a, b, he, c, d'⟩
  | call k =>
    cases hd : l.drop x.pos with
    | nil =>
      have e : wStep q l x (.call k) = x := by simp [wStep, he, hd]
      rw [e]
      refine ⟨m, hk, hf, he, Nat.le_refl _, fun h => ?_⟩
      have := congrArg List.length hd
      simp at this
      omega
    | cons b l' =>
      obtain ⟨m', a1, a2, a3, a4⟩ := write_K h0 hd hg hf hk
      rcases a4 with ⟨r, kk⟩ | ⟨r, kk⟩
      · have e : wStep q l x (.call k) = { x with c := (write q b l' k x.c x.hw).1, hw := (write q b l' k x.c x.hw).2.1 } := by
          simp only [wStep, he, hd, Bool.false_eq_true, if_false, r]
        rw [e]
        exact ⟨m', kk, a3, he, a1, fun h => a2 h.1⟩
      · have e : wStep q l x (.call k) = { c := (write q b l' k x.c x.hw).1, hw := (write q b l' k x.c x.hw).2.1, pos := x.pos + 1, eot := false } := by
          simp only [wStep, he, hd, Bool.false_eq_true, if_false, r]; rfl
        rw [e]
        exact ⟨m', kk, a3, rfl, a1, fun h => a2 h.1⟩

theorem wRun_K {q l base} (h0 : 0 < l.length) : ∀ (evs : List Ev), (∀ e ∈ evs, e.good) → ∀ {x : App} {m : Nat}, x.eot = false → x.hw.ackstat = false → K q l base x.pos x.c x.hw m →
    ∃ m', K q l base (wRun q l evs x).pos (wRun q l evs x).c (wRun q l evs x).hw m' ∧ (wRun q l evs x).hw.ackstat = false ∧ (wRun q l evs x).eot = false ∧ m' ≤ m := by
  intro evs
  induction evs with
  | nil => intro _ x m he hf hk; exact ⟨m, hk, hf, he, Nat.le_refl _⟩
  | cons e evs ih =>
    intro hg x m he hf hk
    obtain ⟨m1, a, b, c, d, _⟩ := wStep_K h0 (hg e (by simp)) he hf hk
    obtain ⟨m2, a2, b2, c2, d2⟩ := ih (fun e h => hg e (by simp [h])) c b a
    exact ⟨m2, a2, b2, c2, by omega⟩

/-- where a write starts -/
theorem first_K {q : Par} {l : List Byte} {la : Nat} {h : Hw} (hp : h.pend = none ∨ h.pend = some .stop) :
    ∃ m, m ≤ 2 * l.length + 7 ∧ K q l (go true h).bus (App.of la h).pos (App.of la h).c (App.of la h).hw m := by
  rcases hp with hp | hp
  · exact ⟨_, by omega, .rest rfl rfl hp (by rw [go_none hp]; rfl) rfl⟩
  · exact ⟨_, Nat.le_refl _, .before rfl rfl hp (by simp [go, hp, App.of]) rfl⟩

/-- **C119, writes that the slave takes, after one that was taken**: whatever the schedule, what is on the bus is the frame asked for, or its beginning; all its bytes are there when the task is told so; the frame is complete when
the bus is at rest again.  It may start while the STOP of the frame before is still to be sent: (go true h).bus is the bus once it was -/
theorem twi_write_partial {q : Par} {l : List Byte} {la : Nat} {h : Hw} (h0 : 0 < l.length) (hp : h.pend = none ∨ h.pend = some .stop) (ha : h.ackstat = false) (evs : List Ev) (hg : ∀ e ∈ evs, e.good) :
    let x := wRun q l evs (App.of la h)
    x.eot = false ∧ x.pos ≤ l.length ∧ x.hw.ackstat = false ∧
    (∃ rest, x.hw.bus ++ rest = (go true h).bus ++ seen q.a (.write l true true, .wrote)) ∧
    (x.pos = l.length → x.c.st = .idle ∧ (x.hw.bus = (go true h).bus ++ [.start, .addr (sla q.a false) true] ++ l.map (fun b => .tx b true) ∧ x.hw.pend = some .stop ∨
      x.hw.bus = (go true h).bus ++ seen q.a (.write l true true, .wrote) ∧ x.hw.pend = none)) := by
  obtain ⟨m0, -, k0⟩ := first_K (q := q) (l := l) (la := la) hp
  obtain ⟨m, hk, hf, he, _⟩ := wRun_K (q := q) (l := l) h0 evs hg (x := App.of la h) rfl ha k0
  dsimp only
  generalize wRun q l evs (App.of la h) = x at *
  rw [seen_write]
  have part : ∀ j, (go true h).bus ++ head q ++ txs (l.take j) ++ (txs (l.drop j) ++ [.stop]) = (go true h).bus ++ (head q ++ txs l ++ [.stop]) := by
    intro j
    have : txs (l.take j) ++ txs (l.drop j) = txs l := by rw [txs, txs, ← List.map_append, List.take_append_drop]; rfl
    rw [← this]; simp only [List.append_assoc]
  refine ⟨he, ?_⟩
  cases hk with
  | before hp st pend bus hm => exact ⟨by omega, hf, ⟨.stop :: (head q ++ txs l ++ [.stop]), by rw [← bus]; simp⟩, fun h => by omega⟩
  | rest hp st pend bus hm => exact ⟨by omega, hf, ⟨_, by rw [bus]⟩, fun h => by omega⟩
  | start hp st pend bus hm => exact ⟨by omega, hf, ⟨_, by rw [bus]⟩, fun h => by omega⟩
  | started hp st pend fr bus hm => exact ⟨by omega, hf, ⟨.addr (sla q.a false) true :: (txs l ++ [.stop]), by rw [bus]; simp [head]⟩, fun h => by omega⟩
  | addr hp st pend fr bus hm => exact ⟨by omega, hf, ⟨.addr (sla q.a false) true :: (txs l ++ [.stop]), by rw [bus]; simp [head]⟩, fun h => by omega⟩
  | ready hp st pend fr bus hm => exact ⟨by omega, hf, ⟨_, by rw [bus]; exact part _⟩, fun h => by omega⟩
  | fly b j hj hp hb st pend fr bus hm => exact ⟨by omega, hf, ⟨_, by rw [bus]; exact part _⟩, fun h => by omega⟩
  | last b hp hb st la pend fr bus hm => exact ⟨by omega, hf, ⟨_, by rw [bus]; exact part _⟩, fun h => by omega⟩
  | sent hp st la pend bus hm => exact ⟨by omega, hf, ⟨[.stop], by rw [bus]; simp only [List.append_assoc]⟩, fun h => by omega⟩
  | stopping hp st pend bus hm => exact ⟨by omega, hf, ⟨[.stop], by rw [bus]; simp only [List.append_assoc]⟩, fun _ => ⟨st, .inl ⟨bus, pend⟩⟩⟩
  | over hp st pend bus hm => exact ⟨by omega, hf, ⟨[], by rw [bus]; simp only [List.append_assoc, List.append_nil]⟩, fun _ => ⟨st, .inr ⟨by rw [bus]; simp only [List.append_assoc], pend⟩⟩⟩

/-- rounds: the bus moves, the task calls -/
def rounds (l : List (List Bool)) : List Ev := l.flatMap fun k => [.hw true, .call k]

/-- **C119**: and all of it is written, and the frame complete, after 2 |l| + 7 moves of the bus and calls -/
theorem twi_write_ends_partial {q : Par} {l : List Byte} {la : Nat} {h : Hw} (h0 : 0 < l.length) (hp : h.pend = none ∨ h.pend = some .stop) (ha : h.ackstat = false) (es : List (List Bool)) (hg : ∀ k ∈ es, ∀ e ∈ k, e = true)
    (hn : 2 * l.length + 7 ≤ es.length) :
    let x := wRun q l (rounds es) (App.of la h)
    x.pos = l.length ∧ x.hw.bus = (go true h).bus ++ seen q.a (.write l true true, .wrote) ∧ x.hw.pend = none ∧ x.hw.ackstat = false := by
  suffices H : ∀ (es : List (List Bool)), (∀ k ∈ es, ∀ e ∈ k, e = true) → ∀ (x : App) (m : Nat), x.eot = false → x.hw.ackstat = false → K q l (go true h).bus x.pos x.c x.hw m →
      ∃ m', m' ≤ m - es.length ∧ K q l (go true h).bus (wRun q l (rounds es) x).pos (wRun q l (rounds es) x).c (wRun q l (rounds es) x).hw m' ∧ (wRun q l (rounds es) x).hw.ackstat = false by
    obtain ⟨m0, hm0, k0⟩ := first_K (q := q) (l := l) (la := la) hp
    obtain ⟨m, hm, hk, hf⟩ := H es hg (App.of la h) _ rfl ha k0
    have hz : m = 0 := by omega
    dsimp only
    generalize wRun q l (rounds es) (App.of la h) = x at *
    cases hk with
    | over hp st pend bus hm => exact ⟨hp, by rw [bus, seen_write]; simp only [List.append_assoc], pend, hf⟩
    | _ => omega
  intro es
  induction es with
  | nil => intro _ x m he hf hk; exact ⟨m, Nat.le_refl _, hk, hf⟩
  | cons e es ih =>
    intro hg x m he hf hk
    have er : wRun q l (rounds (e :: es)) x = wRun q l (rounds es) (wStep q l (wStep q l x (.hw true)) (.call e)) := rfl
    rw [er]
    obtain ⟨m1, a1, b1, c1, d1, s1⟩ := wStep_K (e := .hw true) h0 rfl he hf hk
    obtain ⟨m2, a2, b2, c2, d2, s2⟩ := wStep_K (e := .call e) h0 (hg e (by simp)) c1 b1 a1
    obtain ⟨m3, d3, a3, b3⟩ := ih (fun e h => hg e (by simp [h])) _ m2 c2 b2 a2
    refine ⟨m3, ?_, a3, b3⟩
    simp only [List.length_cons]
    by_cases c : x.hw.pend = none
    · have eh : wStep q l x (.hw true) = x := by simp only [wStep, go_none c]
      rw [eh] at s2
      by_cases cp : x.pos < l.length
      · have := s2 ⟨c, cp⟩; omega
      · have : m = 0 := by
          cases hk with
          | over hp st pend bus hm => exact hm
          | stopping hp st pend bus hm => rw [c] at pend; cases pend
          | _ => omega
        omega
    · have := s1 c; omega

/-! ### What goes wrong -/

/-- **C119**: a slave that is not there is reported, as 0 bytes, and the frame is ended, if the task calls once the address was sent; and ACKSTAT stays -/
theorem twi_write_absent (q : Par) (b : Byte) (l : List Byte) (la : Nat) (h : Hw) (hp : h.pend = none) (ha : h.ackstat = false) :
    let x := wRun q (b :: l) [.call [], .hw true, .call [], .hw false, .call [], .call [], .hw true] (App.of la h)
    x.eot = true ∧ x.pos = 0 ∧ x.hw.bus = h.bus ++ seen q.a (.write (b :: l) true true, .absent) ∧ x.c.st = .idle ∧ x.hw.pend = none ∧ x.hw.ackstat = true := by
  simp [wRun, wStep, App.of, write, works, hp, ha, ask, go, seen]

/-- **C119 refuted**: after that, a task that calls before the address of its next message was sent is told that the slave, which is there and answers, is not: no byte is written -/
theorem twi_write_stale (q : Par) (b : Byte) (l : List Byte) (la : Nat) (h : Hw) (hp : h.pend = none) (ha : h.ackstat = true) :
    let x := wRun q (b :: l) [.call [], .hw true, .call [], .call [], .hw true, .call [], .hw true] (App.of la h)
    x.eot = true ∧ x.pos = 0 ∧ x.hw.bus = h.bus ++ [.start, .addr (sla q.a false) true, .stop] := by
  simp [wRun, wStep, App.of, write, works, hp, ha, ask, go]

/-- **C119 refuted**: a last byte that the slave does not take is counted as written -/
theorem twi_write_last_nack (q : Par) (b : Byte) (la : Nat) (h : Hw) (hp : h.pend = none) (ha : h.ackstat = false) :
    let x := wRun q [b] [.call [], .hw true, .call [], .hw true, .call [], .hw false, .call [], .hw true] (App.of la h)
    x.eot = false ∧ x.pos = 1 ∧ x.hw.bus = h.bus ++ [.start, .addr (sla q.a false) true, .tx b false, .stop] := by
  simp [wRun, wStep, App.of, write, works, hp, ha, ask, go]

/-- **C119 refuted**: when the NACK comes between the reads of ACKSTAT and of TRSTAT, the byte is sent to nobody and counted as written -/
theorem twi_write_race (q : Par) (b c : Byte) (l : List Byte) (la : Nat) (h : Hw) (hp : h.pend = none) (ha : h.ackstat = false) (ack : Bool) :
    let x := wRun q (b :: c :: l) [.call [], .hw true, .call [], .call [false], .hw ack] (App.of la h)
    x.eot = false ∧ x.pos = 1 ∧ x.hw.bus = h.bus ++ [.start, .addr (sla q.a false) false, .tx b ack] := by
  simp [wRun, wStep, App.of, write, works, hp, ha, ask, go]

example : let x := wRun ⟨0x50⟩ [1, 2] (rounds (List.replicate 10 [])) (App.of 0 ⟨none, false, false, []⟩)
    x.pos = 2 ∧ x.hw.bus = [.start, .addr 0xa0 true, .tx 1 true, .tx 2 true, .stop] := by decide

/-- two messages, one right after the other: the second starts while the STOP of the first is to be sent -/
example : let x := wRun ⟨0x50⟩ [1] (rounds (List.replicate 10 [])) (App.of 0 ⟨none, false, false, []⟩)
    let y := wRun ⟨0x50⟩ [2] ([.call []] ++ rounds (List.replicate 9 [])) (App.of 0 ⟨some .stop, false, false, [.start, .addr 0xa0 true, .tx 1 true]⟩)
    y.pos = 1 ∧ y.hw.bus = x.hw.bus ++ [.start, .addr 0xa0 true, .tx 2 true, .stop] := by decide

end Pico.TwiPic
