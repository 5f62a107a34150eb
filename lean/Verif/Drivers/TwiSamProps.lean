import Verif.Drivers.TwiSam
/-
C116: the TWI master of the SAM3X.
-/
namespace Pico.TwiSam
open Pico.Twi

/-! ### Writing -/

/-- the frame of a message -/
def head (q : Par) : List Bus := [.start, .addr (sla q.a false) true]
def txs (l : List Byte) : List Bus := l.map (fun b => .tx b true)

theorem seen_write (q : Par) (l : List Byte) : seen q.a (.write l true true, .wrote) = head q ++ txs l ++ [.stop] := by simp [seen, head, txs]

/-- where the controller can be once p bytes of l were given to it -/
inductive K (q : Par) (l : List Byte) (base : List Bus) (p : Nat) (h : Hw) : Prop where
  | rest (hp : p = 0) (ph : h.ph = .idle) (thr : h.thr = none) (stop : h.stop = false) (bus : h.bus = base)
  | first (b : Byte) (hp : p = 1) (hb : l[0]? = some b) (ph : h.ph = .idle) (thr : h.thr = some b) (stop : h.stop = decide (p = l.length)) (bus : h.bus = base)
  | shift (k : Nat) (b : Byte) (hp : p = k + 1) (hb : l[k]? = some b) (ph : h.ph = .w) (thr : h.thr = some b) (stop : h.stop = decide (p = l.length))
      (bus : h.bus = base ++ head q ++ txs (l.take k))
  | held (hp : 0 < p) (ph : h.ph = .w) (thr : h.thr = none) (stop : h.stop = decide (p = l.length)) (bus : h.bus = base ++ head q ++ txs (l.take p))
  | over (hp : p = l.length) (pos : 0 < p) (ph : h.ph = .idle) (thr : h.thr = none) (stop : h.stop = false) (bus : h.bus = base ++ head q ++ txs l ++ [.stop])

/-- and the bits that do not change -/
structure Fix (h : Hw) : Prop where
  start : h.start = false
  nack : h.nack = false
  mread : h.mread = false

theorem go_K {q l base p h} (hl : p ≤ l.length) (hf : Fix h) (hk : K q l base p h) (d : Byte) : K q l base p (go q true d h) ∧ Fix (go q true d h) := by
  obtain ⟨f1, f2, f3⟩ := hf
  cases hk with
  | rest hp ph thr stop bus =>
    have : go q true d h = h := by simp [go, ph, f3, thr]
    rw [this]; exact ⟨.rest hp ph thr stop bus, f1, f2, f3⟩
  | first b hp hb ph thr stop bus =>
    have : go q true d h = { h with ph := .w, bus := h.bus ++ [.start, .addr (sla q.a false) true] } := by simp [go, ph, f3, thr]
    rw [this]
    exact ⟨.shift 0 b hp hb rfl thr stop (by simp [bus, head, txs]), f1, f2, f3⟩
  | shift k b hp hb ph thr stop bus =>
    have : go q true d h = { h with thr := none, bus := h.bus ++ [.tx b true] } := by simp [go, ph, thr]
    rw [this]
    refine ⟨.held (by omega) ph rfl stop ?_, f1, f2, f3⟩
    show h.bus ++ [.tx b true] = _
    rw [bus, hp, List.take_add_one, hb]
    simp [txs]
  | held hp ph thr stop bus =>
    by_cases c : p = l.length
    · have : go q true d h = { h with ph := .idle, stop := false, bus := h.bus ++ [.stop] } := by simp [go, ph, thr, stop, c]
      rw [this]
      refine ⟨.over c hp rfl thr rfl ?_, f1, f2, f3⟩
      show h.bus ++ [.stop] = _
      rw [bus, c, List.take_length]
    · have : go q true d h = h := by simp [go, ph, thr, stop, c]
      rw [this]; exact ⟨.held hp ph thr stop bus, f1, f2, f3⟩
  | over hp pos ph thr stop bus =>
    have : go q true d h = h := by simp [go, ph, f3, thr]
    rw [this]; exact ⟨.over hp pos ph thr stop bus, f1, f2, f3⟩

theorem works_K {q l base p} (hl : p ≤ l.length) (es : List (Bool × Byte)) (he : ∀ e ∈ es, e.1 = true) : ∀ {h : Hw}, Fix h → K q l base p h →
    K q l base p (works q es h) ∧ Fix (works q es h) := by
  induction es with
  | nil => intro h hf hk; exact ⟨hk, hf⟩
  | cons e es ih =>
    intro h hf hk
    have e1 := he e (by simp)
    have := go_K hl hf hk e.2
    show K q l base p (works q es (go q e.1 e.2 h)) ∧ Fix (works q es (go q e.1 e.2 h))
    rw [e1]
    exact ih (fun e h => he e (by simp [h])) this.2 this.1

theorem sr_id {h : Hw} (hf : Fix h) : sr h = h := by
  obtain ⟨a, b, c, d, e, f, g, i⟩ := h
  have := hf.nack
  simp only at this
  subst this
  rfl

/-- a byte is given to a controller that has room -/
theorem push_K {q l base p} {h : Hw} (hs : q.latch = true ∨ 2 ≤ l.length) (b : Byte) (hb : l[p]? = some b) (ht : h.thr = none) (hf : Fix h) (hk : K q l base p h) :
    K q l base (p + 1) { cr q false (decide (p + 1 = l.length)) h with thr := some b } ∧ Fix { cr q false (decide (p + 1 = l.length)) h with thr := some b } := by
  have hlt : p < l.length := by
    rcases Nat.lt_or_ge p l.length with c | c
    · exact c
    · rw [List.getElem?_eq_none c] at hb; cases hb
  obtain ⟨f1, f2, f3⟩ := hf
  have fix : Fix { cr q false (decide (p + 1 = l.length)) h with thr := some b } := ⟨by simp [cr, f1], by simp [cr, f2], by simp [cr, f3]⟩
  refine ⟨?_, fix⟩
  cases hk with
  | rest hp ph thr stop bus =>
    subst hp
    refine .first b rfl hb (by simp [cr, ph]) rfl ?_ (by simp [cr, bus])
    by_cases c : 1 = l.length
    · have : q.latch = true := by rcases hs with h | h
                                  · exact h
                                  · omega
      simp [cr, ph, f1, stop, ← c, this]
    · simp [cr, stop, c]
  | first b' hp hb' ph thr stop bus => rw [ht] at thr; cases thr
  | shift k b' hp hb' ph thr stop bus => rw [ht] at thr; cases thr
  | held hp ph thr stop bus =>
    refine .shift p b rfl hb (by simp [cr, ph]) rfl ?_ (by simp [cr, bus])
    have c : p ≠ l.length := by omega
    by_cases c2 : p + 1 = l.length <;> simp [cr, ph, stop, c, c2]
  | over hp pos ph thr stop bus => omega

theorem wLoop_K {q l base} (hs : q.latch = true ∨ 2 ≤ l.length) {k : Wk} (hg : k.good) : ∀ (rest : List Byte) (sent p : Nat) (h : Hw), rest = l.drop p → p ≤ l.length → (rest = [] → p = l.length ∧ 0 < sent) →
    Fix h → K q l base p h →
    ∃ j, j ≤ l.length - p ∧ (wLoop q rest sent k h).2.2 = rSent (sent + j) ∧ Fix (wLoop q rest sent k h).2.1 ∧ K q l base (p + j) (wLoop q rest sent k h).2.1 ∧
      (wLoop q rest sent k h).1 = if p + j = l.length then .idle else .xfer := by
  intro rest
  induction rest with
  | nil =>
    intro sent p h hr hp h0 hf hk
    obtain ⟨h1, _⟩ := h0 rfl
    refine ⟨0, Nat.zero_le _, rfl, hf, hk, ?_⟩
    simp [wLoop, h1]
  | cons b rest ih =>
    intro sent p h hr hp _ hf hk
    have hlt : p < l.length := by
      rcases Nat.lt_or_ge p l.length with c | c
      · exact c
      · rw [List.drop_eq_nil_of_le c] at hr; cases hr
    have hb : l[p]? = some b := by
      have := congrArg (fun x => x[0]?) hr
      simp only [List.getElem?_cons_zero, List.getElem?_drop, Nat.add_zero] at this
      exact this.symm
    have hr2 : rest = l.drop (p + 1) := by
      have := congrArg (fun x => x.drop 1) hr
      simp only [List.drop_drop] at this
      simpa using this
    obtain ⟨ga, gb, gc⟩ := hg sent
    obtain ⟨k1, f1⟩ := works_K hp (k.a sent) ga hf hk
    have e0 : (works q (k.a sent) h).nack = false := f1.nack
    obtain ⟨k2, f2⟩ := works_K hp (k.b sent) gb f1 k1
    have eL : wLoop q (b :: rest) sent k h =
        if (works q (k.b sent) (works q (k.a sent) h)).thr.isSome then (.xfer, works q (k.b sent) (works q (k.a sent) h), rSent sent)
        else wLoop q rest (sent + 1) k { cr q false rest.isEmpty (works q (k.b sent) (works q (k.a sent) h)) with thr := some b } := by
      rw [wLoop]
      simp only [e0, gc, sr_id f1, sr_id f2]
      rfl
    rw [eL]
    by_cases c : (works q (k.b sent) (works q (k.a sent) h)).thr.isSome
    · rw [if_pos c]
      refine ⟨0, Nat.zero_le _, rfl, f2, k2, ?_⟩
      simp [Nat.ne_of_lt hlt]
    · rw [if_neg c]
      have ht : (works q (k.b sent) (works q (k.a sent) h)).thr = none := by simpa using c
      have hse : rest.isEmpty = decide (p + 1 = l.length) := by
        rw [hr2, Bool.eq_iff_iff, List.isEmpty_iff, decide_eq_true_eq, List.drop_eq_nil_iff]
        omega
      rw [hse]
      obtain ⟨k3, f3⟩ := push_K hs b hb ht f2 k2
      obtain ⟨j, hj, r1, r2, r3, r4⟩ := ih (sent + 1) (p + 1) _ hr2 (by omega) (fun h0 => ⟨by rw [h0] at hse; simpa using hse.symm, by omega⟩) f3 k3
      refine ⟨j + 1, by omega, ?_, r2, ?_, ?_⟩
      · rw [r1]; congr 1; omega
      · rw [show p + (j + 1) = p + 1 + j by omega]; exact r3
      · rw [r4]; congr 1
        rw [show p + (j + 1) = p + 1 + j by omega]

/-- the task and the controller -/
structure Inv (q : Par) (l : List Byte) (base : List Bus) (x : App) : Prop where
  le : x.pos ≤ l.length
  start : x.hw.start = false
  nack : x.hw.nack = false
  k : K q l base x.pos x.hw
  st : (x.st = .idle ∧ (x.pos = 0 ∨ x.pos = l.length)) ∨ (x.st = .xfer ∧ x.hw.mread = false ∧ x.pos < l.length)
  mr : x.pos ≠ 0 → x.hw.mread = false

theorem step_inv {q l base x} (hl : l ≠ []) (hs : q.latch = true ∨ 2 ≤ l.length) (h : Inv q l base x) (e : Ev) (he : e.good) : Inv q l base (wStep q l x e) := by
  have hlen : 0 < l.length := List.length_pos_iff.2 hl
  cases e with
  | hw ack d =>
    have he : ack = true := he
    subst he
    by_cases hm : x.hw.mread = false
    · obtain ⟨k1, f1⟩ := go_K h.le ⟨h.start, h.nack, hm⟩ h.k d
      exact ⟨h.le, f1.start, f1.nack, k1, by rcases h.st with h | h
                                             · exact .inl h
                                             · exact .inr ⟨h.1, f1.mread, h.2.2⟩, fun _ => f1.mread⟩
    · have hp : x.pos = 0 := by
        rcases Nat.eq_zero_or_pos x.pos with c | c
        · exact c
        · exact absurd (h.mr (by omega)) hm
      have hid : go q true d x.hw = x.hw := by
        have hk := h.k
        cases hk with
        | rest _ ph thr stop bus => simp [go, ph, h.start, thr]
        | first b hp' => omega
        | shift k b hp' => omega
        | held hp' => omega
        | over hp' pos => omega
      have : wStep q l x (.hw true d) = x := by
        obtain ⟨a, b, c, d⟩ := x
        simp only at hid
        simp [wStep, hid]
      rw [this]; exact h
  | call k =>
    have he : k.good := he
    simp only [wStep]
    by_cases hp : x.pos ≥ l.length
    · rw [if_pos hp]; exact h
    · rw [if_neg hp]
      rcases h.st with ⟨s1, s2⟩ | ⟨s1, s2, s3⟩
      · have hp0 : x.pos = 0 := by omega
        have hk := h.k
        rw [hp0] at hk
        have hr : x.hw.ph = .idle ∧ x.hw.thr = none ∧ x.hw.stop = false ∧ x.hw.bus = base := by
          cases hk with
          | rest _ ph thr stop bus => exact ⟨ph, thr, stop, bus⟩
          | first b hp' => omega
          | shift k b hp' => omega
          | held hp' => omega
          | over hp' pos => omega
        obtain ⟨r1, r2, r3, r4⟩ := hr
        have ht : txcomp x.hw = true := by simp [txcomp, r1, r2, h.start]
        have : write q (l.drop x.pos) k x.st x.hw = (.xfer, { sr x.hw with mread := false }, .again) := by simp [write, s1, wIdle, ht]
        rw [this]
        refine ⟨h.le, h.start, rfl, ?_, .inr ⟨rfl, rfl, by show x.pos < l.length; omega⟩, fun _ => rfl⟩
        exact .rest hp0 r1 r2 r3 r4
      · have hw : write q (l.drop x.pos) k x.st x.hw = wLoop q (l.drop x.pos) 0 k x.hw := by simp [write, s1]
        rw [hw]
        obtain ⟨j, hj, e1, e2, e3, e4⟩ := wLoop_K (base := base) hs he (l.drop x.pos) 0 x.pos x.hw rfl h.le (fun h0 => by rw [List.drop_eq_nil_iff] at h0; omega) ⟨h.start, h.nack, s2⟩ h.k
        generalize hg : wLoop q (l.drop x.pos) 0 k x.hw = res at e1 e2 e3 e4
        obtain ⟨rs, rh, rr⟩ := res
        simp only at e1 e2 e3 e4
        have es : (rs = .idle ∧ (x.pos + j = 0 ∨ x.pos + j = l.length)) ∨ (rs = .xfer ∧ rh.mread = false ∧ x.pos + j < l.length) := by
          by_cases c : x.pos + j = l.length
          · rw [if_pos c] at e4; exact .inl ⟨e4, .inr c⟩
          · rw [if_neg c] at e4; exact .inr ⟨e4, e2.mread, by omega⟩
        rw [Nat.zero_add] at e1
        by_cases c : j = 0
        · subst c
          have : rr = .again := e1
          subst this
          exact ⟨h.le, e2.start, e2.nack, e3, es, fun _ => e2.mread⟩
        · have : rr = .sent j := by rw [e1, rSent, if_neg c]
          subst this
          exact ⟨by show x.pos + j ≤ l.length; omega, e2.start, e2.nack, e3, es, fun _ => e2.mread⟩

theorem run_inv {q l base} (hl : l ≠ []) (hs : q.latch = true ∨ 2 ≤ l.length) (evs : List Ev) : ∀ {x : App}, Inv q l base x → (∀ e ∈ evs, e.good) → Inv q l base (wRun q l evs x) := by
  induction evs with
  | nil => intro x h _; exact h
  | cons e evs ih => intro x h he; exact ih (step_inv hl hs h e (he e (by simp))) (fun e h => he e (by simp [h]))

/-- before the first call -/
def App.of (h : Hw) : App := ⟨.idle, h, 0, []⟩

theorem of_inv {q l} {h : Hw} (hq : Quiet h) : Inv q l h.bus (App.of h) :=
  ⟨Nat.zero_le _, hq.start, hq.nack, .rest rfl hq.ph hq.thr hq.stop rfl, .inl ⟨rfl, .inl rfl⟩, fun h => absurd rfl h⟩

/-- **C116** partial: a task calls twi_write until it has been told that all bytes of l are written, from a controller at rest, with a slave that takes them: whatever the schedule of its
calls and of the bus, the bus shows a beginning of the frame asked for; once the task has been told so and the controller is at rest again, all of it, once. Not covered: the
controller works between the writes of TWI_CR and TWI_THR, bytes that are not taken, STOP asked for at rest by an earlier message, one byte if a STOP at rest is ignored: all false -/
theorem twi_write_partial (q : Par) (l : List Byte) (hl : l ≠ []) (hs : q.latch = true ∨ 2 ≤ l.length) (h : Hw) (hq : Quiet h) (evs : List Ev) (he : ∀ e ∈ evs, e.good) :
    (∃ t, (wRun q l evs (App.of h)).hw.bus ++ t = h.bus ++ seen q.a (.write l true true, .wrote)) ∧
    (wRun q l evs (App.of h)).pos ≤ l.length ∧
    ((wRun q l evs (App.of h)).pos = l.length → txcomp (wRun q l evs (App.of h)).hw = true →
      (wRun q l evs (App.of h)).hw.bus = h.bus ++ seen q.a (.write l true true, .wrote) ∧ (wRun q l evs (App.of h)).hw.stop = false) := by
  have hi := run_inv hl hs evs (of_inv (q := q) (l := l) hq) he
  have hlen : 0 < l.length := List.length_pos_iff.2 hl
  generalize wRun q l evs (App.of h) = x at hi
  refine ⟨?_, hi.le, ?_⟩
  · rw [seen_write]
    have hk := hi.k
    cases hk with
    | rest _ ph thr stop bus => exact ⟨_, by rw [bus]⟩
    | first b hp hb ph thr stop bus => exact ⟨_, by rw [bus]⟩
    | shift k b hp hb ph thr stop bus =>
      refine ⟨txs (l.drop k) ++ [.stop], ?_⟩
      rw [bus]
      have : txs l = txs (l.take k) ++ txs (l.drop k) := by simp only [txs, ← List.map_append, List.take_append_drop]
      rw [this]; simp
    | held hp ph thr stop bus =>
      refine ⟨txs (l.drop x.pos) ++ [.stop], ?_⟩
      rw [bus]
      have : txs l = txs (l.take x.pos) ++ txs (l.drop x.pos) := by simp only [txs, ← List.map_append, List.take_append_drop]
      rw [this]; simp
    | over hp pos ph thr stop bus => exact ⟨[], by rw [bus]; simp⟩
  · intro hp ht
    have hk := hi.k
    cases hk with
    | rest hp' ph thr stop bus => omega
    | first b hp' hb ph thr stop bus => simp [txcomp, thr] at ht
    | shift k b hp' hb ph thr stop bus => simp [txcomp, thr] at ht
    | held hp' ph thr stop bus => simp [txcomp, ph] at ht
    | over hp' pos ph thr stop bus => exact ⟨by rw [bus, seen_write]; simp, stop⟩

end Pico.TwiSam
