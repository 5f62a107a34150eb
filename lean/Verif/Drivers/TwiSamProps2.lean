import Verif.Drivers.TwiSamProps
/-
C116: a read of one byte, and what fails.
-/
namespace Pico.TwiSam
open Pico.Twi

/-! ### Every write ends -/

/-- what is left to do -/
def todo (l : List Byte) (x : App) : Nat :=
  2 * (l.length - x.pos) + (if x.st = .idle then 1 else 0) + (match x.hw.ph, x.hw.thr with | .idle, none => if x.pos = 0 then 3 else 0 | .idle, some _ => 3 | _, some _ => 2 | _, none => 1)

def rounds : Nat → List Ev
  | 0 => []
  | n + 1 => .call .none :: .hw true 0 :: rounds n

theorem none_good : Wk.none.good := fun _ => ⟨by simp [Wk.none], by simp [Wk.none], rfl⟩

theorem rounds_good (n : Nat) : ∀ e ∈ rounds n, e.good := by
  induction n with
  | zero => simp [rounds]
  | succ n ih =>
    intro e he
    rcases List.mem_cons.1 he with rfl | he
    · exact none_good
    · rcases List.mem_cons.1 he with rfl | he
      · rfl
      · exact ih e he

theorem hw_todo {q l base x} (h : Inv q l base x) (hp : 0 < x.pos) (ht : ¬ (x.pos < l.length ∧ x.hw.ph = .w ∧ x.hw.thr = none)) (hd : ¬ (x.pos = l.length ∧ txcomp x.hw = true)) :
    todo l (wStep q l x (.hw true 0)) < todo l x := by
  have hm := h.mr (by omega)
  have hle := h.le
  have hk := h.k
  show todo l { x with hw := go q true 0 x.hw } < _
  cases hk with
  | rest hp' => omega
  | first b hp' hb ph thr stop bus => simp [todo, go, ph, thr, hm]
  | shift k b hp' hb ph thr stop bus => simp [todo, go, ph, thr]
  | held hp' ph thr stop bus =>
    have c : x.pos = l.length := by
      rcases Nat.lt_or_ge x.pos l.length with c | c
      · exact absurd ⟨c, ph, thr⟩ ht
      · omega
    have : x.pos ≠ 0 := by omega
    simp [todo, go, ph, thr, stop, c] at this ⊢
    simp [this]
  | over hp' pos ph thr stop bus => exact absurd ⟨hp', by simp [txcomp, ph, thr, h.start]⟩ hd

theorem hw_todo_le {q l base x} (h : Inv q l base x) : todo l (wStep q l x (.hw true 0)) ≤ todo l x := by
  by_cases hp : 0 < x.pos
  · by_cases ht : x.pos < l.length ∧ x.hw.ph = .w ∧ x.hw.thr = none
    · have hk := h.k
      show todo l { x with hw := go q true 0 x.hw } ≤ _
      have hs : x.hw.stop = false := by
        obtain ⟨a, b, c⟩ := ht
        cases hk with
        | rest hp' => omega
        | first b hp' hb ph thr stop bus => rw [c] at thr; cases thr
        | shift k b hp' hb ph thr stop bus => rw [c] at thr; cases thr
        | held hp' ph thr stop bus => rw [stop]; simp; omega
        | over hp' pos ph thr stop bus => exact stop
      simp [go, ht.2.1, ht.2.2, hs]
    · by_cases hd : x.pos = l.length ∧ txcomp x.hw = true
      · have hd2 := hd.2
        simp only [txcomp, Bool.and_eq_true, decide_eq_true_eq, Option.isNone_iff_eq_none] at hd2
        have : go q true 0 x.hw = x.hw := by simp [go, hd2.1.1, hd2.1.2, h.mr (by omega)]
        show todo l { x with hw := go q true 0 x.hw } ≤ _
        rw [this]; exact Nat.le_refl _
      · exact Nat.le_of_lt (hw_todo h hp ht hd)
  · have hp0 : x.pos = 0 := by omega
    have hk := h.k
    show todo l { x with hw := go q true 0 x.hw } ≤ _
    cases hk with
    | rest hp' ph thr stop bus =>
      have : go q true 0 x.hw = x.hw := by simp [go, ph, thr, h.start]
      rw [this]; exact Nat.le_refl _
    | first b hp' => omega
    | shift k b hp' => omega
    | held hp' => omega
    | over hp' pos => omega

/-- a call that has room gives at least a byte -/
theorem wLoop_room (q : Par) (b : Byte) (rest : List Byte) (h : Hw) (hn : h.nack = false) (ht : h.thr = none) :
    wLoop q (b :: rest) 0 .none h = wLoop q rest 1 .none { cr q false rest.isEmpty (sr h) with thr := some b } := by
  rw [wLoop]
  simp [works, Wk.none, hn, sr, ht]

/-- once the register is full the loop stops -/
theorem wLoop_full (q : Par) (rest : List Byte) (s : Nat) (h : Hw) (b : Byte) (hn : h.nack = false) (ht : h.thr = some b) :
    wLoop q rest s .none h = (if rest.isEmpty then .idle else .xfer, h, rSent s) := by
  cases rest with
  | nil => rfl
  | cons c r =>
    rw [wLoop]
    have : sr h = h := by
      obtain ⟨a, b, c, d, e, f, g, i⟩ := h
      simp only at hn
      subst hn; rfl
    simp [works, Wk.none, hn, this, ht]

theorem call_eq {q l base x} (h : Inv q l base x) (hp : x.pos < l.length) :
    (x.st = .idle ∧ (wStep q l x (.call .none)).pos = x.pos ∧ (wStep q l x (.call .none)).st = .xfer ∧ (wStep q l x (.call .none)).hw.ph = x.hw.ph ∧ (wStep q l x (.call .none)).hw.thr = x.hw.thr) ∨
    (x.st = .xfer ∧ x.hw.thr ≠ none ∧ wStep q l x (.call .none) = x) ∨
    (x.st = .xfer ∧ x.hw.thr = none ∧ (wStep q l x (.call .none)).pos = x.pos + 1 ∧ (wStep q l x (.call .none)).hw.ph = x.hw.ph ∧ (wStep q l x (.call .none)).hw.thr ≠ none ∧
      (wStep q l x (.call .none)).st = if x.pos + 1 = l.length then .idle else .xfer) := by
  rcases h.st with ⟨s1, s2⟩ | ⟨s1, s2, s3⟩
  · left
    have hp0 : x.pos = 0 := by omega
    have hk := h.k
    have hr : x.hw.ph = .idle ∧ x.hw.thr = none := by
      cases hk with
      | rest _ ph thr stop bus => exact ⟨ph, thr⟩
      | first b hp' => omega
      | shift k b hp' => omega
      | held hp' => omega
      | over hp' pos => omega
    have ht : txcomp x.hw = true := by simp [txcomp, hr.1, hr.2, h.start]
    have hn : ¬ x.pos ≥ l.length := by omega
    simp only [wStep, if_neg hn, write, s1, wIdle, ht]
    simp [sr]
  · right
    have hn : ¬ x.pos ≥ l.length := by omega
    obtain ⟨b, rest, hr⟩ : ∃ b rest, l.drop x.pos = b :: rest := by
      cases hd : l.drop x.pos with
      | nil => rw [List.drop_eq_nil_iff] at hd; omega
      | cons b r => exact ⟨b, r, rfl⟩
    by_cases ht : x.hw.thr = none
    · right
      have e1 : (rest.isEmpty = true) ↔ x.pos + 1 = l.length := by
        have := congrArg List.length hr
        simp only [List.length_drop, List.length_cons] at this
        rw [List.isEmpty_iff_length_eq_zero]
        omega
      have hw : write q (l.drop x.pos) .none x.st x.hw = (if rest.isEmpty then .idle else .xfer, { cr q false rest.isEmpty (sr x.hw) with thr := some b }, .sent 1) := by
        show (match x.st with | .idle => wIdle x.hw | .xfer => wLoop q (l.drop x.pos) 0 .none x.hw) = _
        rw [s1, hr]
        simp only []
        rw [wLoop_room q b rest _ h.nack ht, wLoop_full q rest 1 _ b rfl rfl]
        rfl
      have e9 : wStep q l x (.call .none) =
          { x with st := if rest.isEmpty then .idle else .xfer, hw := { cr q false rest.isEmpty (sr x.hw) with thr := some b }, pos := x.pos + 1 } := by
        simp only [wStep, if_neg hn, hw]
      rw [e9]
      refine ⟨s1, ht, rfl, rfl, by simp, ?_⟩
      show (if rest.isEmpty then State.idle else .xfer) = _
      by_cases c : x.pos + 1 = l.length
      · rw [if_pos c, if_pos (e1.2 c)]
      · rw [if_neg c, if_neg (fun g => c (e1.1 g))]
    · left
      obtain ⟨b', hb⟩ := Option.ne_none_iff_exists'.1 ht
      have hw : write q (l.drop x.pos) .none x.st x.hw = (.xfer, x.hw, .again) := by
        show (match x.st with | .idle => wIdle x.hw | .xfer => wLoop q (l.drop x.pos) 0 .none x.hw) = _
        rw [s1, hr]
        simp only []
        rw [wLoop_full q (b :: rest) 0 _ b' h.nack hb]
        rfl
      refine ⟨s1, ht, ?_⟩
      simp only [wStep, if_neg hn, hw, ← s1]

/-- a round makes progress -/
theorem round_todo {q l base x} (hl : l ≠ []) (hs : q.latch = true ∨ 2 ≤ l.length) (h : Inv q l base x) (hd : ¬ (x.pos = l.length ∧ txcomp x.hw = true)) :
    todo l (wStep q l (wStep q l x (.call .none)) (.hw true 0)) < todo l x := by
  have hlen : 0 < l.length := List.length_pos_iff.2 hl
  have hle := h.le
  by_cases hp : x.pos < l.length
  · have hi := step_inv hl hs h (.call .none) none_good
    have hl2 := hw_todo_le hi
    rcases call_eq h hp with ⟨a, b, c, d, e⟩ | ⟨a, b, c⟩ | ⟨a, b, c, d, e, f⟩
    · have : todo l (wStep q l x (.call .none)) < todo l x := by simp [todo, a, b, c, d, e]
      omega
    · rw [c]
      have hk := h.k
      refine hw_todo h ?_ (fun g => b g.2.2) hd
      cases hk with
      | rest _ ph thr stop bus => exact absurd thr b
      | first b hp' => omega
      | shift k b hp' => omega
      | held hp' => omega
      | over hp' pos => omega
    · -- a byte was given: the controller then moves
      have hph : x.hw.ph = .idle ∧ x.pos = 0 ∨ x.hw.ph = .w ∧ 0 < x.pos := by
        have hk := h.k
        cases hk with
        | rest h0 ph thr stop bus => exact .inl ⟨ph, h0⟩
        | first b' hp' hb ph thr stop bus => rw [b] at thr; cases thr
        | shift k b' hp' hb ph thr stop bus => rw [b] at thr; cases thr
        | held hp' ph thr stop bus => exact .inr ⟨ph, hp'⟩
        | over hp' pos => omega
      obtain ⟨tb, htb⟩ := Option.ne_none_iff_exists'.1 e
      have h1 : todo l (wStep q l x (.call .none)) ≤ todo l x := by
        simp only [todo, a, b, c, d, htb, f]
        rcases hph with ⟨g1, g2⟩ | ⟨g1, g2⟩
        · simp only [g1, g2]; split <;> simp <;> omega
        · simp only [g1]; split <;> simp <;> omega
      have h2 := hw_todo hi (by rw [c]; omega) (fun g => e g.2.2) (by
        rintro ⟨_, g⟩
        simp [txcomp, htb] at g)
      omega
  · have hpe : x.pos = l.length := by omega
    have : wStep q l x (.call .none) = x := by simp only [wStep]; rw [if_pos (by omega)]
    rw [this]
    exact hw_todo h (by omega) (fun g => by omega) hd

theorem done_stays {q l base x} (h : Inv q l base x) (hd : x.pos = l.length ∧ txcomp x.hw = true) (hl : l ≠ []) (n : Nat) : wRun q l (rounds n) x = x := by
  have hlen : 0 < l.length := List.length_pos_iff.2 hl
  induction n with
  | zero => rfl
  | succ n ih =>
    have h1 : wStep q l x (.call .none) = x := by simp only [wStep]; rw [if_pos (by omega)]
    have hd2 := hd.2
    simp only [txcomp, Bool.and_eq_true, decide_eq_true_eq, Option.isNone_iff_eq_none] at hd2
    have h2 : wStep q l x (.hw true 0) = x := by
      have : go q true 0 x.hw = x.hw := by simp [go, hd2.1.1, hd2.1.2, h.mr (by omega)]
      show { x with hw := go q true 0 x.hw } = x
      rw [this]
    show wRun q l (rounds n) (wStep q l (wStep q l x (.call .none)) (.hw true 0)) = x
    rw [h1, h2, ih]

theorem rounds_end {q l base} (hl : l ≠ []) (hs : q.latch = true ∨ 2 ≤ l.length) (n : Nat) : ∀ {x : App}, Inv q l base x → todo l x ≤ n →
    (wRun q l (rounds n) x).pos = l.length ∧ txcomp (wRun q l (rounds n) x).hw = true := by
  induction n with
  | zero =>
    intro x h hn
    by_cases hd : x.pos = l.length ∧ txcomp x.hw = true
    · exact hd
    · have := round_todo hl hs h hd; omega
  | succ n ih =>
    intro x h hn
    by_cases hd : x.pos = l.length ∧ txcomp x.hw = true
    · rw [done_stays h hd hl]; exact hd
    · have h1 := round_todo hl hs h hd
      show (wRun q l (rounds n) (wStep q l (wStep q l x (.call .none)) (.hw true 0))).pos = _ ∧ _
      exact ih (step_inv hl hs (step_inv hl hs h (.call .none) none_good) (.hw true 0) rfl) (by omega)

/-- **C116** partial: and it ends: after any beginning, 2 n + 4 calls, with a step of the bus after each, are enough to write n bytes and be at rest -/
theorem twi_write_ends_partial (q : Par) (l : List Byte) (hl : l ≠ []) (hs : q.latch = true ∨ 2 ≤ l.length) (h : Hw) (hq : Quiet h) (evs : List Ev) (he : ∀ e ∈ evs, e.good) :
    (wRun q l (evs ++ rounds (2 * l.length + 4)) (App.of h)).pos = l.length ∧
    (wRun q l (evs ++ rounds (2 * l.length + 4)) (App.of h)).hw.bus = h.bus ++ seen q.a (.write l true true, .wrote) := by
  have hi := run_inv hl hs evs (of_inv (q := q) (l := l) hq) he
  have hb : todo l (wRun q l evs (App.of h)) ≤ 2 * l.length + 4 := by
    unfold todo
    split <;> split <;> (try split) <;> omega
  have h1 := rounds_end hl hs _ hi hb
  have e1 : wRun q l (evs ++ rounds (2 * l.length + 4)) (App.of h) = wRun q l (rounds (2 * l.length + 4)) (wRun q l evs (App.of h)) := by simp [wRun, List.foldl_append]
  rw [e1]
  refine ⟨h1.1, ?_⟩
  have h2 := twi_write_partial q l hl hs h hq (evs ++ rounds (2 * l.length + 4)) (by
    intro e he'
    rcases List.mem_append.1 he' with g | g
    · exact he e g
    · exact rounds_good _ e g)
  rw [e1] at h2
  exact (h2.2.2 h1.1 h1.2).1

/-! ### Reading one byte -/

/-- the phases of a read of one byte -/
inductive One (q : Par) (base : List Bus) (x : App) : Prop where
  | rest (st : x.st = .idle) (buf : x.buf = []) (hq : Quiet x.hw) (bus : x.hw.bus = base)
  | asked (st : x.st = .xfer) (buf : x.buf = []) (ph : x.hw.ph = .idle) (mr : x.hw.mread = true) (sa : x.hw.start = true) (so : x.hw.stop = true) (rh : x.hw.rhr = none) (na : x.hw.nack = false) (bus : x.hw.bus = base)
  | reading (st : x.st = .xfer) (buf : x.buf = []) (ph : x.hw.ph = .r) (mr : x.hw.mread = true) (sa : x.hw.start = false) (so : x.hw.stop = true) (rh : x.hw.rhr = none) (na : x.hw.nack = false)
      (bus : x.hw.bus = base ++ [.start, .addr (sla q.a true) true])
  | there (d : Byte) (st : x.st = .xfer) (buf : x.buf = []) (ph : x.hw.ph = .idle) (mr : x.hw.mread = true) (sa : x.hw.start = false) (so : x.hw.stop = false) (rh : x.hw.rhr = some d) (na : x.hw.nack = false)
      (bus : x.hw.bus = base ++ seen q.a (.read 1 true true, .got [d]))
  | over (d : Byte) (st : x.st = .idle) (buf : x.buf = [d]) (ph : x.hw.ph = .idle) (mr : x.hw.mread = true) (sa : x.hw.start = false) (so : x.hw.stop = q.latch) (rh : x.hw.rhr = none) (na : x.hw.nack = false) (thr : True)
      (bus : x.hw.bus = base ++ seen q.a (.read 1 true true, .got [d]))

/-- what a step of the bus keeps: the phases in terms of the controller only -/
inductive Hone (q : Par) (base : List Bus) (h : Hw) : Prop where
  | asked (ph : h.ph = .idle) (mr : h.mread = true) (sa : h.start = true) (so : h.stop = true) (rh : h.rhr = none) (na : h.nack = false) (bus : h.bus = base)
  | reading (ph : h.ph = .r) (mr : h.mread = true) (sa : h.start = false) (so : h.stop = true) (rh : h.rhr = none) (na : h.nack = false) (bus : h.bus = base ++ [.start, .addr (sla q.a true) true])
  | there (d : Byte) (ph : h.ph = .idle) (mr : h.mread = true) (sa : h.start = false) (so : h.stop = false) (rh : h.rhr = some d) (na : h.nack = false)
      (bus : h.bus = base ++ seen q.a (.read 1 true true, .got [d]))

theorem Hone.go {q base h} (hh : Hone q base h) (d : Byte) : Hone q base (go q true d h) := by
  cases hh with
  | asked ph mr sa so rh na bus =>
    have : TwiSam.go q true d h = { h with ph := .r, start := false, bus := h.bus ++ [.start, .addr (sla q.a true) true] } := by simp [TwiSam.go, ph, mr, sa]
    rw [this]; exact .reading rfl mr rfl so rh na (by simp [bus])
  | reading ph mr sa so rh na bus =>
    have : TwiSam.go q true d h = { h with ph := .idle, stop := false, rhr := some d, bus := h.bus ++ [.rx d false, .stop] } := by simp [TwiSam.go, ph, so]
    rw [this]; exact .there d rfl mr sa rfl rfl na (by simp [bus, seen, rxs])
  | there d' ph mr sa so rh na bus =>
    have : TwiSam.go q true d h = h := by simp [TwiSam.go, ph, mr, sa]
    rw [this]; exact .there d' ph mr sa so rh na bus

theorem Hone.works {q base} (es : List (Bool × Byte)) (he : ∀ e ∈ es, e.1 = true) : ∀ {h : Hw}, Hone q base h → Hone q base (works q es h) := by
  induction es with
  | nil => intro h hh; exact hh
  | cons e es ih =>
    intro h hh
    have e1 := he e (by simp)
    show Hone q base (TwiSam.works q es (TwiSam.go q e.1 e.2 h))
    rw [e1]; exact ih (fun e h => he e (by simp [h])) (hh.go e.2)

theorem Hone.nack {q base h} (hh : Hone q base h) : h.nack = false := by
  cases hh with
  | asked _ _ _ _ _ na _ => exact na
  | reading _ _ _ _ _ na _ => exact na
  | there _ _ _ _ _ _ na _ => exact na

theorem sr_nack {h : Hw} (hn : h.nack = false) : sr h = h := by
  obtain ⟨a, b, c, d, e, f, g, i⟩ := h
  simp only at hn
  subst hn; rfl

theorem works_rest {q : Par} (es : List (Bool × Byte)) : ∀ {h : Hw}, h.ph = .idle → h.mread = true → h.start = false → works q es h = h := by
  induction es with
  | nil => intro h _ _ _; rfl
  | cons e es ih =>
    intro h a b c
    have : go q e.1 e.2 h = h := by simp [go, a, b, c]
    show works q es (go q e.1 e.2 h) = h
    rw [this]; exact ih a b c

/-- the slave answers -/
def Ev.acks : Ev → Prop
  | .hw ack _ => ack = true
  | .call k => ∀ i, (∀ e ∈ k.a i, e.1 = true) ∧ (∀ e ∈ k.b i, e.1 = true)

theorem one_step {q base x} (h : One q base x) (e : Ev) (he : e.acks) : One q base (rStep q 1 x e) := by
  have hone : ∀ {x : App}, x.st = .xfer → x.buf = [] → Hone q base x.hw → One q base x := by
    intro x a b c
    cases c with
    | asked ph mr sa so rh na bus => exact .asked a b ph mr sa so rh na bus
    | reading ph mr sa so rh na bus => exact .reading a b ph mr sa so rh na bus
    | there d ph mr sa so rh na bus => exact .there d a b ph mr sa so rh na bus
  have key : (x.st = .xfer ∧ x.buf = [] ∧ Hone q base x.hw) ∨ (x.st = .idle ∧ x.buf = [] ∧ Quiet x.hw ∧ x.hw.bus = base) ∨
      (∃ d, x.buf = [d] ∧ x.hw.ph = .idle ∧ x.hw.mread = true ∧ x.hw.start = false) := by
    cases h with
    | rest st buf hq bus => exact .inr (.inl ⟨st, buf, hq, bus⟩)
    | asked st buf ph mr sa so rh na bus => exact .inl ⟨st, buf, .asked ph mr sa so rh na bus⟩
    | reading st buf ph mr sa so rh na bus => exact .inl ⟨st, buf, .reading ph mr sa so rh na bus⟩
    | there d st buf ph mr sa so rh na bus => exact .inl ⟨st, buf, .there d ph mr sa so rh na bus⟩
    | over d st buf ph mr sa so rh na thr bus => exact .inr (.inr ⟨d, buf, ph, mr, sa⟩)
  cases e with
  | hw ack d =>
    have he : ack = true := he
    subst he
    rcases key with ⟨a, b, c⟩ | ⟨a, b, c, f⟩ | ⟨d', b, c, f, g⟩
    · exact hone a b (c.go d)
    · have : go q true d x.hw = x.hw := by simp [go, c.ph, c.thr, c.start]
      have e2 : rStep q 1 x (.hw true d) = x := by show { x with hw := go q true d x.hw } = x; rw [this]
      rw [e2]; exact h
    · have : go q true d x.hw = x.hw := by simp [go, c, f, g]
      have e2 : rStep q 1 x (.hw true d) = x := by show { x with hw := go q true d x.hw } = x; rw [this]
      rw [e2]; exact h
  | call k =>
    have he : ∀ i, (∀ e ∈ k.a i, e.1 = true) ∧ (∀ e ∈ k.b i, e.1 = true) := he
    rcases key with ⟨a, b, c⟩ | ⟨a, b, c, f⟩ | ⟨d', b, c, f, g⟩
    · have h1 := Hone.works (k.a 0) (he 0).1 c
      have h2 := Hone.works (k.b 0) (he 0).2 h1
      have hr : read q (1 - x.buf.length) k x.st x.hw = rLoop q 1 [] k x.hw := by simp [read, a, b]
      have hlt : ¬ x.buf.length ≥ 1 := by simp [b]
      have eL : rLoop q 1 [] k x.hw =
          match (works q (k.b 0) (works q (k.a 0) x.hw)).rhr with
          | none => (.xfer, works q (k.b 0) (works q (k.a 0) x.hw), .again)
          | some _ => (.idle, { works q (k.c 0) (cr q false true (works q (k.b 0) (works q (k.a 0) x.hw))) with rhr := none },
              .got [(works q (k.c 0) (cr q false true (works q (k.b 0) (works q (k.a 0) x.hw)))).rhr.getD 0]) := by
        rw [rLoop]
        simp only [List.length_nil, h1.nack, sr_nack h1.nack, sr_nack h2.nack]
        simp only [Bool.false_eq_true, if_false]
        split
        · rename_i g; simp only [g]; rfl
        · rename_i g; simp only [g]; rfl
      simp only [rStep, if_neg hlt, hr, eL]
      generalize works q (k.b 0) (works q (k.a 0) x.hw) = h' at h2
      cases h2 with
      | asked ph mr sa so rh na bus => rw [rh]; exact .asked rfl b ph mr sa so rh na bus
      | reading ph mr sa so rh na bus => rw [rh]; exact .reading rfl b ph mr sa so rh na bus
      | there d ph mr sa so rh na bus =>
        rw [rh]
        have e3 : works q (k.c 0) (cr q false true h') = cr q false true h' := works_rest _ (by simp [cr, ph]) (by simp [cr, mr]) (by simp [cr, sa])
        rw [e3]
        refine .over d rfl ?_ (by simp [cr, ph]) (by simp [cr, mr]) (by simp [cr, sa]) (by simp [cr, ph, sa, so]) rfl (by simp [cr, na]) trivial (by simp [cr, bus])
        simp [b, cr, rh]
    · have ht : txcomp x.hw = true := by simp [txcomp, c.ph, c.thr, c.start]
      have hr : read q (1 - x.buf.length) k x.st x.hw = (.xfer, cr q true true { sr x.hw with mread := true }, .again) := by simp [read, a, b, rIdle, ht]
      have hlt : ¬ x.buf.length ≥ 1 := by simp [b]
      simp only [rStep, if_neg hlt, hr]
      exact .asked rfl b (by simp [cr, sr, c.ph]) (by simp [cr]) (by simp [cr]) (by simp [cr]) (by simp [cr, sr, c.rhr]) (by simp [cr, sr]) (by simp [cr, sr, f])
    · have : rStep q 1 x (.call k) = x := by simp only [rStep]; rw [if_pos (by simp [b])]
      rw [this]; exact h

/-- **C116**: a read of one byte, from a controller at rest, with a slave that answers: whatever the schedule, when the task has its byte it is the one that was on the bus, and the bus shows the
frame asked for and nothing else -/
theorem twi_read_one (q : Par) (h : Hw) (hq : Quiet h) (evs : List Ev) (he : ∀ e ∈ evs, e.acks) (d : Byte) (hb : (rRun q 1 evs (App.of h)).buf = [d]) :
    (rRun q 1 evs (App.of h)).hw.bus = h.bus ++ seen q.a (.read 1 true true, .got [d]) := by
  have : ∀ (evs : List Ev) (x : App), One q h.bus x → (∀ e ∈ evs, e.acks) → One q h.bus (rRun q 1 evs x) := by
    intro evs
    induction evs with
    | nil => intro x hx _; exact hx
    | cons e evs ih => intro x hx he; exact ih _ (one_step hx e (he e (by simp))) (fun e h => he e (by simp [h]))
  have h1 := this evs (App.of h) (.rest rfl rfl hq rfl) he
  cases h1 with
  | rest st buf => rw [buf] at hb; cases hb
  | asked st buf => rw [buf] at hb; cases hb
  | reading st buf => rw [buf] at hb; cases hb
  | there d' st buf => rw [buf] at hb; cases hb
  | over d' st buf ph mr sa so rh na thr bus => rw [buf] at hb; cases hb; exact bus

/-- and a prompt schedule ends it -/
theorem twi_read_one_ends (q : Par) (h : Hw) (hq : Quiet h) (d : Byte) :
    (rRun q 1 [.call .none, .hw true d, .hw true d, .call .none] (App.of h)).buf = [d] ∧
    (rRun q 1 [.call .none, .hw true d, .hw true d, .call .none] (App.of h)).hw.stop = q.latch ∧ (rRun q 1 [.call .none, .hw true d, .hw true d, .call .none] (App.of h)).hw.ph = .idle := by
  obtain ⟨a, b, c, d', e, f⟩ := hq
  simp [rRun, rStep, App.of, read, rIdle, txcomp, a, b, d', cr, sr, go, rLoop, works, Wk.none, c, rGot, e]

end Pico.TwiSam
