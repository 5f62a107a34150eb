import Verif.Drivers.TwiF28
/-
C117: the TWI master of the C2000: writing.
-/
namespace Pico.TwiF28
open Pico.Twi

/-- the frame of a message -/
def head (q : Par) : List Bus := [.start, .addr (sla q.a false) true]
def txs (l : List Byte) : List Bus := l.map (fun b => .tx b true)

theorem seen_write (q : Par) (l : List Byte) : seen q.a (.write l true true, .wrote) = head q ++ txs l ++ [.stop] := by simp [seen, head, txs]

/-- where the module can be once p bytes of l were given to it -/
inductive K (q : Par) (l : List Byte) (base : List Bus) (p : Nat) (h : Hw) : Prop where
  | pend (ph : h.ph = .idle) (stt : h.stt = true) (trx : h.trx = true) (cnt : h.cnt = l.length) (tx : h.tx = l.take p) (bus : h.bus = base)
  | send (j : Nat) (hj : j ≤ p) (ph : h.ph = .w) (stt : h.stt = false) (cnt : h.cnt = l.length - j) (tx : h.tx = (l.take p).drop j) (bus : h.bus = base ++ head q ++ txs (l.take j))
  | over (hp : p = l.length) (ph : h.ph = .idle) (stt : h.stt = false) (tx : h.tx = []) (bus : h.bus = base ++ head q ++ txs l ++ [.stop])

/-- and what does not change -/
structure Fix (h : Hw) : Prop where
  nack : h.nack = false
  txil : h.txil = 16

/-- steps left to the end of the frame -/
def mu (h : Hw) : Nat := match h.ph with
  | .idle => if h.stt then h.cnt + 2 else 0
  | .w => h.cnt + 1
  | _ => 0

theorem go_K {q l base p h} (hl : p ≤ l.length) (hf : Fix h) (hk : K q l base p h) (d : Byte) :
    K q l base p (go q true d h) ∧ Fix (go q true d h) ∧ (p = l.length → mu (go q true d h) = mu h - 1) := by
  obtain ⟨f1, f2⟩ := hf
  cases hk with
  | pend ph stt trx cnt tx bus =>
    have : go q true d h = { h with ph := .w, stt := false, bus := h.bus ++ [.start, .addr (sla q.a false) true] } := by simp [go, ph, stt, trx]
    rw [this]
    exact ⟨.send 0 (Nat.zero_le _) rfl rfl (by simpa using cnt) (by simpa using tx) (by simp [bus, head, txs]), ⟨f1, f2⟩, fun _ => by simp [mu, ph, stt]⟩
  | send j hj ph stt cnt tx bus =>
    by_cases c : h.cnt = 0
    · have e : go q true d h = { h with ph := .idle, bus := h.bus ++ [.stop] } := by simp [go, ph, c]
      rw [e]
      have hjl : j = l.length := by omega
      refine ⟨.over (by omega) rfl stt ?_ ?_, ⟨f1, f2⟩, fun _ => by simp [mu, ph, stt, c]⟩
      · show h.tx = []
        rw [tx]; exact List.drop_eq_nil_of_le (by simp; omega)
      · show h.bus ++ [.stop] = _
        rw [bus, hjl, List.take_length]
    · by_cases c2 : j = p
      · have ht : h.tx = [] := by rw [tx]; exact List.drop_eq_nil_of_le (by simp; omega)
        have e : go q true d h = h := by simp [go, ph, c, ht]
        rw [e]
        exact ⟨.send j hj ph stt cnt tx bus, ⟨f1, f2⟩, fun hp => by omega⟩
      · have hlt : j < (l.take p).length := by simp; omega
        have hlt2 : j < l.length := by omega
        have ht : h.tx = l[j] :: (l.take p).drop (j + 1) := by
          rw [tx, List.drop_eq_getElem_cons hlt]; simp
        have e : go q true d h = { h with tx := (l.take p).drop (j + 1), cnt := h.cnt - 1, bus := h.bus ++ [.tx l[j] true] } := by
          simp [go, ph, c, ht]
        rw [e]
        refine ⟨.send (j + 1) (by omega) ph stt (by show h.cnt - 1 = _; omega) rfl ?_, ⟨f1, f2⟩, fun _ => ?_⟩
        · show h.bus ++ [.tx l[j] true] = _
          rw [bus, List.take_add_one, List.getElem?_eq_getElem hlt2,
            show txs (l.take j ++ (some l[j]).toList) = txs (l.take j) ++ [.tx l[j] true] by rw [txs, List.map_append]; rfl]
          simp only [List.append_assoc]
        · simp only [mu, ph]; omega
  | over hp ph stt tx bus =>
    have e : go q true d h = h := by simp [go, ph, stt]
    rw [e]
    exact ⟨.over hp ph stt tx bus, ⟨f1, f2⟩, fun _ => by simp [mu, ph, stt]⟩

theorem works_K {q l base p} (hl : p ≤ l.length) (es : List (Bool × Byte)) (he : ∀ e ∈ es, e.1 = true) : ∀ {h : Hw}, Fix h → K q l base p h →
    K q l base p (works q es h) ∧ Fix (works q es h) ∧ (p = l.length → mu (works q es h) = mu h - es.length) := by
  induction es with
  | nil => intro h hf hk; exact ⟨hk, hf, fun _ => rfl⟩
  | cons e es ih =>
    intro h hf hk
    have e1 := he e (by simp)
    obtain ⟨g1, g2, g3⟩ := go_K hl hf hk e.2
    show K q l base p (works q es (go q e.1 e.2 h)) ∧ Fix (works q es (go q e.1 e.2 h)) ∧ (p = l.length → mu (works q es (go q e.1 e.2 h)) = mu h - (es.length + 1))
    rw [e1]
    obtain ⟨i1, i2, i3⟩ := ih (fun e h => he e (by simp [h])) g2 g1
    exact ⟨i1, i2, fun hp => by rw [i3 hp, g3 hp]; omega⟩

/-- a byte is given to the module -/
theorem push_K {q l base p} {h : Hw} (h16 : l.length ≤ 16) (b : Byte) (hb : l[p]? = some b) (hf : Fix h) (hk : K q l base p h) :
    K q l base (p + 1) (push b h) ∧ Fix (push b h) := by
  have hlt : p < l.length := by
    rcases Nat.lt_or_ge p l.length with c | c
    · exact c
    · rw [List.getElem?_eq_none c] at hb; cases hb
  refine ⟨?_, ⟨hf.nack, hf.txil⟩⟩
  cases hk with
  | pend ph stt trx cnt tx bus =>
    refine .pend ph stt trx cnt ?_ bus
    have : h.tx.length < depth := by rw [tx]; simp [depth]; omega
    simp only [push, if_pos this]
    rw [tx, List.take_add_one, hb]; rfl
  | send j hj ph stt cnt tx bus =>
    refine .send j (by omega) ph stt cnt ?_ bus
    have : h.tx.length < depth := by rw [tx]; simp [depth]; omega
    simp only [push, if_pos this]
    rw [tx, List.take_add_one, hb, List.drop_append_of_le_length (by simp; omega)]; rfl
  | over hp ph stt tx bus => omega

theorem K_room {q l base p} {h : Hw} (hl : p ≤ l.length) (h16 : l.length ≤ 16) (hf : Fix h) (hk : K q l base p h) : txffint h = true := by
  have : h.tx.length ≤ 16 := by
    cases hk with
    | pend ph stt trx cnt tx bus => rw [tx]; simp; omega
    | send j hj ph stt cnt tx bus => rw [tx]; simp; omega
    | over hp ph stt tx bus => rw [tx]; simp
  simp [txffint, hf.txil, this]

theorem wLoop_K {q l base} (h16 : l.length ≤ 16) (h0 : 0 < l.length) {k : Wk} (hg : k.good) : ∀ (rest : List Byte) (p : Nat) (h : Hw), rest = l.drop p → p ≤ l.length →
    Fix h → K q l base p h →
    (wLoop q rest p k h).1 = .idle ∧ (wLoop q rest p k h).2.2 = .sent l.length ∧ Fix (wLoop q rest p k h).2.1 ∧ K q l base l.length (wLoop q rest p k h).2.1 := by
  intro rest
  induction rest with
  | nil =>
    intro p h hr hp hf hk
    have : p = l.length := by
      have := congrArg List.length hr; simp at this; omega
    subst this
    refine ⟨rfl, ?_, hf, hk⟩
    simp only [wLoop, rSent]; rw [if_neg (by omega)]
  | cons b rest ih =>
    intro p h hr hp hf hk
    have hlt : p < l.length := by
      rcases Nat.lt_or_ge p l.length with c | c
      · exact c
      · rw [List.drop_eq_nil_of_le c] at hr; cases hr
    have hb : l[p]? = some b := by
      have := congrArg (fun x => x[0]?) hr
      simp only [List.getElem?_cons_zero, List.getElem?_drop, Nat.add_zero] at this
      exact this.symm
    have hr2 : rest = l.drop (p + 1) := by
      have := congrArg (fun x => x.drop 1) hr
      simp only [List.drop_drop] at this
      simpa using this
    obtain ⟨ga, gb⟩ := hg p
    obtain ⟨k1, f1, _⟩ := works_K hp (k.a p) ga hf hk
    obtain ⟨k2, f2, _⟩ := works_K hp (k.b p) gb f1 k1
    have eL : wLoop q (b :: rest) p k h = wLoop q rest (p + 1) k (push b (works q (k.b p) (works q (k.a p) h))) := by
      rw [wLoop]
      simp [f1.nack, K_room hp h16 f2 k2]
    rw [eL]
    obtain ⟨k3, f3⟩ := push_K h16 b hb f2 k2
    exact ih (p + 1) _ hr2 (by omega) f3 k3

theorem cntOf_small {n : Nat} (h0 : 0 < n) (h : n ≤ 65536) : cntOf n = n := by
  unfold cntOf
  split <;> omega

/-- **C117**: one call of twi_write gives the module a message of at most 16 bytes -/
theorem write_K {q l h} (h0 : 0 < l.length) (h16 : l.length ≤ 16) (hq : Quiet h) {k : Wk} (hg : k.good) :
    (write q l k .idle h).1 = .idle ∧ (write q l k .idle h).2.2 = .sent l.length ∧ Fix (write q l k .idle h).2.1 ∧ K q l h.bus l.length (write q l k .idle h).2.1 := by
  have e : write q l k .idle h = wLoop q l 0 k { h with cnt := cntOf l.length, stt := true, trx := true } := by
    simp [write, wIdle, bb, hq.ph]
  rw [e]
  exact wLoop_K h16 h0 hg l 0 _ rfl (Nat.zero_le _) ⟨hq.nack, hq.txil⟩ (.pend hq.ph rfl rfl (cntOf_small h0 (by omega)) (by simp [hq.tx]) rfl)

/-- **C117, messages of at most 16 bytes that the slave takes**: the first call says that all is written; the frame asked for, and nothing else, comes on the bus, whatever the schedule -/
theorem twi_write_partial {q : Par} {l : List Byte} {h : Hw} (h0 : 0 < l.length) (h16 : l.length ≤ 16) (hq : Quiet h) (evs : List Ev) (hg : ∀ e ∈ evs, e.good) :
    let x := wRun q l evs ⟨.idle, h, 0⟩
    x.pos = (if evs.any (fun e => match e with | .call _ => true | _ => false) then l.length else 0) ∧
    (x.pos = 0 → x.hw = h) ∧
    (∃ rest, x.hw.bus ++ rest = h.bus ++ seen q.a (.write l true true, .wrote)) ∧
    (x.pos = l.length → x.hw.ph = .idle → x.hw.stt = false → x.hw.bus = h.bus ++ seen q.a (.write l true true, .wrote)) := by
  suffices H : ∀ (evs : List Ev), (∀ e ∈ evs, e.good) → ∀ (x : App), (x.st = .idle ∧ x.pos = 0 ∧ x.hw = h ∨ x.st = .idle ∧ x.pos = l.length ∧ Fix x.hw ∧ K q l h.bus l.length x.hw) →
      (let y := wRun q l evs x
       (y.pos = if x.pos = l.length ∨ evs.any (fun e => match e with | .call _ => true | _ => false) then l.length else 0) ∧
       (y.st = .idle ∧ y.pos = 0 ∧ y.hw = h ∨ y.st = .idle ∧ y.pos = l.length ∧ Fix y.hw ∧ K q l h.bus l.length y.hw)) by
    obtain ⟨h1, h2⟩ := H evs hg ⟨.idle, h, 0⟩ (.inl ⟨rfl, rfl, rfl⟩)
    have hne : ¬ (0 = l.length) := by omega
    rw [seen_write]
    refine ⟨by simpa [hne] using h1, ?_, ?_, ?_⟩
    · intro hp
      rcases h2 with ⟨_, _, h2⟩ | ⟨_, hp2, _⟩
      · exact h2
      · omega
    · rcases h2 with ⟨_, _, h2⟩ | ⟨_, _, _, hk⟩
      · rw [h2]; exact ⟨_, rfl⟩
      · cases hk with
        | pend ph stt trx cnt tx bus => rw [bus]; exact ⟨_, rfl⟩
        | send j hj ph stt cnt tx bus =>
          rw [bus]
          refine ⟨txs (l.drop j) ++ [.stop], ?_⟩
          have : txs (l.take j) ++ txs (l.drop j) = txs l := by rw [txs, txs, ← List.map_append, List.take_append_drop]; rfl
          rw [← this]; simp
        | over hp ph stt tx bus => rw [bus]; exact ⟨[], by simp⟩
    · intro hp h3 h4
      rcases h2 with ⟨_, hp2, _⟩ | ⟨_, _, _, hk⟩
      · omega
      · cases hk with
        | pend ph stt trx cnt tx bus => rw [stt] at h4; cases h4
        | send j hj ph stt cnt tx bus => rw [ph] at h3; cases h3
        | over hp ph stt tx bus => rw [bus]; simp
  intro evs
  induction evs with
  | nil =>
    intro _ x hx
    refine ⟨?_, hx⟩
    rcases hx with ⟨_, hp, _⟩ | ⟨_, hp, _⟩
    · simp [wRun, hp, show ¬ (0 = l.length) by omega]
    · simp [wRun, hp]
  | cons e evs ih =>
    intro hg x hx
    have hg2 : ∀ e ∈ evs, e.good := fun e h => hg e (by simp [h])
    have e0 : wRun q l (e :: evs) x = wRun q l evs (wStep q l x e) := rfl
    simp only [e0]
    cases e with
    | hw ack d =>
      have ha : ack = true := hg (.hw ack d) (by simp)
      subst ha
      have hs : (wStep q l x (.hw true d)).pos = x.pos := rfl
      have := ih hg2 (wStep q l x (.hw true d)) (by
        rcases hx with ⟨a, b, c⟩ | ⟨a, b, c, e⟩
        · refine .inl ⟨a, b, ?_⟩
          show go q true d x.hw = h
          rw [c]; simp [go, hq.ph, hq.stt]
        · obtain ⟨g1, g2, _⟩ := go_K (Nat.le_refl _) c e d
          exact .inr ⟨a, b, g2, g1⟩)
      rw [hs] at this
      refine ⟨?_, this.2⟩
      rw [this.1]
      simp
    | call k =>
      have hk : k.good := hg (.call k) (by simp)
      rcases hx with ⟨a, b, c⟩ | ⟨a, b, c, e⟩
      · obtain ⟨w1, w2, w3, w4⟩ := write_K (q := q) h0 h16 hq hk
        have es : wStep q l x (.call k) = ⟨(write q l k .idle h).1, (write q l k .idle h).2.1, l.length⟩ := by
          simp only [wStep, a, b, c, List.drop_zero]
          rw [if_neg (by omega), w2]
          simp
        rw [es]
        have := ih hg2 ⟨(write q l k .idle h).1, (write q l k .idle h).2.1, l.length⟩ (.inr ⟨w1, rfl, w3, w4⟩)
        refine ⟨?_, this.2⟩
        rw [this.1]; simp
      · have es : wStep q l x (.call k) = x := by simp [wStep, b]
        rw [es]
        have := ih hg2 x (.inr ⟨a, b, c, e⟩)
        refine ⟨?_, this.2⟩
        rw [this.1]; simp [b]

/-- **C117**: and the frame ends, |l| + 2 steps of the bus after the call at most -/
theorem twi_write_ends_partial {q : Par} {l : List Byte} {h : Hw} (h0 : 0 < l.length) (h16 : l.length ≤ 16) (hq : Quiet h) {k : Wk} (hg : k.good)
    (es : List (Bool × Byte)) (he : ∀ e ∈ es, e.1 = true) (hn : l.length + 2 ≤ es.length) :
    (works q es (write q l k .idle h).2.1).bus = h.bus ++ seen q.a (.write l true true, .wrote) ∧ Quiet (works q es (write q l k .idle h).2.1) := by
  obtain ⟨_, _, w3, w4⟩ := write_K (q := q) h0 h16 hq hg
  obtain ⟨k1, f1, m1⟩ := works_K (Nat.le_refl _) es he w3 w4
  have hm : mu (write q l k .idle h).2.1 ≤ l.length + 2 := by
    cases w4 with
    | pend ph stt trx cnt tx bus => simp [mu, ph, stt, cnt]
    | send j hj ph stt cnt tx bus => simp [mu, ph, cnt]; omega
    | over hp ph stt tx bus => simp [mu, ph, stt]
  have hz : mu (works q es (write q l k .idle h).2.1) = 0 := by rw [m1 rfl]; omega
  generalize works q es (write q l k .idle h).2.1 = y at *
  cases k1 with
  | pend ph stt trx cnt tx bus => simp [mu, ph, stt] at hz
  | send j hj ph stt cnt tx bus => simp [mu, ph] at hz
  | over hp ph stt tx bus => exact ⟨by rw [bus, seen_write]; simp, ph, stt, tx, f1.nack, f1.txil⟩

/-- the state after reset() is quiet: the theorems apply to a driver just initialised -/
theorem reset_quiet (q : Par) (h : Hw) : Quiet (reset q h) := ⟨rfl, rfl, rfl, rfl, rfl⟩

end Pico.TwiF28
