import Verif.Drivers.W1
/-
C113: 1-wire on a UART.
-/
namespace Pico.W1

/-! ## Specification: the slots of a 1-wire bus -/

/-- bit `k` of a byte -/
def bit (b : Byte) (k : Nat) : Bool := b.getLsbD k

/-- how a bit is sent: rate and byte -/
def slotOf (v : Bool) : Nat × Byte := if v then (1000000, 0xff) else (120000, 0xf0)

/-- the slots of a byte, least significant bit first -/
def slots (b : Byte) : List (Nat × Byte) := (List.range 8).map (fun k => slotOf (bit b k))

/-- how long (ns) a UART of that rate holds the line low: the start bit and the zeros that follow, least significant first -/
def lowNs (p : Nat × Byte) : Nat := (1 + (((List.range 8).takeWhile (fun k => !bit p.2 k)).length)) * 1000000000 / p.1

/-! ## Writing -/

/-- the mode in which bit `k` of `b` is written -/
def modeOf (b : Byte) (k : Nat) : Mode := if bit b k then .write1 else .write0

theorem bit_test : ∀ (b : Byte) (k : Fin 8), (b &&& (1#8 <<< k.val) ≠ 0) ↔ bit b k.val = true := by unfold bit; decide +kernel

theorem slot_error {a : Ans} {m : Mode} {b : Byte} {s s1 : St} {e : Err} (h : slot a m b s = (s1, .error e)) :
    s1.sent = s.sent ∧ s1.tx = s.tx ∧ (s1.mode = s.mode ∧ (s.mode = m → s1.baud = s.baud) ∨ s1.mode = m ∧ s1.baud = rate m) := by
  unfold slot setup uwrite uread at h
  by_cases hm : s.mode = m
  · rw [if_pos hm] at h
    cases hw : a.write with
    | some e2 => simp only [hw] at h; injection h with h1 h2; subst h1; exact ⟨rfl, rfl, .inl ⟨rfl, fun _ => rfl⟩⟩
    | none =>
      simp only [hw] at h
      cases hr : a.read <;> cases hf : s.fifo <;> simp [hr, hf] at h
  · rw [if_neg hm] at h
    cases hs : a.setup with
    | some e1 => simp only [hs] at h; injection h with h1 h2; subst h1; exact ⟨rfl, rfl, .inl ⟨rfl, fun hh => absurd hh hm⟩⟩
    | none =>
      simp only [hs] at h
      cases hw : a.write with
      | some e2 => simp only [hw] at h; injection h with h1 h2; subst h1; exact ⟨rfl, rfl, .inr ⟨rfl, rfl⟩⟩
      | none =>
        simp only [hw] at h
        cases hr : a.read <;> cases hf : s.fifo <;> simp [hr, hf] at h

theorem slot_ok {a : Ans} {m : Mode} {b v : Byte} {s s1 : St} (h : slot a m b s = (s1, .ok v)) (hb : s.mode = m → s.baud = rate m) :
    s1.sent = s.sent ++ [(rate m, b)] ∧ s1.tx = s.tx ∧ s1.mode = m ∧ s1.baud = rate m := by
  unfold slot setup uwrite uread at h
  by_cases hm : s.mode = m
  · rw [if_pos hm] at h
    have hb := hb hm
    cases hw : a.write with
    | some e2 => simp [hw] at h
    | none =>
      simp only [hw] at h
      cases hr : a.read <;> cases hf : s.fifo <;> simp only [hr, hf] at h <;> injection h with h1 h2 <;> subst h1 <;> simp [hm, hb]
  · rw [if_neg hm] at h
    cases hs : a.setup with
    | some e1 => simp [hs] at h
    | none =>
      simp only [hs] at h
      cases hw : a.write with
      | some e2 => simp [hw] at h
      | none =>
        simp only [hw] at h
        cases hr : a.read <;> cases hf : s.fifo <;> simp only [hr, hf] at h <;> injection h with h1 h2 <;> subst h1 <;> simp

/-- what a call of w1_write does: nothing, or one slot -/
def WCase (b : Byte) (s : St) (w : St × Res) : Prop :=
  (w.2 = .err .eagain ∧ w.1.sent = s.sent ∧ w.1.tx = s.tx ∧ (w.1.mode = modeOf b s.tx → w.1.baud = rate w.1.mode)) ∨
  (w.1.sent = s.sent ++ [slotOf (bit b s.tx)] ∧ w.1.baud = rate w.1.mode ∧
    (s.tx = 7 ∧ w.2 = .ok 1 ∧ w.1.tx = 0 ∨ s.tx < 7 ∧ w.2 = .err .eagain ∧ w.1.tx = s.tx + 1))

theorem write_cases (a : Ans) (b : Byte) (s : St) (ht : s.tx < 8) (hb : s.mode = modeOf b s.tx → s.baud = rate s.mode) : WCase b s (write a b s) := by
  have hd := bit_test b ⟨s.tx, ht⟩
  dsimp only at hd
  have key : ∀ (m : Mode) (v : Byte), modeOf b s.tx = m → (rate m, v) = slotOf (bit b s.tx) →
      (if b &&& (1#8 <<< s.tx) ≠ 0 then slot a .write1 0xff s else slot a .write0 0xf0 s) = slot a m v s →
      WCase b s (write a b s) := by
    intro m v hm hv he
    have hw : write a b s = match slot a m v s with
      | (s1, .error _) => (s1, .err .eagain)
      | (s1, .ok _) => if s1.tx + 1 = 8 then ({ s1 with tx := 0 }, .ok 1) else ({ s1 with tx := s1.tx + 1 }, .err .eagain) := by
      unfold write; simp only [he]; rfl
    rw [hw]
    unfold WCase
    rw [hm] at hb ⊢
    rcases hs : slot a m v s with ⟨s1, r⟩
    cases r with
    | error e =>
      left
      obtain ⟨h1, h2, h3⟩ := slot_error hs
      refine ⟨rfl, h1, h2, ?_⟩
      intro h4
      change s1.mode = m at h4
      show s1.baud = rate s1.mode
      rcases h3 with ⟨h5, h6⟩ | ⟨h5, h6⟩
      · rw [h6 (h5 ▸ h4), hb (h5 ▸ h4), h5]
      · rw [h6, h5]
    | ok w =>
      right
      obtain ⟨h1, h2, h3, h4⟩ := slot_ok hs (fun h => by rw [hb h, h])
      simp only []
      by_cases h7 : s1.tx + 1 = 8
      · rw [if_pos h7]
        exact ⟨by rw [← hv]; exact h1, by show s1.baud = rate s1.mode; rw [h4, h3], .inl ⟨by omega, rfl, rfl⟩⟩
      · rw [if_neg h7]
        exact ⟨by rw [← hv]; exact h1, by show s1.baud = rate s1.mode; rw [h4, h3], .inr ⟨by omega, rfl, by show s1.tx + 1 = _; rw [h2]⟩⟩
  cases hbit : bit b s.tx with
  | true => exact key .write1 0xff (by unfold modeOf; rw [hbit]; rfl) (by unfold slotOf; rw [hbit]; rfl) (by rw [if_pos (hd.mpr hbit)])
  | false => exact key .write0 0xf0 (by unfold modeOf; rw [hbit]; rfl) (by unfold slotOf; rw [hbit]; rfl) (by rw [if_neg (fun h => by rw [hd.mp h] at hbit; cases hbit)])

/-- the bits of the byte being written that are out -/
def part (todo : List Byte) (k : Nat) : List (Nat × Byte) := match todo with | [] => [] | b :: _ => (slots b).take k

structure WInv (all : List Byte) (past : List (Nat × Byte)) (c : WCl) : Prop where
  all : c.done ++ c.todo = all
  sent : c.st.sent = past ++ c.done.flatMap slots ++ part c.todo c.st.tx
  tx : c.st.tx < 8
  idle : c.todo = [] → c.st.tx = 0
  baud : ∀ b r, c.todo = b :: r → c.st.mode = modeOf b c.st.tx → c.st.baud = rate c.st.mode

theorem slots_take (b : Byte) (k : Nat) (hk : k < 8) : (slots b).take (k + 1) = (slots b).take k ++ [slotOf (bit b k)] := by
  have hl : k < (slots b).length := by unfold slots; simp; exact hk
  rw [List.take_add_one, List.getElem?_eq_getElem hl]
  simp [slots]

theorem line_keeps (e : Ev) (s : St) : (line e s).sent = s.sent ∧ (line e s).tx = s.tx ∧ (line e s).rx = s.rx ∧ (line e s).mode = s.mode ∧
    (line e s).baud = s.baud ∧ (line e s).presence = s.presence := by
  cases e with
  | call a => exact ⟨rfl, rfl, rfl, rfl, rfl, rfl⟩
  | other b => exact ⟨rfl, rfl, rfl, rfl, rfl, rfl⟩
  | echo p => unfold line; cases s.air <;> exact ⟨rfl, rfl, rfl, rfl, rfl, rfl⟩

theorem winv_step {all : List Byte} {past : List (Nat × Byte)} (c : WCl) (e : Ev) (h : WInv all past c) : WInv all past (wstep c e) := by
  obtain ⟨s, done, todo⟩ := c
  have hline : ∀ e, WInv all past ⟨line e s, done, todo⟩ := by
    intro e
    obtain ⟨k1, k2, _, k4, k5, _⟩ := line_keeps e s
    refine ⟨h.all, ?_, ?_, ?_, ?_⟩ <;> dsimp only
    · rw [k1, k2]; exact h.sent
    · rw [k2]; exact h.tx
    · rw [k2]; exact h.idle
    · rw [k2, k4, k5]; exact h.baud
  cases e with
  | echo p => exact hline _
  | other b => exact hline _
  | call a =>
    cases todo with
    | nil => exact h
    | cons b rest =>
      have hs := h.sent
      have ha := h.all
      dsimp only [part] at hs ha
      have hc := write_cases a b s h.tx (h.baud b rest rfl)
      show WInv all past (match write a b s with
        | (s1, .ok _) => ⟨s1, done ++ [b], rest⟩
        | (s1, .err _) => ⟨s1, done, b :: rest⟩)
      rcases hw : write a b s with ⟨s1, r⟩
      rw [hw] at hc
      unfold WCase at hc
      dsimp only at hc
      rcases hc with ⟨h1, h2, h3, h4⟩ | ⟨h1, h2, ⟨h3, h4, h5⟩ | ⟨h3, h4, h5⟩⟩
      · subst h1
        exact ⟨ha, by dsimp only [part]; rw [h2, h3]; exact hs, by show s1.tx < 8; rw [h3]; exact h.tx, fun hn => (by cases hn),
          fun b' r' e => by injection e with e1 e2; subst e1; dsimp only; rw [h3]; exact h4⟩
      · subst h4
        refine ⟨by dsimp only; rw [← ha]; simp, ?_, by show s1.tx < 8; omega, fun _ => h5, fun b' r' e _ => h2⟩
        dsimp only
        have ht := slots_take b 7 (by omega)
        have hfull : (slots b).take 8 = slots b := List.take_of_length_le (by simp [slots])
        rw [hfull] at ht
        rw [h1, hs, h3, h5, List.flatMap_append]
        have hp : part rest 0 = [] := by cases rest <;> rfl
        rw [hp]
        simp only [List.flatMap_cons, List.flatMap_nil, List.append_nil, List.append_assoc]
        rw [← ht]
      · subst h4
        refine ⟨ha, ?_, by show s1.tx < 8; omega, fun hn => (by cases hn), fun b' r' e _ => h2⟩
        dsimp only [part]
        rw [h1, hs, h5, slots_take b s.tx (by omega)]
        simp only [List.append_assoc]

/-- **w1_write.** A task writes the bytes `all` one after the other, each with w1_write until it returns 1, whatever the UART answers (failures to set
the rate, to send, to receive), whatever is received, at any times: what has been sent is the slots of the bytes w1_write returned 1
for, in order, each bit once, least significant first, and the first bits of the byte that is being written. -/
theorem w1_write (all : List Byte) (s : St) (h0 : s.tx = 0) (hm : s.mode = .write0 ∨ s.mode = .write1 → s.baud = rate s.mode) (l : List Ev) :
    let c := wrun l ⟨s, [], all⟩
    c.done ++ c.todo = all ∧ c.st.tx < 8 ∧
    c.st.sent = s.sent ++ c.done.flatMap slots ++ (match c.todo with | [] => [] | b :: _ => (slots b).take c.st.tx) ∧ (c.todo = [] → c.st.tx = 0) := by
  have key : ∀ (l : List Ev) (c : WCl), WInv all s.sent c → WInv all s.sent (wrun l c) := by
    intro l
    induction l with
    | nil => intro c h; exact h
    | cons e l ih => intro c h; exact ih _ (winv_step c e h)
  have h := key l ⟨s, [], all⟩ ⟨rfl, by dsimp only; rw [h0]; cases all <;> simp [part], by show s.tx < 8; omega, fun _ => h0,
    fun b r _ e => hm (by dsimp only at e; rw [e]; unfold modeOf; split <;> simp)⟩
  exact ⟨h.all, h.tx, h.sent, h.idle⟩

/-- a UART that does what it is told -/
def good : Ans := {}

theorem write_good (b : Byte) (s : St) (ht : s.tx < 8) (hb : s.mode = modeOf b s.tx → s.baud = rate s.mode) : (write good b s).1.sent = s.sent ++ [slotOf (bit b s.tx)] := by
  rcases write_cases good b s ht hb with ⟨h1, h2, h3, h4⟩ | ⟨h1, _⟩
  · exfalso
    have key : ∀ m v, ∃ s1 w, slot good m v s = (s1, .ok w) ∧ s1.sent.length = s.sent.length + 1 := by
      intro m v
      unfold slot setup uwrite uread good
      by_cases hm : s.mode = m
      · cases hf : s.fifo <;> simp [hm, hf]
      · cases hf : s.fifo <;> simp [hm, hf]
    have hlen : (write good b s).1.sent.length = s.sent.length + 1 := by
      unfold write
      by_cases hc : b &&& (1#8 <<< s.tx) ≠ 0
      · obtain ⟨s1, w, e, hl⟩ := key .write1 0xff
        simp only [if_pos hc, e]; split <;> exact hl
      · obtain ⟨s1, w, e, hl⟩ := key .write0 0xf0
        simp only [if_neg hc, e]; split <;> exact hl
    rw [h2] at hlen
    omega
  · exact h1

/-- it ends: eight calls the UART does not refuse are enough for a byte -/
theorem w1_write_ends (b : Byte) (s : St) (h0 : s.tx = 0) (hm : s.mode = .write0 ∨ s.mode = .write1 → s.baud = rate s.mode) :
    (wrun (List.replicate 8 (.call good)) ⟨s, [], [b]⟩).todo = [] := by
  have hstep : ∀ (c : WCl), WInv [b] s.sent c → c.todo = [b] →
      (wstep c (.call good)).todo = [] ∨ (wstep c (.call good)).todo = [b] ∧ (wstep c (.call good)).st.tx = c.st.tx + 1 := by
    intro c h ht
    obtain ⟨st, done, todo⟩ := c
    dsimp only at ht; subst ht
    have hg := write_good b st h.tx (h.baud b [] rfl)
    have hc := write_cases good b st h.tx (h.baud b [] rfl)
    show (match write good b st with
        | (s1, .ok _) => (⟨s1, done ++ [b], []⟩ : WCl)
        | (s1, .err _) => ⟨s1, done, [b]⟩).todo = [] ∨ (match write good b st with
        | (s1, .ok _) => (⟨s1, done ++ [b], []⟩ : WCl)
        | (s1, .err _) => ⟨s1, done, [b]⟩).todo = [b] ∧ (match write good b st with
        | (s1, .ok _) => (⟨s1, done ++ [b], []⟩ : WCl)
        | (s1, .err _) => ⟨s1, done, [b]⟩).st.tx = st.tx + 1
    rcases hw : write good b st with ⟨s1, r⟩
    rw [hw] at hc hg
    unfold WCase at hc
    dsimp only at hc hg
    rcases hc with ⟨h1, h2, h3, h4⟩ | ⟨h1, h2, ⟨h3, h4, h5⟩ | ⟨h3, h4, h5⟩⟩
    · rw [h2] at hg
      have := congrArg List.length hg
      simp at this
    · subst h4; exact .inl rfl
    · subst h4; exact .inr ⟨rfl, h5⟩
  have hnil : ∀ (n : Nat) (c : WCl), c.todo = [] → (wrun (List.replicate n (.call good)) c).todo = [] := by
    intro n
    induction n with
    | zero => intro c h; exact h
    | succ n ih =>
      intro c h
      rw [List.replicate_succ]
      refine ih _ ?_
      obtain ⟨st, done, todo⟩ := c
      dsimp only at h; subst h
      rfl
  have key : ∀ (n : Nat) (c : WCl), WInv [b] s.sent c → c.todo = [b] → c.st.tx + n = 8 → (wrun (List.replicate n (.call good)) c).todo = [] := by
    intro n
    induction n with
    | zero => intro c h _ hn; have := h.tx; omega
    | succ n ih =>
      intro c h ht hn
      rw [List.replicate_succ]
      show (wrun (List.replicate n (.call good)) (wstep c (.call good))).todo = []
      rcases hstep c h ht with h1 | ⟨h1, h2⟩
      · exact hnil n _ h1
      · exact ih _ (winv_step c _ h) h1 (by omega)
  exact key 8 ⟨s, [], [b]⟩ ⟨rfl, by dsimp only; rw [h0]; simp [part], by show s.tx < 8; omega, fun _ => h0,
    fun b r _ e => hm (by dsimp only at e; rw [e]; unfold modeOf; split <;> simp)⟩ rfl (by show s.tx + 8 = 8; omega)

/-- **Refuted: errors.** A UART that cannot do the rate says so for ever; w1_write says -EAGAIN for ever. -/
theorem w1_write_error_lost (a : Ans) (b : Byte) (s : St) (e : Err) (ha : a.setup = some e) (hi : s.mode = .idle) :
    (write a b s).2 = .err .eagain ∧ (write a b s).1.mode = .idle := by
  unfold write slot setup
  rw [ha]
  split <;> rw [hi] <;> exact ⟨rfl, rfl⟩

/-- **Refuted: timing.** A 1-wire device takes for 0 a slot in which the line is low for 60 us to 120 us (1 us to 15 us for 1, 480 us or more for a reset):
w1_write sends 1 and w1_reset sends its pulse so, but w1_write holds the line low for less than 42 us to send 0. -/
theorem w1_zero_short : lowNs (slotOf false) < 42000 ∧ (1000 ≤ lowNs (slotOf true) ∧ lowNs (slotOf true) ≤ 15000) ∧ 480000 ≤ lowNs (rate .reset, 0) := by decide

/-! ## Reset -/

/-- before the pulse; after it; over -/
inductive ZPh (past : List (Nat × Byte)) (c : St × Option Res) : Prop where
  | before (hs : c.1.sent = past) (hp : c.1.presence = false) (hb : c.1.mode = .reset → c.1.baud = 18000) (hr : c.2 ≠ some (.ok 0))
  | pulsed (hs : c.1.sent = past ++ [(18000, 0)]) (hp : c.1.presence = true) (hr : c.2 ≠ some (.ok 0))
  | over (hs : c.1.sent = past ++ [(18000, 0)]) (hp : c.1.presence = false) (hr : c.2 = some (.ok 0))

theorem zph_step {past : List (Nat × Byte)} (c : St × Option Res) (e : Ev) (h : ZPh past c) : ZPh past (zstep c e) := by
  obtain ⟨s, r⟩ := c
  have hline : ∀ e, ZPh past (line e s, r) := by
    intro e
    obtain ⟨k1, _, _, k4, k5, k6⟩ := line_keeps e s
    rcases h with ⟨hs, hp, hb, hr⟩ | ⟨hs, hp, hr⟩ | ⟨hs, hp, hr⟩
    · exact .before (k1.trans hs) (k6.trans hp) (by dsimp only; rw [k4, k5]; exact hb) hr
    · exact .pulsed (k1.trans hs) (k6.trans hp) hr
    · exact .over (k1.trans hs) (k6.trans hp) hr
  cases e with
  | echo p => exact hline _
  | other b => exact hline _
  | call a =>
    by_cases hd : r = some (.ok 0)
    · have : zstep (s, r) (.call a) = (s, r) := by show (if r = some (.ok 0) then _ else _) = _; rw [if_pos hd]
      rw [this]; exact h
    · have : zstep (s, r) (.call a) = ((reset a s).1, some (reset a s).2) := by show (if r = some (.ok 0) then _ else _) = _; rw [if_neg hd]; rfl
      rw [this]
      have hset : (∃ e, setup a .reset s = ({ s with baud := a.after }, some e) ∧ s.mode ≠ .reset) ∨
          ∃ s1, setup a .reset s = (s1, none) ∧ s1.sent = s.sent ∧ s1.presence = s.presence ∧ s1.mode = .reset ∧ ((s.mode = .reset → s.baud = 18000) → s1.baud = 18000) := by
        unfold setup
        by_cases hm : s.mode = .reset
        · exact .inr ⟨s, by rw [if_pos hm], rfl, rfl, hm, fun h => h hm⟩
        · rw [if_neg hm]
          cases hs : a.setup with
          | some e => exact .inl ⟨e, rfl, hm⟩
          | none => exact .inr ⟨_, rfl, rfl, rfl, rfl, fun _ => rfl⟩
      rcases h with ⟨hs, hp, hb, hr⟩ | ⟨hs, hp, hr⟩ | ⟨hs, hp, hr⟩
      · dsimp only at hs hp hb
        unfold reset
        rcases hset with ⟨e, he, hne⟩ | ⟨s1, he, h1, h2, h3, h4⟩
        · rw [he]; exact .before hs hp (fun hm => absurd hm hne) (by simp)
        · rw [he]
          simp only [h2, hp, Bool.false_eq_true, if_false, uwrite]
          cases hw : a.write with
          | some e => exact .before (h1.trans hs) (h2.trans hp) (fun _ => h4 hb) (by simp)
          | none => exact .pulsed (by show s1.sent ++ [(s1.baud, 0)] = _; rw [h1, hs, h4 hb]) rfl (by simp)
      · dsimp only at hs hp
        unfold reset
        rcases hset with ⟨e, he, _⟩ | ⟨s1, he, h1, h2, h3, h4⟩
        · rw [he]; exact .pulsed hs hp (by simp)
        · rw [he]
          simp only [h2, hp, if_true, uread]
          cases hr : a.read with
          | some e => exact .pulsed (h1.trans hs) (h2.trans hp) (by simp)
          | none =>
            cases hf : s1.fifo with
            | nil => exact .pulsed (h1.trans hs) (h2.trans hp) (by simp)
            | cons b t => exact .over (h1.trans hs) rfl rfl
      · exact absurd hr hd

/-- **w1_reset**, from a driver that is not in the middle of one, called until it returns 0, whatever the UART answers and receives: exactly one pulse of
500 us has been sent when it returns 0, and at most one before. -/
theorem w1_reset_partial (s : St) (hp : s.presence = false) (hb : s.mode = .reset → s.baud = 18000) (l : List Ev) :
    let c := zrun l (s, none)
    (c.2 = some (.ok 0) → c.1.sent = s.sent ++ [(18000, 0)] ∧ c.1.presence = false) ∧ (c.1.sent = s.sent ∨ c.1.sent = s.sent ++ [(18000, 0)]) := by
  have key : ∀ (l : List Ev) (c : St × Option Res), ZPh s.sent c → ZPh s.sent (zrun l c) := by
    intro l
    induction l with
    | nil => intro c h; exact h
    | cons e l ih => intro c h; exact ih _ (zph_step c e h)
  have h := key l (s, none) (.before rfl hp hb (by simp))
  dsimp only
  rcases h with ⟨hs, hp, hb, hr⟩ | ⟨hs, hp, hr⟩ | ⟨hs, hp, hr⟩
  · exact ⟨fun h => absurd h hr, .inl hs⟩
  · exact ⟨fun h => absurd h hr, .inr hs⟩
  · exact ⟨fun _ => ⟨hs, hp⟩, .inr hs⟩

/-- **Refuted: presence.** With nobody on the bus (nobody pulls the line, nothing but its own pulse is received) w1_reset returns 0 all the same. -/
theorem w1_reset_nobody (s : St) (hp : s.presence = false) (hf : s.fifo = []) (ha : s.air = []) :
    (zrun [.call good, .echo 0xff, .call good] (s, none)).2 = some (.ok 0) := by
  by_cases hm : s.mode = .reset <;>
  simp [zrun, zstep, reset, setup, good, hm, hp, uwrite, uread, line, ha, hf]

/-- **Refuted: pulse.** A w1_reset given up (its echo came late) leaves the driver waiting: the next one, after whatever was sent meanwhile, returns 0 and sends nothing. -/
theorem w1_reset_no_pulse (s : St) (hp : s.presence = true) (b : Byte) (r : List Byte) (hf : s.fifo = b :: r) :
    (reset good s).2 = .ok 0 ∧ (reset good s).1.sent = s.sent := by
  by_cases hm : s.mode = .reset <;>
  simp [reset, setup, good, hm, hp, uread, hf]

/-- such a state is reached: w1_reset, given up, then a byte written -/
theorem w1_reset_no_pulse_reached : ∃ l, (zrun [.call good] (init 9600, none)).2 = some (.err .eagain) ∧
    (wrun l ⟨(zrun [.call good] (init 9600, none)).1, [], [0x44]⟩).todo = [] ∧
    (wrun l ⟨(zrun [.call good] (init 9600, none)).1, [], [0x44]⟩).st.presence = true ∧
    (wrun l ⟨(zrun [.call good] (init 9600, none)).1, [], [0x44]⟩).st.fifo = [0] :=
  ⟨List.replicate 8 (.call good) ++ [.echo 0xff], by decide +kernel⟩

/-- **Refuted: recovery.** w1_reset does not forget a byte given up: the bits w1_write has sent of it are taken off the next byte ... -/
theorem w1_reset_keeps (a : Ans) (s : St) : (reset a s).1.tx = s.tx ∧ (reset a s).1.rx = s.rx := by
  unfold reset setup uwrite uread
  by_cases hm : s.mode = .reset
  · cases hp : s.presence <;> cases hw : a.write <;> cases hr : a.read <;> cases hf : s.fifo <;> simp [hm, hp, hf]
  · cases hs : a.setup <;> cases hp : s.presence <;> cases hw : a.write <;> cases hr : a.read <;> cases hf : s.fifo <;> simp [hm, hp, hf]

/-- ... so that 0x01 written after a byte of which one bit went out is said to be written, and seven zeros were sent -/
theorem w1_write_after : ∀ s : St, s.tx = 1 → s.mode = .reset →
    (wrun (List.replicate 7 (.call good)) ⟨s, [], [0x01]⟩).todo = [] ∧
    (wrun (List.replicate 7 (.call good)) ⟨s, [], [0x01]⟩).st.sent = s.sent ++ List.replicate 7 (120000, 0xf0) := by
  intro s h1 h2
  have step : ∀ (k : Nat) (st : St), 1 ≤ k → k < 8 → st.tx = k → (st.mode = .write0 → st.baud = 120000) →
      (write good 0x01 st).1.sent = st.sent ++ [(120000, 0xf0)] ∧ ((write good 0x01 st).1.mode = .write0 → (write good 0x01 st).1.baud = 120000) ∧
      (k = 7 → (write good 0x01 st).2 = .ok 1) ∧ (k < 7 → (write good 0x01 st).2 = .err .eagain ∧ (write good 0x01 st).1.tx = k + 1) := by
    intro k st hk1 hk2 hk hb
    have hbit : ∀ j : Fin 8, 1 ≤ j.val → bit 0x01 j.val = false := by decide
    have hbk := hbit ⟨k, hk2⟩ hk1
    dsimp only at hbk
    have hmo : modeOf 0x01 st.tx = .write0 := by unfold modeOf; rw [hk, hbk]; rfl
    have hb' : st.mode = modeOf 0x01 st.tx → st.baud = rate st.mode := by
      intro h; rw [hmo] at h; rw [hb h, h]; rfl
    have hg := write_good 0x01 st (by omega) hb'
    have e : slotOf (bit 0x01 st.tx) = (120000, 0xf0) := by rw [hk, hbk]; rfl
    rw [e] at hg
    refine ⟨hg, ?_⟩
    rcases write_cases good 0x01 st (by omega) hb' with ⟨_, h2, _, _⟩ | ⟨_, h2, h3⟩
    · rw [h2] at hg
      have := congrArg List.length hg
      simp at this
    · refine ⟨fun hm => by rw [h2, hm]; rfl, ?_, ?_⟩
      · intro h7
        rcases h3 with ⟨_, h4, _⟩ | ⟨h4, _⟩
        · exact h4
        · omega
      · intro h7
        rcases h3 with ⟨h4, _⟩ | ⟨_, h4, h5⟩
        · omega
        · exact ⟨h4, by rw [h5, hk]⟩
  have key : ∀ (n k : Nat) (st : St), k + n = 8 → 1 ≤ k → 1 ≤ n → st.tx = k → (st.mode = .write0 → st.baud = 120000) →
      (wrun (List.replicate n (.call good)) ⟨st, [], [0x01]⟩).todo = [] ∧
      (wrun (List.replicate n (.call good)) ⟨st, [], [0x01]⟩).st.sent = st.sent ++ List.replicate n (120000, 0xf0) := by
    intro n
    induction n with
    | zero => intro k st _ _ h; omega
    | succ n ih =>
      intro k st hkn hk1 _ hk hb
      obtain ⟨a1, a2, a3, a4⟩ := step k st hk1 (by omega) hk hb
      rw [List.replicate_succ, List.replicate_succ]
      show (wrun (List.replicate n (.call good)) (match write good 0x01 st with
        | (s1, .ok _) => ⟨s1, [] ++ [0x01], []⟩
        | (s1, .err _) => ⟨s1, [], [0x01]⟩)).todo = [] ∧ (wrun (List.replicate n (.call good)) (match write good 0x01 st with
        | (s1, .ok _) => ⟨s1, [] ++ [0x01], []⟩
        | (s1, .err _) => ⟨s1, [], [0x01]⟩)).st.sent = _
      rcases hw : write good 0x01 st with ⟨s1, r⟩
      rw [hw] at a1 a2 a3 a4
      dsimp only at a1 a2 a3 a4
      by_cases h7 : k = 7
      · have hr := a3 h7
        subst hr
        have hn : n = 0 := by omega
        subst hn
        exact ⟨rfl, a1⟩
      · obtain ⟨hr, ht⟩ := a4 (by omega)
        subst hr
        obtain ⟨i1, i2⟩ := ih (k + 1) s1 (by omega) (by omega) (by omega) ht a2
        exact ⟨i1, by rw [i2, a1]; simp⟩
  exact key 7 1 s (by omega) (by omega) (by omega) h1 (fun h => by rw [h2] at h; cases h)

/-! ## Reading -/

/-- the byte whose bits are the answers different from 0, from bit `k` on -/
def gather : List Byte → Nat → Byte
  | [], _ => 0
  | v :: l, k => ((if v ≠ 0 then 1#8 else 0#8) <<< k) ||| gather l (k + 1)

/-- **w1_read**, if the answer of each slot is the only byte received when it is asked for: the eighth call returns 1, and the bits of the answers have been added to
what the buffer held. Missing: a buffer that is not 0, answers that come later, slots in which the slave can be heard. -/
theorem w1_read_partial : ∀ (vs : List Byte) (s : St) (buf : Byte) (r0 : Option Res), s.rx + vs.length = 8 → s.fifo = [] → r0 ≠ some (.ok 1) → vs ≠ [] →
    let c := rrun (vs.flatMap (fun v => [.other v, .call good])) ⟨s, buf, r0⟩
    c.res = some (.ok 1) ∧ c.buf = buf ||| gather vs s.rx ∧ c.st.rx = 0 := by
  intro vs
  induction vs with
  | nil => intro s buf r0 _ _ _ h; exact absurd rfl h
  | cons v vs ih =>
    intro s buf r0 hl hf hr _
    have hcall : rstep ⟨{ s with fifo := [v] }, buf, r0⟩ (.call good) =
        ⟨(read good buf { s with fifo := [v] }).1, (read good buf { s with fifo := [v] }).2.1, some (read good buf { s with fifo := [v] }).2.2⟩ := by
      show (if r0 = some (.ok 1) then _ else _) = _
      rw [if_neg hr]; rfl
    have hline : rstep ⟨s, buf, r0⟩ (.other v) = ⟨{ s with fifo := [v] }, buf, r0⟩ := by
      show (⟨{ s with fifo := s.fifo ++ [v] }, buf, r0⟩ : RCl) = _
      rw [hf]; rfl
    have hread : ∃ s1 : St, s1.fifo = [] ∧ read good buf { s with fifo := [v] } =
        if s.rx + 1 = 8 then ({ s1 with rx := 0 }, buf ||| ((if v ≠ 0 then 1#8 else 0#8) <<< s.rx), .ok 1)
        else ({ s1 with rx := s.rx + 1 }, buf ||| ((if v ≠ 0 then 1#8 else 0#8) <<< s.rx), .err .eagain) := by
      by_cases hm : s.mode = .read
      · refine ⟨{ s with fifo := [], sent := s.sent ++ [(s.baud, 0)], air := s.air ++ [0] }, rfl, ?_⟩
        simp [read, slot, setup, uwrite, uread, good, hm]
      · refine ⟨{ s with fifo := [], baud := 120000, mode := .read, sent := s.sent ++ [(120000, 0)], air := s.air ++ [0] }, rfl, ?_⟩
        simp [read, slot, setup, uwrite, uread, good, hm, rate]
    obtain ⟨s1, hs1, hrd⟩ := hread
    simp only [List.flatMap_cons, List.cons_append, List.nil_append]
    show (rrun _ (rstep (rstep ⟨s, buf, r0⟩ (.other v)) (.call good))).res = _ ∧ (rrun _ (rstep (rstep ⟨s, buf, r0⟩ (.other v)) (.call good))).buf = _ ∧
      (rrun _ (rstep (rstep ⟨s, buf, r0⟩ (.other v)) (.call good))).st.rx = 0
    rw [hline, hcall, hrd]
    simp only [List.length_cons] at hl
    by_cases h8 : s.rx + 1 = 8
    · have hv : vs = [] := List.eq_nil_of_length_eq_zero (by omega)
      subst hv
      rw [if_pos h8]
      exact ⟨rfl, by simp [rrun, gather], rfl⟩
    · rw [if_neg h8]
      have hvs : vs ≠ [] := fun h => by subst h; simp at hl; omega
      obtain ⟨i1, i2, i3⟩ := ih { s1 with rx := s.rx + 1 } (buf ||| ((if v ≠ 0 then 1#8 else 0#8) <<< s.rx)) (some (.err .eagain))
        (by show s.rx + 1 + vs.length = 8; omega) hs1 (by simp) hvs
      exact ⟨i1, by rw [i2]; show _ = buf ||| (_ ||| gather vs (s.rx + 1)); rw [BitVec.or_assoc], i3⟩

/-- **Refuted: the buffer.** What the buffer held is never cleared: bits of it that are 1 stay, whatever is read, in every history -/
theorem w1_read_sticks : ∀ (l : List Ev) (c : RCl), (rrun l c).buf &&& c.buf = c.buf := by
  have hself : ∀ a b : Byte, (a ||| b) &&& a = a := by
    intro a b; ext i hi; simp only [BitVec.getElem_and, BitVec.getElem_or]; cases a[i] <;> cases b[i] <;> rfl
  intro l
  induction l with
  | nil => intro c; exact BitVec.and_self
  | cons e l ih =>
    intro c
    have h1 : (rstep c e).buf &&& c.buf = c.buf := by
      cases e with
      | echo p => exact BitVec.and_self
      | other b => exact BitVec.and_self
      | call a =>
        unfold rstep
        dsimp only
        split
        · exact BitVec.and_self
        · unfold read
          rcases slot a .read 0 c.st with ⟨s1, r⟩
          cases r with
          | error e => exact BitVec.and_self
          | ok v =>
            dsimp only
            by_cases h8 : s1.rx + 1 = 8
            · rw [if_pos h8]; exact hself _ _
            · rw [if_neg h8]; exact hself _ _
    have h2 := ih (rstep c e)
    show (rrun l (rstep c e)).buf &&& c.buf = c.buf
    rw [← h1, ← BitVec.and_assoc, h2]

/-- nothing but zeros is on the line and has been received -/
structure Mute (buf : Byte) (c : RCl) : Prop where
  buf : c.buf = buf
  air : ∀ b ∈ c.st.air, b = 0
  fifo : ∀ b ∈ c.st.fifo, b = 0

theorem slot_mute (a : Ans) (s : St) (ha : ∀ b ∈ s.air, b = 0) (hf : ∀ b ∈ s.fifo, b = 0) :
    (∀ b ∈ (slot a .read 0 s).1.air, b = 0) ∧ (∀ b ∈ (slot a .read 0 s).1.fifo, b = 0) ∧ (∀ v, (slot a .read 0 s).2 = .ok v → v = 0) := by
  have hset : ∃ s1 o, setup a .read s = (s1, o) ∧ s1.air = s.air ∧ s1.fifo = s.fifo := by
    unfold setup
    by_cases hm : s.mode = .read
    · rw [if_pos hm]; exact ⟨_, _, rfl, rfl, rfl⟩
    · rw [if_neg hm]; cases a.setup <;> exact ⟨_, _, rfl, rfl, rfl⟩
  obtain ⟨s1, o, he, h1, h2⟩ := hset
  unfold slot
  rw [he]
  cases o with
  | some e => exact ⟨by rw [← h1] at ha; exact ha, by rw [← h2] at hf; exact hf, fun v h => (by cases h)⟩
  | none =>
    simp only [uwrite]
    cases a.write with
    | some e => exact ⟨by rw [← h1] at ha; exact ha, by rw [← h2] at hf; exact hf, fun v h => (by cases h)⟩
    | none =>
      have hair : ∀ b ∈ s1.air ++ [0], b = 0 := by
        intro b hb
        rcases List.mem_append.mp hb with h | h
        · exact ha b (h1 ▸ h)
        · simpa using h
      simp only [uread]
      rw [← h2] at hf
      cases a.read with
      | some e => exact ⟨hair, hf, fun v h => by injection h with h; exact h.symm⟩
      | none =>
        cases hfe : s1.fifo with
        | nil => exact ⟨hair, by simp [hfe], fun v h => by injection h with h; exact h.symm⟩
        | cons b t =>
          rw [hfe] at hf
          exact ⟨hair, fun x hx => hf x (List.mem_cons_of_mem _ hx), fun v h => by injection h with h; rw [← h]; exact hf b List.mem_cons_self⟩

/-- **Refuted: w1_read is deaf.** It holds the line low for the whole of its slot, so what it receives is 0 whatever the slave does: if nothing else is received (every byte
received is one that was sent, less the bits somebody pulls down) and nothing but zeros was left over, the buffer never changes,
whatever the slave answers, the UART does, and the schedule. -/
theorem w1_read_deaf (l : List Ev) (hl : ∀ e ∈ l, ∀ b, e ≠ .other b) (s : St) (buf : Byte) (r0 : Option Res) (ha : ∀ b ∈ s.air, b = 0) (hf : ∀ b ∈ s.fifo, b = 0) :
    (rrun l ⟨s, buf, r0⟩).buf = buf := by
  have key : ∀ (l : List Ev) (c : RCl), (∀ e ∈ l, ∀ b, e ≠ .other b) → Mute buf c → Mute buf (rrun l c) := by
    intro l
    induction l with
    | nil => intro c _ h; exact h
    | cons e l ih =>
      intro c hl h
      refine ih _ (fun e he => hl e (List.mem_cons_of_mem _ he)) ?_
      obtain ⟨st, bf, rs⟩ := c
      cases e with
      | other b => exact absurd rfl (hl _ List.mem_cons_self b)
      | echo p =>
        show Mute buf ⟨line (.echo p) st, bf, rs⟩
        unfold line
        cases hair : st.air with
        | nil => exact ⟨h.buf, h.air, h.fifo⟩
        | cons b t =>
          have hall := h.air
          dsimp only at hall
          rw [hair] at hall
          refine ⟨h.buf, fun x hx => hall x (List.mem_cons_of_mem _ hx), ?_⟩
          intro x hx
          rcases List.mem_append.mp hx with hx | hx
          · exact h.fifo x hx
          · have hb := hall b List.mem_cons_self
            rw [List.mem_singleton.mp hx, hb]
            exact BitVec.zero_and
      | call a =>
        show Mute buf (if rs = some (.ok 1) then _ else _)
        split
        · exact h
        · obtain ⟨m1, m2, m3⟩ := slot_mute a st h.air h.fifo
          have hb := h.buf
          dsimp only at hb
          dsimp only
          rcases hsl : slot a .read 0 st with ⟨s1, r⟩
          rw [hsl] at m1 m2 m3
          cases r with
          | error e => exact ⟨hb, m1, m2⟩
          | ok v =>
            have hv := m3 v rfl
            subst hv
            dsimp only
            by_cases h8 : s1.rx + 1 = 8
            · rw [if_pos h8]; exact ⟨by show bf ||| _ = buf; rw [hb]; simp, m1, m2⟩
            · rw [if_neg h8]; exact ⟨by show bf ||| _ = buf; rw [hb]; simp, m1, m2⟩
  exact (key l ⟨s, buf, r0⟩ hl ⟨rfl, ha, hf⟩).buf

/-- **Refuted: echoes.** w1_write does not wait for the byte it sent to come back: what w1_read returns may be the ones that were written before. A byte of ones is written, its
echoes come late, and is read back though the slave answers zeros only. -/
theorem w1_read_echoes : ∃ lw lr, (∀ e ∈ lr, ∃ a, e = .call a) ∧ (wrun lw ⟨init 9600, [], [0xff]⟩).todo = [] ∧
    (rrun lr ⟨(wrun lw ⟨init 9600, [], [0xff]⟩).st, 0, none⟩).res = some (.ok 1) ∧ (rrun lr ⟨(wrun lw ⟨init 9600, [], [0xff]⟩).st, 0, none⟩).buf = 0xff := by
  refine ⟨List.replicate 8 (.call good) ++ List.replicate 8 (.echo 0xff), List.replicate 8 (.call good), ?_, by decide +kernel⟩
  intro e he
  exact ⟨good, List.eq_of_mem_replicate he⟩

/-! ## Cases -/

example : slots 0x05 = [(1000000, 0xff), (120000, 0xf0), (1000000, 0xff), (120000, 0xf0), (120000, 0xf0), (120000, 0xf0), (120000, 0xf0), (120000, 0xf0)] := by decide
/-- refusals and all -/
example : (wrun ([.call { setup := some .eio, after := 5 }, .call { write := some .eagain }] ++ List.replicate 9 (.call good)) ⟨init 9600, [], [0x05, 0x80]⟩).done = [0x05] ∧
    (wrun ([.call { setup := some .eio, after := 5 }, .call { write := some .eagain }] ++ List.replicate 9 (.call good)) ⟨init 9600, [], [0x05, 0x80]⟩).st.sent =
      slots 0x05 ++ [(120000, 0xf0)] := by decide +kernel
example : (init 9600).tx = 0 ∧ ¬ ((init 9600).mode = .write0 ∨ (init 9600).mode = .write1) ∧ (init 9600).presence = false ∧ (init 9600).fifo = [] := by decide
example : gather [1, 0, 0xff, 0, 0, 0, 0, 0x80] 0 = 0x85 := by decide

end Pico.W1
