import Verif.Drivers.FramProps3
import Verif.Drivers.TwiAvrProps
/-! C100: the theorems. -/
namespace Pico.Fram
open Pico.Twi

/-- the chip is there, on the interface of an AVR: whatever the order of the calls and of the work of the interface, no operation inside the chip fails, every read gives what
the operations before it left, and when no operation is under way the contents of the chip are what the operations done left -/
theorem fram_avr_partial (id : BitVec 2) (c : Chip) (l : List Ev) (hl : ∀ e ∈ l, e.ok) :
    (run ⟨id, true⟩ l (boot ⟨id, true⟩ c)).wrong = false ∧ Right c.mem (run ⟨id, true⟩ l (boot ⟨id, true⟩ c)).fin ∧
    ((run ⟨id, true⟩ l (boot ⟨id, true⟩ c)).cur = none → (run ⟨id, true⟩ l (boot ⟨id, true⟩ c)).sys.chip.mem = after c.mem (run ⟨id, true⟩ l (boot ⟨id, true⟩ c)).fin) := by
  have h := inv_run id c.mem l _ (inv_boot id c true) hl
  refine ⟨h.wrong, h.right, fun e => ?_⟩
  have p := h.ph
  rw [e] at p
  exact p.2.2.2.2.2

/-- a call goes on with the operation or ends it: then it is the operation that was begun, with the size asked -/
theorem fram_avr_call (id : BitVec 2) (c : Chip) (l : List Ev) (hl : ∀ e ∈ l, e.ok) (o : Op) (ho : (run ⟨id, true⟩ l (boot ⟨id, true⟩ c)).cur = some o) :
    let x := run ⟨id, true⟩ l (boot ⟨id, true⟩ c)
    ((call x).cur = some o ∧ (call x).fin = x.fin) ∨ ((call x).cur = none ∧ ∃ d, (call x).fin = x.fin ++ [d] ∧ o.done d) :=
  ((inv_call id c.mem _ (inv_run id c.mem l _ (inv_boot id c true) hl)).2 o ho).1

/-- the interface works, then the operation is called again, k times -/
def rounds : Nat → List Ev
  | 0 => []
  | k + 1 => .hw :: .call :: rounds k

theorem meas_hw (id : BitVec 2) (m : Mem) (x : App) (h : Inv id m x) :
    (step ⟨id, true⟩ x .hw).sys.hw.pend = .none ∧ meas (step ⟨id, true⟩ x .hw) = meas x ∧ (step ⟨id, true⟩ x .hw).cur = x.cur := by
  have p := h.ph
  rcases hc : x.cur with _ | o
  · rw [hc] at p
    have e : step ⟨id, true⟩ x .hw = x := by
      show { x with sys := hwStep ⟨id, true⟩ x.sys } = x
      rw [hw_none _ _ p.2.2.2.2.1]
    rw [e]
    exact ⟨p.2.2.2.2.1, rfl, hc⟩
  · rw [hc] at p
    obtain ⟨a1, a2, a3, a4, a5⟩ := ph_hw id _ x.sys o x.pos x.buf (h.ok o hc) p
    refine ⟨a2, ?_, hc⟩
    show meas { x with sys := hwStep ⟨id, true⟩ x.sys } = meas x
    unfold meas
    simp only [a4, a5]

theorem ends (id : BitVec 2) (m : Mem) (k : Nat) : ∀ x, Inv id m x → meas x ≤ k → (run ⟨id, true⟩ (rounds k) x).cur = none := by
  induction k with
  | zero =>
    intro x h hk
    rcases hc : x.cur with _ | o
    · exact hc
    · exfalso
      obtain ⟨a1, a2, a3⟩ := meas_hw id m x h
      have := ((inv_call id m _ (inv_hw id m x h)).2 o (a3.trans hc)).2 a1
      omega
  | succ k ih =>
    intro x h hk
    show (run ⟨id, true⟩ (rounds k) (call (step ⟨id, true⟩ x .hw))).cur = none
    obtain ⟨a1, a2, a3⟩ := meas_hw id m x h
    have h' := inv_call id m _ (inv_hw id m x h)
    apply ih _ h'.1
    rcases hc : x.cur with _ | o
    · have e : call (step ⟨id, true⟩ x .hw) = step ⟨id, true⟩ x .hw := by unfold call; rw [a3, hc]
      have e2 : meas x = 0 := by unfold meas; rw [hc]
      rw [e, a2, e2]; omega
    · have := (h'.2 o (a3.trans hc)).2 a1
      omega

theorem meas_le (x : App) (o : Op) (h : x.cur = some o) : meas x ≤ o.size + 9 := by
  unfold meas Op.size
  rw [h]
  cases o with
  | write a b => simp only; split <;> omega
  | read a n => simp only; split <;> omega

/-- the operation under way ends, after at most nine calls more than it has bytes, when the interface has done its work between the calls -/
theorem fram_avr_ends (id : BitVec 2) (c : Chip) (l : List Ev) (hl : ∀ e ∈ l, e.ok) (o : Op) (ho : (run ⟨id, true⟩ l (boot ⟨id, true⟩ c)).cur = some o) :
    (run ⟨id, true⟩ (rounds (o.size + 9)) (run ⟨id, true⟩ l (boot ⟨id, true⟩ c))).cur = none :=
  ends id c.mem _ _ (inv_run id c.mem l _ (inv_boot id c true) hl) (meas_le _ o ho)

/-- a chip -/
def blank : Chip := ⟨fun _ => 0xaa, 0, false, .idle⟩

/-- a history that meets the hypotheses: two bytes are written at 255, which are not in the same half of the chip, and read back -/
theorem fram_sample :
    let l := [.begin (.write 255 [1, 2])] ++ rounds 8 ++ [.begin (.read 255 2)] ++ rounds 11
    (∀ e ∈ l, e.ok) ∧ (run ⟨0, true⟩ l (boot ⟨0, true⟩ blank)).cur = none ∧ (run ⟨0, true⟩ l (boot ⟨0, true⟩ blank)).fin = [.wrote 255 [1, 2], .got 255 [1, 2]] := by
  refine ⟨?_, by decide +kernel, by decide +kernel⟩
  have hr : ∀ k, ∀ e ∈ rounds k, e.ok := by
    intro k
    induction k with
    | zero => intro e he; cases he
    | succ k ih =>
      intro e he
      rcases List.mem_cons.mp he with rfl | he
      · trivial
      · rcases List.mem_cons.mp he with rfl | he
        · trivial
        · exact ih e he
  intro e he
  rcases List.mem_append.mp he with he | he
  · rcases List.mem_append.mp he with he | he
    · rcases List.mem_append.mp he with he | he
      · rw [List.mem_singleton.mp he]; simp [Ev.ok, Op.ok]
      · exact hr _ e he
    · rw [List.mem_singleton.mp he]; simp [Ev.ok, Op.ok]
  · exact hr _ e he

/-! ### what is not true -/

/-- no chip answers -/
inductive Lost (s : Sys) : Prop
  | setup : s.state = .setup → s.ctx.state = .idle → s.hw.pend = .none → Lost s
  | idle : s.state = .address → s.ctx.state = .idle → s.hw.pend = .none → Lost s
  | start : s.state = .address → s.ctx.state = .start → Starting s.hw → Lost s
  | sla : s.state = .address → s.ctx.state = .sla → Busy s.hw .addr → s.hw.dr = sla (sla7 s) false → Lost s
  | nack : s.state = .address → s.ctx.state = .sla → Held s.hw 0x20 → Lost s

theorem tw_nack (b : Byte) (n : Nat) (f p : Bool) (s : Sys) (hs : s.ctx.state = .sla) (hh : Held s.hw 0x20) :
    ∃ h c, h.pend = .none ∧ twiWrite b n f p s = ({ s with ctx := ⟨.idle, s.ctx.last⟩, hw := h, chip := c }, .error) := by
  have e : TwiAvr.write (sla7 s) b n f p s.ctx s.hw = (⟨.idle, s.ctx.last⟩, TwiAvr.wrCr ⟨true, false, false, true, true⟩ s.hw, .epipe) := by
    simp only [TwiAvr.write, hs, TwiAvr.wSla, hh.int, hh.tws]
    simp [TwiAvr.mStop]
  refine ⟨TwiAvr.wrCr ⟨true, false, false, true, true⟩ s.hw, sees s.hw (TwiAvr.wrCr ⟨true, false, false, true, true⟩ s.hw) s.chip, rfl, ?_⟩
  unfold twiWrite
  rw [e]
  rfl

theorem lost_call (a : Nat) (b : Byte) (n : Nat) (ha : a < 512) (hn : n ≠ 0) (s : Sys) (h : Lost s) : (eWrite a b n s).2 = .again ∧ Lost (eWrite a b n s).1 := by
  unfold eWrite
  rw [if_neg (by omega)]
  cases h with
  | setup a1 a2 a3 => rw [a1]; exact ⟨rfl, .idle rfl a2 a3⟩
  | idle a1 a2 a3 =>
    rw [a1]
    obtain ⟨hh, b1, b2⟩ := tw_idle (BitVec.ofNat 8 a) (1 + n) true s a2
    simp only [reqWrite, b2]
    exact ⟨trivial, .start a1 rfl b1⟩
  | start a1 a2 a3 =>
    rw [a1]
    rcases a3 with ⟨a3, a3'⟩ | ⟨a3, a3', a3''⟩
    · simp only [reqWrite, tw_wait _ _ _ _ s (by rw [a2]; decide) a3']
      exact ⟨trivial, .start a1 a2 (Or.inl ⟨a3, a3'⟩)⟩
    · obtain ⟨hh, b1, b2, b3⟩ := tw_start (BitVec.ofNat 8 a) (1 + n) true true s a2 a3' a3''
      simp only [reqWrite, b3]
      exact ⟨trivial, .sla a1 rfl b1 b2⟩
  | sla a1 a2 a3 a4 =>
    rw [a1]
    simp only [reqWrite, tw_wait _ _ _ _ s (by rw [a2]; decide) a3.int]
    exact ⟨trivial, .sla a1 a2 a3 a4⟩
  | nack a1 a2 a3 =>
    rw [a1]
    obtain ⟨hh, c, b1, b3⟩ := tw_nack (BitVec.ofNat 8 a) (1 + n) true true s a2 a3
    simp only [reqWrite, b3]
    exact ⟨trivial, .idle a1 rfl b1⟩

theorem lost_hw (id : BitVec 2) (s : Sys) (h : Lost s) : Lost (hwStep ⟨id, false⟩ s) := by
  cases h with
  | setup a1 a2 a3 => rw [hw_none _ _ a3]; exact .setup a1 a2 a3
  | idle a1 a2 a3 => rw [hw_none _ _ a3]; exact .idle a1 a2 a3
  | start a1 a2 a3 =>
    rcases a3 with a3 | a3
    · obtain ⟨h', b1, b2, b3, b4⟩ := hw_start ⟨id, false⟩ s a3.1
      rw [b4]
      exact .start a1 a2 (Or.inr ⟨b1, b2, b3⟩)
    · rw [hw_none _ _ a3.1]; exact .start a1 a2 (Or.inr a3)
  | sla a1 a2 a3 a4 =>
    obtain ⟨h1, h2, h3, h4⟩ := a3
    have e : (if s.hw.pend = .addr then (⟨id, false⟩ : Dev).acks s.hw.dr else false) = false := by rw [if_pos h1]; rfl
    refine .nack a1 a2 ?_
    unfold hwStep
    simp only [e]
    constructor
    · simp [TwiAvr.finish, h1]
    · simp [TwiAvr.finish, h1]
    · simp [TwiAvr.finish, h1, h3]
    · simp [TwiAvr.finish, h1, h4]
    · simp only [TwiAvr.finish, h1, a4, TwiAvr.sla_dir]; rfl
  | nack a1 a2 a3 => rw [hw_none _ _ a3.pend]; exact .nack a1 a2 a3

/-- there is no chip: every call says "again", for ever, and no error is returned -/
theorem fram_absent (id : BitVec 2) (c : Chip) (a : Nat) (b : List Byte) (hb : b ≠ []) (ha : a < 512) (l : List Ev) (hl : ∀ e ∈ l, e = .call ∨ e = .hw) :
    (run ⟨id, false⟩ (.begin (.write a b) :: l) (boot ⟨id, false⟩ c)).cur = some (.write a b) ∧ (run ⟨id, false⟩ (.begin (.write a b) :: l) (boot ⟨id, false⟩ c)).wrong = false := by
  have hb : b.length ≠ 0 := fun e => hb (List.length_eq_zero_iff.mp e)
  have key : ∀ (l : List Ev), (∀ e ∈ l, e = .call ∨ e = .hw) → ∀ s, Lost s →
      ∃ t, run ⟨id, false⟩ l ⟨s, some (.write a b), 0, [], [], false⟩ = ⟨t, some (.write a b), 0, [], [], false⟩ := by
    intro l
    induction l with
    | nil => intro _ s _; exact ⟨s, rfl⟩
    | cons e l ih =>
      intro hl s hs
      have hl' := fun e' he => hl e' (List.mem_cons_of_mem _ he)
      rcases hl e List.mem_cons_self with rfl | rfl
      · obtain ⟨k1, k2⟩ := lost_call (a + 0) (b.getD 0 0) (b.length - 0) (by omega) (by omega) s hs
        have e : step ⟨id, false⟩ ⟨s, some (.write a b), 0, [], [], false⟩ .call = ⟨(eWrite (a + 0) (b.getD 0 0) (b.length - 0) s).1, some (.write a b), 0, [], [], false⟩ := by
          show take (eWrite (a + 0) (b.getD 0 0) (b.length - 0) s) b.length (fun _ => .wrote a b) _ = _
          unfold take
          rw [k1]
        show ∃ t, run ⟨id, false⟩ l (step ⟨id, false⟩ _ .call) = _
        rw [e]
        exact ih hl' _ k2
      · exact ih hl' _ (lost_hw id s hs)
  obtain ⟨t, ht⟩ := key l hl (init ⟨id, false⟩ c) (.setup rfl rfl rfl)
  have e : run ⟨id, false⟩ (.begin (.write a b) :: l) (boot ⟨id, false⟩ c) = run ⟨id, false⟩ l ⟨init ⟨id, false⟩ c, some (.write a b), 0, [], [], false⟩ := rfl
  rw [e, ht]
  exact ⟨rfl, rfl⟩

/-- an operation that goes past the end is refused in the middle, and leaves the driver there: the next write, to 100, ends well and is at 0 -/
theorem fram_past_end :
    let x := run ⟨0, true⟩ ([.begin (.write 511 [1, 2])] ++ rounds 12) (boot ⟨0, true⟩ blank)
    let y := run ⟨0, true⟩ ([.begin (.write 100 [7])] ++ rounds 12) x
    x.wrong = true ∧ x.cur = none ∧ y.fin = [.wrote 100 [7]] ∧ y.sys.chip.mem 100#9 = 0xaa ∧ y.sys.chip.mem 0#9 = 7 := by decide +kernel

/-- the bus is not released at the end of a write: there is no STOP though the driver asks for one with the address (twi-avr.c looks at the flags of the last call, which has none) -/
theorem fram_no_stop :
    let x := run ⟨0, true⟩ ([.begin (.write 3 [9])] ++ rounds 12) (boot ⟨0, true⟩ blank)
    x.fin = [.wrote 3 [9]] ∧ x.sys.hw.bus = [.start, .addr 0xa0 true, .tx 3 true, .tx 9 true] := by decide +kernel

/-- over twi-dw_apb_i2c.c a write never gets to its data: the call that is to send one byte, the address, is given the length of the data too and reads as many bytes behind
the variable.  `b` is the address, `g :: l` is what is there; nothing tells the driver to stop at one byte (TWI_F_N is not known to it).  Two or more are put
into the queue of the interface, and the value returned is not the 1 the EEPROM driver waits for. -/
theorem fram_dw_garbage (q : TwiDw.Par) (b g : Byte) (l : List Byte) (h : TwiDw.Hw) (ha : h.abrt = none) (hr : h.txf.length + 2 ≤ q.depth) :
    (∃ k, 2 ≤ k ∧ (TwiDw.write q (b :: g :: l) (fun _ => []) .xfer h).2.2 = .sent k) ∧
    ∃ r, (TwiDw.write q (b :: g :: l) (fun _ => []) .xfer h).2.1.txf = h.txf ++ ⟨b, false, false⟩ :: ⟨g, false, l.isEmpty⟩ :: r := by
  have loop : ∀ (l : List Byte) (k : Nat) (h : TwiDw.Hw), 2 ≤ k → h.abrt = none →
      (∃ j, 2 ≤ j ∧ (TwiDw.wLoop q l k (fun _ => []) h).2.2 = .sent j) ∧ ∃ r, (TwiDw.wLoop q l k (fun _ => []) h).2.1.txf = h.txf ++ r := by
    intro l
    induction l with
    | nil =>
      intro k h hk _
      refine ⟨⟨k, hk, ?_⟩, [], ?_⟩
      · simp only [TwiDw.wLoop]; rw [if_neg (by omega)]
      · simp [TwiDw.wLoop]
    | cons c l ih =>
      intro k h hk ha
      simp only [TwiDw.wLoop, TwiDw.works, List.foldl_nil, TwiDw.checkAbort, ha]
      by_cases e : TwiDw.tfnf q h = true
      · rw [e]
        simp only [Bool.not_true, Bool.false_eq_true, if_false]
        have hp : TwiDw.push ⟨c, false, l.isEmpty⟩ h = { h with txf := h.txf ++ [⟨c, false, l.isEmpty⟩] } := by unfold TwiDw.push; rw [ha]; rfl
        obtain ⟨h1, r, h2⟩ := ih (k + 1) (TwiDw.push ⟨c, false, l.isEmpty⟩ h) (by omega) (by rw [hp]; exact ha)
        refine ⟨h1, ⟨c, false, l.isEmpty⟩ :: r, ?_⟩
        rw [h2, hp]
        simp
      · rw [Bool.not_eq_true] at e
        rw [e]
        simp only [Bool.not_false, if_true]
        exact ⟨⟨k, hk, by rw [if_neg (by omega)]⟩, [], by simp⟩
  have e1 : TwiDw.tfnf q h = true := by unfold TwiDw.tfnf; simp; omega
  have hp : TwiDw.push ⟨b, false, false⟩ h = { h with txf := h.txf ++ [⟨b, false, false⟩] } := by unfold TwiDw.push; rw [ha]; rfl
  have e2 : TwiDw.tfnf q (TwiDw.push ⟨b, false, false⟩ h) = true := by rw [hp]; unfold TwiDw.tfnf; simp; omega
  have hp2 : TwiDw.push ⟨g, false, l.isEmpty⟩ (TwiDw.push ⟨b, false, false⟩ h) = { h with txf := h.txf ++ [⟨b, false, false⟩] ++ [⟨g, false, l.isEmpty⟩] } := by
    rw [hp]; unfold TwiDw.push; simp only [ha]; rfl
  have e : TwiDw.write q (b :: g :: l) (fun _ => []) .xfer h = TwiDw.wLoop q l 2 (fun _ => []) (TwiDw.push ⟨g, false, l.isEmpty⟩ (TwiDw.push ⟨b, false, false⟩ h)) := by
    have ha2 : (TwiDw.push ⟨b, false, false⟩ h).abrt = none := by rw [hp]; exact ha
    simp only [TwiDw.write, TwiDw.wLoop, TwiDw.works, List.foldl_nil, TwiDw.checkAbort, ha, ha2, e1, e2, List.isEmpty_cons]
    rfl
  rw [e]
  obtain ⟨h1, r, h2⟩ := loop l 2 (TwiDw.push ⟨g, false, l.isEmpty⟩ (TwiDw.push ⟨b, false, false⟩ h)) (by omega) (by rw [hp2]; exact ha)
  refine ⟨h1, r, ?_⟩
  rw [h2, hp2]
  simp

end Pico.Fram
