/-
drivers/twi/twi-avr.c as a master (C79): theorems.
-/
import Verif.Drivers.TwiAvr
namespace Pico.TwiAvr
open Pico.Twi

def isRead : Msg → Bool
  | .write _ _ _ => false
  | .read _ _ _ => true

def hasS : Msg → Bool
  | .write _ s _ => s
  | .read _ s _ => s

def exp (a : BitVec 7) (x : App) : List Bus := x.fin.flatMap (seen a)

def hd (a : BitVec 7) (r s : Bool) : List Bus := if s then [.start, .addr (sla a r) true] else []

def txs (l : List Byte) : List Bus := l.map (fun b => .tx b true)

theorem sla_dir (a : BitVec 7) (r : Bool) : (sla a r).getLsbD 0 = r := by
  cases r
  · show (a ++ BitVec.ofBool false).getLsbD 0 = false
    rw [BitVec.getLsbD_append]; rfl
  · show (a ++ BitVec.ofBool true).getLsbD 0 = true
    rw [BitVec.getLsbD_append]; rfl

def Rest (h : Hw) (held : Bool) : Prop :=
  h.pend = .none ∧ h.cr.sto = false ∧ h.cr.sta = false ∧ h.cr.int = held ∧ h.tws = if held then 0x28 else 0xf8

/-- what holds of the interface and of the bus, depending on the state of the driver -/
def Phase (a : BitVec 7) (x : App) : Option Msg → State → Prop
  | none, .idle => x.pos = 0 ∧ x.buf = [] ∧ Rest x.hw x.held ∧ x.hw.bus = exp a x
  | some m, .idle => okMsg x.held m = true ∧ x.pos = 0 ∧ x.buf = [] ∧ Rest x.hw x.held ∧ x.hw.bus = exp a x
  | some m, .start => okMsg x.held m = true ∧ hasS m = true ∧ x.pos = 0 ∧ x.buf = [] ∧ x.hw.cr.sto = false ∧
      ((x.hw.pend = .start ∧ x.hw.cr.int = false ∧ x.hw.bus = exp a x) ∨
       (x.hw.pend = .none ∧ x.hw.cr.int = true ∧ (x.hw.tws = 0x8 ∨ x.hw.tws = 0x10) ∧ x.hw.bus = exp a x ++ [.start]))
  | some m, .sla => okMsg x.held m = true ∧ hasS m = true ∧ x.pos = 0 ∧ x.buf = [] ∧ x.hw.cr.sto = false ∧ x.hw.cr.sta = false ∧
      ((x.hw.pend = .addr ∧ x.hw.cr.int = false ∧ x.hw.dr = sla a (isRead m) ∧ x.hw.bus = exp a x ++ [.start]) ∨
       (∃ ack, x.hw.pend = .none ∧ x.hw.cr.int = true ∧ x.hw.tws = (if isRead m then (if ack then 0x40 else 0x48) else (if ack then 0x18 else 0x20)) ∧
          x.hw.bus = exp a x ++ [.start, .addr (sla a (isRead m)) ack]))
  | some (.write l s _), .data => x.pos < l.length ∧ x.buf = [] ∧ x.hw.cr.sto = false ∧ x.hw.cr.sta = false ∧
      ((x.hw.pend = .tx ∧ x.hw.cr.int = false ∧ 0 < x.pos ∧ x.hw.dr = l.getD (x.pos - 1) 0 ∧ x.hw.bus = exp a x ++ hd a false s ++ txs (l.take (x.pos - 1))) ∨
       (x.hw.pend = .none ∧ x.hw.cr.int = true ∧ x.hw.tws = 0x28 ∧ x.hw.bus = exp a x ++ hd a false s ++ txs (l.take x.pos)))
  | some (.read n s p), .data => x.pos < n ∧ s = true ∧ p = true ∧ x.buf.length = x.pos ∧ x.hw.cr.sto = false ∧ x.hw.cr.sta = false ∧ x.hw.cr.ea = decide (2 ≤ n - x.pos) ∧
      ((x.hw.pend = .rx ∧ x.hw.cr.int = false ∧ x.hw.bus = exp a x ++ hd a true true ++ x.buf.map (fun d => .rx d true)) ∨
       (x.hw.pend = .none ∧ x.hw.cr.int = true ∧ x.hw.tws = (if x.hw.cr.ea then 0x50 else 0x58) ∧
          x.hw.bus = exp a x ++ hd a true true ++ x.buf.map (fun d => .rx d true) ++ [.rx x.hw.dr x.hw.cr.ea]))
  | some (.write l s _), .stop => x.pos + 1 = l.length ∧ x.buf = [] ∧ x.ctx.last = 1 ∧ x.hw.cr.sto = false ∧ x.hw.cr.sta = false ∧
      ((x.hw.pend = .tx ∧ x.hw.cr.int = false ∧ x.hw.dr = l.getD x.pos 0 ∧ x.hw.bus = exp a x ++ hd a false s ++ txs (l.take x.pos)) ∨
       (x.hw.pend = .none ∧ x.hw.cr.int = true ∧ x.hw.tws = 0x28 ∧ x.hw.bus = exp a x ++ hd a false s ++ txs l))
  | _, _ => False

def Inv (a : BitVec 7) (x : App) : Prop := x.wrong = false ∧ (∀ r ∈ x.fin, fits r) ∧ Phase a x x.cur x.ctx.state

theorem take_snoc (l : List Byte) (k : Nat) (h : k < l.length) : txs (l.take (k + 1)) = txs (l.take k) ++ [.tx (l.getD k 0) true] := by
  have : l.take (k + 1) = l.take k ++ [l.getD k 0] := by
    rw [List.take_succ_eq_append_getElem h]
    simp [List.getD, h]
  rw [this]; simp [txs]

theorem inv_boot (a : BitVec 7) : Inv a boot := ⟨rfl, (by intro r hr; cases hr), rfl, rfl, ⟨rfl, rfl, rfl, rfl, rfl⟩, rfl⟩

theorem inv_begin (a : BitVec 7) (x : App) (m : Msg) (h : Inv a x) : Inv a (step a x (.begin m)) := by
  obtain ⟨h1, h2, h3⟩ := h
  simp only [step]
  by_cases c : x.cur = none ∧ okMsg x.held m = true
  · rw [if_pos c]
    rw [c.1] at h3
    cases hs : x.ctx.state <;> rw [hs] at h3 <;> try exact h3.elim
    refine ⟨h1, h2, ?_⟩
    show Phase a _ (some m) x.ctx.state
    rw [hs]
    exact ⟨c.2, rfl, rfl, h3.2.2.1, h3.2.2.2⟩
  · rw [if_neg c]; exact ⟨h1, h2, h3⟩

theorem inv_hw (a : BitVec 7) (x : App) (ack : Bool) (d : Byte) (hk : x.hw.pend = .tx → ack = true) (h : Inv a x) : Inv a (step a x (.hw ack d)) := by
  obtain ⟨h1, h2, h3⟩ := h
  refine ⟨h1, h2, ?_⟩
  show Phase a (step a x (.hw ack d)) x.cur x.ctx.state
  have idle : x.hw.pend = .none → step a x (.hw ack d) = x := by
    intro hp; simp only [step, finish, hp]
  cases hc : x.cur with
  | none =>
    rw [hc] at h3
    cases hs : x.ctx.state <;> rw [hs] at h3 <;> try exact h3.elim
    rw [idle h3.2.2.1.1]; exact h3
  | some m =>
    rw [hc] at h3
    cases hs : x.ctx.state <;> rw [hs] at h3
    · rw [idle h3.2.2.2.1.1]; exact h3
    · obtain ⟨g1, g2, g3, g4, g5, g6⟩ := h3
      rcases g6 with ⟨p1, p2, p3⟩ | ⟨p1, p2⟩
      · refine ⟨g1, g2, g3, g4, ?_, Or.inr ?_⟩
        · simp only [step, finish, p1]; exact g5
        · simp only [step, finish, p1]
          refine ⟨trivial, trivial, ?_, by rw [p3]; rfl⟩
          by_cases c : x.hw.tws = 0xf8
          · rw [if_pos c]; exact Or.inl rfl
          · rw [if_neg c]; exact Or.inr rfl
      · rw [idle p1]; exact ⟨g1, g2, g3, g4, g5, Or.inr ⟨p1, p2⟩⟩
    · obtain ⟨g1, g2, g3, g4, g5, g6, g7⟩ := h3
      rcases g7 with ⟨p1, p2, p3, p4⟩ | ⟨k, p1, p2⟩
      · refine ⟨g1, g2, g3, g4, ?_, ?_, Or.inr ⟨ack, ?_⟩⟩
        · simp only [step, finish, p1]; exact g5
        · simp only [step, finish, p1]; exact g6
        · simp only [step, finish, p1]
          refine ⟨trivial, trivial, by rw [p3, sla_dir], ?_⟩
          rw [p4, p3, List.append_assoc]; rfl
      · rw [idle p1]; exact ⟨g1, g2, g3, g4, g5, g6, Or.inr ⟨k, p1, p2⟩⟩
    · cases m with
      | write l s p =>
        obtain ⟨g1, g2, g3, g4, g5⟩ := h3
        rcases g5 with ⟨p1, p2, p3, p4, p5⟩ | ⟨p1, p2⟩
        · have hk := hk p1
          subst hk
          refine ⟨g1, g2, ?_, ?_, Or.inr ?_⟩
          · simp only [step, finish, p1]; exact g3
          · simp only [step, finish, p1]; exact g4
          · simp only [step, finish, p1]
            refine ⟨trivial, trivial, by simp, ?_⟩
            show x.hw.bus ++ [.tx x.hw.dr true] = exp a x ++ hd a false s ++ txs (l.take x.pos)
            have e : x.pos = (x.pos - 1) + 1 := by omega
            rw [e, take_snoc l (x.pos - 1) (by omega), p5, p4]
            simp only [List.append_assoc, Nat.add_sub_cancel]
        · rw [idle p1]; exact ⟨g1, g2, g3, g4, Or.inr ⟨p1, p2⟩⟩
      | read n s p =>
        obtain ⟨g1, g2, g3, g4, g5, g6, g7, g8⟩ := h3
        rcases g8 with ⟨p1, p2, p3⟩ | ⟨p1, p2⟩
        · refine ⟨g1, g2, g3, g4, ?_, ?_, ?_, Or.inr ?_⟩
          · simp only [step, finish, p1]; exact g5
          · simp only [step, finish, p1]; exact g6
          · simp only [step, finish, p1]; exact g7
          · simp only [step, finish, p1]
            refine ⟨trivial, trivial, trivial, ?_⟩
            rw [p3]; rfl
        · rw [idle p1]; exact ⟨g1, g2, g3, g4, g5, g6, g7, Or.inr ⟨p1, p2⟩⟩
    · cases m with
      | write l s p =>
        obtain ⟨g1, g2, g3, g4, g5, g6⟩ := h3
        rcases g6 with ⟨p1, p2, p4, p5⟩ | ⟨p1, p2⟩
        · have hk := hk p1
          subst hk
          refine ⟨g1, g2, g3, ?_, ?_, Or.inr ?_⟩
          · simp only [step, finish, p1]; exact g4
          · simp only [step, finish, p1]; exact g5
          · simp only [step, finish, p1]
            refine ⟨trivial, trivial, by simp, ?_⟩
            show x.hw.bus ++ [.tx x.hw.dr true] = exp a x ++ hd a false s ++ txs l
            have : txs l = txs (l.take (x.pos + 1)) := by rw [List.take_of_length_le (by omega)]
            rw [this, take_snoc l x.pos (by omega), p5, p4]
            simp only [List.append_assoc]
        · rw [idle p1]; exact ⟨g1, g2, g3, g4, g5, Or.inr ⟨p1, p2⟩⟩
      | read n s p => exact h3.elim

theorem exp_snoc (a : BitVec 7) (f : List (Msg × Res)) (r : Msg × Res) : (f ++ [r]).flatMap (seen a) = f.flatMap (seen a) ++ seen a r := by simp

theorem okMsg_write {held : Bool} {l : List Byte} {s p : Bool} (h : okMsg held (.write l s p) = true) : 0 < l.length ∧ (s = true ∨ held = true) := by
  simp only [okMsg, Bool.and_eq_true, Bool.not_eq_true', Bool.or_eq_true] at h
  refine ⟨?_, h.2⟩
  cases l with
  | nil => simp at h
  | cons b l => simp

theorem okMsg_read {held : Bool} {n : Nat} {s p : Bool} (h : okMsg held (.read n s p) = true) : 0 < n ∧ s = true ∧ p = true := by
  simp only [okMsg, Bool.and_eq_true, decide_eq_true_eq] at h
  exact ⟨h.1.1, h.1.2, h.2⟩

/-- rounds of (interface, call) left -/
def meas (x : App) : Nat :=
  match x.cur with
  | none => 0
  | some m =>
    let rem := (match m with | .write l _ _ => l.length | .read n _ _ => n) - x.pos
    match x.ctx.state with
    | .stop => rem
    | .data => rem + 1
    | .sla => rem + 2
    | .start => rem + 3
    | .idle => rem + 4

/-- a call keeps the invariant, and when the interface has nothing under way the message gets nearer to its end -/
theorem inv_call (a : BitVec 7) (x : App) (h : Inv a x) : Inv a (call a x) ∧ (x.hw.pend = .none → x.cur ≠ none → meas (call a x) < meas x) := by
  obtain ⟨h1, h2, h3⟩ := h
  cases hc : x.cur with
  | none => simp only [call, hc]; exact ⟨⟨h1, h2, by rw [hc] at h3; rw [hc]; exact h3⟩, by simp⟩
  | some m =>
    rw [hc] at h3
    cases m with
    | write l s p =>
      cases hs : x.ctx.state <;> rw [hs] at h3
      · -- idle
        obtain ⟨g1, g2, g3, g4, g5⟩ := h3
        have hok := okMsg_write g1
        cases s
        · have hh : x.held = true := by simpa using hok.2
          have e : call a x = { x with ctx := { x.ctx with state := .data } } := by simp [call, hc, write, hs, mIdle]
          rw [e]
          refine ⟨⟨h1, h2, ?_⟩, ?_⟩
          · show Phase a _ x.cur .data
            rw [hc]
            obtain ⟨r1, r2, r3, r4, r5⟩ := g4
            refine ⟨by rw [g2]; exact hok.1, g3, r2, r3, Or.inr ⟨r1, by rw [r4, hh], by rw [r5, hh]; rfl, ?_⟩⟩
            show x.hw.bus = exp a x ++ hd a false false ++ txs (l.take x.pos)
            rw [g2, g5]; simp [hd, txs]
          · intro _ _; simp [meas, hc, hs]
        · have e : call a x = { x with ctx := { x.ctx with state := .start }, hw := wrCr ⟨true, false, true, false, true⟩ x.hw } := by simp [call, hc, write, hs, mIdle]
          rw [e]
          refine ⟨⟨h1, h2, ?_⟩, ?_⟩
          · show Phase a _ x.cur .start
            rw [hc]
            refine ⟨g1, rfl, g2, g3, rfl, Or.inl ⟨rfl, rfl, g5⟩⟩
          · intro _ _; simp [meas, hc, hs]
      · -- start
        obtain ⟨g1, g2, g3, g4, g5, g6⟩ := h3
        rcases g6 with ⟨p1, p2, p3⟩ | ⟨p1, p2, p3, p4⟩
        · have e : call a x = x := by simp [call, hc, write, hs, mStart, p2]; rw [← hc]
          rw [e]
          refine ⟨⟨h1, h2, by rw [hc, hs]; exact ⟨g1, g2, g3, g4, g5, Or.inl ⟨p1, p2, p3⟩⟩⟩, ?_⟩
          intro hp; rw [p1] at hp; cases hp
        · have ht : ¬ (x.hw.tws ≠ 0x8 ∧ x.hw.tws ≠ 0x10) := by omega
          have e : call a x = { x with ctx := { x.ctx with state := .sla }, hw := wrCr { x.hw.cr with sta := false, sto := false } { x.hw with dr := sla a false } } := by
            simp only [call, hc, write, hs, mStart, p2, Bool.true_eq_false, if_false]; rw [if_neg ht]
          rw [e]
          refine ⟨⟨h1, h2, ?_⟩, ?_⟩
          · show Phase a _ x.cur .sla
            rw [hc]
            refine ⟨g1, g2, g3, g4, ?_, ?_, Or.inl ?_⟩
            · simp [wrCr, p2]
            · simp [wrCr, p2]
            · simp only [wrCr, p2, if_true, Bool.false_eq_true, if_false]
              rw [if_pos p3]
              exact ⟨rfl, trivial, rfl, p4⟩
          · intro _ _; simp [meas, hc, hs]
      · -- sla
        obtain ⟨g1, g2, g3, g4, g5, g6, g7⟩ := h3
        have hok := okMsg_write g1
        rcases g7 with ⟨p1, p2, p3, p4⟩ | ⟨ack, p1, p2, p3, p4⟩
        · have e : call a x = x := by simp [call, hc, write, hs, wSla, p2]; rw [← hc]
          rw [e]
          refine ⟨⟨h1, h2, by rw [hc, hs]; exact ⟨g1, g2, g3, g4, g5, g6, Or.inl ⟨p1, p2, p3, p4⟩⟩⟩, ?_⟩
          intro hp; rw [p1] at hp; cases hp
        · simp only [isRead, Bool.false_eq_true, if_false] at p3 p4
          have hS : s = true := g2
          subst hS
          cases ack
          · simp only [Bool.false_eq_true, if_false] at p3
            have e : call a x = { x with ctx := { x.ctx with state := .idle }, hw := wrCr ⟨true, false, false, true, true⟩ x.hw, cur := none, pos := 0, buf := [],
                                         fin := x.fin ++ [(.write l true p, .absent)], held := false } := by
              simp [call, hc, write, hs, wSla, p2, p3, mStop, fail]
            rw [e]
            refine ⟨⟨h1, ?_, ?_⟩, ?_⟩
            · intro r hr
              rcases List.mem_append.1 hr with hr | hr
              · exact h2 r hr
              · rw [List.mem_singleton] at hr; rw [hr]; trivial
            · refine ⟨rfl, rfl, ⟨rfl, rfl, rfl, rfl, rfl⟩, ?_⟩
              show x.hw.bus ++ [.stop] = (x.fin ++ [(Msg.write l true p, Res.absent)]).flatMap (seen a)
              rw [exp_snoc, p4]; simp [exp, seen]
            · intro _ _; simp [meas, hc, hs]
          · simp only [if_true] at p3
            by_cases hn : l.length = 1
            · have e : call a x = { x with ctx := { state := .stop, last := 1 }, hw := wrCr x.hw.cr { x.hw with dr := l.getD x.pos 0 } } := by
                simp [call, hc, write, hs, wSla, p2, p3, g3, hn]
              rw [e]
              refine ⟨⟨h1, h2, ?_⟩, ?_⟩
              · show Phase a _ x.cur .stop
                rw [hc]
                refine ⟨by show x.pos + 1 = _; omega, g4, rfl, ?_, ?_, Or.inl ?_⟩
                · simp [wrCr, p2, g5, g6]
                · simp [wrCr, p2, g5, g6]
                · simp only [wrCr, p2, g5, g6, p3, if_true, Bool.false_eq_true, if_false]
                  refine ⟨rfl, trivial, trivial, ?_⟩
                  show x.hw.bus = exp a x ++ hd a false true ++ txs (l.take x.pos)
                  rw [g3, p4]; simp [hd, txs]
              · intro _ _; simp [meas, hc, hs]
            · have e : call a x = { x with ctx := { x.ctx with state := .data }, hw := wrCr x.hw.cr { x.hw with dr := l.getD x.pos 0 }, pos := 1 } := by
                have hn2 : ¬ 1 = l.length := fun h => hn h.symm
                have hn3 : ¬ 1 > l.length := by omega
                have hn4 : ¬ l.length < 1 := by omega
                simp only [call, hc, write, hs, wSla, p2, p3, g3, advance, Bool.true_eq_false, if_false, ne_eq, not_true, Nat.sub_zero, hn, Nat.zero_add, hn2, hn3, Nat.one_ne_zero, or_self, List.append_nil]
              rw [e]
              refine ⟨⟨h1, h2, ?_⟩, ?_⟩
              · show Phase a _ x.cur .data
                rw [hc]
                refine ⟨by show 1 < l.length; omega, g4, ?_, ?_, Or.inl ?_⟩
                · simp [wrCr, p2, g5, g6]
                · simp [wrCr, p2, g5, g6]
                · simp only [wrCr, p2, g5, g6, p3, if_true, Bool.false_eq_true, if_false]
                  refine ⟨rfl, trivial, by omega, by rw [g3], ?_⟩
                  show x.hw.bus = exp a x ++ hd a false true ++ txs (l.take (1 - 1))
                  rw [p4]; simp [hd, txs]
              · intro _ _; simp [meas, hc, hs, g3]; omega
      · -- data
        obtain ⟨g1, g2, g3, g4, g5⟩ := h3
        rcases g5 with ⟨p1, p2, p3, p4, p5⟩ | ⟨p1, p2, p3, p4⟩
        · have e : call a x = x := by simp [call, hc, write, hs, wData, p2]; rw [← hc]
          rw [e]
          refine ⟨⟨h1, h2, by rw [hc, hs]; exact ⟨g1, g2, g3, g4, Or.inl ⟨p1, p2, p3, p4, p5⟩⟩⟩, ?_⟩
          intro hp; rw [p1] at hp; cases hp
        · by_cases hn : l.length - x.pos = 1
          · have e : call a x = { x with ctx := { state := .stop, last := 1 }, hw := wrCr x.hw.cr { x.hw with dr := l.getD x.pos 0 } } := by
              simp [call, hc, write, hs, wData, p2, p3, hn]
            rw [e]
            refine ⟨⟨h1, h2, ?_⟩, ?_⟩
            · show Phase a _ x.cur .stop
              rw [hc]
              refine ⟨by show x.pos + 1 = _; omega, g2, rfl, ?_, ?_, Or.inl ?_⟩
              · simp [wrCr, p2, g3, g4]
              · simp [wrCr, p2, g3, g4]
              · simp only [wrCr, p2, g3, g4, p3, if_true, Bool.false_eq_true, if_false]
                exact ⟨rfl, trivial, trivial, p4⟩
            · intro _ _; simp [meas, hc, hs]
          · have e : call a x = { x with ctx := x.ctx, hw := wrCr x.hw.cr { x.hw with dr := l.getD x.pos 0 }, pos := x.pos + 1 } := by
              have hn2 : ¬ x.pos + 1 = l.length := by omega
              have hn3 : ¬ l.length < x.pos + 1 := by omega
              simp [call, hc, write, hs, wData, p2, p3, hn, advance, hn2, hn3]
            rw [e]
            refine ⟨⟨h1, h2, ?_⟩, ?_⟩
            · show Phase a _ x.cur x.ctx.state
              rw [hc, hs]
              refine ⟨by show x.pos + 1 < l.length; omega, g2, ?_, ?_, Or.inl ?_⟩
              · simp [wrCr, p2, g3, g4]
              · simp [wrCr, p2, g3, g4]
              · simp only [wrCr, p2, g3, g4, p3, if_true, Bool.false_eq_true, if_false]
                exact ⟨rfl, trivial, by omega, rfl, p4⟩
            · intro _ _; simp [meas, hc, hs]; omega
      · -- stop
        obtain ⟨g1, g2, g3, g4, g5, g6⟩ := h3
        rcases g6 with ⟨p1, p2, p3, p4⟩ | ⟨p1, p2, p3, p4⟩
        · have e : call a x = x := by simp [call, hc, write, hs, rwStop, p2]; rw [← hc]
          rw [e]
          refine ⟨⟨h1, h2, by rw [hc, hs]; exact ⟨g1, g2, g3, g4, g5, Or.inl ⟨p1, p2, p3, p4⟩⟩⟩, ?_⟩
          intro hp; rw [p1] at hp; cases hp
        · have e : call a x = { x with ctx := { x.ctx with state := .idle }, hw := (if p then wrCr ⟨true, false, false, true, true⟩ x.hw else x.hw), cur := none, pos := 0, buf := [],
                                       fin := x.fin ++ [(.write l s p, .wrote)], held := !p } := by
            simp [call, hc, write, hs, rwStop, p2, g3, advance, g1]
          rw [e]
          refine ⟨⟨h1, ?_, ?_⟩, ?_⟩
          · intro r hr
            rcases List.mem_append.1 hr with hr | hr
            · exact h2 r hr
            · rw [List.mem_singleton] at hr; rw [hr]; trivial
          · cases p
            · refine ⟨rfl, rfl, ⟨p1, g4, g5, p2, p3⟩, ?_⟩
              show x.hw.bus = (x.fin ++ [(Msg.write l s false, Res.wrote)]).flatMap (seen a)
              rw [exp_snoc, p4]; simp [exp, seen, hd, txs]
            · refine ⟨rfl, rfl, ⟨rfl, rfl, rfl, rfl, rfl⟩, ?_⟩
              show x.hw.bus ++ [.stop] = (x.fin ++ [(Msg.write l s true, Res.wrote)]).flatMap (seen a)
              rw [exp_snoc, p4]; simp [exp, seen, hd, txs]
          · intro _ _; simp [meas, hc, hs]; omega
    | read n s p =>
      cases hs : x.ctx.state <;> rw [hs] at h3
      · -- idle
        obtain ⟨g1, g2, g3, g4, g5⟩ := h3
        have hok := okMsg_read g1
        obtain ⟨k1, k2, k3⟩ := hok
        subst k2
        have e : call a x = { x with ctx := { x.ctx with state := .start }, hw := wrCr ⟨true, false, true, false, true⟩ x.hw } := by simp [call, hc, read, hs, mIdle]
        rw [e]
        refine ⟨⟨h1, h2, ?_⟩, ?_⟩
        · show Phase a _ x.cur .start
          rw [hc]
          refine ⟨g1, rfl, g2, g3, rfl, Or.inl ⟨rfl, rfl, g5⟩⟩
        · intro _ _; simp [meas, hc, hs]
      · -- start
        obtain ⟨g1, g2, g3, g4, g5, g6⟩ := h3
        rcases g6 with ⟨p1, p2, p3⟩ | ⟨p1, p2, p3, p4⟩
        · have e : call a x = x := by simp [call, hc, read, hs, mStart, p2]; rw [← hc]
          rw [e]
          refine ⟨⟨h1, h2, by rw [hc, hs]; exact ⟨g1, g2, g3, g4, g5, Or.inl ⟨p1, p2, p3⟩⟩⟩, ?_⟩
          intro hp; rw [p1] at hp; cases hp
        · have ht : ¬ (x.hw.tws ≠ 0x8 ∧ x.hw.tws ≠ 0x10) := by omega
          have e : call a x = { x with ctx := { x.ctx with state := .sla }, hw := wrCr { x.hw.cr with sta := false, sto := false } { x.hw with dr := sla a true } } := by
            simp only [call, hc, read, hs, mStart, p2, Bool.true_eq_false, if_false]; rw [if_neg ht]
          rw [e]
          refine ⟨⟨h1, h2, ?_⟩, ?_⟩
          · show Phase a _ x.cur .sla
            rw [hc]
            refine ⟨g1, g2, g3, g4, ?_, ?_, Or.inl ?_⟩
            · simp [wrCr, p2]
            · simp [wrCr, p2]
            · simp only [wrCr, p2, if_true, Bool.false_eq_true, if_false]
              rw [if_pos p3]
              exact ⟨rfl, trivial, rfl, p4⟩
          · intro _ _; simp [meas, hc, hs]
      · -- sla
        obtain ⟨g1, g2, g3, g4, g5, g6, g7⟩ := h3
        have hok := okMsg_read g1
        obtain ⟨k1, k2, k3⟩ := hok
        subst k2; subst k3
        rcases g7 with ⟨p1, p2, p3, p4⟩ | ⟨ack, p1, p2, p3, p4⟩
        · have e : call a x = x := by simp [call, hc, read, hs, rSla, p2]; rw [← hc]
          rw [e]
          refine ⟨⟨h1, h2, by rw [hc, hs]; exact ⟨g1, g2, g3, g4, g5, g6, Or.inl ⟨p1, p2, p3, p4⟩⟩⟩, ?_⟩
          intro hp; rw [p1] at hp; cases hp
        · simp only [isRead, if_true] at p3 p4
          cases ack
          · simp only [Bool.false_eq_true, if_false] at p3
            have e : call a x = { x with ctx := { x.ctx with state := .idle }, hw := wrCr ⟨true, false, false, true, true⟩ x.hw, cur := none, pos := 0, buf := [],
                                         fin := x.fin ++ [(.read n true true, .absent)], held := false } := by
              simp [call, hc, read, hs, rSla, p2, p3, mStop, fail]
            rw [e]
            refine ⟨⟨h1, ?_, ?_⟩, ?_⟩
            · intro r hr
              rcases List.mem_append.1 hr with hr | hr
              · exact h2 r hr
              · rw [List.mem_singleton] at hr; rw [hr]; trivial
            · refine ⟨rfl, rfl, ⟨rfl, rfl, rfl, rfl, rfl⟩, ?_⟩
              show x.hw.bus ++ [.stop] = (x.fin ++ [(Msg.read n true true, Res.absent)]).flatMap (seen a)
              rw [exp_snoc, p4]; simp [exp, seen]
            · intro _ _; simp [meas, hc, hs]
          · simp only [if_true] at p3
            have e : call a x = { x with ctx := { x.ctx with state := .data }, hw := wrCr (if n = 1 then { x.hw.cr with ea := false } else { x.hw.cr with ea := true }) x.hw } := by
              simp [call, hc, read, hs, rSla, p2, p3, g3]
            have e2 : wrCr (if n = 1 then { x.hw.cr with ea := false } else { x.hw.cr with ea := true }) x.hw =
                { x.hw with cr := { x.hw.cr with int := false, ea := decide (2 ≤ n) }, pend := .rx } := by
              by_cases hn : n = 1
              · subst hn; simp [wrCr, p2, g5, g6, p3]
              · rw [if_neg hn]
                have : decide (2 ≤ n) = true := by simp; omega
                simp [wrCr, p2, g5, g6, p3, this]
            rw [e, e2]
            refine ⟨⟨h1, h2, ?_⟩, ?_⟩
            · show Phase a _ x.cur .data
              rw [hc]
              refine ⟨by show x.pos < n; omega, rfl, rfl, by show x.buf.length = x.pos; rw [g4, g3]; rfl, g5, g6, ?_, Or.inl ⟨rfl, rfl, ?_⟩⟩
              · show decide (2 ≤ n) = decide (2 ≤ n - x.pos); rw [g3]; rfl
              · show x.hw.bus = exp a x ++ hd a true true ++ x.buf.map _
                rw [g4, p4]; simp [hd]
            · intro _ _; simp [meas, hc, hs]
      · -- data
        obtain ⟨g1, g2, g3, g4, g5, g6, g7, g8⟩ := h3
        subst g2; subst g3
        rcases g8 with ⟨p1, p2, p3⟩ | ⟨p1, p2, p3, p4⟩
        · have e : call a x = x := by simp [call, hc, read, hs, rData, p2]; rw [← hc]
          rw [e]
          refine ⟨⟨h1, h2, by rw [hc, hs]; exact ⟨g1, rfl, rfl, g4, g5, g6, g7, Or.inl ⟨p1, p2, p3⟩⟩⟩, ?_⟩
          intro hp; rw [p1] at hp; cases hp
        · have ht : ¬ (x.hw.tws ≠ 0x50 ∧ x.hw.tws ≠ 0x58) := by
            rw [p3]; cases x.hw.cr.ea <;> simp
          by_cases hn : n - x.pos = 1
          · have hea : x.hw.cr.ea = false := by rw [g7, hn]; rfl
            have hp1 : x.pos + 1 = n := by omega
            have e : call a x = { x with ctx := { x.ctx with state := .idle }, hw := wrCr ⟨true, false, false, true, true⟩ x.hw, cur := none, pos := 0, buf := [],
                                         fin := x.fin ++ [(.read n true true, .got (x.buf ++ [x.hw.dr]))], held := false } := by
              simp only [call, hc, read, hs, rData, p2, Bool.true_eq_false, if_false]
              rw [if_neg ht]
              simp [hn, mStop, advance, hp1]
            rw [e]
            refine ⟨⟨h1, ?_, ?_⟩, ?_⟩
            · intro r hr
              rcases List.mem_append.1 hr with hr | hr
              · exact h2 r hr
              · rw [List.mem_singleton] at hr; rw [hr]
                show (x.buf ++ [x.hw.dr]).length = n
                rw [List.length_append, g4]; exact hp1
            · refine ⟨rfl, rfl, ⟨rfl, rfl, rfl, rfl, rfl⟩, ?_⟩
              show x.hw.bus ++ [.stop] = (x.fin ++ [(Msg.read n true true, Res.got (x.buf ++ [x.hw.dr]))]).flatMap (seen a)
              rw [exp_snoc, p4, hea]; simp [exp, seen, hd, rxs]
            · intro _ _; simp [meas, hc, hs]
          · have hp1 : ¬ x.pos + 1 = n := by omega
            have hp2 : ¬ n < x.pos + 1 := by omega
            have hea : x.hw.cr.ea = true := by rw [g7]; simp; omega
            have e : call a x = { x with hw := wrCr (if n - x.pos = 2 then { x.hw.cr with ea := false } else x.hw.cr) x.hw, pos := x.pos + 1, buf := x.buf ++ [x.hw.dr] } := by
              simp only [call, hc, read, hs, rData, p2, Bool.true_eq_false, if_false]
              rw [if_neg ht, if_neg hn]
              simp [advance, hp1, hp2]
              rw [← hc]
            have e2 : wrCr (if n - x.pos = 2 then { x.hw.cr with ea := false } else x.hw.cr) x.hw =
                { x.hw with cr := { x.hw.cr with int := false, ea := decide (2 ≤ n - (x.pos + 1)) }, pend := .rx } := by
              have h50 : x.hw.tws = 0x50 := by rw [p3, hea]; rfl
              by_cases hn2 : n - x.pos = 2
              · have : decide (2 ≤ n - (x.pos + 1)) = false := by simp; omega
                rw [if_pos hn2, this]; simp [wrCr, p2, g5, g6, h50]
              · have : decide (2 ≤ n - (x.pos + 1)) = true := by simp; omega
                rw [if_neg hn2, this]; simp [wrCr, p2, g5, g6, h50, hea]
            rw [e, e2]
            refine ⟨⟨h1, h2, ?_⟩, ?_⟩
            · show Phase a _ x.cur x.ctx.state
              rw [hc, hs]
              refine ⟨by show x.pos + 1 < n; omega, rfl, rfl, ?_, g5, g6, rfl, Or.inl ⟨rfl, rfl, ?_⟩⟩
              · show (x.buf ++ [x.hw.dr]).length = x.pos + 1
                rw [List.length_append, g4]; rfl
              · show x.hw.bus = exp a x ++ hd a true true ++ (x.buf ++ [x.hw.dr]).map _
                rw [p4, hea]; simp
            · intro _ _; simp [meas, hc, hs]; omega
      · exact h3.elim

/-- an execution in which the slave acknowledges the data bytes it is sent -/
def Acked (a : BitVec 7) : List Ev → App → Prop
  | [], _ => True
  | e :: l, x => acked x e ∧ Acked a l (step a x e)

theorem inv_run (a : BitVec 7) (l : List Ev) : ∀ x, Inv a x → Acked a l x → Inv a (run a l x) := by
  induction l with
  | nil => intro x h _; exact h
  | cons e l ih =>
    intro x h hk
    apply ih _ _ hk.2
    cases e with
    | begin m => exact inv_begin a x m h
    | call => exact (inv_call a x h).1
    | hw ack d => exact inv_hw a x ack d hk.1 h

/-- a prefix of what a message must put on the bus (if it is done, or if nobody answers) -/
def under (a : BitVec 7) (m : Msg) (t : List Bus) : Prop :=
  ∃ r, fits (m, r) ∧ t <+: seen a (m, r)

theorem prefix_app {α : Type} (l1 l2 l3 : List α) : l2 <+: l3 → l1 ++ l2 <+: l1 ++ l3 := by
  rintro ⟨t, rfl⟩; exact ⟨t, by simp⟩

theorem take_prefix (l : List Byte) (k : Nat) : txs (l.take k) <+: txs l := by
  refine ⟨txs (l.drop k), ?_⟩
  simp only [txs, ← List.map_append, List.take_append_drop]

theorem rxs_prefix (n : Nat) (buf : List Byte) (h : buf.length < n) : ∃ l : List Byte, l.length = n ∧ buf.map (fun d => Bus.rx d true) <+: rxs l := by
  refine ⟨buf ++ List.replicate (n - buf.length) 0, by simp; omega, ?_⟩
  obtain ⟨k, hk⟩ : ∃ k, n - buf.length = k + 1 := ⟨n - buf.length - 1, by omega⟩
  rw [hk, List.replicate_succ', ← List.append_assoc]
  refine ⟨(List.replicate k 0).map (fun d => Bus.rx d true) ++ [.rx 0 false], ?_⟩
  simp [rxs]

theorem rxs_prefix1 (n : Nat) (buf : List Byte) (d : Byte) (h : buf.length < n) : ∃ l : List Byte, l.length = n ∧
    buf.map (fun d => Bus.rx d true) ++ [.rx d (decide (2 ≤ n - buf.length))] <+: rxs l := by
  by_cases c : n - buf.length = 1
  · refine ⟨buf ++ [d], by simp; omega, ?_⟩
    have : decide (2 ≤ n - buf.length) = false := by rw [c]; rfl
    rw [this]; refine ⟨[], ?_⟩; simp [rxs]
  · have h2 : decide (2 ≤ n - buf.length) = true := by simp; omega
    obtain ⟨l, hl, t, ht⟩ := rxs_prefix n (buf ++ [d]) (by simp; omega)
    refine ⟨l, hl, t, ?_⟩
    rw [h2, ← ht]; simp

/-- C79 (partial): whatever the messages, the moments of the calls and the times taken by the interface, if the slave acknowledges the data bytes:
no call returns an unexpected value; what has been on the bus is, message after message, exactly what was asked for: START, address, the bytes of the buffer in order,
STOP if asked; the bytes given to the application are those received, all acknowledged but the last; an absent slave is reported, after a STOP;
a message under way has put on the bus a beginning of what it has to.
Missing: data bytes not acknowledged (`avr_nack`, `avr_nack_last`), reads without TWI_F_P or TWI_F_S (`avr_read_stop`, `avr_read_hangs`). -/
theorem twi_avr_partial (a : BitVec 7) (l : List Ev) (h : Acked a l boot) :
    (run a l boot).wrong = false ∧
    (∀ r ∈ (run a l boot).fin, fits r) ∧
    (match (run a l boot).cur with
     | none => (run a l boot).hw.bus = (run a l boot).fin.flatMap (seen a)
     | some m => ∃ t, (run a l boot).hw.bus = (run a l boot).fin.flatMap (seen a) ++ t ∧ under a m t) := by
  have hi := inv_run a l boot (inv_boot a) h
  generalize run a l boot = x at hi ⊢
  obtain ⟨h1, h2, h3⟩ := hi
  refine ⟨h1, h2, ?_⟩
  cases hc : x.cur with
  | none =>
    rw [hc] at h3
    cases hs : x.ctx.state <;> rw [hs] at h3 <;> try exact h3.elim
    exact h3.2.2.2
  | some m =>
    rw [hc] at h3
    show ∃ t, x.hw.bus = exp a x ++ t ∧ under a m t
    have nil : x.hw.bus = exp a x → ∃ t, x.hw.bus = exp a x ++ t ∧ under a m t := by
      intro e
      exact ⟨[], by simp [e], .absent, (by cases m <;> trivial), by simp⟩
    cases hs : x.ctx.state <;> rw [hs] at h3
    · exact nil h3.2.2.2.2
    · obtain ⟨g1, g2, g3, g4, g5, g6⟩ := h3
      rcases g6 with ⟨p1, p2, p3⟩ | ⟨p1, p2, p3, p4⟩
      · exact nil p3
      · refine ⟨_, p4, .absent, (by cases m <;> trivial), ?_⟩
        cases m <;> exact ⟨_, rfl⟩
    · obtain ⟨g1, g2, g3, g4, g5, g6, g7⟩ := h3
      rcases g7 with ⟨p1, p2, p3, p4⟩ | ⟨ack, p1, p2, p3, p4⟩
      · refine ⟨_, p4, .absent, (by cases m <;> trivial), ?_⟩
        cases m <;> exact ⟨_, rfl⟩
      · refine ⟨_, p4, ?_⟩
        cases ack
        · refine ⟨.absent, (by cases m <;> trivial), ?_⟩
          cases m <;> exact ⟨_, rfl⟩
        · cases m with
          | write l s p =>
            have : s = true := g2
            subst this
            refine ⟨.wrote, trivial, ?_⟩
            simp only [seen, if_true, isRead, List.append_assoc]; exact List.prefix_append _ _
          | read n s p =>
            have : s = true := g2
            subst this
            refine ⟨.got (List.replicate n 0), by simp [fits], ?_⟩
            simp only [seen, if_true, isRead, List.append_assoc]; exact List.prefix_append _ _
    · cases m with
      | write l s p =>
        obtain ⟨g1, g2, g3, g4, g5⟩ := h3
        have key : ∀ k, x.hw.bus = exp a x ++ hd a false s ++ txs (l.take k) → ∃ t, x.hw.bus = exp a x ++ t ∧ under a (.write l s p) t := by
          intro k e
          refine ⟨hd a false s ++ txs (l.take k), by rw [e, List.append_assoc], .wrote, trivial, ?_⟩
          simp only [seen, List.append_assoc]
          apply prefix_app
          exact (take_prefix l k).trans (List.prefix_append _ _)
        rcases g5 with ⟨p1, p2, p3, p4, p5⟩ | ⟨p1, p2, p3, p4⟩
        · exact key _ p5
        · exact key _ p4
      | read n s p =>
        obtain ⟨g1, g2, g3, g4, g5, g6, g7, g8⟩ := h3
        subst g2; subst g3
        rcases g8 with ⟨p1, p2, p3⟩ | ⟨p1, p2, p3, p4⟩
        · obtain ⟨l, hl, hp⟩ := rxs_prefix n x.buf (by omega)
          refine ⟨_, by rw [p3, List.append_assoc], .got l, hl, ?_⟩
          simp only [seen, List.append_assoc]
          apply prefix_app
          exact hp.trans (List.prefix_append _ _)
        · rw [g7, ← g4] at p4
          obtain ⟨l, hl, hp⟩ := rxs_prefix1 n x.buf x.hw.dr (by omega)
          refine ⟨_, by rw [p4, List.append_assoc, List.append_assoc], .got l, hl, ?_⟩
          simp only [seen, List.append_assoc]
          apply prefix_app
          exact hp.trans (List.prefix_append _ _)
    · cases m with
      | write l s p =>
        obtain ⟨g1, g2, g3, g4, g5, g6⟩ := h3
        have key : ∀ k, x.hw.bus = exp a x ++ hd a false s ++ txs (l.take k) → ∃ t, x.hw.bus = exp a x ++ t ∧ under a (.write l s p) t := by
          intro k e
          refine ⟨hd a false s ++ txs (l.take k), by rw [e, List.append_assoc], .wrote, trivial, ?_⟩
          simp only [seen, List.append_assoc]
          apply prefix_app
          exact (take_prefix l k).trans (List.prefix_append _ _)
        rcases g6 with ⟨p1, p2, p3, p4⟩ | ⟨p1, p2, p3, p4⟩
        · exact key _ p4
        · exact key l.length (by rw [p4, List.take_of_length_le (by omega)])
      | read n s p => exact h3.elim

/-- `k` rounds: the interface ends what it is doing, then a call; the acknowledges and the bytes of the slave are arbitrary, except that data bytes are acknowledged -/
def rounds (a : BitVec 7) (f : Nat → Bool × Byte) : Nat → App → App
  | 0, x => x
  | k + 1, x => rounds a (fun i => f (i + 1)) k (call a { x with hw := finish (f 0).1 (f 0).2 x.hw })

theorem finish_done (ack : Bool) (d : Byte) (h : Hw) : (finish ack d h).pend = .none := by
  unfold finish
  cases hp : h.pend <;> simp [hp]

def msgLen : Msg → Nat
  | .write l _ _ => l.length
  | .read n _ _ => n

/-- C79: a message ends: after at most its length and 4 rounds, from any reachable state -/
theorem twi_avr_ends (a : BitVec 7) (l : List Ev) (h : Acked a l boot) (f : Nat → Bool × Byte) (hf : ∀ i, (f i).1 = true) (m : Msg) (hm : (run a l boot).cur = some m) :
    ∃ k, k ≤ msgLen m + 4 ∧ (rounds a f k (run a l boot)).cur = none := by
  have hi := inv_run a l boot (inv_boot a) h
  have hle : meas (run a l boot) ≤ msgLen m + 4 := by
    unfold meas
    rw [hm]
    cases m <;> simp only [msgLen] <;> cases (run a l boot).ctx.state <;> simp only [] <;> omega
  generalize run a l boot = x at hi hle hm
  clear hm h l
  have key : ∀ n, ∀ x, ∀ f : Nat → Bool × Byte, (∀ i, (f i).1 = true) → Inv a x → meas x ≤ n → ∃ k, k ≤ n ∧ (rounds a f k x).cur = none := by
    intro n
    induction n with
    | zero =>
      intro x f hf hi hx
      refine ⟨0, Nat.le_refl _, ?_⟩
      show x.cur = none
      cases hc : x.cur with
      | none => rfl
      | some m =>
        exfalso
        obtain ⟨h1, h2, h3⟩ := hi
        rw [hc] at h3
        have : meas x = 0 := by omega
        unfold meas at this
        rw [hc] at this
        cases hs : x.ctx.state <;> simp only [hs] at this <;> rw [hs] at h3 <;> try omega
        cases m with
        | write l s p => have := h3.1; simp only [] at *; omega
        | read n s p => exact h3.elim
    | succ n ih =>
      intro x f hf hi hx
      cases hc : x.cur with
      | none => exact ⟨0, Nat.zero_le _, hc⟩
      | some m =>
        have i1 : Inv a { x with hw := finish (f 0).1 (f 0).2 x.hw } := inv_hw a x (f 0).1 (f 0).2 (fun _ => hf 0) hi
        have i2 := inv_call a _ i1
        have hm2 := i2.2 (finish_done _ _ _) (by show x.cur ≠ none; rw [hc]; simp)
        have hm3 : meas { x with hw := finish (f 0).1 (f 0).2 x.hw } = meas x := rfl
        obtain ⟨k, hk1, hk2⟩ := ih _ (fun i => f (i + 1)) (fun i => hf (i + 1)) i2.1 (by omega)
        exact ⟨k + 1, by omega, hk2⟩
  exact key _ x f hf hi hle

/-- the hypotheses are met: register read: one byte written without STOP, then two bytes read after a repeated START -/
def demo : List Ev :=
  [.begin (.write [0x42#8] true false), .call, .hw true 0, .call, .call, .hw true 0, .call, .hw true 0, .call,
   .begin (.read 2 true true), .call, .hw true 0, .call, .hw true 0, .call, .hw true 0x11#8, .call, .hw true 0x22#8, .call]

example : Acked 0x50#7 demo boot ∧ (run 0x50#7 demo boot).fin = [(.write [0x42#8] true false, .wrote), (.read 2 true true, .got [0x11#8, 0x22#8])] ∧
    (run 0x50#7 demo boot).hw.bus = [.start, .addr 0xa0#8 true, .tx 0x42#8 true, .start, .addr 0xa1#8 true, .rx 0x11#8 true, .rx 0x22#8 false, .stop] := by
  refine ⟨?_, by decide, by decide⟩
  simp only [demo, Acked, acked]
  decide

/-! ### What is missing -/

/-- the slave refuses the first of two bytes: both are reported as written; the second never was on the bus -/
theorem avr_nack (a : BitVec 7) (b c : Byte) (p : Bool) :
    let x := run a [.begin (.write [b, c] true p), .call, .hw true 0, .call, .hw true 0, .call, .hw false 0, .call] boot
    x.fin = [(.write [b, c] true p, .wrote)] ∧ x.wrong = false ∧ x.hw.bus = [.start, .addr (sla a false) true, .tx b false, .stop] := by
  have hd : (sla a false)[0] = false := by have := sla_dir a false; simpa using this
  simp [run, step, boot, okMsg, call, write, mIdle, wrCr, finish, mStart, hd, wSla, wData, mStop, advance]

/-- more generally: a byte refused in the middle of a message, the call returns 1 for the byte it was given, which is not sent, and the bus is freed:
what follows of the message is sent as a new one -/
theorem avr_nack_any (a : BitVec 7) (b : Byte) (n : Nat) (s p : Bool) (c : Ctx) (h : Hw) (hs : c.state = .data) (hi : h.cr.int = true) (ht : h.tws = 0x30) :
    (write a b n s p c h).2.2 = .one ∧ (write a b n s p c h).2.1.bus = h.bus ++ [.stop] ∧ (write a b n s p c h).1.state = .idle := by
  simp [write, hs, wData, hi, ht, mStop, wrCr]

/-- the slave refuses the last byte: it is reported as written -/
theorem avr_nack_last (a : BitVec 7) (b : Byte) :
    let x := run a [.begin (.write [b] true true), .call, .hw true 0, .call, .hw true 0, .call, .hw false 0, .call] boot
    x.fin = [(.write [b] true true, .wrote)] ∧ x.wrong = false ∧ x.hw.bus = [.start, .addr (sla a false) true, .tx b false, .stop] := by
  have hd : (sla a false)[0] = false := by have := sla_dir a false; simpa using this
  simp [run, step, boot, okMsg, call, write, mIdle, wrCr, finish, mStart, hd, wSla, rwStop, advance]

/-- a read ends with a STOP even if TWI_F_P is not given -/
theorem avr_read_stop (a : BitVec 7) (n : Nat) (s p : Bool) (c : Ctx) (h : Hw) (b : Byte) (hr : (read a n s p c h).2.2 = .byte b) (hn : n = 1) :
    (read a n s p c h).2.1.bus = h.bus ++ [.stop] ∧ (read a n s p c h).1.state = .idle := by
  subst hn
  cases hs : c.state <;> simp only [read, hs] at hr ⊢
  · cases s <;> simp [mIdle] at hr
  · simp only [mStart] at hr
    by_cases c1 : h.cr.int = false
    · rw [if_pos c1] at hr; cases hr
    · rw [if_neg c1] at hr
      by_cases c2 : h.tws ≠ 0x8 ∧ h.tws ≠ 0x10
      · rw [if_pos c2] at hr; cases hr
      · rw [if_neg c2] at hr; cases hr
  · simp only [rSla] at hr
    by_cases c1 : h.cr.int = false
    · rw [if_pos c1] at hr; cases hr
    · rw [if_neg c1] at hr
      by_cases c2 : h.tws ≠ 0x40
      · rw [if_pos c2] at hr; cases hr
      · rw [if_neg c2] at hr; cases hr
  · simp only [rData] at hr ⊢
    by_cases c1 : h.cr.int = false
    · rw [if_pos c1] at hr; cases hr
    · rw [if_neg c1] at hr ⊢
      by_cases c2 : h.tws ≠ 0x50 ∧ h.tws ≠ 0x58
      · rw [if_pos c2] at hr; cases hr
      · rw [if_neg c2]; simp [mStop, wrCr]
  · simp only [rwStop] at hr
    by_cases c1 : h.cr.int = false
    · rw [if_pos c1] at hr; cases hr
    · rw [if_neg c1] at hr; cases hr

/-- so a read without TWI_F_S, meant to go on after one without TWI_F_P, never ends: all calls say "again", whatever the interface does -/
theorem avr_read_hangs (a : BitVec 7) (n : Nat) (p : Bool) (l : List Ev) (hl : ∀ e ∈ l, ∀ m, e ≠ .begin m) (x : App)
    (hc : x.cur = some (.read n false p)) (hs : x.ctx.state = .idle ∨ x.ctx.state = .data) (hp : x.hw.pend = .none) (hi : x.hw.cr.int = false) :
    (run a l x).cur = some (.read n false p) ∧ (run a l x).pos = x.pos ∧ (run a l x).hw = x.hw := by
  induction l generalizing x with
  | nil => exact ⟨hc, rfl, rfl⟩
  | cons e l ih =>
    have hl' := fun e he => hl e (List.mem_cons_of_mem _ he)
    cases e with
    | begin m => exact absurd rfl (hl _ (by simp) m)
    | hw ack d =>
      have e1 : step a x (.hw ack d) = x := by simp [step, finish, hp]
      show (run a l (step a x (.hw ack d))).cur = _ ∧ _
      have := ih hl' x hc hs hp hi
      simp only [run, List.foldl_cons, e1] at this ⊢
      exact this
    | call =>
      have e1 : step a x .call = { x with ctx := { x.ctx with state := .data } } := by
        rcases hs with hs | hs
        · simp [step, call, hc, read, hs, mIdle]
        · simp only [step, call, hc, read, hs, rData, hi, if_true]
          rw [← hc, ← hs]
      have := ih hl' (step a x .call) (by rw [e1]; exact hc) (by rw [e1]; exact Or.inr rfl) (by rw [e1]; exact hp) (by rw [e1]; exact hi)
      rw [e1] at this
      simp only [run, List.foldl_cons, e1] at this ⊢
      exact this

/-- such a state is reached: a one-byte read without TWI_F_P, then the one meant to follow -/
example : let x := run 0x50#7 [.begin (.read 1 true true), .call, .hw true 0, .call, .hw true 0, .call, .hw true 7, .call] boot
    x.fin = [(.read 1 true true, .got [7])] ∧ x.ctx.state = .idle ∧ x.hw.pend = .none ∧ x.hw.cr.int = false := by decide

end Pico.TwiAvr
