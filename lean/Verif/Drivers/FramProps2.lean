import Verif.Drivers.FramProps
/-! C100: the invariant of the application with the chip, and the theorems. -/
namespace Pico.Fram
open Pico.Twi

def Op.addr : Op → Nat
  | .write a _ => a
  | .read a _ => a

/-- the calls' slave address is that of the operation -/
def Right7 (id : BitVec 2) (s : Sys) (a : Nat) : Prop := s.twiAddr = sl id (decide (256 ≤ a))

/-- where an operation is; `w`: the contents before it -/
inductive Ph (id : BitVec 2) (w : Mem) (s : Sys) : Op → Nat → List Byte → Prop
  | setup (o : Op) : s.state = .setup → s.ctx.state = .idle → s.hw.pend = .none → s.chip.mem = w → Ph id w s o 0 []
  | aIdle (o : Op) : s.state = .address → s.ctx.state = .idle → s.hw.pend = .none → s.chip.mem = w → Right7 id s o.addr → Ph id w s o 0 []
  | aStart (o : Op) : s.state = .address → s.ctx.state = .start → Starting s.hw → s.chip.mem = w → Right7 id s o.addr → Ph id w s o 0 []
  | aSla (o : Op) : s.state = .address → s.ctx.state = .sla → Busy s.hw .addr → s.hw.dr = sla (sla7 s) false → s.chip.mem = w → Right7 id s o.addr → Ph id w s o 0 []
  | aSlaD (o : Op) : s.state = .address → s.ctx.state = .sla → Held s.hw 0x18 → s.chip.mode = .latch → s.chip.page = decide (256 ≤ o.addr) → s.chip.mem = w → Right7 id s o.addr →
      Ph id w s o 0 []
  | aStop (a n : Nat) : s.state = .address → s.ctx = ⟨.stop, 1⟩ → Busy s.hw .tx → s.hw.dr = BitVec.ofNat 8 a → s.chip.mode = .latch → s.chip.page = decide (256 ≤ a) →
      s.chip.mem = w → Right7 id s a → Ph id w s (.read a n) 0 []
  | aStopD (a n : Nat) : s.state = .address → s.ctx = ⟨.stop, 1⟩ → Held s.hw 0x28 → s.chip.ptr = at' a 0 → s.chip.mem = w → Right7 id s a → Ph id w s (.read a n) 0 []
  | wFirst (a : Nat) (l : List Byte) : s.state = .data → s.ctx.state = .data → Busy s.hw .tx → s.hw.dr = BitVec.ofNat 8 a → s.chip.mode = .latch → s.chip.page = decide (256 ≤ a) →
      s.chip.mem = w → Ph id w s (.write a l) 0 []
  | wData (a : Nat) (l : List Byte) (k : Nat) : k + 1 < l.length → s.state = .data → s.ctx.state = .data → Busy s.hw .tx → s.hw.dr = l.getD k 0 → s.chip.mode = .write →
      s.chip.ptr = at' a k → s.chip.mem = over w a (l.take k) → Ph id w s (.write a l) (k + 1) []
  | wReady (a : Nat) (l : List Byte) (k : Nat) : k < l.length → s.state = .data → s.ctx.state = .data → Held s.hw 0x28 → s.chip.mode = .write →
      s.chip.ptr = at' a k → s.chip.mem = over w a (l.take k) → Ph id w s (.write a l) k []
  | wLast (a : Nat) (l : List Byte) (k : Nat) : k + 1 = l.length → s.state = .data → s.ctx = ⟨.stop, 1⟩ → Busy s.hw .tx → s.hw.dr = l.getD k 0 → s.chip.mode = .write →
      s.chip.ptr = at' a k → s.chip.mem = over w a (l.take k) → Ph id w s (.write a l) k []
  | wEnd (a : Nat) (l : List Byte) (k : Nat) : k + 1 = l.length → s.state = .data → s.ctx = ⟨.stop, 1⟩ → Held s.hw 0x28 → s.chip.mem = over w a l → Ph id w s (.write a l) k []
  | rIdle (a n : Nat) : s.state = .data → s.ctx.state = .idle → s.hw.pend = .none → s.chip.ptr = at' a 0 → s.chip.mem = w → Right7 id s a → Ph id w s (.read a n) 0 []
  | rStart (a n : Nat) : s.state = .data → s.ctx.state = .start → Starting s.hw → s.chip.ptr = at' a 0 → s.chip.mem = w → Right7 id s a → Ph id w s (.read a n) 0 []
  | rSla (a n : Nat) : s.state = .data → s.ctx.state = .sla → Busy s.hw .addr → s.hw.dr = sla (sla7 s) true → s.chip.ptr = at' a 0 → s.chip.mem = w → Right7 id s a →
      Ph id w s (.read a n) 0 []
  | rSlaD (a n : Nat) : s.state = .data → s.ctx.state = .sla → Held s.hw 0x40 → s.chip.mode = .read → s.chip.ptr = at' a 0 → s.chip.mem = w → Ph id w s (.read a n) 0 []
  | rData (a n k : Nat) : k < n → s.state = .data → s.ctx.state = .data → Busy s.hw .rx → s.hw.cr.ea = decide (n - k ≠ 1) → s.chip.mode = .read → s.chip.ptr = at' a k →
      s.chip.mem = w → Ph id w s (.read a n) k (slice w a k)
  | rReady (a n k : Nat) : k < n → s.state = .data → s.ctx.state = .data → Held s.hw (if n - k = 1 then 0x58 else 0x50) → s.hw.cr.ea = decide (n - k ≠ 1) →
      s.hw.dr = w (at' a k) → s.chip.mode = .read → s.chip.ptr = at' a (k + 1) → s.chip.mem = w → Ph id w s (.read a n) k (slice w a k)

theorem after_snoc (d : Done) (l : List Done) : ∀ m, after m (l ++ [d]) = after (after m l) [d] := by
  induction l with
  | nil => intro m; rfl
  | cons c l ih => intro m; cases c <;> exact ih _

theorem right_snoc (d : Done) (l : List Done) : ∀ m, Right m (l ++ [d]) ↔ Right m l ∧ Right (after m l) [d] := by
  induction l with
  | nil => intro m; simp [Right, after]
  | cons c l ih =>
    intro m
    cases c with
    | wrote a b => exact ih _
    | got a b =>
      show (_ ∧ Right m (l ++ [d])) ↔ (_ ∧ Right m l) ∧ _
      rw [ih, and_assoc]
      rfl

/-- `m`: the contents at the beginning -/
structure Inv (id : BitVec 2) (m : Mem) (x : App) : Prop where
  wrong : x.wrong = false
  right : Right m x.fin
  slave : ∃ p, x.sys.slave = sl id p
  ok : ∀ o, x.cur = some o → o.ok
  ph : match x.cur with
    | none => x.pos = 0 ∧ x.buf = [] ∧ x.sys.state = .setup ∧ x.sys.ctx.state = .idle ∧ x.sys.hw.pend = .none ∧ x.sys.chip.mem = after m x.fin
    | some o => Ph id (after m x.fin) x.sys o x.pos x.buf

theorem inv_boot (id : BitVec 2) (c : Chip) (p : Bool) : Inv id c.mem (boot ⟨id, p⟩ c) :=
  ⟨rfl, trivial, ⟨false, sl_init id⟩, (by intro o h; cases h), ⟨rfl, rfl, rfl, rfl, rfl, rfl⟩⟩

theorem inv_begin (q : Dev) (m : Mem) (x : App) (o : Op) (ho : o.ok) (h : Inv q.id m x) : Inv q.id m (step q x (.begin o)) := by
  unfold step
  by_cases e : x.cur = none
  · simp only [e, if_true]
    obtain ⟨h1, h2, h3, h4, h5⟩ := h
    rw [e] at h5
    obtain ⟨a1, a2, a3, a4, a5, a6⟩ := h5
    exact ⟨h1, h2, h3, (by intro o' h'; cases h'; exact ho), Ph.setup o a3 a4 a5 a6⟩
  · simp only [e, if_false]
    exact h

theorem ph_hw (id : BitVec 2) (w : Mem) (s : Sys) (o : Op) (k : Nat) (b : List Byte) (ho : o.ok) (h : Ph id w s o k b) :
    Ph id w (hwStep ⟨id, true⟩ s) o k b ∧ (hwStep ⟨id, true⟩ s).hw.pend = .none ∧ (hwStep ⟨id, true⟩ s).slave = s.slave ∧
      (hwStep ⟨id, true⟩ s).state = s.state ∧ (hwStep ⟨id, true⟩ s).ctx = s.ctx := by
  have none : s.hw.pend = .none → Ph id w (hwStep ⟨id, true⟩ s) o k b ∧ (hwStep ⟨id, true⟩ s).hw.pend = .none ∧ (hwStep ⟨id, true⟩ s).slave = s.slave ∧
      (hwStep ⟨id, true⟩ s).state = s.state ∧ (hwStep ⟨id, true⟩ s).ctx = s.ctx := by
    intro e; rw [hw_none _ _ e]; exact ⟨h, e, rfl, rfl, rfl⟩
  cases h with
  | setup _ a1 a2 a3 a4 => exact none a3
  | aIdle _ a1 a2 a3 a4 => exact none a3
  | aStart _ a1 a2 a3 a4 a5 =>
    rcases a3 with a3 | a3
    · obtain ⟨h', b1, b2, b3, b4⟩ := hw_start ⟨id, true⟩ s a3.1
      rw [b4]
      exact ⟨.aStart o a1 a2 (Or.inr ⟨b1, b2, b3⟩) a4 a5, b1, rfl, rfl, rfl⟩
    · exact none a3.1
  | aSla _ a1 a2 a3 a4 a5 a6 =>
    have a4' := a4
    unfold sla7 at a4'
    rw [a6] at a4'
    obtain ⟨h', b1, b4⟩ := hw_addr id _ false s a3 a4'
    rw [b4]
    exact ⟨.aSlaD o a1 a2 b1 rfl rfl a5 a6, b1.pend, rfl, rfl, rfl⟩
  | aSlaD _ a1 a2 a3 => exact none a3.pend
  | aStop a n a1 a2 a3 a4 a5 a6 a7 a8 =>
    obtain ⟨h', b1, b4⟩ := hw_tx id s a3
    rw [b4]
    refine ⟨.aStopD a n a1 a2 b1 ?_ ?_ a8, b1.pend, rfl, rfl, rfl⟩
    · simp only [Chip.see, a5, a4, a6]
      exact latch_right a (by have := ho.2; have := ho.1; omega)
    · simp only [Chip.see, a5, a7]
  | aStopD a n a1 a2 a3 => exact none a3.pend
  | wFirst a l a1 a2 a3 a4 a5 a6 a7 =>
    have hl : 0 < l.length := List.length_pos_iff.mpr ho.1
    obtain ⟨h', b1, b4⟩ := hw_tx id s a3
    rw [b4]
    refine ⟨.wReady a l 0 hl a1 a2 b1 ?_ ?_ ?_, b1.pend, rfl, rfl, rfl⟩
    · simp only [Chip.see, a5]
    · simp only [Chip.see, a5, a4, a6]
      exact latch_right a (by have := ho.2; omega)
    · simp only [Chip.see, a5, a7, List.take_zero, over]
  | wData a l k hk a1 a2 a3 a4 a5 a6 a7 =>
    obtain ⟨h', b1, b4⟩ := hw_tx id s a3
    rw [b4]
    refine ⟨.wReady a l (k + 1) hk a1 a2 b1 ?_ ?_ ?_, b1.pend, rfl, rfl, rfl⟩
    · simp only [Chip.see, a5]
    · simp only [Chip.see, a5, a6]; exact at_succ a k
    · simp only [Chip.see, a5, a6, a7, a4]; exact over_take w a l k (by omega)
  | wReady a l k hk a1 a2 a3 => exact none a3.pend
  | wLast a l k hk a1 a2 a3 a4 a5 a6 a7 =>
    obtain ⟨h', b1, b4⟩ := hw_tx id s a3
    rw [b4]
    refine ⟨.wEnd a l k hk a1 a2 b1 ?_, b1.pend, rfl, rfl, rfl⟩
    simp only [Chip.see, a5, a6, a7, a4]
    rw [over_take w a l k (by omega), hk, List.take_length]
  | wEnd a l k hk a1 a2 a3 => exact none a3.pend
  | rIdle a n a1 a2 a3 => exact none a3
  | rStart a n a1 a2 a3 a4 a5 a6 =>
    rcases a3 with a3 | a3
    · obtain ⟨h', b1, b2, b3, b4⟩ := hw_start ⟨id, true⟩ s a3.1
      rw [b4]
      exact ⟨.rStart a n a1 a2 (Or.inr ⟨b1, b2, b3⟩) a4 a5 a6, b1, rfl, rfl, rfl⟩
    · exact none a3.1
  | rSla a n a1 a2 a3 a4 a5 a6 a7 =>
    have a4' := a4
    unfold sla7 at a4'
    rw [a7] at a4'
    obtain ⟨h', b1, b4⟩ := hw_addr id _ true s a3 a4'
    rw [b4]
    exact ⟨.rSlaD a n a1 a2 b1 rfl a5 a6, b1.pend, rfl, rfl, rfl⟩
  | rSlaD a n a1 a2 a3 => exact none a3.pend
  | rData a n k hk a1 a2 a3 a4 a5 a6 a7 =>
    obtain ⟨h', b1, b2, b3, b4⟩ := hw_rx ⟨id, true⟩ s a3 a5
    rw [b4]
    refine ⟨.rReady a n k hk a1 a2 ?_ (b2.trans a4) ?_ a5 ?_ a7, b1.pend, rfl, rfl, rfl⟩
    · rw [a4] at b1
      by_cases e : n - k = 1
      · rw [if_pos e]; rw [if_neg (by simp [e])] at b1; exact b1
      · rw [if_neg e]; rw [if_pos (by simp [e])] at b1; exact b1
    · show h'.dr = _
      rw [b3, a6, a7]
    · show s.chip.ptr + 1#9 = _
      rw [a6]; exact at_succ a k
  | rReady a n k hk a1 a2 a3 => exact none a3.pend

theorem inv_hw (id : BitVec 2) (m : Mem) (x : App) (h : Inv id m x) : Inv id m (step ⟨id, true⟩ x .hw) := by
  obtain ⟨h1, h2, h3, h4, h5⟩ := h
  refine ⟨h1, h2, ?_, h4, ?_⟩
  · exact h3
  · show match x.cur with
      | none => _
      | some o => Ph id (after m x.fin) (hwStep ⟨id, true⟩ x.sys) o x.pos x.buf
    rcases hc : x.cur with _ | o
    · rw [hc] at h5
      obtain ⟨b1, b2, b3, b4, b5, b6⟩ := h5
      refine ⟨b1, b2, ?_⟩
      show (hwStep _ x.sys).state = _ ∧ (hwStep _ x.sys).ctx.state = _ ∧ (hwStep _ x.sys).hw.pend = _ ∧ (hwStep _ x.sys).chip.mem = _
      rw [hw_none _ _ b5]
      exact ⟨b3, b4, b5, b6⟩
    · rw [hc] at h5
      exact (ph_hw id _ x.sys o x.pos x.buf (h4 o hc) h5).1

end Pico.Fram
