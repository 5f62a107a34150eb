import Verif.Drivers.FramProps2
/-! C100: the calls, and the theorems over twi-avr.c. -/
namespace Pico.Fram
open Pico.Twi

/-- how many calls are left at most, each made when the interface is ready -/
def meas (x : App) : Nat :=
  match x.cur with
  | none => 0
  | some (.write _ l) =>
    let r := l.length - x.pos
    match x.sys.state, x.sys.ctx.state with
    | .setup, _ => r + 6
    | .address, .idle => r + 5
    | .address, .start => r + 4
    | .address, _ => r + 3
    | .data, .data => r + 1
    | .data, _ => 1
  | some (.read _ n) =>
    let r := n - x.pos
    match x.sys.state, x.sys.ctx.state with
    | .setup, _ => r + 9
    | .address, .idle => r + 8
    | .address, .start => r + 7
    | .address, .sla => r + 6
    | .address, _ => r + 5
    | .data, .idle => r + 4
    | .data, .start => r + 3
    | .data, .sla => r + 2
    | .data, _ => r + 1

/-- the operation goes on or ends as it should -/
def Goes (o : Op) (f : List Done) (y : App) : Prop := (y.cur = some o ∧ y.fin = f) ∨ (y.cur = none ∧ ∃ d, y.fin = f ++ [d] ∧ o.done d)

/-- what must be shown of a call -/
def Good (id : BitVec 2) (m : Mem) (o : Op) (x y : App) : Prop := (Inv id m y ∧ Goes o x.fin y) ∧ (x.sys.hw.pend = .none → meas y < meas x)

theorem setup_slave (id : BitVec 2) (a : Nat) (s : Sys) (h : ∃ p, s.slave = sl id p) :
    setup a s = ({ s with slave := sl id (decide (256 ≤ a)), twiAddr := sl id (decide (256 ≤ a)), state := .address }, .again) := by
  obtain ⟨p, h⟩ := h
  unfold setup
  by_cases e : 256 ≤ a
  · simp only [ge_iff_le, e, if_true, h, sl_set, decide_true]
  · simp only [ge_iff_le, e, if_false, h, sl_clr, decide_false]

theorem call_write (id : BitVec 2) (m : Mem) (x : App) (a : Nat) (l : List Byte) (h : Inv id m x) (hc : x.cur = some (.write a l)) : Good id m (.write a l) x (call x) := by
  obtain ⟨s, cur, pos, buf, fin, wr⟩ := x
  have hc : cur = some (.write a l) := hc
  subst hc
  obtain ⟨h1, h2, h3, h4, h5⟩ := h
  have h1 : wr = false := h1
  subst h1
  have h5 : Ph id (after m fin) s (.write a l) pos buf := h5
  have ho := h4 _ rfl
  obtain ⟨hl, ha⟩ := ho
  have hl : 0 < l.length := List.length_pos_iff.mpr hl
  have h2 : Right m fin := h2
  have h3 : ∃ p, s.slave = sl id p := h3
  have hcall : call ⟨s, some (.write a l), pos, buf, fin, false⟩ =
      take (eWrite (a + pos) (l.getD pos 0) (l.length - pos) s) l.length (fun _ => .wrote a l) ⟨s, some (.write a l), pos, buf, fin, false⟩ := rfl
  rw [hcall]
  have guard : pos < l.length → eWrite (a + pos) (l.getD pos 0) (l.length - pos) s =
      match s.state with
      | .setup => setup (a + pos) s
      | .address => reqWrite (a + pos) (l.length - pos) s
      | .data => dataWrite (l.getD pos 0) (l.length - pos) s := by
    intro hp; unfold eWrite; rw [if_neg (by omega)]; rfl
  -- the state after a call that returns -EAGAIN
  have again : ∀ t : Sys, (∃ p, t.slave = sl id p) → Ph id (after m fin) t (.write a l) pos buf →
      Inv id m ⟨t, some (.write a l), pos, buf, fin, false⟩ ∧ Goes (.write a l) fin ⟨t, some (.write a l), pos, buf, fin, false⟩ := by
    intro t ht hp; exact ⟨⟨rfl, h2, ht, h4, hp⟩, Or.inl ⟨rfl, rfl⟩⟩
  cases h5 with
  | setup _ a1 a2 a3 a4 =>
    rw [guard hl, a1]
    simp only [setup_slave id _ s h3, take]
    refine ⟨again _ ⟨_, rfl⟩ (.aIdle _ rfl a2 a3 a4 rfl), fun _ => ?_⟩
    simp [meas, a1, a2]
  | aIdle _ a1 a2 a3 a4 a5 =>
    rw [guard hl, a1]
    simp only []
    obtain ⟨hh, b1, b2⟩ := tw_idle (BitVec.ofNat 8 (a + 0)) (1 + (l.length - 0)) true s a2
    simp only [reqWrite, b2, take]
    refine ⟨again _ h3 (.aStart _ a1 rfl b1 a4 a5), fun _ => ?_⟩
    simp [meas, a1, a2]
  | aStart _ a1 a2 a3 a4 a5 =>
    rw [guard hl, a1]
    simp only []
    rcases a3 with ⟨a3, a3'⟩ | ⟨a3, a3', a3''⟩
    · simp only [reqWrite, tw_wait _ _ _ _ s (by rw [a2]; decide) a3', take]
      refine ⟨again _ h3 (.aStart _ a1 a2 (Or.inl ⟨a3, a3'⟩) a4 a5), fun e => ?_⟩
      have e : s.hw.pend = .none := e
      rw [a3] at e; cases e
    · obtain ⟨hh, b1, b2, b3⟩ := tw_start (BitVec.ofNat 8 (a + 0)) (1 + (l.length - 0)) true true s a2 a3' a3''
      simp only [reqWrite, b3, take]
      refine ⟨again _ h3 (.aSla _ a1 rfl b1 b2 a4 a5), fun _ => ?_⟩
      simp [meas, a1, a2]
  | aSla _ a1 a2 a3 a4 a5 a6 =>
    rw [guard hl, a1]
    simp only [reqWrite, tw_wait _ _ _ _ s (by rw [a2]; decide) a3.int, take]
    refine ⟨again _ h3 (.aSla _ a1 a2 a3 a4 a5 a6), fun e => ?_⟩
    have e : s.hw.pend = .none := e
    rw [a3.pend] at e; cases e
  | aSlaD _ a1 a2 a3 a4 a5 a6 a7 =>
    rw [guard hl, a1]
    simp only []
    obtain ⟨hh, b1, b2, b3⟩ := tw_sla (BitVec.ofNat 8 (a + 0)) (1 + (l.length - 0)) true true s a2 a3
    rw [if_neg (by omega)] at b3
    simp only [reqWrite, b3, take]
    refine ⟨again _ h3 (.wFirst a l rfl rfl b1 b2 a4 a5 a6), fun _ => ?_⟩
    simp [meas, a1, a2]
  | wFirst _ _ a1 a2 a3 a4 a5 a6 a7 =>
    rw [guard hl, a1]
    simp only [dataWrite, tw_wait _ _ _ _ s (by rw [a2]; decide) a3.int, take]
    refine ⟨again _ h3 (.wFirst a l a1 a2 a3 a4 a5 a6 a7), fun e => ?_⟩
    have e : s.hw.pend = .none := e
    rw [a3.pend] at e; cases e
  | wData _ _ k hk a1 a2 a3 a4 a5 a6 a7 =>
    rw [guard hk, a1]
    simp only [dataWrite, tw_wait _ _ _ _ s (by rw [a2]; decide) a3.int, take]
    refine ⟨again _ h3 (.wData a l k hk a1 a2 a3 a4 a5 a6 a7), fun e => ?_⟩
    have e : s.hw.pend = .none := e
    rw [a3.pend] at e; cases e
  | wReady _ _ _ hk a1 a2 a3 a4 a5 a6 =>
    rw [guard hk, a1]
    simp only []
    obtain ⟨hh, b1, b2, b3⟩ := tw_data (l.getD pos 0) (l.length - pos) false false s a2 a3
    by_cases en : l.length - pos = 1
    · rw [if_pos en] at b3
      simp only [dataWrite, b3, take]
      refine ⟨again _ h3 (.wLast a l pos (by omega) a1 rfl b1 b2 a4 a5 a6), fun _ => ?_⟩
      simp [meas, a1, a2]; omega
    · rw [if_neg en] at b3
      simp only [dataWrite, b3, take, advance, if_neg (show ¬ 1 = l.length - pos by omega), if_neg (show ¬ pos + 1 = l.length by omega), if_neg (show ¬ pos + 1 > l.length by omega)]
      refine ⟨⟨⟨rfl, h2, h3, h4, Ph.wData a l pos (by omega) a1 a2 b1 b2 a4 a5 a6⟩, Or.inl ⟨rfl, rfl⟩⟩, fun _ => ?_⟩
      simp [meas, a1, a2]; omega
  | wLast _ _ _ hk a1 a2 a3 a4 a5 a6 a7 =>
    rw [guard (by omega), a1]
    simp only [dataWrite, tw_wait _ _ _ _ s (by rw [a2]; decide) a3.int, take]
    refine ⟨again _ h3 (.wLast a l pos hk a1 a2 a3 a4 a5 a6 a7), fun e => ?_⟩
    have e : s.hw.pend = .none := e
    rw [a3.pend] at e; cases e
  | wEnd _ _ _ hk a1 a2 a3 a4 =>
    rw [guard (by omega), a1]
    simp only [dataWrite, tw_stop _ _ _ s (by rw [a2]) a3.int, take, a2, advance, if_pos (show 1 = l.length - pos by omega), if_pos hk]
    refine ⟨⟨⟨rfl, ?_, h3, (by intro o e; cases e), ⟨rfl, rfl, rfl, rfl, a3.pend, ?_⟩⟩, Or.inr ⟨rfl, _, rfl, rfl, rfl⟩⟩, fun _ => ?_⟩
    · exact (right_snoc _ _ _).mpr ⟨h2, trivial⟩
    · show s.chip.mem = _
      rw [a4, after_snoc]; rfl
    · simp [meas, a1, a2]

theorem call_read (id : BitVec 2) (m : Mem) (x : App) (a n : Nat) (h : Inv id m x) (hc : x.cur = some (.read a n)) : Good id m (.read a n) x (call x) := by
  obtain ⟨s, cur, pos, buf, fin, wr⟩ := x
  have hc : cur = some (.read a n) := hc
  subst hc
  obtain ⟨h1, h2, h3, h4, h5⟩ := h
  have h1 : wr = false := h1
  subst h1
  have h5 : Ph id (after m fin) s (.read a n) pos buf := h5
  have ho := h4 _ rfl
  obtain ⟨hl, ha⟩ := ho
  have h2 : Right m fin := h2
  have h3 : ∃ p, s.slave = sl id p := h3
  have hcall : call ⟨s, some (.read a n), pos, buf, fin, false⟩ =
      take (eRead (a + pos) (n - pos) s) n (fun g => .got a g) ⟨s, some (.read a n), pos, buf, fin, false⟩ := rfl
  rw [hcall]
  have guard : pos < n → eRead (a + pos) (n - pos) s =
      match s.state with
      | .setup => setup (a + pos) s
      | .address => reqRead (a + pos) s
      | .data => dataRead (n - pos) s := by
    intro hp; unfold eRead; rw [if_neg (by omega)]; rfl
  have again : ∀ t : Sys, (∃ p, t.slave = sl id p) → Ph id (after m fin) t (.read a n) pos buf →
      Inv id m ⟨t, some (.read a n), pos, buf, fin, false⟩ ∧ Goes (.read a n) fin ⟨t, some (.read a n), pos, buf, fin, false⟩ := by
    intro t ht hp; exact ⟨⟨rfl, h2, ht, h4, hp⟩, Or.inl ⟨rfl, rfl⟩⟩
  cases h5 with
  | setup _ a1 a2 a3 a4 =>
    rw [guard hl, a1]
    simp only [setup_slave id _ s h3, take]
    refine ⟨again _ ⟨_, rfl⟩ (.aIdle _ rfl a2 a3 a4 rfl), fun _ => ?_⟩
    simp [meas, a1, a2]
  | aIdle _ a1 a2 a3 a4 a5 =>
    rw [guard hl, a1]
    simp only []
    obtain ⟨hh, b1, b2⟩ := tw_idle (BitVec.ofNat 8 (a + 0)) 1 false s a2
    simp only [reqRead, b2, take]
    refine ⟨again _ h3 (.aStart _ a1 rfl b1 a4 a5), fun _ => ?_⟩
    simp [meas, a1, a2]
  | aStart _ a1 a2 a3 a4 a5 =>
    rw [guard hl, a1]
    simp only []
    rcases a3 with ⟨a3, a3'⟩ | ⟨a3, a3', a3''⟩
    · simp only [reqRead, tw_wait _ _ _ _ s (by rw [a2]; decide) a3', take]
      refine ⟨again _ h3 (.aStart _ a1 a2 (Or.inl ⟨a3, a3'⟩) a4 a5), fun e => ?_⟩
      have e : s.hw.pend = .none := e
      rw [a3] at e; cases e
    · obtain ⟨hh, b1, b2, b3⟩ := tw_start (BitVec.ofNat 8 (a + 0)) 1 true false s a2 a3' a3''
      simp only [reqRead, b3, take]
      refine ⟨again _ h3 (.aSla _ a1 rfl b1 b2 a4 a5), fun _ => ?_⟩
      simp [meas, a1, a2]
  | aSla _ a1 a2 a3 a4 a5 a6 =>
    rw [guard hl, a1]
    simp only [reqRead, tw_wait _ _ _ _ s (by rw [a2]; decide) a3.int, take]
    refine ⟨again _ h3 (.aSla _ a1 a2 a3 a4 a5 a6), fun e => ?_⟩
    have e : s.hw.pend = .none := e
    rw [a3.pend] at e; cases e
  | aSlaD _ a1 a2 a3 a4 a5 a6 a7 =>
    rw [guard hl, a1]
    simp only []
    obtain ⟨hh, b1, b2, b3⟩ := tw_sla (BitVec.ofNat 8 (a + 0)) 1 true false s a2 a3
    rw [if_pos rfl] at b3
    simp only [reqRead, b3, take]
    refine ⟨again _ h3 (.aStop a n a1 rfl b1 b2 a4 a5 a6 a7), fun _ => ?_⟩
    simp [meas, a1, a2]
  | aStop _ _ a1 a2 a3 a4 a5 a6 a7 a8 =>
    rw [guard hl, a1]
    simp only [reqRead, tw_wait _ _ _ _ s (by rw [a2]; decide) a3.int, take]
    refine ⟨again _ h3 (.aStop a n a1 a2 a3 a4 a5 a6 a7 a8), fun e => ?_⟩
    have e : s.hw.pend = .none := e
    rw [a3.pend] at e; cases e
  | aStopD _ _ a1 a2 a3 a4 a5 a6 =>
    rw [guard hl, a1]
    simp only [reqRead, tw_stop _ _ _ s (by rw [a2]) a3.int, take, a2]
    refine ⟨again _ h3 (.rIdle a n rfl rfl a3.pend a4 a5 a6), fun _ => ?_⟩
    simp [meas, a1, a2]
  | rIdle _ _ a1 a2 a3 a4 a5 a6 =>
    rw [guard hl, a1]
    simp only []
    obtain ⟨hh, b1, b2⟩ := tr_idle (n - 0) true s a2
    simp only [dataRead, b2, take]
    refine ⟨again _ h3 (.rStart a n a1 rfl b1 a4 a5 a6), fun _ => ?_⟩
    simp [meas, a1, a2]
  | rStart _ _ a1 a2 a3 a4 a5 a6 =>
    rw [guard hl, a1]
    simp only []
    rcases a3 with ⟨a3, a3'⟩ | ⟨a3, a3', a3''⟩
    · simp only [dataRead, tr_wait _ _ _ s (by rw [a2]; decide) a3', take]
      refine ⟨again _ h3 (.rStart a n a1 a2 (Or.inl ⟨a3, a3'⟩) a4 a5 a6), fun e => ?_⟩
      have e : s.hw.pend = .none := e
      rw [a3] at e; cases e
    · obtain ⟨hh, b1, b2, b3⟩ := tr_start (n - 0) true true s a2 a3' a3''
      simp only [dataRead, b3, take]
      refine ⟨again _ h3 (.rSla a n a1 rfl b1 b2 a4 a5 a6), fun _ => ?_⟩
      simp [meas, a1, a2]
  | rSla _ _ a1 a2 a3 a4 a5 a6 a7 =>
    rw [guard hl, a1]
    simp only [dataRead, tr_wait _ _ _ s (by rw [a2]; decide) a3.int, take]
    refine ⟨again _ h3 (.rSla a n a1 a2 a3 a4 a5 a6 a7), fun e => ?_⟩
    have e : s.hw.pend = .none := e
    rw [a3.pend] at e; cases e
  | rSlaD _ _ a1 a2 a3 a4 a5 a6 =>
    rw [guard hl, a1]
    simp only []
    obtain ⟨hh, b1, b2, b3⟩ := tr_sla (n - 0) true true s a2 a3
    simp only [dataRead, b3, take]
    refine ⟨again _ h3 (.rData a n 0 hl a1 rfl b1 b2 a4 a5 a6), fun _ => ?_⟩
    simp [meas, a1, a2]
  | rData _ _ _ hk a1 a2 a3 a4 a5 a6 a7 =>
    rw [guard hk, a1]
    simp only [dataRead, tr_wait _ _ _ s (by rw [a2]; decide) a3.int, take]
    refine ⟨again _ h3 (.rData a n pos hk a1 a2 a3 a4 a5 a6 a7), fun e => ?_⟩
    have e : s.hw.pend = .none := e
    rw [a3.pend] at e; cases e
  | rReady _ _ _ hk a1 a2 a3 a4 a5 a6 a7 a8 =>
    rw [guard hk, a1]
    simp only []
    have b := tr_data (n - pos) true true s (by omega) a2 a3 a4
    by_cases en : n - pos = 1
    · rw [if_pos en] at b
      obtain ⟨hh, b1, b2⟩ := b
      simp only [dataRead, b2, take, advance, if_pos en.symm, if_pos (show pos + 1 = n by omega)]
      refine ⟨⟨⟨rfl, ?_, h3, (by intro o e; cases e), ⟨rfl, rfl, rfl, rfl, b1, ?_⟩⟩, Or.inr ⟨rfl, _, rfl, rfl, ?_⟩⟩, fun _ => ?_⟩
      · refine (right_snoc _ _ _).mpr ⟨h2, ?_, trivial⟩
        show slice (after m fin) a pos ++ [s.hw.dr] = slice (after m fin) a (slice (after m fin) a pos ++ [s.hw.dr]).length
        rw [a5, slice_succ, slice_length]
      · show s.chip.mem = _
        rw [a8, after_snoc]; rfl
      · show (slice (after m fin) a pos ++ [s.hw.dr]).length = n
        rw [a5, slice_succ, slice_length]; omega
      · simp [meas, a1, a2]
    · rw [if_neg en] at b
      obtain ⟨hh, b1, b2, b3⟩ := b
      simp only [dataRead, b3, take, advance, if_neg (show ¬ 1 = n - pos by omega), if_neg (show ¬ pos + 1 = n by omega), if_neg (show ¬ pos + 1 > n by omega)]
      refine ⟨⟨⟨rfl, h2, h3, h4, ?_⟩, Or.inl ⟨rfl, rfl⟩⟩, fun _ => ?_⟩
      · show Ph id (after m fin) _ (.read a n) (pos + 1) (slice (after m fin) a pos ++ [s.hw.dr])
        rw [a5, slice_succ]
        refine Ph.rData a n (pos + 1) (by omega) a1 a2 b1 ?_ a6 a7 a8
        show hh.cr.ea = _
        rw [b2]; congr 1
      · simp [meas, a1, a2]; omega

theorem inv_call (id : BitVec 2) (m : Mem) (x : App) (h : Inv id m x) :
    Inv id m (call x) ∧ (∀ o, x.cur = some o → Goes o x.fin (call x) ∧ (x.sys.hw.pend = .none → meas (call x) < meas x)) := by
  rcases hc : x.cur with _ | o
  · have e : call x = x := by unfold call; rw [hc]
    rw [e]
    exact ⟨h, fun _ e => by cases e⟩
  · cases o with
    | write a l => have g := call_write id m x a l h hc; exact ⟨g.1.1, fun o e => by cases e; exact ⟨g.1.2, g.2⟩⟩
    | read a n => have g := call_read id m x a n h hc; exact ⟨g.1.1, fun o e => by cases e; exact ⟨g.1.2, g.2⟩⟩

theorem inv_run (id : BitVec 2) (m : Mem) (l : List Ev) : ∀ x, Inv id m x → (∀ e ∈ l, e.ok) → Inv id m (run ⟨id, true⟩ l x) := by
  induction l with
  | nil => intro x h _; exact h
  | cons e l ih =>
    intro x h hl
    refine ih _ ?_ (fun e' he => hl e' (List.mem_cons_of_mem _ he))
    cases e with
    | begin o => exact inv_begin ⟨id, true⟩ m x o (hl _ List.mem_cons_self) h
    | call => exact (inv_call id m x h).1
    | hw => exact inv_hw id m x h

end Pico.Fram
