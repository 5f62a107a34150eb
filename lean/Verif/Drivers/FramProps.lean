import Verif.Drivers.Fram
/-! C100: proofs for Fram.lean: the calls of the TWI driver, one by one, and the invariant. -/
namespace Pico.Fram
open Pico.Twi

/-- the slave address -/
def sl (id : BitVec 2) (p : Bool) : BitVec 16 := ((0b1010#4 ++ id : BitVec 6) ++ BitVec.ofBool p : BitVec 7).setWidth 16

theorem sl_init (id : BitVec 2) : 0x50#16 ||| ((id.setWidth 16) <<< 1) = sl id false := by revert id; decide
theorem sl_set (id : BitVec 2) (p : Bool) : sl id p ||| 1#16 = sl id true := by revert id p; decide
theorem sl_clr (id : BitVec 2) (p : Bool) : sl id p &&& ~~~ 1#16 = sl id false := by revert id p; decide
theorem sl_acks (id : BitVec 2) (p r : Bool) : Dev.acks ⟨id, true⟩ (sla ((sl id p).setWidth 7) r) = true := by revert id p r; decide
theorem sl_page (id : BitVec 2) (p r : Bool) : (sla ((sl id p).setWidth 7) r).getLsbD 1 = p := by revert id p r; decide
theorem sl_dir (id : BitVec 2) (p r : Bool) : (sla ((sl id p).setWidth 7) r).getLsbD 0 = r := by revert id p r; decide

theorem latch_right (a : Nat) (h : a < 512) : (BitVec.ofBool (decide (256 ≤ a)) ++ BitVec.ofNat 8 a : BitVec 9) = at' a 0 := by
  unfold at'
  apply BitVec.eq_of_toNat_eq
  rw [BitVec.toNat_append, ← Nat.shiftLeft_add_eq_or_of_lt (BitVec.isLt _), Nat.shiftLeft_eq, BitVec.toNat_ofNat, BitVec.toNat_ofNat]
  by_cases e : 256 ≤ a
  · rw [decide_eq_true e]; simp; omega
  · rw [decide_eq_false e]; simp; omega

theorem sees_same (h h' : TwiAvr.Hw) (c : Chip) (e : h'.bus = h.bus) : sees h h' c = c := by
  unfold sees; rw [e, List.drop_length]; rfl
theorem sees_app (h h' : TwiAvr.Hw) (c : Chip) (l : List Bus) (e : h'.bus = h.bus ++ l) : sees h h' c = l.foldl Chip.see c := by
  unfold sees; rw [e, List.drop_left]

/-- the interface waits for the program -/
structure Held (h : TwiAvr.Hw) (t : Nat) : Prop where
  pend : h.pend = .none
  int : h.cr.int = true
  sta : h.cr.sta = false
  sto : h.cr.sto = false
  tws : h.tws = t

/-- the interface works -/
structure Busy (h : TwiAvr.Hw) (p : TwiAvr.Pend) : Prop where
  pend : h.pend = p
  int : h.cr.int = false
  sta : h.cr.sta = false
  sto : h.cr.sto = false

/-- a START is on its way, or done -/
def Starting (h : TwiAvr.Hw) : Prop := (h.pend = .start ∧ h.cr.int = false) ∨ (h.pend = .none ∧ h.cr.int = true ∧ (h.tws = 0x08 ∨ h.tws = 0x10))

/-! ### the driver waits -/

theorem tw_wait (b : Byte) (n : Nat) (f p : Bool) (s : Sys) (hs : s.ctx.state ≠ .idle) (hi : s.hw.cr.int = false) : twiWrite b n f p s = (s, .again) := by
  obtain ⟨sl, st, ta, ⟨cs, la⟩, hw, ch⟩ := s
  have e : TwiAvr.write (sla7 ⟨sl, st, ta, ⟨cs, la⟩, hw, ch⟩) b n f p ⟨cs, la⟩ hw = (⟨cs, la⟩, hw, .again) := by
    cases cs <;> first | exact absurd rfl hs | (have hi : hw.cr.int = false := hi; simp [TwiAvr.write, TwiAvr.mStart, TwiAvr.wSla, TwiAvr.wData, TwiAvr.rwStop, hi])
  unfold twiWrite
  simp only [e, outOf, sees_same hw hw ch rfl]

theorem tr_wait (n : Nat) (f p : Bool) (s : Sys) (hs : s.ctx.state ≠ .idle) (hi : s.hw.cr.int = false) : twiRead n f p s = (s, .again) := by
  obtain ⟨sl, st, ta, ⟨cs, la⟩, hw, ch⟩ := s
  have e : TwiAvr.read (sla7 ⟨sl, st, ta, ⟨cs, la⟩, hw, ch⟩) n f p ⟨cs, la⟩ hw = (⟨cs, la⟩, hw, .again) := by
    cases cs <;> first | exact absurd rfl hs | (have hi : hw.cr.int = false := hi; simp [TwiAvr.read, TwiAvr.mStart, TwiAvr.rSla, TwiAvr.rData, TwiAvr.rwStop, hi])
  unfold twiRead
  simp only [e, outOf, sees_same hw hw ch rfl]

/-! ### the driver goes on -/

theorem tw_idle (b : Byte) (n : Nat) (p : Bool) (s : Sys) (hs : s.ctx.state = .idle) :
    ∃ h, Starting h ∧ twiWrite b n true p s = ({ s with ctx := ⟨.start, s.ctx.last⟩, hw := h }, .again) := by
  obtain ⟨sl, st, ta, ⟨cs, la⟩, hw, ch⟩ := s
  cases hs
  refine ⟨TwiAvr.wrCr ⟨true, false, true, false, true⟩ hw, Or.inl ⟨rfl, rfl⟩, ?_⟩
  simp [twiWrite, TwiAvr.write, TwiAvr.mIdle, outOf, sees_same, TwiAvr.wrCr]

theorem tr_idle (n : Nat) (p : Bool) (s : Sys) (hs : s.ctx.state = .idle) :
    ∃ h, Starting h ∧ twiRead n true p s = ({ s with ctx := ⟨.start, s.ctx.last⟩, hw := h }, .again) := by
  obtain ⟨sl, st, ta, ⟨cs, la⟩, hw, ch⟩ := s
  cases hs
  refine ⟨TwiAvr.wrCr ⟨true, false, true, false, true⟩ hw, Or.inl ⟨rfl, rfl⟩, ?_⟩
  simp [twiRead, TwiAvr.read, TwiAvr.mIdle, outOf, sees_same, TwiAvr.wrCr]

theorem start_addr (a : BitVec 7) (r : Bool) (c : TwiAvr.Ctx) (h : TwiAvr.Hw) (hi : h.cr.int = true) (ht : h.tws = 0x08 ∨ h.tws = 0x10) :
    ∃ h', Busy h' .addr ∧ h'.dr = sla a r ∧ h'.bus = h.bus ∧ TwiAvr.mStart a r c h = (⟨.sla, c.last⟩, h', .again) := by
  refine ⟨TwiAvr.wrCr { h.cr with sta := false, sto := false } { h with dr := sla a r }, ?_, ?_, ?_, ?_⟩
  · constructor
    · rcases ht with ht | ht <;> simp [TwiAvr.wrCr, hi, ht]
    · simp [TwiAvr.wrCr, hi]
    · simp [TwiAvr.wrCr, hi]
    · simp [TwiAvr.wrCr, hi]
  · simp [TwiAvr.wrCr, hi]
  · simp [TwiAvr.wrCr, hi]
  · rcases ht with ht | ht <;> simp [TwiAvr.mStart, hi, ht]

theorem tw_start (b : Byte) (n : Nat) (f p : Bool) (s : Sys) (hs : s.ctx.state = .start) (hi : s.hw.cr.int = true) (ht : s.hw.tws = 0x08 ∨ s.hw.tws = 0x10) :
    ∃ h, Busy h .addr ∧ h.dr = sla (sla7 s) false ∧ twiWrite b n f p s = ({ s with ctx := ⟨.sla, s.ctx.last⟩, hw := h }, .again) := by
  obtain ⟨h, h1, h2, h3, h4⟩ := start_addr (sla7 s) false s.ctx s.hw hi ht
  refine ⟨h, h1, h2, ?_⟩
  unfold twiWrite
  have e : TwiAvr.write (sla7 s) b n f p s.ctx s.hw = (⟨.sla, s.ctx.last⟩, h, .again) := by simp only [TwiAvr.write, hs, h4]
  rw [e]
  simp only [outOf, sees_same _ _ _ h3]

theorem tr_start (n : Nat) (f p : Bool) (s : Sys) (hs : s.ctx.state = .start) (hi : s.hw.cr.int = true) (ht : s.hw.tws = 0x08 ∨ s.hw.tws = 0x10) :
    ∃ h, Busy h .addr ∧ h.dr = sla (sla7 s) true ∧ twiRead n f p s = ({ s with ctx := ⟨.sla, s.ctx.last⟩, hw := h }, .again) := by
  obtain ⟨h, h1, h2, h3, h4⟩ := start_addr (sla7 s) true s.ctx s.hw hi ht
  refine ⟨h, h1, h2, ?_⟩
  unfold twiRead
  have e : TwiAvr.read (sla7 s) n f p s.ctx s.hw = (⟨.sla, s.ctx.last⟩, h, .again) := by simp only [TwiAvr.read, hs, h4]
  rw [e]
  simp only [outOf, sees_same _ _ _ h3]

/-- a byte is given to the interface -/
theorem go_tx (b : Byte) (h : TwiAvr.Hw) (t : Nat) (hh : Held h t) (ht : t = 0x18 ∨ t = 0x28) :
    ∃ h', Busy h' .tx ∧ h'.dr = b ∧ h'.bus = h.bus ∧ TwiAvr.wrCr h.cr { h with dr := b } = h' := by
  obtain ⟨h1, h2, h3, h4, h5⟩ := hh
  refine ⟨_, ?_, ?_, ?_, rfl⟩
  · constructor
    · rcases ht with rfl | rfl <;> simp [TwiAvr.wrCr, h2, h3, h4, h5]
    · simp [TwiAvr.wrCr, h2, h3, h4]
    · simp [TwiAvr.wrCr, h2, h3, h4]
    · simp [TwiAvr.wrCr, h2, h3, h4]
  · simp [TwiAvr.wrCr, h2, h3, h4]
  · simp [TwiAvr.wrCr, h2, h3, h4]

theorem tw_sla (b : Byte) (n : Nat) (f p : Bool) (s : Sys) (hs : s.ctx.state = .sla) (hh : Held s.hw 0x18) :
    ∃ h, Busy h .tx ∧ h.dr = b ∧ twiWrite b n f p s =
      if n = 1 then ({ s with ctx := ⟨.stop, 1⟩, hw := h }, .again) else ({ s with ctx := ⟨.data, s.ctx.last⟩, hw := h }, .done 1 []) := by
  obtain ⟨h, h1, h2, h3, h4⟩ := go_tx b s.hw _ hh (Or.inl rfl)
  rw [hh.tws] at h4
  refine ⟨h, h1, h2, ?_⟩
  unfold twiWrite
  have e : TwiAvr.write (sla7 s) b n f p s.ctx s.hw = if n = 1 then (⟨.stop, 1⟩, h, .again) else (⟨.data, s.ctx.last⟩, h, .one) := by
    simp only [TwiAvr.write, hs, TwiAvr.wSla, hh.int, hh.tws, h4]
    simp
  rw [e]
  by_cases en : n = 1
  · simp only [en, if_true, outOf, sees_same _ _ _ h3]
  · simp only [en, if_false, outOf, sees_same _ _ _ h3]

theorem tw_data (b : Byte) (n : Nat) (f p : Bool) (s : Sys) (hs : s.ctx.state = .data) (hh : Held s.hw 0x28) :
    ∃ h, Busy h .tx ∧ h.dr = b ∧ twiWrite b n f p s =
      if n = 1 then ({ s with ctx := ⟨.stop, 1⟩, hw := h }, .again) else ({ s with hw := h }, .done 1 []) := by
  obtain ⟨h, h1, h2, h3, h4⟩ := go_tx b s.hw _ hh (Or.inr rfl)
  rw [hh.tws] at h4
  refine ⟨h, h1, h2, ?_⟩
  unfold twiWrite
  have e : TwiAvr.write (sla7 s) b n f p s.ctx s.hw = if n = 1 then (⟨.stop, 1⟩, h, .again) else (s.ctx, h, .one) := by
    simp only [TwiAvr.write, hs, TwiAvr.wData, hh.int, hh.tws, h4]
    simp
  rw [e]
  by_cases en : n = 1
  · simp only [en, if_true, outOf, sees_same _ _ _ h3]
  · simp only [en, if_false, outOf, sees_same _ _ _ h3]

theorem tw_stop (b : Byte) (n : Nat) (f : Bool) (s : Sys) (hs : s.ctx.state = .stop) (hh : s.hw.cr.int = true) :
    twiWrite b n f false s = ({ s with ctx := ⟨.idle, s.ctx.last⟩ }, .done s.ctx.last []) := by
  obtain ⟨sl, st, ta, ⟨cs, la⟩, hw, ch⟩ := s
  cases hs
  have hh : hw.cr.int = true := hh
  simp [twiWrite, TwiAvr.write, TwiAvr.rwStop, hh, outOf, sees_same]

/-- a byte is asked for -/
theorem tr_sla (n : Nat) (f p : Bool) (s : Sys) (hs : s.ctx.state = .sla) (hh : Held s.hw 0x40) :
    ∃ h, Busy h .rx ∧ h.cr.ea = decide (n ≠ 1) ∧ twiRead n f p s = ({ s with ctx := ⟨.data, s.ctx.last⟩, hw := h }, .again) := by
  obtain ⟨h1, h2, h3, h4, h5⟩ := hh
  refine ⟨TwiAvr.wrCr (if n = 1 then { s.hw.cr with ea := false } else { s.hw.cr with ea := true }) s.hw, ?_, ?_, ?_⟩
  · by_cases e : n = 1 <;> (constructor <;> simp [e, TwiAvr.wrCr, h2, h3, h4, h5])
  · by_cases e : n = 1 <;> simp [e, TwiAvr.wrCr, h2, h3, h4]
  · unfold twiRead
    have e : TwiAvr.read (sla7 s) n f p s.ctx s.hw = (⟨.data, s.ctx.last⟩, TwiAvr.wrCr (if n = 1 then { s.hw.cr with ea := false } else { s.hw.cr with ea := true }) s.hw, .again) := by
      simp only [TwiAvr.read, hs, TwiAvr.rSla, h2, h5]
      simp
    have e2 : (TwiAvr.wrCr (if n = 1 then { s.hw.cr with ea := false } else { s.hw.cr with ea := true }) s.hw).bus = s.hw.bus := by
      by_cases e : n = 1 <;> simp [e, TwiAvr.wrCr, h2, h3, h4]
    rw [e]
    simp only [outOf, sees_same _ _ _ e2]

theorem tr_data (n : Nat) (f p : Bool) (s : Sys) (hn : 0 < n) (hs : s.ctx.state = .data) (hh : Held s.hw (if n = 1 then 0x58 else 0x50)) (he : s.hw.cr.ea = decide (n ≠ 1)) :
    if n = 1 then ∃ h : TwiAvr.Hw, h.pend = .none ∧ twiRead n f p s = ({ s with ctx := ⟨.idle, s.ctx.last⟩, hw := h, chip := { s.chip with mode := .idle } }, .done 1 [s.hw.dr])
    else ∃ h, Busy h .rx ∧ h.cr.ea = decide (n - 1 ≠ 1) ∧ twiRead n f p s = ({ s with hw := h }, .done 1 [s.hw.dr]) := by
  obtain ⟨h1, h2, h3, h4, h5⟩ := hh
  by_cases e1 : n = 1
  · subst e1
    rw [if_pos rfl]
    have h5 : s.hw.tws = 0x58 := h5
    have e : TwiAvr.read (sla7 s) 1 f p s.ctx s.hw = (⟨.idle, s.ctx.last⟩, TwiAvr.wrCr ⟨true, false, false, true, true⟩ s.hw, .byte s.hw.dr) := by
      simp only [TwiAvr.read, hs, TwiAvr.rData, h2, h5]
      simp [TwiAvr.mStop]
    refine ⟨TwiAvr.wrCr ⟨true, false, false, true, true⟩ s.hw, rfl, ?_⟩
    unfold twiRead
    rw [e]
    simp only [outOf, sees_app _ _ _ [.stop] (show (TwiAvr.wrCr ⟨true, false, false, true, true⟩ s.hw).bus = s.hw.bus ++ [.stop] from rfl), List.foldl_cons, List.foldl_nil, Chip.see]
  · rw [if_neg e1]
    rw [if_neg e1] at h5
    have he : s.hw.cr.ea = true := by rw [he]; simp [e1]
    refine ⟨TwiAvr.wrCr (if n = 2 then { s.hw.cr with ea := false } else s.hw.cr) s.hw, ?_, ?_, ?_⟩
    · by_cases e : n = 2 <;> (constructor <;> simp [e, TwiAvr.wrCr, h2, h3, h4, h5])
    · by_cases e : n = 2
      · simp [e, TwiAvr.wrCr, h2, h3, h4]
      · have : n - 1 ≠ 1 := by omega
        simp [e, TwiAvr.wrCr, h2, h3, h4, he, this]
    · have e : TwiAvr.read (sla7 s) n f p s.ctx s.hw = (s.ctx, TwiAvr.wrCr (if n = 2 then { s.hw.cr with ea := false } else s.hw.cr) s.hw, .byte s.hw.dr) := by
        simp only [TwiAvr.read, hs, TwiAvr.rData, h2, h5]
        simp [e1]
      have e2 : (TwiAvr.wrCr (if n = 2 then { s.hw.cr with ea := false } else s.hw.cr) s.hw).bus = s.hw.bus := by
        by_cases e : n = 2 <;> simp [e, TwiAvr.wrCr, h2, h3, h4]
      unfold twiRead
      rw [e]
      simp only [outOf, sees_same _ _ _ e2]

/-! ### the interface -/

theorem hw_none (q : Dev) (s : Sys) (h : s.hw.pend = .none) : hwStep q s = s := by
  have e : ∀ a d, TwiAvr.finish a d s.hw = s.hw := by intro a d; unfold TwiAvr.finish; rw [h]
  unfold hwStep
  simp only [e, sees_same _ _ _ rfl]

theorem hw_start (q : Dev) (s : Sys) (h : s.hw.pend = .start) :
    ∃ h', h'.pend = .none ∧ h'.cr.int = true ∧ (h'.tws = 0x08 ∨ h'.tws = 0x10) ∧ hwStep q s = { s with hw := h', chip := { s.chip with mode := .idle } } := by
  refine ⟨TwiAvr.finish (if s.hw.pend = .addr then q.acks s.hw.dr else q.present) (s.chip.mem s.chip.ptr) s.hw, ?_, ?_, ?_, ?_⟩
  · simp [TwiAvr.finish, h]
  · simp [TwiAvr.finish, h]
  · simp only [TwiAvr.finish, h]
    by_cases e : s.hw.tws = 0xf8 <;> simp [e]
  · unfold hwStep
    simp only [sees_app s.hw _ s.chip [.start] (show (TwiAvr.finish (if s.hw.pend = .addr then q.acks s.hw.dr else q.present) (s.chip.mem s.chip.ptr) s.hw).bus = s.hw.bus ++ [.start] by simp [TwiAvr.finish, h]),
      List.foldl_cons, List.foldl_nil, Chip.see]

theorem hw_addr (id : BitVec 2) (g r : Bool) (s : Sys) (h : Busy s.hw .addr) (hd : s.hw.dr = sla ((sl id g).setWidth 7) r) :
    ∃ h', Held h' (if r then 0x40 else 0x18) ∧ hwStep ⟨id, true⟩ s = { s with hw := h', chip := { s.chip with page := g, mode := if r then .read else .latch } } := by
  obtain ⟨h1, h2, h3, h4⟩ := h
  refine ⟨TwiAvr.finish true (s.chip.mem s.chip.ptr) s.hw, ?_, ?_⟩
  · constructor
    · simp [TwiAvr.finish, h1]
    · simp [TwiAvr.finish, h1]
    · simp [TwiAvr.finish, h1, h3]
    · simp [TwiAvr.finish, h1, h4]
    · simp only [TwiAvr.finish, h1, hd, sl_dir, if_true]
  · unfold hwStep
    have e : (if s.hw.pend = .addr then (⟨id, true⟩ : Dev).acks s.hw.dr else true) = true := by rw [if_pos h1, hd]; exact sl_acks id g r
    simp only [e]
    simp only [sees_app s.hw _ s.chip [.addr s.hw.dr true] (show (TwiAvr.finish true (s.chip.mem s.chip.ptr) s.hw).bus = s.hw.bus ++ [.addr s.hw.dr true] by simp [TwiAvr.finish, h1]),
      List.foldl_cons, List.foldl_nil, Chip.see, hd, sl_dir, sl_page]

theorem hw_tx (id : BitVec 2) (s : Sys) (h : Busy s.hw .tx) : ∃ h', Held h' 0x28 ∧ hwStep ⟨id, true⟩ s = { s with hw := h', chip := s.chip.see (.tx s.hw.dr true) } := by
  obtain ⟨h1, h2, h3, h4⟩ := h
  refine ⟨TwiAvr.finish true (s.chip.mem s.chip.ptr) s.hw, ?_, ?_⟩
  · constructor <;> simp [TwiAvr.finish, h1, h3, h4]
  · unfold hwStep
    have e : (if s.hw.pend = .addr then (⟨id, true⟩ : Dev).acks s.hw.dr else true) = true := by rw [if_neg (by rw [h1]; decide)]
    simp only [e]
    simp only [sees_app s.hw _ s.chip [.tx s.hw.dr true] (show (TwiAvr.finish true (s.chip.mem s.chip.ptr) s.hw).bus = s.hw.bus ++ [.tx s.hw.dr true] by simp [TwiAvr.finish, h1]),
      List.foldl_cons, List.foldl_nil]

theorem hw_rx (q : Dev) (s : Sys) (h : Busy s.hw .rx) (hm : s.chip.mode = .read) :
    ∃ h', Held h' (if s.hw.cr.ea then 0x50 else 0x58) ∧ h'.cr.ea = s.hw.cr.ea ∧ h'.dr = s.chip.mem s.chip.ptr ∧ hwStep q s = { s with hw := h', chip := { s.chip with ptr := s.chip.ptr + 1#9 } } := by
  obtain ⟨h1, h2, h3, h4⟩ := h
  refine ⟨TwiAvr.finish (if s.hw.pend = .addr then q.acks s.hw.dr else q.present) (s.chip.mem s.chip.ptr) s.hw, ?_, ?_, ?_, ?_⟩
  · constructor <;> simp [TwiAvr.finish, h1, h3, h4]
  · simp [TwiAvr.finish, h1]
  · simp [TwiAvr.finish, h1]
  · unfold hwStep
    simp only [sees_app s.hw _ s.chip [.rx (s.chip.mem s.chip.ptr) s.hw.cr.ea] (show (TwiAvr.finish (if s.hw.pend = .addr then q.acks s.hw.dr else q.present) (s.chip.mem s.chip.ptr) s.hw).bus = s.hw.bus ++ [.rx (s.chip.mem s.chip.ptr) s.hw.cr.ea] by simp [TwiAvr.finish, h1]),
      List.foldl_cons, List.foldl_nil, Chip.see, hm]

/-! ### the contents -/

theorem at_succ (a i : Nat) : at' a i + 1#9 = at' a (i + 1) := by
  unfold at'
  apply BitVec.eq_of_toNat_eq
  rw [BitVec.toNat_add]
  simp only [BitVec.toNat_ofNat]
  omega

theorem over_snoc (b : Byte) (l : List Byte) : ∀ (m : Mem) (a : Nat), over m a (l ++ [b]) = put (over m a l) (at' a l.length) b := by
  induction l with
  | nil => intro m a; rfl
  | cons c l ih =>
    intro m a
    show over (put m (at' a 0) c) (a + 1) (l ++ [b]) = put (over (put m (at' a 0) c) (a + 1) l) (at' a (l.length + 1)) b
    rw [ih]
    congr 1
    unfold at'
    congr 1
    omega

theorem over_take (m : Mem) (a : Nat) (l : List Byte) (k : Nat) (h : k < l.length) : put (over m a (l.take k)) (at' a k) (l.getD k 0) = over m a (l.take (k + 1)) := by
  have e : l.take (k + 1) = l.take k ++ [l.getD k 0] := by
    rw [List.take_add_one, List.getD_eq_getElem?_getD, List.getElem?_eq_getElem h]; rfl
  rw [e, over_snoc, List.length_take, Nat.min_eq_left (by omega)]

theorem slice_succ (m : Mem) (a k : Nat) : slice m a k ++ [m (at' a k)] = slice m a (k + 1) := by
  unfold slice
  rw [List.range_succ, List.map_append]
  rfl

theorem slice_length (m : Mem) (a k : Nat) : (slice m a k).length = k := by unfold slice; simp

end Pico.Fram
