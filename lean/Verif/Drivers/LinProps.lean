import Verif.Drivers.Lin
/-
C114: LIN interface of the MPC57xx.
-/
namespace Pico.Lin
open Pico.Field

/-! ## Data registers -/

/-- byte at bit `t` of a register -/
def byteAt (t : Nat) (r : BitVec 32) : Byte := (r >>> t).setWidth 8

theorem byteAt_get (t : Nat) (r : BitVec 32) : byteAt t r = (get 8 t r).setWidth 8 := by
  unfold byteAt
  ext i hi
  simp only [BitVec.getElem_setWidth]
  rw [get_bit, BitVec.getLsbD_ushiftRight]
  simp [hi]

theorem byteAt_other (t t' : Nat) (v r : BitVec 32) (h : t' + 8 ≤ t ∨ t + 8 ≤ t') : byteAt t' (orIn 8 t v r) = byteAt t' r := by
  rw [byteAt_get, byteAt_get, get_orIn_other 8 t 8 t' v r h]

theorem byteAt_same (t : Nat) (b : Byte) (r : BitVec 32) (h : t + 8 ≤ 32) (h0 : byteAt t r = 0) : byteAt t (orIn 8 t (b.setWidth 32) r) = b := by
  unfold byteAt
  ext i hi
  simp only [BitVec.getElem_setWidth, BitVec.getLsbD_ushiftRight]
  rw [orIn_bit 8 t _ r (t + i) (by omega)]
  have hz : r.getLsbD (t + i) = false := by
    have := congrArg (fun x : Byte => x.getLsbD i) h0
    simpa [byteAt, hi] using this
  have hs : t + i - t = i := by omega
  rw [hz, hs]
  simp [hi, BitVec.getLsbD_setWidth]
  omega

theorem byteAt_zero (t : Nat) : byteAt t 0#32 = 0#8 := by unfold byteAt; simp

theorem bdrL_byte (n : Nat) (d : Nat → Byte) (k : Nat) (hk : k < n) (h4 : k < 4) : byteAt (8 * k) (bdrL n d) = d k := by
  unfold bdrL
  have hc : k = 0 ∨ k = 1 ∨ k = 2 ∨ k = 3 := by omega
  rcases hc with e | e | e | e <;> subst e <;> dsimp only
  · rw [byteAt_same _ _ _ (by omega)]
    split <;> split <;> split <;> simp [byteAt_other, byteAt_zero]
  · rw [byteAt_other _ _ _ _ (by omega), if_pos (by omega), byteAt_same _ _ _ (by omega)]
    split <;> split <;> simp [byteAt_other, byteAt_zero]
  · rw [byteAt_other _ _ _ _ (by omega), if_pos (show n ≥ 2 by omega), byteAt_other _ _ _ _ (by omega), if_pos (show n ≥ 3 by omega), byteAt_same _ _ _ (by omega)]
    split <;> simp [byteAt_other, byteAt_zero]
  · rw [byteAt_other _ _ _ _ (by omega), if_pos (show n ≥ 2 by omega), byteAt_other _ _ _ _ (by omega), if_pos (show n ≥ 3 by omega), byteAt_other _ _ _ _ (by omega),
      if_pos (show n ≥ 4 by omega)]
    exact byteAt_same 24 _ _ (by omega) (byteAt_zero _)

theorem bdrM_byte (n : Nat) (d : Nat → Byte) (k : Nat) (hk : 4 + k < n) (h4 : k < 4) : byteAt (8 * k) (bdrM n d) = d (4 + k) := by
  unfold bdrM
  have hc : k = 0 ∨ k = 1 ∨ k = 2 ∨ k = 3 := by omega
  rcases hc with e | e | e | e <;> subst e <;> dsimp only
  · rw [if_pos (show n ≥ 5 by omega), byteAt_same _ _ _ (by omega)]
    split <;> split <;> split <;> simp [byteAt_other, byteAt_zero]
  · rw [if_pos (show n ≥ 5 by omega), byteAt_other _ _ _ _ (by omega), if_pos (show n ≥ 6 by omega), byteAt_same _ _ _ (by omega)]
    split <;> split <;> simp [byteAt_other, byteAt_zero]
  · rw [if_pos (show n ≥ 5 by omega), byteAt_other _ _ _ _ (by omega), if_pos (show n ≥ 6 by omega), byteAt_other _ _ _ _ (by omega), if_pos (show n ≥ 7 by omega),
      byteAt_same _ _ _ (by omega)]
    split <;> simp [byteAt_other, byteAt_zero]
  · rw [if_pos (show n ≥ 5 by omega), byteAt_other _ _ _ _ (by omega), if_pos (show n ≥ 6 by omega), byteAt_other _ _ _ _ (by omega), if_pos (show n ≥ 7 by omega),
      byteAt_other _ _ _ _ (by omega), if_pos (show n ≥ 8 by omega)]
    exact byteAt_same 24 _ _ (by omega) (byteAt_zero _)

theorem byteOf_bdr (s : St) (n : Nat) (d : Nat → Byte) (hl : s.bdrl = bdrL n d) (hm : s.bdrm = bdrM n d) (k : Nat) (hk : k < n) (h8 : k < 8) : byteOf s k = d k := by
  unfold byteOf
  split
  · rename_i h; rw [hl]; exact bdrL_byte n d k hk h
  · rename_i h; rw [hm]
    have := bdrM_byte n d (k - 4) (by omega) (by omega)
    rw [show 4 + (k - 4) = k by omega] at this
    exact this

/-! ## Specification -/

/-- the frame of `n` bytes of `d` for `id` -/
def dataFrame (id n : Nat) (d : Nat → Byte) : Frame := ⟨id, true, n, (List.range n).map d⟩

/-- the header that asks `id` for `n` bytes -/
def header (id n : Nat) : Frame := ⟨id, false, n, []⟩

/-! ## Writing -/

theorem small (w x : Nat) (hw : w ≤ 32) (hx : x < 2 ^ w) : BitVec.ofNat 32 x &&& mask 32 w = BitVec.ofNat 32 x := by
  apply BitVec.eq_of_toNat_eq
  rw [and_mask 32 w x hw hx, BitVec.toNat_ofNat, Nat.mod_eq_of_lt]
  exact Nat.lt_of_lt_of_le hx (Nat.pow_le_pow_right (by omega) hw)

theorem toNat_small (x : Nat) (hx : x < 2 ^ 32) : (BitVec.ofNat 32 x).toNat = x := by
  rw [BitVec.toNat_ofNat, Nat.mod_eq_of_lt hx]

theorem get_orIn_or {n : Nat} (w t : Nat) (v r : BitVec n) (h : t + w ≤ n) : get w t (orIn w t v r) = get w t r ||| (v &&& mask n w) := by
  apply BitVec.eq_of_getLsbD_eq
  intro i hi
  rw [get_bit, BitVec.getLsbD_or, get_bit, BitVec.getLsbD_and, mask_bit]
  by_cases hw : i < w
  · rw [orIn_bit w t v r (t + i) (by omega)]
    simp [hw, hi]
  · simp [hw]

/-- what lin_write leaves in BIDR -/
theorem bidr_write (id n : Nat) (hid : id < 64) (hn : 1 ≤ n) (hn8 : n ≤ 8) (r : BitVec 32) :
    let q := bset 8 (orIn 3 10 (BitVec.ofNat 32 (n - 1)) (orIn 6 0 (BitVec.ofNat 32 id) (bset 9 r)))
    get 6 0 q = get 6 0 r ||| BitVec.ofNat 32 id ∧ get 3 10 q = get 3 10 r ||| BitVec.ofNat 32 (n - 1) ∧ q.getLsbD 9 = true := by
  refine ⟨?_, ?_, ?_⟩
  · rw [get_bset_other 8 6 0 _ (by omega), get_orIn_other 3 10 6 0 _ _ (by omega), get_orIn_or 6 0 _ _ (by omega), get_bset_other 9 6 0 _ (by omega), small 6 id (by omega) (by omega)]
  · rw [get_bset_other 8 3 10 _ (by omega), get_orIn_or 3 10 _ _ (by omega), get_orIn_other 6 0 3 10 _ _ (by omega), get_bset_other 9 3 10 _ (by omega),
      small 3 (n - 1) (by omega) (by omega)]
  · rw [bset_ne _ _ _ (by omega), orIn_bit _ _ _ _ _ (by omega), orIn_bit _ _ _ _ _ (by omega), bset_same _ _ (by omega)]
    simp

/-- what lin_write puts on the bus, whatever was there before: id and length are or-ed with those of the frame before -/
theorem lin_write_mixes (id n : Nat) (hid : id < 64) (hn : 1 ≤ n) (hn8 : n ≤ 8) (d : Nat → Byte) (s : St) (hx : s.xfer = false) :
    (write id n d s).2 = .eagain ∧ ∃ f, (write id n d s).1.sent = s.sent ++ [f] ∧ f.dir = true ∧
      f.id = (get 6 0 s.bidr ||| BitVec.ofNat 32 id).toNat ∧ f.len = (get 3 10 s.bidr ||| BitVec.ofNat 32 (n - 1)).toNat + 1 ∧
      (∀ k, k < n → k < f.len → f.data[k]? = some (d k)) ∧
      get 6 0 (write id n d s).1.bidr = get 6 0 s.bidr ||| BitVec.ofNat 32 id ∧ get 3 10 (write id n d s).1.bidr = get 3 10 s.bidr ||| BitVec.ofNat 32 (n - 1) := by
  have hw : write id n d s = writeIdle id n d s := by
    unfold write; rw [if_neg (by omega), hx]; rfl
  obtain ⟨h1, h2, h3⟩ := bidr_write id n hid hn hn8 s.bidr
  rw [hw]
  refine ⟨rfl, _, rfl, h3, congrArg BitVec.toNat h1, congrArg (fun x => BitVec.toNat x + 1) h2, ?_, h1, h2⟩
  intro k hk hlen
  show (frame _).data[k]? = _
  unfold frame
  dsimp only
  rw [if_pos h3]
  have hlen' : k < (get 3 10 (bset 8 (orIn 3 10 (BitVec.ofNat 32 (n - 1)) (orIn 6 0 (BitVec.ofNat 32 id) (bset 9 s.bidr))))).toNat + 1 := hlen
  rw [List.getElem?_map, List.getElem?_range hlen']
  show some (byteOf _ k) = some (d k)
  rw [byteOf_bdr _ n d rfl rfl k hk (by omega)]

/-- BIDR holds nothing, or what a frame for `id` of `n` bytes left there -/
def Clean (id n : Nat) (r : BitVec 32) : Prop :=
  (get 6 0 r = 0 ∨ get 6 0 r = BitVec.ofNat 32 id) ∧ (get 3 10 r = 0 ∨ get 3 10 r = BitVec.ofNat 32 (n - 1))

/-- before; asked for; sent; over -/
inductive WPh (id n : Nat) (d : Nat → Byte) (s0 : St) (c : St × Option Res) : Prop where
  | before (hr : c.2 = none) (hs : c.1 = s0)
  | asked (hr : c.2 = some .eagain) (hx : c.1.xfer = true) (hs : c.1.sent = s0.sent ++ [dataFrame id n d]) (ht : c.1.tx = true) (hd : c.1.dtf = false)
      (he : c.1.ended = s0.ended) (hb : Clean id n c.1.bidr)
  | sent (hr : c.2 = some .eagain) (hx : c.1.xfer = true) (hs : c.1.sent = s0.sent ++ [dataFrame id n d]) (ht : c.1.tx = false) (hd : c.1.dtf = true)
      (he : c.1.ended = s0.ended + 1) (hb : Clean id n c.1.bidr)
  | over (hr : c.2 = some (.ok n)) (hx : c.1.xfer = false) (hs : c.1.sent = s0.sent ++ [dataFrame id n d]) (ht : c.1.tx = false) (hd : c.1.dtf = false)
      (he : c.1.ended = s0.ended + 1) (hb : Clean id n c.1.bidr)

/-- BIDR after lin_write -/
def wbidr (id n : Nat) (r : BitVec 32) : BitVec 32 := bset 8 (orIn 3 10 (BitVec.ofNat 32 (n - 1)) (orIn 6 0 (BitVec.ofNat 32 id) (bset 9 r)))

/-- the state after the first call of lin_write -/
def wst (id n : Nat) (d : Nat → Byte) (s : St) : St :=
  { s with xfer := true, bidr := wbidr id n s.bidr, bdrl := bdrL n d, bdrm := bdrM n d, sent := s.sent ++ [dataFrame id n d], tx := true, rx := false }

theorem write_clean (id n : Nat) (hid : id < 64) (hn : 1 ≤ n) (hn8 : n ≤ 8) (d : Nat → Byte) (s : St) (hx : s.xfer = false) (hb : Clean id n s.bidr) :
    write id n d s = (wst id n d s, .eagain) ∧ Clean id n (wbidr id n s.bidr) := by
  have hw : write id n d s = writeIdle id n d s := by
    unfold write; rw [if_neg (by omega), hx]; rfl
  obtain ⟨h1, h2, h3⟩ := bidr_write id n hid hn hn8 s.bidr
  have e1 : get 6 0 s.bidr ||| BitVec.ofNat 32 id = BitVec.ofNat 32 id := by
    rcases hb.1 with h | h <;> rw [h] <;> simp
  have e2 : get 3 10 s.bidr ||| BitVec.ofNat 32 (n - 1) = BitVec.ofNat 32 (n - 1) := by
    rcases hb.2 with h | h <;> rw [h] <;> simp
  rw [e1] at h1
  rw [e2] at h2
  refine ⟨?_, .inr h1, .inr h2⟩
  rw [hw]
  change get 6 0 (wbidr id n s.bidr) = _ at h1
  change get 3 10 (wbidr id n s.bidr) = _ at h2
  change (wbidr id n s.bidr).getLsbD 9 = true at h3
  unfold wst
  generalize hq : wbidr id n s.bidr = q at h1 h2 h3
  have hf : frame { s with bidr := q, bdrl := bdrL n d, bdrm := bdrM n d } = dataFrame id n d := by
    unfold frame dataFrame
    dsimp only
    rw [h1, h2, h3, toNat_small id (by omega), toNat_small (n - 1) (by omega), show n - 1 + 1 = n by omega, if_pos rfl]
    have : (List.range n).map (byteOf { s with bidr := q, bdrl := bdrL n d, bdrm := bdrM n d }) = (List.range n).map d := by
      apply List.map_congr_left
      intro k hk
      have hk' := List.mem_range.mp hk
      exact byteOf_bdr _ n d rfl rfl k hk' (by omega)
    rw [this]
  unfold wbidr at hq
  unfold writeIdle htrq
  dsimp only
  rw [hq, hf, h3]
  rfl

theorem wph_step {id n : Nat} (hid : id < 64) (hn : 1 ≤ n) (hn8 : n ≤ 8) {d : Nat → Byte} {s0 : St} (h0 : s0.xfer = false) (ht0 : s0.tx = false) (hd0 : s0.dtf = false)
    (hrx0 : s0.rx = false) (hb0 : Clean id n s0.bidr) (c : St × Option Res) (e : Ev) (hrx : c.1.rx = false) (h : WPh id n d s0 c) :
    WPh id n d s0 (wstep id n d c e) ∧ (wstep id n d c e).1.rx = false := by
  obtain ⟨s, r⟩ := c
  dsimp only at hrx
  cases e with
  | answer x =>
    have e : wstep id n d (s, r) (.answer x) = (s, r) := by show (bus _ s, r) = _; simp [bus, hrx]
    rw [e]; exact ⟨h, hrx⟩
  | badAnswer =>
    have e : wstep id n d (s, r) .badAnswer = (s, r) := by show (bus _ s, r) = _; simp [bus, hrx]
    rw [e]; exact ⟨h, hrx⟩
  | sentData =>
    show WPh id n d s0 (bus .sentData s, r) ∧ (bus .sentData s).rx = false
    unfold bus
    dsimp only
    rcases h with ⟨hr, hs⟩ | ⟨hr, hx, hs, ht, hd, he, hb⟩ | ⟨hr, hx, hs, ht, hd, he, hb⟩ | ⟨hr, hx, hs, ht, hd, he, hb⟩
    · dsimp only at hr hs
      subst hs
      rw [ht0]
      exact ⟨.before hr rfl, hrx⟩
    · dsimp only at ht he
      rw [if_pos ht]
      exact ⟨.sent hr hx hs rfl rfl (by show s.ended + 1 = _; rw [he]) hb, hrx⟩
    · dsimp only at ht
      rw [ht]
      exact ⟨.sent hr hx hs ht hd he hb, hrx⟩
    · dsimp only at ht
      rw [ht]
      exact ⟨.over hr hx hs ht hd he hb, hrx⟩
  | call =>
    have hcall : (r = none ∨ r = some .eagain) → wstep id n d (s, r) .call = ((write id n d s).1, some (write id n d s).2) := by
      intro hc; show (if r = none ∨ r = some .eagain then _ else _) = _; rw [if_pos hc]
    have hxfer : s.xfer = true → write id n d s = writeXfer n s := by
      intro hx; unfold write; rw [if_neg (by omega), hx]; rfl
    rcases h with ⟨hr, hs⟩ | ⟨hr, hx, hs, ht, hd, he, hb⟩ | ⟨hr, hx, hs, ht, hd, he, hb⟩ | ⟨hr, hx, hs, ht, hd, he, hb⟩ <;> dsimp only at hr hs
    · rw [hcall (.inl hr)]
      subst hs
      obtain ⟨k1, k2⟩ := write_clean id n hid hn hn8 d s h0 hb0
      rw [k1]
      exact ⟨.asked rfl rfl rfl rfl hd0 rfl k2, rfl⟩
    · rw [hcall (.inr hr), hxfer hx]
      dsimp only at hd
      unfold writeXfer
      rw [if_pos hd]
      exact ⟨.asked rfl hx hs ht hd he hb, hrx⟩
    · rw [hcall (.inr hr), hxfer hx]
      dsimp only at hd
      unfold writeXfer
      rw [if_neg (by rw [hd]; exact fun h => Bool.noConfusion h)]
      exact ⟨.over rfl rfl hs ht rfl he hb, hrx⟩
    · have e : wstep id n d (s, r) .call = (s, r) := by
        show (if r = none ∨ r = some .eagain then _ else _) = _
        rw [if_neg (by rw [hr]; simp)]
      rw [e]
      exact ⟨.over hr hx hs ht hd he hb, hrx⟩

/-- a master at rest -/
def Rest (s : St) : Prop := s.xfer = false ∧ s.tx = false ∧ s.rx = false ∧ s.dtf = false ∧ s.drf = false ∧ s.cef = false

/-- **lin_write, master**, of an interface that sent nothing yet, or only frames with this id and length: called until it does not return -EAGAIN, at any times, exactly one frame is put on
the bus, with that id, length and data, and the last call returns n, after the data have been sent. Missing: another id or length (`lin_write_mixes`). -/
theorem lin_write_partial {id n : Nat} (hid : id < 64) (hn : 1 ≤ n) (hn8 : n ≤ 8) (d : Nat → Byte) (s : St) (h0 : Rest s) (hb : Clean id n s.bidr) (l : List Ev) :
    let c := wrun id n d l (s, none)
    (c.2 = none ∨ c.2 = some .eagain ∨ c.2 = some (.ok n)) ∧ (c.1.sent = s.sent ∨ c.1.sent = s.sent ++ [dataFrame id n d]) ∧
    (c.2 = some (.ok n) → c.1.sent = s.sent ++ [dataFrame id n d] ∧ c.1.ended = s.ended + 1 ∧ c.1.xfer = false ∧ Clean id n c.1.bidr) := by
  obtain ⟨h1, h2, h3, h4, h5, h6⟩ := h0
  have key : ∀ (l : List Ev) (c : St × Option Res), c.1.rx = false → WPh id n d s c → WPh id n d s (wrun id n d l c) := by
    intro l
    induction l with
    | nil => intro c _ h; exact h
    | cons e l ih => intro c hr h; exact ih _ (wph_step hid hn hn8 h1 h2 h4 h3 hb c e hr h).2 (wph_step hid hn hn8 h1 h2 h4 h3 hb c e hr h).1
  have h := key l (s, none) h3 (.before rfl rfl)
  dsimp only
  rcases h with ⟨hr, hs⟩ | ⟨hr, hx, hs, ht, hd, he, hb⟩ | ⟨hr, hx, hs, ht, hd, he, hb⟩ | ⟨hr, hx, hs, ht, hd, he, hb⟩
  · exact ⟨.inl hr, .inl (by rw [hs]), fun h => by rw [hr] at h; cases h⟩
  · exact ⟨.inr (.inl hr), .inr hs, fun h => by rw [hr] at h; cases h⟩
  · exact ⟨.inr (.inl hr), .inr hs, fun h => by rw [hr] at h; cases h⟩
  · exact ⟨.inr (.inr hr), .inr hs, fun _ => ⟨hs, he, hx, hb⟩⟩

/-- it ends: a call, the end of the frame, a call -/
theorem lin_write_ends {id n : Nat} (hid : id < 64) (hn : 1 ≤ n) (hn8 : n ≤ 8) (d : Nat → Byte) (s : St) (h0 : Rest s) (hb : Clean id n s.bidr) :
    (wrun id n d [.call, .sentData, .call] (s, none)).2 = some (.ok n) := by
  obtain ⟨h1, h2, h3, h4, h5, h6⟩ := h0
  obtain ⟨k1, k2⟩ := write_clean id n hid hn hn8 d s h1 hb
  have e1 : wstep id n d (s, none) .call = ((write id n d s).1, some (write id n d s).2) := rfl
  show (wstep id n d (wstep id n d (wstep id n d (s, none) .call) .sentData) .call).2 = _
  rw [e1, k1]
  show some (write id n d _).2 = _
  unfold write
  rw [if_neg (by omega)]
  rfl

/-- **Refuted**: one byte for id 0x10 after one byte for id 0x21, in a fresh interface, goes out for id 0x31 ... -/
theorem lin_write_wrong_id (d : Nat → Byte) (s : St) (h0 : Rest s) (hb : s.bidr = 0) :
    ∃ f, (wrun 0x10 1 d [.call] ((wrun 0x21 1 d [.call, .sentData, .call] (s, none)).1, none)).1.sent = s.sent ++ [dataFrame 0x21 1 d] ++ [f] ∧ f.id = 0x31 := by
  have hc : Clean 0x21 1 s.bidr := by rw [hb]; unfold Clean; decide
  have he := lin_write_ends (id := 0x21) (n := 1) (by omega) (by omega) (by omega) d s h0 hc
  have hp := (lin_write_partial (id := 0x21) (n := 1) (by omega) (by omega) (by omega) d s h0 hc [.call, .sentData, .call]).2.2 he
  have hbid : get 6 0 (wrun 0x21 1 d [.call, .sentData, .call] (s, none)).1.bidr = BitVec.ofNat 32 0x21 := by
    obtain ⟨k1, k2⟩ := write_clean 0x21 1 (by omega) (by omega) (by omega) d s h0.1 hc
    have e1 : wstep 0x21 1 d (s, none) .call = ((write 0x21 1 d s).1, some (write 0x21 1 d s).2) := rfl
    show get 6 0 (wstep 0x21 1 d (wstep 0x21 1 d (wstep 0x21 1 d (s, none) .call) .sentData) .call).1.bidr = _
    rw [e1, k1]
    show get 6 0 (write 0x21 1 d _).1.bidr = _
    unfold write
    rw [if_neg (by omega)]
    show get 6 0 (wbidr 0x21 1 s.bidr) = _
    rw [hb]
    decide
  generalize (wrun 0x21 1 d [.call, .sentData, .call] (s, none)).1 = s1 at hp hbid
  obtain ⟨_, f, m1, _, m3, _⟩ := lin_write_mixes 0x10 1 (by omega) (by omega) (by omega) d s1 hp.2.2.1
  refine ⟨f, ?_, ?_⟩
  · show (write 0x10 1 d s1).1.sent = _
    rw [m1, hp.1]
  · rw [m3, hbid]; decide

/-- ... and whatever ids and lengths: a master that wrote `n` bytes for `id`, and then writes `n'` bytes for `id'`, sends the id `id ||| id'` -/
theorem lin_write_or {id n id' n' : Nat} (hid : id < 64) (hn : 1 ≤ n) (hn8 : n ≤ 8) (hid' : id' < 64) (hn' : 1 ≤ n') (hn8' : n' ≤ 8) (d d' : Nat → Byte) (s : St) (hx : s.xfer = false)
    (hb : get 6 0 s.bidr = 0) (s2 : St) (hs2 : s2.xfer = false) (hsame : s2.bidr = (write id n d s).1.bidr) :
    ∃ f, (write id' n' d' s2).1.sent = s2.sent ++ [f] ∧ f.id = id ||| id' := by
  obtain ⟨_, _, _, _, _, _, _, k, _⟩ := lin_write_mixes id n hid hn hn8 d s hx
  obtain ⟨_, f, m1, _, m3, _⟩ := lin_write_mixes id' n' hid' hn' hn8' d' s2 hs2
  refine ⟨f, m1, ?_⟩
  rw [m3, hsame, k, hb, BitVec.toNat_or, BitVec.toNat_or, toNat_small id (by omega), toNat_small id' (by omega)]
  show 0 ||| id ||| id' = _
  rw [Nat.zero_or]

end Pico.Lin
