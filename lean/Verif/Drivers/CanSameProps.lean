import Verif.Drivers.CanSame
import Verif.Drivers.CanMcanProps
/-
C121: CAN on the SAME5x
-/
namespace Pico.Can.Same

open Mcan (Elem frame Rx ack Rd)

theorem shr_and (w s k : Nat) : (w >>> s) &&& (2 ^ k - 1) = bits w s k := by
  rw [Nat.and_two_pow_sub_one_eq_mod, Nat.shiftRight_eq_div_pow]; rfl

theorem t0_eq (id : Nat) (h : id < 2048) : (id <<< 18) &&& 0x1fffffff = id * 2 ^ 18 := by
  rw [Mcan.m29, Nat.shiftLeft_eq]; omega

theorem new_frame (id n : Nat) (buf : List Byte) (h : id < 2048) (hn : n ≤ 8) (hb : n ≤ buf.length) :
    frame ⟨(id <<< 18) &&& 0x1fffffff, fld 0xf 16 n, (packLE buf n).1, (packLE buf n).2⟩ = asked id buf n := by
  have h1 : bits (fld 0xf 16 n) 16 4 = n := by
    rw [e4, ← Nat.add_zero (n % 16 * 2 ^ 16), bits_top _ _ _ _ (by omega)]; omega
  have h2 : bits (id * 2 ^ 18) 30 1 = 0 := by unfold bits; omega
  have h3 : bits (id * 2 ^ 18) 18 11 = id := by unfold bits; omega
  simp only [frame, asked, t0_eq id h, h1, h2, h3, packLE_bytes buf n hn hb]
  simp; omega

/-- **C121** partial, can_write: as long as the transmit fifo is not full, when can_write returns n one free buffer now waits to send exactly the frame asked and all the frames that were
waiting are as they were; when it returns an error nothing waiting has changed. Not covered: a full fifo, and 29-bit identifiers (refused): false -/
theorem same_write_partial {id n : Nat} {buf : List Byte} (s : Tx) (hw : s.Hw) (hf : bits s.txfqs 21 1 = 0) (hb : n ≤ buf.length) :
    ((write id buf n s).2 = .ok n ∧ ∃ j < 32, s.out j = none ∧ (write id buf n s).1.out j = some (asked id buf n) ∧ ∀ i, i ≠ j → (write id buf n s).1.out i = s.out i) ∨
    ((write id buf n s).2 = .einval ∧ (2048 ≤ id ∨ n = 0 ∨ 8 < n) ∧ (write id buf n s).1.out = s.out) := by
  have hfree : s.pend (bits s.txfqs 16 5) = false := by
    unfold Tx.Hw at hw; rw [hw, hf]; rfl
  have hix : (s.txfqs >>> 16) &&& 0x1f = bits s.txfqs 16 5 := shr_and s.txfqs 16 5
  have hlt : bits s.txfqs 16 5 < 32 := bits_lt _ _ _
  unfold write
  split
  · right; exact ⟨rfl, by omega, rfl⟩
  split
  · right; exact ⟨rfl, by omega, rfl⟩
  rename_i h1 h2
  simp only [hix]
  generalize bits s.txfqs 16 5 = j at *
  split
  · right
    refine ⟨rfl, by omega, ?_⟩
    funext i
    by_cases hij : i = j
    · simp [Tx.out, hij, hfree]
    · simp [Tx.out, hij]
  · left
    refine ⟨rfl, j, hlt, by simp [Tx.out, hfree], ?_, ?_⟩
    · have hp : (s.pend j || (1 <<< j).testBit j) = true := by rw [Mcan.shl1, Nat.testBit_two_pow_self]; simp
      simp only [Tx.out, hp, if_true]
      rw [new_frame id n buf (by omega) (by omega) hb]
    · intro i hij
      have hp : (1 <<< j).testBit i = false := by rw [Mcan.shl1, Nat.testBit_two_pow]; simp; omega
      simp [Tx.out, hp, hij]

/-- **C121 refuted**: when the transmit fifo is full a frame that waits is replaced by the new one, n is returned, and there is no frame more: one is lost -/
theorem same_write_full {id n : Nat} {buf : List Byte} (s : Tx) (hw : s.Hw) (hf : bits s.txfqs 21 1 = 1) (hid : id < 2048) (h0 : 0 < n) (hn : n ≤ 8) (hb : n ≤ buf.length) :
    (write id buf n s).2 = .ok n ∧ ∃ j < 32, (∃ f, s.out j = some f) ∧ (write id buf n s).1.out j = some (asked id buf n) ∧ (write id buf n s).1.pend = s.pend := by
  have hp : s.pend (bits s.txfqs 16 5) = true := by
    unfold Tx.Hw at hw; rw [hw, hf]; rfl
  have hix : (s.txfqs >>> 16) &&& 0x1f = bits s.txfqs 16 5 := shr_and s.txfqs 16 5
  have hlt : bits s.txfqs 16 5 < 32 := bits_lt _ _ _
  rw [write, if_neg (by omega), if_neg (by omega)]
  simp only [hix, if_neg (show ¬ n > 8 by omega)]
  generalize bits s.txfqs 16 5 = j at *
  refine ⟨trivial, j, hlt, ⟨frame (s.el j), by simp [Tx.out, hp]⟩, ?_, ?_⟩
  · simp only [Tx.out, hp, Bool.true_or, if_true]
    rw [new_frame id n buf hid hn hb]
  · funext i
    by_cases hij : i = j
    · simp [hij, hp]
    · have : (1 <<< j).testBit i = false := by rw [Mcan.shl1, Nat.testBit_two_pow]; simp; omega
      simp [this]

/-- **C121 refuted**: even a call that fails, with more than 8 bytes, spoils the frame that waits: it goes out with another identifier and with zeros -/
theorem same_write_spoils {id n : Nat} {buf : List Byte} (s : Tx) (hw : s.Hw) (hf : bits s.txfqs 21 1 = 1) (hid : id < 2048) (hn : 8 < n) :
    (write id buf n s).2 = .einval ∧ ∃ j < 32, (∃ f, s.out j = some f) ∧ ∃ k ≤ 8, (write id buf n s).1.out j = some ⟨false, id, List.replicate k 0#8⟩ := by
  have hp : s.pend (bits s.txfqs 16 5) = true := by
    unfold Tx.Hw at hw; rw [hw, hf]; rfl
  have hix : (s.txfqs >>> 16) &&& 0x1f = bits s.txfqs 16 5 := shr_and s.txfqs 16 5
  have hlt : bits s.txfqs 16 5 < 32 := bits_lt _ _ _
  rw [write, if_neg (by omega), if_neg (by omega)]
  simp only [hix, if_pos (show n > 8 by omega)]
  generalize bits s.txfqs 16 5 = j at *
  have h2 : bits (id * 2 ^ 18) 30 1 = 0 := by unfold bits; omega
  have h3 : bits (id * 2 ^ 18) 18 11 = id := by unfold bits; omega
  have hz : leBytes 0 0 = List.replicate 8 0#8 := by decide
  refine ⟨trivial, j, hlt, ⟨frame (s.el j), by simp [Tx.out, hp]⟩, min (bits (fld 0xf 16 n) 16 4) 8, by omega, ?_⟩
  simp only [Tx.out, hp, if_true, frame, t0_eq id hid, h2, h3, hz, List.take_replicate]
  simp

/-! ### Reception -/

theorem index_eq (s : Rx) (h : s.Hw) : (s.rxf0s >>> 8) &&& 0x3f = s.gi := by
  rw [show (s.rxf0s >>> 8) &&& 0x3f = bits s.rxf0s 8 6 from shr_and s.rxf0s 8 6]
  unfold Rx.rxf0s
  rw [bits_low _ _ _ _ _ (by omega), bits_top _ _ _ _ (by have := h.2; omega)]
  have := h.1
  omega

theorem lvl_eq (s : Rx) (h : s.Hw) : s.rxf0s &&& 0x7f = s.lvl := by
  rw [show s.rxf0s &&& 0x7f = s.rxf0s % 2 ^ 7 from Nat.and_two_pow_sub_one_eq_mod _ 7]
  unfold Rx.rxf0s
  have := h.2
  omega

theorem ai_eq (s : Rx) (h : s.Hw) : s.gi &&& 0x3f = s.gi := by
  rw [show s.gi &&& 0x3f = s.gi % 2 ^ 6 from Nat.and_two_pow_sub_one_eq_mod _ 6]
  have := h.1; omega

theorem id_std (w : Nat) : (w &&& 0x1fffffff) >>> 18 = bits w 18 11 := by
  rw [Mcan.m29, Nat.shiftRight_eq_div_pow]; unfold bits; omega

theorem id_ext (w : Nat) : (w &&& 0x1fffffff) >>> 18 = bits w 0 29 / 2 ^ 18 := by
  rw [Mcan.m29, Nat.shiftRight_eq_div_pow]; unfold bits; simp

/-- can_read when a frame waits -/
theorem read_eq (p : Nat → Byte) (old n : Nat) (hn : 0 < n) (s : Rx) (hw : s.Hw) (hl : 0 < s.lvl) : read p old n s =
    (let m := min (bits (s.ram s.gi).w1 16 4) n
     if 1 ≤ m ∧ m ≤ 8 then ⟨ack s.gi s, unpackLE (s.ram s.gi).w2 (s.ram s.gi).w3 m p, ((s.ram s.gi).w0 &&& 0x1fffffff) >>> 18, .ok m⟩ else ⟨s, p, old, .eio⟩) := by
  have hm : ∀ d, (if d < n then d else n) = min d n := fun d => by rw [Nat.min_def]; split <;> split <;> omega
  rw [read, if_neg (by omega), lvl_eq s hw, if_neg (by omega), index_eq s hw]
  simp only [show ((s.ram s.gi).w1 >>> 16) &&& 0xf = bits (s.ram s.gi).w1 16 4 from shr_and _ 16 4, hm, ai_eq s hw]

/-- **C121** partial, can_read: it takes the oldest of the frames received, however many wait, and gives its identifier and its first n bytes, for a frame of 1 to 8 bytes with a
identifier of 11 bits. Not covered: frames without data, and identifiers of 29 bits: false -/
theorem same_read_partial {n old : Nat} {p : Nat → Byte} (s : Rx) (hw : s.Hw) (hl : 0 < s.lvl) {f : Frame} {q : List Frame} (hq : s.queue = f :: q)
    (hd : bits (s.ram s.gi).w1 16 4 ≤ 8) (h0 : f.data ≠ []) (hx : f.ext = false) (hn : 0 < n) :
    (read p old n s).res = .ok (min f.data.length n) ∧ (read p old n s).id = f.id ∧ (read p old n s).buf = received (f.data.take n) p ∧
    (read p old n s).st.queue = q ∧ (read p old n s).st.Hw := by
  have hq' := Mcan.queue_cons s hl hw.1
  rw [hq] at hq'
  injection hq' with hf hq'
  have hlen : f.data.length = bits (s.ram s.gi).w1 16 4 := by rw [hf]; simp [frame, leBytes]; omega
  have hpos : 0 < f.data.length := List.length_pos_iff.2 h0
  have hc : 1 ≤ min (bits (s.ram s.gi).w1 16 4) n ∧ min (bits (s.ram s.gi).w1 16 4) n ≤ 8 := by omega
  rw [read_eq p old n hn s hw hl]
  simp only [if_pos hc, unpackLE_eq _ _ _ hc.2]
  have he : bits (s.ram s.gi).w0 30 1 ≠ 1 := by
    intro q; rw [hf] at hx; simp [frame, q] at hx
  refine ⟨by rw [hlen], ?_, ?_, hq'.symm, ?_, ?_⟩
  · rw [id_std, hf]; simp [frame, he]
  · rw [hf]; simp only [frame, List.take_take]; rw [Nat.min_comm n]
  · show (s.gi + 1) % 64 < 64; omega
  · show s.lvl - 1 ≤ 64; have := hw.2; omega

/-- no frame waits: -EAGAIN, nothing touched -/
theorem same_read_empty {n old : Nat} {p : Nat → Byte} (s : Rx) (hw : s.Hw) (hl : s.lvl = 0) (hn : 0 < n) : read p old n s = ⟨s, p, old, .eagain⟩ := by
  rw [read, if_neg (by omega), lvl_eq s hw, if_pos hl]

/-- **C121 refuted**: a frame with an identifier of 29 bits is given to the caller as one of 11 bits, its 11 upper bits -/
theorem same_read_ext {n old : Nat} {p : Nat → Byte} (s : Rx) (hw : s.Hw) (hl : 0 < s.lvl) {f : Frame} {q : List Frame} (hq : s.queue = f :: q)
    (hd : bits (s.ram s.gi).w1 16 4 ≤ 8) (h0 : f.data ≠ []) (hx : f.ext = true) (hn : 0 < n) :
    (read p old n s).res = .ok (min f.data.length n) ∧ (read p old n s).id = f.id / 2 ^ 18 ∧ (read p old n s).id < 2048 := by
  have hq' := Mcan.queue_cons s hl hw.1
  rw [hq] at hq'
  injection hq' with hf hq'
  have hlen : f.data.length = bits (s.ram s.gi).w1 16 4 := by rw [hf]; simp [frame, leBytes]; omega
  have hpos : 0 < f.data.length := List.length_pos_iff.2 h0
  have hc : 1 ≤ min (bits (s.ram s.gi).w1 16 4) n ∧ min (bits (s.ram s.gi).w1 16 4) n ≤ 8 := by omega
  rw [read_eq p old n hn s hw hl]
  simp only [if_pos hc]
  have he : bits (s.ram s.gi).w0 30 1 = 1 := by
    rw [hf] at hx; simpa [frame] using hx
  refine ⟨by rw [hlen], ?_, ?_⟩
  · rw [id_ext, hf]; simp [frame, he]
  · rw [id_std]; exact bits_lt _ _ _

/-- **C121 refuted**: once the oldest frame is one without data, whatever arrives and however often can_read is called, no call ever returns a frame again -/
theorem same_read_stuck (l : List Ev) : ∀ s : Rx, s.Hw → 0 < s.lvl → bits (s.ram s.gi).w1 16 4 = 0 → ∀ m, Res.ok m ∉ (run l s).2 := by
  induction l with
  | nil => intro s _ _ _ m; simp [run]
  | cons a t ih =>
    intro s hw hl hz
    cases a with
    | arrive e =>
      rw [run]
      unfold Mcan.arrive
      split
      · rename_i h
        have hne : ¬ (s.gi = (s.gi + s.lvl) % 64) := by have := hw.1; omega
        refine ih _ ⟨hw.1, by show s.lvl + 1 ≤ 64; omega⟩ (by show 0 < s.lvl + 1; omega) ?_
        show bits (if s.gi = (s.gi + s.lvl) % 64 then e else s.ram s.gi).w1 16 4 = 0
        rw [if_neg hne]; exact hz
      · simp only [Bool.false_eq_true, if_false]
        exact ih s hw hl hz
    | read p old n =>
      have hr : (read p old n s).st = s ∧ ∀ m, (read p old n s).res ≠ .ok m := by
        by_cases hn : 0 < n
        · rw [read_eq p old n hn s hw hl]
          simp only [hz, Nat.zero_min]
          exact ⟨rfl, fun m h => by cases h⟩
        · rw [read, if_pos hn]; exact ⟨rfl, fun m h => by cases h⟩
      intro m hm
      rw [run] at hm
      simp only [hr.1] at hm
      rcases List.mem_cons.1 hm with e | e
      · exact hr.2 m e.symm
      · exact ih s hw hl hz m e

/-! ### Acceptance -/

theorem elem_sfec (id mask : Nat) : bits (fld 0x3 30 2 ||| fld 0x7 27 5 ||| fld 0x7ff 16 id ||| fld 0x7ff 0 mask) 27 3 = 5 := by
  have e : fld 0x3 30 2 ||| fld 0x7 27 5 ||| fld 0x7ff 16 id ||| fld 0x7ff 0 mask = 2 * 2 ^ 30 + (5 * 2 ^ 27 + (id % 2048 * 2 ^ 16 + mask % 2048)) := by
    rw [e1, e3, e11, e11, Nat.or_assoc, Nat.or_assoc, or_mul_two_pow 16 _ _ (by omega), or_mul_two_pow 27 _ _ (by omega), or_mul_two_pow 30 _ _ (by omega)]
    omega
  rw [e, bits_low _ 30 _ 27 3 (by omega), bits_top _ 27 _ _ (by omega)]

theorem elems (l : List (Nat × Nat)) : ∀ s : Flt, (∀ i, bits (s.sf i) 27 3 = 0 ∨ bits (s.sf i) 27 3 = 5) →
    ∀ i, bits ((acceptAll l s).sf i) 27 3 = 0 ∨ bits ((acceptAll l s).sf i) 27 3 = 5 := by
  induction l with
  | nil => intro s h; exact h
  | cons c t ih =>
    intro s h
    rw [acceptAll]
    apply ih
    unfold accept
    split
    · exact h
    split
    · exact h
    split
    · exact h
    · intro i
      show bits (if i = s.n then _ else s.sf i) 27 3 = 0 ∨ bits (if i = s.n then _ else s.sf i) 27 3 = 5
      split
      · right; exact elem_sfec _ _
      · exact h i

/-- **C121 refuted**: the filters do nothing: with a list of filters that is empty at first, and GFC as it is after a reset (the driver doesn't write it), every frame is stored, of 11 or
29 bits, whatever the calls of can_accept, even without one -/
theorem same_accept_all (l : List (Nat × Nat)) (f : Frame) : stored 0 (acceptAll l ⟨fun _ => 0, 0⟩) f = true := by
  have h := elems l ⟨fun _ => 0, 0⟩ (fun i => Or.inl (by simp [bits]))
  unfold stored
  split
  · rfl
  · split
    · rename_i i hi
      have := List.find?_some hi
      have hf : bits ((acceptAll l ⟨fun _ => 0, 0⟩).sf i) 27 3 ≠ 0 := by
        unfold fits at this
        simp only [Bool.and_eq_true, decide_eq_true_eq] at this
        exact this.1
      rcases h i with q | q
      · exact absurd q hf
      · simp [q]
    · rfl

/-- the element that can_accept writes does fit the frames asked, and no other: what is missing is GFC -/
theorem same_accept_fits (id mask : Nat) (hid : id < 2048) (hm : mask < 2048) (s : Flt) (hn : s.n < 128) (i : Nat) :
    (accept id mask s).2 = .ok 0 ∧ (fits ((accept id mask s).1.sf s.n) i = true ↔ accepts id mask ⟨false, i, []⟩) ∧ (∀ j, j ≠ s.n → (accept id mask s).1.sf j = s.sf j) ∧ (accept id mask s).1.n = s.n + 1 := by
  have e : fld 0x3 30 2 ||| fld 0x7 27 5 ||| fld 0x7ff 16 id ||| fld 0x7ff 0 mask = 2 * 2 ^ 30 + (5 * 2 ^ 27 + (id * 2 ^ 16 + mask)) := by
    rw [e1, e3, e11, e11, Nat.or_assoc, Nat.or_assoc, or_mul_two_pow 16 _ _ (by omega), or_mul_two_pow 27 _ _ (by omega), or_mul_two_pow 30 _ _ (by omega)]
    omega
  rw [accept, if_neg (by omega), if_neg (by omega), if_neg (by omega)]
  refine ⟨rfl, ?_, fun j hj => by simp [hj], rfl⟩
  have b1 : bits (2 * 2 ^ 30 + (5 * 2 ^ 27 + (id * 2 ^ 16 + mask))) 27 3 = 5 := by rw [bits_low _ 30 _ 27 3 (by omega), bits_top _ 27 _ _ (by omega)]
  have b2 : bits (2 * 2 ^ 30 + (5 * 2 ^ 27 + (id * 2 ^ 16 + mask))) 30 2 = 2 := by rw [bits_top _ 30 _ _ (by omega)]
  have b3 : bits (2 * 2 ^ 30 + (5 * 2 ^ 27 + (id * 2 ^ 16 + mask))) 16 11 = id := by
    rw [bits_low _ 30 _ 16 11 (by omega), bits_low _ 27 _ 16 11 (by omega), bits_top _ 16 _ _ (by omega)]; omega
  have b4 : bits (2 * 2 ^ 30 + (5 * 2 ^ 27 + (id * 2 ^ 16 + mask))) 0 11 = mask := by
    rw [bits_low _ 30 _ 0 11 (by omega), bits_low _ 27 _ 0 11 (by omega), bits_low _ 16 _ 0 11 (by omega), bits_all _ _ hm]
  have hd : decide (2048 ≤ id) = false := by simp; omega
  simp only [if_true, e, fits, b1, b2, b3, b4, accepts, hd]
  simp

theorem accept_below (id mask : Nat) (s : Flt) : s.n ≤ (accept id mask s).1.n ∧ ∀ j, j < s.n → (accept id mask s).1.sf j = s.sf j := by
  unfold accept
  split
  · exact ⟨Nat.le_refl _, fun _ _ => rfl⟩
  · split
    · exact ⟨Nat.le_refl _, fun _ _ => rfl⟩
    · split
      · exact ⟨Nat.le_refl _, fun _ _ => rfl⟩
      · exact ⟨Nat.le_succ _, fun j hj => by simp [show j ≠ s.n by omega]⟩

theorem all_below (l : List (Nat × Nat)) : ∀ s : Flt, ∀ j, j < s.n → (acceptAll l s).sf j = s.sf j := by
  induction l with
  | nil => intro s j _; rfl
  | cons c l ih =>
    intro s j hj
    obtain ⟨h1, h2⟩ := accept_below c.1 c.2 s
    show (acceptAll l (accept c.1 c.2 s).1).sf j = s.sf j
    rw [ih _ j (by omega), h2 j hj]

/-- and no call undoes another: after any number of calls up to 128, the k-th element is the filter of the k-th call -/
theorem same_accept_kept (l : List (Nat × Nat)) (hl : ∀ c ∈ l, c.1 < 2048 ∧ c.2 < 2048) (s : Flt) (hn : s.n + l.length ≤ 128) (k : Nat) (c : Nat × Nat) (hk : l[k]? = some c) (i : Nat) :
    fits ((acceptAll l s).sf (s.n + k)) i = true ↔ accepts c.1 c.2 ⟨false, i, []⟩ := by
  induction l generalizing s k with
  | nil => simp at hk
  | cons d l ih =>
    obtain ⟨h1, h2⟩ := hl d (by simp)
    simp only [List.length_cons] at hn
    obtain ⟨_, a2, _, a4⟩ := same_accept_fits d.1 d.2 h1 h2 s (by omega) i
    show fits ((acceptAll l (accept d.1 d.2 s).1).sf (s.n + k)) i = true ↔ _
    cases k with
    | zero =>
      have e : d = c := by simpa using hk
      subst e
      rw [Nat.add_zero, all_below l _ s.n (by omega)]
      exact a2
    | succ k =>
      have := ih (fun c h => hl c (by simp [h])) (accept d.1 d.2 s).1 (by omega) k (by simpa using hk)
      rw [a4, show s.n + 1 + k = s.n + (k + 1) by omega] at this
      exact this

/-! ### Bit rate -/

theorem regs_hw {brp tq d : Nat} (h1 : 1 ≤ brp) (h2 : brp ≤ 31) (h : regs brp tq = some d) : mcanHwD d = ⟨brp, tq, 1 + seg87 (tq - 1)⟩ := by
  unfold regs at h
  split at h
  · cases h
  rename_i ht
  simp only [] at h
  split at h
  · cases h
  split at h
  · cases h
  rename_i h3 hc
  injection h with hd
  generalize hs : seg87 (tq - 1) = t1 at *
  have hq : t1 = ((tq - 1) * 64 + 36) / 73 := by rw [← hs]; rfl
  obtain ⟨b, rfl⟩ : ∃ b, brp = b + 1 := ⟨brp - 1, by omega⟩
  obtain ⟨a, rfl⟩ : ∃ a, t1 = a + 1 := ⟨t1 - 1, by omega⟩
  obtain ⟨c, hcc⟩ : ∃ c, tq = a + c + 3 := ⟨tq - a - 3, by omega⟩
  have r1 : b + 1 - 1 = b := by omega
  have r2 : a + 1 - 1 = a := by omega
  have r3 : tq - 1 - (a + 1) - 1 = c := by omega
  have hb : b < 32 := by omega
  have ha : a < 32 := by omega
  have hc16 : c < 16 := by omega
  rw [r1, r2, r3] at hd
  clear hs hq hc h3 ht r1 r2 r3
  have hdd : d = b * 2 ^ 16 + (a * 2 ^ 8 + (c * 2 ^ 4 + 0)) := by
    rw [← hd, e5, e5, e4, e4, Nat.or_assoc, Nat.or_assoc, or_mul_two_pow 4 _ _ (by omega), or_mul_two_pow 8 _ _ (by omega), or_mul_two_pow 16 _ _ (by omega)]
    omega
  simp only [mcanHwD, Timing.mk.injEq]
  rw [hdd, bits_top _ 16 _ _ (by omega), bits_low _ 16 _ 8 5 (by omega), bits_low _ 16 _ 4 4 (by omega), bits_top _ 8 _ _ (by omega),
    bits_low _ 8 _ 4 4 (by omega), bits_top _ 4 _ _ (by omega), hcc]
  omega

/-- the rate asked, exactly, is given to the data phase of FD frames, that the driver never sends -/
theorem same_bitrate_data {freq bitrate : Nat} (hb : bitrate < 2 ^ 27) (r : Bt) (h : (setup freq bitrate r).2 = none) : Exact (mcanHwD (setup freq bitrate r).1.dbtp) freq bitrate := by
  unfold setup at h ⊢
  cases hs : setBitrate .einval 0x1f 1 4 49 regs freq bitrate with
  | error e => rw [hs] at h; cases h
  | ok d =>
    obtain ⟨b, tq, h1, h2, h3, h4, h5, h6⟩ := setBitrate_ok (by omega) (by omega) hs
    simp only [regs_hw h1 (by omega) h6]
    show freq = b * tq * bitrate; rw [h5, Nat.mul_one, Nat.mul_right_comm]

/-- **C121 refuted**: the bit rate of the frames is not the one asked: NBTP is as it was; after a reset the controller runs at a 16th of its clock, whatever the rate asked, and it
is the rate asked only if it happens to be that -/
theorem same_bitrate_not {freq bitrate : Nat} (r : Bt) :
    (setup freq bitrate r).1.nbtp = r.nbtp ∧ (Exact (mcanHwN (setup freq bitrate btReset).1.nbtp) freq bitrate ↔ freq = 16 * bitrate) := by
  have e : ∀ r, (setup freq bitrate r).1.nbtp = r.nbtp := by
    intro r
    unfold setup
    split <;> rfl
  refine ⟨e r, ?_⟩
  rw [e]
  have : mcanHwN btReset.nbtp = ⟨1, 16, 12⟩ := by decide
  rw [this]
  show freq = 1 * 16 * bitrate ↔ _
  rw [Nat.one_mul]

/-- a case: 500 kb/s asked of a clock of 48 MHz: accepted, and the bus runs at 3 Mb/s -/
theorem same_sample : setup 48000000 500000 btReset = (⟨0x06000a03, 0x021a30⟩, none) ∧ Exact (mcanHwN (setup 48000000 500000 btReset).1.nbtp) 48000000 3000000 := by
  refine ⟨by decide +kernel, ?_⟩
  have := (same_bitrate_not (freq := 48000000) (bitrate := 3000000) btReset).2
  have e : ∀ f b, (setup f b btReset).1.nbtp = btReset.nbtp := fun f b => (same_bitrate_not btReset).1
  rw [e] at this ⊢
  exact this.2 rfl

/-- cases: a fifo that is not full, one that is, a receive fifo with a frame of 2 bytes, one with a frame without data: the hypotheses are met -/
theorem same_met :
    (Tx.mk (fun _ => ⟨0, 0, 0, 0⟩) (fun j => decide (j < 3)) (3 <<< 16)).Hw ∧ (Tx.mk (fun _ => ⟨0, 0, 0, 0⟩) (fun j => decide (j < 32)) (1 <<< 21 ||| 5 <<< 16)).Hw ∧
    (write 0x123 [1, 2] 2 (Tx.mk (fun _ => ⟨0, 0, 0, 0⟩) (fun j => decide (j < 3)) (3 <<< 16))).1.out 3 = some ⟨false, 0x123, [1, 2]⟩ ∧
    (Rx.mk (fun _ => ⟨0x123 <<< 18, 2 <<< 16, 0x0201, 0⟩) 5 64 0).Hw ∧
    (read (fun _ => 0) 0 8 (Rx.mk (fun _ => ⟨0x123 <<< 18, 2 <<< 16, 0x0201, 0⟩) 5 64 0)).res = .ok 2 ∧
    (read (fun _ => 0) 0 8 (Rx.mk (fun _ => ⟨0x123 <<< 18, 2 <<< 16, 0x0201, 0⟩) 5 64 0)).id = 0x123 ∧
    (read (fun _ => 0) 0 8 (Rx.mk (fun _ => ⟨0x123 <<< 18, 0, 0, 0⟩) 5 1 0)).res = .eio := by
  refine ⟨?_, ?_, ?_, ?_, ?_, ?_, ?_⟩
  · unfold Tx.Hw; decide
  · unfold Tx.Hw; decide
  · decide +kernel
  · exact ⟨by decide, by decide⟩
  · decide +kernel
  · decide +kernel
  · decide +kernel

end Pico.Can.Same
