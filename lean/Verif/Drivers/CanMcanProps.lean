import Verif.Drivers.CanMcan
import Verif.Drivers.CanTimingProps
/-
C72, C73, C74 for drivers/can/can-bosch_mcan.c
-/
namespace Pico.Can.Mcan

theorem m29 (x : Nat) : x &&& 0x1fffffff = x % 2 ^ 29 := Nat.and_two_pow_sub_one_eq_mod x 29

theorem shl1 (k : Nat) : 1 <<< k = 2 ^ k := by rw [Nat.shiftLeft_eq, Nat.one_mul]

theorem and_fld_shr (w s k : Nat) (h : s + k ≤ 32) : (w &&& fld (2 ^ k - 1) s (2 ^ k - 1)) >>> s = bits w s k := by
  apply Nat.eq_of_testBit_eq
  intro i
  unfold fld bits
  rw [Nat.testBit_shiftRight, Nat.testBit_and, Nat.testBit_shiftLeft, Nat.and_self, Nat.testBit_two_pow_sub_one, Nat.testBit_mod_two_pow, Nat.testBit_div_two_pow]
  have : s + i ≥ s := by omega
  simp only [this, decide_true, Bool.true_and]
  have e : s + i - s = i := by omega
  rw [e, Nat.add_comm i s, Bool.and_comm]

theorem t0_frame (id : Nat) (h : id < 2 ^ 29) :
    let t0 := if id < 2048 then (id <<< 18) &&& 0x1fffffff else 1 <<< 30 ||| (id &&& 0x1fffffff)
    (bits t0 30 1 = if id < 2048 then 0 else 1) ∧ (bits t0 18 11 = id ∨ 2048 ≤ id) ∧ (bits t0 0 29 = id ∨ id < 2048) := by
  intro t0
  by_cases hi : id < 2048
  · have e : t0 = id * 2 ^ 18 + 0 := by
      show (if id < 2048 then (id <<< 18) &&& 0x1fffffff else 1 <<< 30 ||| (id &&& 0x1fffffff)) = _
      rw [if_pos hi, m29, Nat.shiftLeft_eq]; omega
    refine ⟨?_, Or.inl ?_, Or.inr hi⟩
    · rw [if_pos hi, e]; unfold bits; omega
    · rw [e, bits_top _ _ _ _ (by omega)]; omega
  · have e : t0 = 1 * 2 ^ 30 + id := by
      show (if id < 2048 then (id <<< 18) &&& 0x1fffffff else 1 <<< 30 ||| (id &&& 0x1fffffff)) = _
      rw [if_neg hi, m29, Nat.shiftLeft_eq, Nat.mod_eq_of_lt h, or_mul_two_pow 30 1 id (by omega)]
    refine ⟨?_, Or.inr (by omega), Or.inl ?_⟩
    · rw [if_neg hi, e, bits_top _ _ _ _ (by omega)]
    · rw [e, bits_low _ _ _ _ _ (by omega), bits_all _ _ h]

/-- **C72, drivers/can/can-bosch_mcan.c**: when can_write returns n, one free buffer now waits to send exactly the frame asked and all the frames that were waiting are
as they were; when it returns an error nothing waiting to be sent has changed. -/
theorem mcan_write {id n : Nat} {buf : List Byte} (s : Tx) (hw : s.Hw) (hid : id < 2 ^ 29) (hb : n ≤ buf.length) :
    ((write id buf n s).2 = .ok n ∧ ∃ j < 32, s.out j = none ∧ (write id buf n s).1.out j = some (asked id buf n) ∧ ∀ i, i ≠ j → (write id buf n s).1.out i = s.out i) ∨
    ((∀ m, (write id buf n s).2 ≠ .ok m) ∧ (write id buf n s).1.out = s.out) := by
  unfold write
  split
  · right; refine ⟨?_, rfl⟩; intro m h; cases h
  rename_i hn
  split
  · right; refine ⟨?_, rfl⟩; intro m h; cases h
  simp only []
  split
  · right; refine ⟨?_, rfl⟩; intro m h; cases h
  split
  · right; refine ⟨?_, rfl⟩; intro m h; cases h
  rename_i hf
  left
  refine ⟨rfl, ?_⟩
  have hix : (s.txfqs &&& fld 0x1f 16 0x1f) >>> 16 = bits s.txfqs 16 5 := and_fld_shr s.txfqs 16 5 (by omega)
  have hfree : s.pend (bits s.txfqs 16 5) = false := by
    apply hw
    rw [shl1] at hf
    rw [← and_bit]
    omega
  have hlt : bits s.txfqs 16 5 < 32 := bits_lt _ _ _
  rw [hix]
  generalize bits s.txfqs 16 5 = j at *
  refine ⟨j, hlt, ?_, ?_, ?_⟩
  · simp [Tx.out, hfree]
  · have ht := t0_frame id hid
    simp only [] at ht
    have h1 : bits (fld 0xf 16 n) 16 4 = n := by
      rw [e4, ← Nat.add_zero (n % 16 * 2 ^ 16), bits_top _ _ _ _ (by omega)]; omega
    have hp : (s.pend j || (1 <<< j).testBit j) = true := by rw [shl1, Nat.testBit_two_pow_self]; simp
    simp only [Tx.out, hp, if_true]
    simp only [frame, asked, h1, packLE_bytes buf n (by omega) hb, Option.some.injEq, Frame.mk.injEq, and_true]
    generalize (if id < 2048 then (id <<< 18) &&& 0x1fffffff else 1 <<< 30 ||| (id &&& 0x1fffffff)) = t0 at ht
    obtain ⟨ha, hb', hc⟩ := ht
    by_cases hi : id < 2048
    · rw [if_pos hi] at ha
      rw [ha]
      refine ⟨by simp; omega, ?_⟩
      rcases hb' with h | h
      · simp [h]
      · omega
    · rw [if_neg hi] at ha
      rw [ha]
      refine ⟨by simp; omega, ?_⟩
      rcases hc with h | h
      · simp [h]
      · omega
  · intro i hij
    have hp : (1 <<< j).testBit i = false := by
      rw [shl1, Nat.testBit_two_pow]; simp; omega
    simp [Tx.out, hp, hij]

/-! ### Reception -/

theorem index_eq (s : Rx) (h : s.Hw) : (s.rxf0s &&& fld 0x3f 8 0x3f) >>> 8 = s.gi := by
  rw [show (s.rxf0s &&& fld 0x3f 8 0x3f) >>> 8 = bits s.rxf0s 8 6 from and_fld_shr s.rxf0s 8 6 (by omega)]
  unfold Rx.rxf0s
  rw [bits_low _ _ _ _ _ (by omega), bits_top _ _ _ _ (by have := h.2; omega)]
  have := h.1
  omega

theorem lvl_eq (s : Rx) : s.rxf0s &&& 0x3f = s.lvl % 64 := by
  rw [show s.rxf0s &&& 0x3f = s.rxf0s % 2 ^ 6 from Nat.and_two_pow_sub_one_eq_mod _ 6]
  unfold Rx.rxf0s
  omega

theorem queue_cons (s : Rx) (hl : 0 < s.lvl) (hg : s.gi < 64) : s.queue = frame (s.ram s.gi) :: (ack s.gi s).queue := by
  obtain ⟨l, he⟩ : ∃ l, s.lvl = l + 1 := ⟨s.lvl - 1, by omega⟩
  unfold Rx.queue
  rw [he, List.range_succ_eq_map, List.map_cons, List.map_map]
  have : (s.gi + 0) % 64 = s.gi := by omega
  rw [this]
  congr 1
  have hl' : (ack s.gi s).lvl = l := by simp [ack, he]
  rw [hl']
  apply List.map_congr_left
  intro k _
  show frame (s.ram ((s.gi + (k + 1)) % 64)) = frame (s.ram (((s.gi + 1) % 64 + k) % 64))
  congr 2
  omega

theorem id_eq (w : Nat) : (if w &&& 1 <<< 30 = 0 then (w &&& 0x1fffffff) >>> 18 else w &&& 0x1fffffff) =
    (if bits w 30 1 = 1 then bits w 0 29 else bits w 18 11) := by
  have hb := bits_lt w 30 1
  rw [shl1, m29, Nat.shiftRight_eq_div_pow]
  by_cases h : w &&& 2 ^ 30 = 0
  · have h0 := (and_bit w 30).1 h
    rw [if_pos h, h0]
    simp [bits]
    omega
  · have h1 : bits w 30 1 = 1 := by
      rcases Nat.lt_or_ge (bits w 30 1) 1 with hh | hh
      · exact absurd ((and_bit w 30).2 (by omega)) h
      · omega
    rw [if_neg h, if_pos h1]
    simp [bits]

/-- **C73 (partial), drivers/can/can-bosch_mcan.c**: can_read takes the oldest frame received, and gives its identifier and its bytes, provided the buffer is
large enough for it and fewer than 64 frames are waiting. Missing: the two other cases, which are wrong (`mcan_read_overflow`, `mcan_read_full`). -/
theorem mcan_read_partial {n old : Nat} {p : Nat → Byte} (s : Rx) (hw : s.Hw) (hl : 0 < s.lvl) (hl' : s.lvl < 64) (hn : n ≤ 8)
    {f : Frame} {q : List Frame} (hq : s.queue = f :: q) (hd : bits (s.ram s.gi).w1 16 4 ≤ 8) (hfn : f.data.length ≤ n) (hn0 : 0 < n) :
    (read p old n s).res = .ok f.data.length ∧ (read p old n s).id = f.id ∧ (read p old n s).buf = received f.data p ∧ (read p old n s).st.queue = q ∧
    (read p old n s).st.Hw := by
  have hq' := queue_cons s hl hw.1
  rw [hq] at hq'
  injection hq' with hf hq'
  have hlen : f.data.length = bits (s.ram s.gi).w1 16 4 := by
    rw [hf]; simp [frame, leBytes]; omega
  unfold read
  rw [if_neg (by omega), lvl_eq, if_neg (by omega), index_eq s hw]
  simp only []
  have hdlc : ((s.ram s.gi).w1 &&& fld 0xf 16 0xf) >>> 16 = bits (s.ram s.gi).w1 16 4 := and_fld_shr _ 16 4 (by omega)
  have hai : s.gi &&& 0x3f = s.gi := by
    rw [show s.gi &&& 0x3f = s.gi % 2 ^ 6 from Nat.and_two_pow_sub_one_eq_mod _ 6]
    have := hw.1; omega
  rw [hdlc, hai, id_eq, if_pos hd, unpackLE_eq _ _ _ hd]
  refine ⟨by rw [hlen], by rw [hf]; simp [frame], by rw [hf]; simp [frame], hq'.symm, ?_⟩
  refine ⟨?_, ?_⟩
  · show (s.gi + 1) % 64 < 64; omega
  · show s.lvl - 1 ≤ 64; have := hw.2; omega

/-- the size given by the caller is not looked at: a frame of more than n bytes is written past the end of the buffer -/
theorem mcan_read_overflow {n old : Nat} {p : Nat → Byte} (s : Rx) (hw : s.Hw) (hl : 0 < s.lvl) (hl' : s.lvl < 64) (hn : n ≤ 8) (hn0 : 0 < n)
    (hd : bits (s.ram s.gi).w1 16 4 ≤ 8) :
    (read p old n s).buf = received (frame (s.ram s.gi)).data p := by
  unfold read
  rw [if_neg (by omega), lvl_eq, if_neg (by omega), index_eq s hw]
  simp only []
  have hdlc : ((s.ram s.gi).w1 &&& fld 0xf 16 0xf) >>> 16 = bits (s.ram s.gi).w1 16 4 := and_fld_shr _ 16 4 (by omega)
  rw [hdlc, if_pos hd, unpackLE_eq _ _ _ hd]
  rfl

/-- ... concretely: can_read with a 1-byte buffer changes the byte after it -/
example : ∃ s : Rx, s.Hw ∧ (read (fun _ => 0xff) 0 1 s).buf 1 = 0x22 := by
  refine ⟨{ ram := fun _ => ⟨0, 2 * 2 ^ 16, 0x2211, 0⟩, gi := 0, lvl := 1, hi := 0 }, ⟨by decide, by decide⟩, by decide⟩

/-- with no frame waiting: -EAGAIN, nothing touched -/
theorem mcan_read_empty {n old : Nat} {p : Nat → Byte} (s : Rx) (hl : s.lvl = 0) (hn : n ≤ 8) (hn0 : 0 < n) : read p old n s = ⟨s, p, old, .eagain⟩ := by
  unfold read
  rw [if_neg (by omega), lvl_eq, if_pos (by omega)]

/-- when the fifo is full (64 frames) can_read reports it empty -/
theorem mcan_read_full {n old : Nat} {p : Nat → Byte} (s : Rx) (hl : s.lvl = 64) (hn : n ≤ 8) (hn0 : 0 < n) : read p old n s = ⟨s, p, old, .eagain⟩ := by
  unfold read
  rw [if_neg (by omega), lvl_eq, if_pos (by omega)]

inductive Ev where
  | arrive (e : Elem)
  | read (n : Nat)

/-- a history of arrivals and can_read calls (one buffer and identifier for all); the results of the calls -/
def run (om : Bool) (p : Nat → Byte) (old : Nat) : List Ev → Rx → Rx × List Res
  | [], s => (s, [])
  | .arrive e :: t, s => run om p old t (arrive om e s)
  | .read n :: t, s => let r := read p old n s; let x := run om p old t r.st; (x.1, r.res :: x.2)

/-- **the reception is stuck for ever**: once 64 frames are waiting, whatever arrives and however often can_read is called, no call ever returns a frame again -/
theorem mcan_stuck (om : Bool) (p : Nat → Byte) (old : Nat) (l : List Ev) : ∀ s : Rx, s.lvl = 64 → (run om p old l s).1.lvl = 64 ∧ ∀ m, Res.ok m ∉ (run om p old l s).2 := by
  induction l with
  | nil => intro s h; simp [run, h]
  | cons a t ih =>
    intro s h
    cases a with
    | arrive e =>
      apply ih
      unfold arrive
      rw [if_neg (by omega)]
      split <;> simp [h]
    | read n =>
      have hr : (read p old n s).st = s ∧ ∀ m, (read p old n s).res ≠ .ok m := by
        by_cases hn : n = 0 ∨ n > 8
        · unfold read; rw [if_pos hn]; exact ⟨rfl, by intro m h; cases h⟩
        · rw [mcan_read_full s h (by omega) (by omega)]; exact ⟨rfl, by intro m h; cases h⟩
      simp only [run, hr.1]
      refine ⟨(ih s h).1, ?_⟩
      intro m hm
      rcases List.mem_cons.1 hm with e | e
      · exact hr.2 m e.symm
      · exact (ih s h).2 m e

/-- a burst of 64 frames is enough -/
example (s : Rx) (h : s.lvl = 63) (e : Elem) : (arrive false e s).lvl = 64 := by simp [arrive, h]

/-- below 64, arrivals add at the end of the queue and nothing else changes -/
theorem mcan_arrive (om : Bool) (e : Elem) (s : Rx) (hw : s.Hw) (hl : s.lvl < 64) : (arrive om e s).queue = s.queue ++ [frame e] ∧ (arrive om e s).Hw := by
  unfold arrive
  rw [if_pos hl]
  refine ⟨?_, hw.1, by show s.lvl + 1 ≤ 64; omega⟩
  unfold Rx.queue
  show (List.range (s.lvl + 1)).map _ = _
  rw [List.range_succ, List.map_append]
  congr 1
  · apply List.map_congr_left
    intro k hk
    have hk' := List.mem_range.1 hk
    have : ¬ ((s.gi + k) % 64 = (s.gi + s.lvl) % 64) := by omega
    show frame (if (s.gi + k) % 64 = (s.gi + s.lvl) % 64 then e else s.ram ((s.gi + k) % 64)) = _
    rw [if_neg this]
  · simp

/-! ### Acceptance -/

theorem sf_new (id mask : Nat) (hid : id < 2048) (i : Nat) (hi : i < 2048) :
    sfMatch (fld 0x3 30 2 ||| fld 0x7 27 1 ||| fld 0x7ff 16 id ||| fld 0x7ff 0 mask) i ↔ i &&& mask = id &&& mask := by
  have e : fld 0x3 30 2 ||| fld 0x7 27 1 ||| fld 0x7ff 16 id ||| fld 0x7ff 0 mask = 2 * 2 ^ 30 + (1 * 2 ^ 27 + (id * 2 ^ 16 + mask % 2 ^ 11)) := by
    rw [e1, e3, e11, e11, Nat.or_assoc, Nat.or_assoc, or_mul_two_pow 16 _ _ (by omega), or_mul_two_pow 27 _ _ (by omega), or_mul_two_pow 30 _ _ (by omega)]
    omega
  have hm : mask % 2 ^ 11 < 2 ^ 11 := Nat.mod_lt _ (by omega)
  have key : ∀ x, x < 2048 → x &&& mask % 2 ^ 11 = x &&& mask := by
    intro x hx
    rw [← Nat.and_two_pow_sub_one_eq_mod, Nat.and_comm mask, ← Nat.and_assoc, Nat.and_two_pow_sub_one_eq_mod, Nat.mod_eq_of_lt (by omega)]
  rw [e]
  generalize mask % 2 ^ 11 = mk at *
  unfold sfMatch
  rw [bits_top _ 30 _ _ (by omega), bits_low _ 30 _ 27 3 (by omega), bits_low _ 30 _ 0 11 (by omega), bits_low _ 30 _ 16 11 (by omega), bits_top _ 27 _ _ (by omega),
    bits_low _ 27 _ 0 11 (by omega), bits_low _ 27 _ 16 11 (by omega), bits_top _ 16 _ _ (by omega), bits_low _ 16 _ 0 11 (by omega), bits_all mk _ hm,
    Nat.mod_eq_of_lt (by omega : id < 2 ^ 11), key i hi, key id hid]
  simp

theorem ef_new (id mask : Nat) (hid : id < 2 ^ 29) (hm : mask < 2 ^ 29) (i : Nat) :
    efMatch (fld 0x7 29 1 ||| (id &&& 0x1fffffff), fld 0x3 30 2 ||| (mask &&& 0x1fffffff)) i ↔ i &&& mask = id &&& mask := by
  have ea : fld 0x7 29 1 ||| (id &&& 0x1fffffff) = 1 * 2 ^ 29 + id := by
    rw [e3, m29, or_mul_two_pow 29 _ _ (by omega)]; omega
  have eb : fld 0x3 30 2 ||| (mask &&& 0x1fffffff) = 2 * 2 ^ 30 + mask := by
    rw [e1, m29, or_mul_two_pow 30 _ _ (by omega)]; omega
  unfold efMatch
  rw [ea, eb]
  simp only []
  rw [bits_top _ 29 _ _ hid, bits_top _ 30 _ _ (by omega), bits_low _ 30 _ 0 29 (by omega), bits_low _ 29 _ 0 29 (by omega), bits_all _ _ hid, bits_all _ _ hm]
  simp

/-- what the filters programmed so far are: `h` is the list of calls that returned 0 -/
structure Inv (s : Flt) (h : List (Nat × Nat)) : Prop where
  b11 : s.n11 ≤ 128
  b29 : s.n29 ≤ 64
  s_on : ∀ c ∈ h, c.1 < 2048 → ∃ i < s.n11, ∀ id < 2048, sfMatch (s.sf i) id ↔ id &&& c.2 = c.1 &&& c.2
  s_off : ∀ i, i < s.n11 → ∃ c ∈ h, c.1 < 2048 ∧ ∀ id < 2048, sfMatch (s.sf i) id ↔ id &&& c.2 = c.1 &&& c.2
  s_dis : ∀ i, s.n11 ≤ i → ∀ id, ¬ sfMatch (s.sf i) id
  e_on : ∀ c ∈ h, 2048 ≤ c.1 → ∃ i < s.n29, ∀ id, efMatch (s.ef i) id ↔ id &&& c.2 = c.1 &&& c.2
  e_off : ∀ i, i < s.n29 → ∃ c ∈ h, 2048 ≤ c.1 ∧ ∀ id, efMatch (s.ef i) id ↔ id &&& c.2 = c.1 &&& c.2
  e_dis : ∀ i, s.n29 ≤ i → ∀ id, ¬ efMatch (s.ef i) id

theorem inv_init (junk : Nat → Nat) : Inv (fltInit junk) [] := by
  refine ⟨by simp [fltInit], by simp [fltInit], by simp, by simp [fltInit], ?_, by simp, by simp [fltInit], ?_⟩
  · intro i _ id h
    have := h.1
    simp [fltInit, e1, bits] at this
  · intro i _ id h
    have := h.1
    simp [fltInit, e3, bits] at this

theorem inv_accept {s : Flt} {h : List (Nat × Nat)} (hi : Inv s h) (id mask : Nat) :
    (∃ s', accept id mask s = (s', .ok 0) ∧ Inv s' (h ++ [(id, mask)])) ∨ ((∀ m, (accept id mask s).2 ≠ .ok m) ∧ (accept id mask s).1 = s) := by
  unfold accept
  split
  · right; exact ⟨(by intro m h; cases h), rfl⟩
  rename_i h1
  split
  · right; exact ⟨(by intro m h; cases h), rfl⟩
  rename_i h2
  split
  · rename_i h3
    split
    · right; exact ⟨(by intro m h; cases h), rfl⟩
    rename_i h4
    left
    refine ⟨_, rfl, ?_⟩
    refine ⟨by show s.n11 + 1 ≤ 128; omega, hi.b29, ?_, ?_, ?_, ?_, ?_, hi.e_dis⟩
    · intro c hc hc'
      rcases List.mem_append.1 hc with hc | hc
      · obtain ⟨i, hin, hm⟩ := hi.s_on c hc hc'
        refine ⟨i, by show i < s.n11 + 1; omega, ?_⟩
        simp only []
        rw [if_neg (by omega)]
        exact hm
      · simp at hc; subst hc
        refine ⟨s.n11, by show s.n11 < s.n11 + 1; omega, ?_⟩
        simp only [if_true]
        intro i hi'
        exact sf_new id mask h3 i hi'
    · intro i hin
      have hin : i < s.n11 + 1 := hin
      simp only []
      by_cases he : i = s.n11
      · rw [if_pos he]
        exact ⟨(id, mask), by simp, h3, fun j hj => sf_new id mask h3 j hj⟩
      · rw [if_neg he]
        obtain ⟨c, hc, hc'⟩ := hi.s_off i (by omega)
        exact ⟨c, List.mem_append_left _ hc, hc'⟩
    · intro i hin
      have hin : s.n11 + 1 ≤ i := hin
      simp only []
      rw [if_neg (by omega)]
      exact hi.s_dis i (by omega)
    · intro c hc hc'
      rcases List.mem_append.1 hc with hc | hc
      · exact hi.e_on c hc hc'
      · simp at hc; subst hc; simp at hc'; omega
    · intro i hin
      obtain ⟨c, hc, hc'⟩ := hi.e_off i hin
      exact ⟨c, List.mem_append_left _ hc, hc'⟩
  · rename_i h3
    split
    · right; exact ⟨(by intro m h; cases h), rfl⟩
    rename_i h4
    left
    refine ⟨_, rfl, ?_⟩
    refine ⟨hi.b11, by show s.n29 + 1 ≤ 64; omega, ?_, ?_, hi.s_dis, ?_, ?_, ?_⟩
    · intro c hc hc'
      rcases List.mem_append.1 hc with hc | hc
      · exact hi.s_on c hc hc'
      · simp at hc; subst hc; simp at hc'; omega
    · intro i hin
      obtain ⟨c, hc, hc'⟩ := hi.s_off i hin
      exact ⟨c, List.mem_append_left _ hc, hc'⟩
    · intro c hc hc'
      rcases List.mem_append.1 hc with hc | hc
      · obtain ⟨i, hin, hm⟩ := hi.e_on c hc hc'
        refine ⟨i, by show i < s.n29 + 1; omega, ?_⟩
        simp only []
        rw [if_neg (by omega)]
        exact hm
      · simp at hc; subst hc
        refine ⟨s.n29, by show s.n29 < s.n29 + 1; omega, ?_⟩
        simp only [if_true]
        intro i
        exact ef_new id mask (by omega) (by omega) i
    · intro i hin
      have hin : i < s.n29 + 1 := hin
      simp only []
      by_cases he : i = s.n29
      · rw [if_pos he]
        exact ⟨(id, mask), by simp, by show 2048 ≤ id; omega, fun j => ef_new id mask (by omega) (by omega) j⟩
      · rw [if_neg he]
        obtain ⟨c, hc, hc'⟩ := hi.e_off i (by omega)
        exact ⟨c, List.mem_append_left _ hc, hc'⟩
    · intro i hin
      have hin : s.n29 + 1 ≤ i := hin
      simp only []
      rw [if_neg (by omega)]
      exact hi.e_dis i (by omega)

theorem inv_all (l : List (Nat × Nat)) : ∀ (s : Flt) (h : List (Nat × Nat)), Inv s h → Inv (acceptAll l s).1 (h ++ (acceptAll l s).2) := by
  induction l with
  | nil => intro s h hi; simpa [acceptAll] using hi
  | cons c t ih =>
    intro s h hi
    rcases inv_accept hi c.1 c.2 with ⟨s', he, hi'⟩ | ⟨he, hs⟩
    · have := ih s' _ hi'
      simp only [acceptAll, he]
      simpa [List.append_assoc] using this
    · have := ih s h hi
      rcases hr : accept c.1 c.2 s with ⟨s', r⟩
      rw [hr] at he hs
      simp only at he hs
      cases r with
      | ok m => exact absurd rfl (he m)
      | _ => simp only [acceptAll, hr]; rw [hs]; exact this

theorem inv_stored {s : Flt} {h : List (Nat × Nat)} (hi : Inv s h) (f : Frame) (hf : f.Ok) : stored s f ↔ ∃ c ∈ h, accepts c.1 c.2 f := by
  unfold stored accepts
  rcases hx : f.ext with _ | _
  · have hid : f.id < 2048 := by have := hf.1; rw [hx] at this; simpa using this
    simp only [Bool.false_eq_true, if_false]
    constructor
    · rintro ⟨i, _, hm⟩
      rcases Nat.lt_or_ge i s.n11 with hl | hl
      · obtain ⟨c, hc, h1, h2⟩ := hi.s_off i hl
        exact ⟨c, hc, by simp; omega, (h2 _ hid).1 hm⟩
      · exact absurd hm (hi.s_dis i hl _)
    · rintro ⟨c, hc, h1, h2⟩
      have h1' : c.1 < 2048 := by simpa using h1
      obtain ⟨i, hin, hm⟩ := hi.s_on c hc h1'
      exact ⟨i, by have := hi.b11; omega, (hm _ hid).2 h2⟩
  · simp only [if_true]
    constructor
    · rintro ⟨i, _, hm⟩
      rcases Nat.lt_or_ge i s.n29 with hl | hl
      · obtain ⟨c, hc, h1, h2⟩ := hi.e_off i hl
        exact ⟨c, hc, by simp; omega, (h2 _).1 hm⟩
      · exact absurd hm (hi.e_dis i hl _)
    · rintro ⟨c, hc, h1, h2⟩
      have h1' : 2048 ≤ c.1 := by simpa using h1
      obtain ⟨i, hin, hm⟩ := hi.e_on c hc h1'
      exact ⟨i, by have := hi.b29; omega, (hm _).2 h2⟩

/-- **C74, drivers/can/can-bosch_mcan.c**: after any sequence of can_accept calls the controller stores exactly the frames that a call that returned 0 accepts. -/
theorem mcan_accept (junk : Nat → Nat) (l : List (Nat × Nat)) (f : Frame) (hf : f.Ok) :
    stored (acceptAll l (fltInit junk)).1 f ↔ ∃ c ∈ (acceptAll l (fltInit junk)).2, accepts c.1 c.2 f := by
  have := inv_stored (inv_all l (fltInit junk) [] (inv_init junk)) f hf
  simpa using this

/-! ### Non-vacuity -/

example : (acceptAll [(0x123, 0x7ff), (0x12345, 0), (2 ^ 29, 0)] (fltInit fun _ => 0)).2 = [(0x123, 0x7ff), (0x12345, 0)] := by decide
/-- CAN_ACCEPT_ANY with a 11-bit identifier accepts all the 11-bit identifiers -/
example (id : Nat) (d : List Byte) : accepts 0x123 0 ⟨false, id, d⟩ := by simp [accepts]
example : (write 0x12345 [1, 2, 3] 3 { el := fun _ => ⟨0, 0, 0, 0⟩, pend := fun _ => false, txfqs := 0, bo := false, ini := false, rcv := false }).1.out 0 =
    some ⟨true, 0x12345, [1, 2, 3]⟩ := by decide

end Pico.Can.Mcan
