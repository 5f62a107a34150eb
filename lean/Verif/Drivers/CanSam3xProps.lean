import Verif.Drivers.CanSam3x
import Verif.Drivers.CanMcanProps
/-
C72, C73, C74 for drivers/can/can-sam3x.c
-/
namespace Pico.Can.Sam3x
open Pico.Can.Mcan (m29 shl1)

theorem mid_std (id x : Nat) (h : id < 2048) : bits (midOf id x) 29 1 = 0 ∧ bits (midOf id x) 18 11 = x % 2048 := by
  have e : midOf id x = 0 * 2 ^ 29 + (x % 2048 * 2 ^ 18 + 0) := by unfold midOf; rw [if_pos h, e11]; omega
  rw [e]
  refine ⟨by rw [bits_top _ 29 _ _ (by omega)], ?_⟩
  rw [bits_low _ 29 _ 18 11 (by omega), bits_top _ 18 _ _ (by omega)]
  omega

/-- the 29 bits the driver puts in the mailbox for a 29-bit identifier: bits 17-27 of the identifier in the upper 11 bits (should be 18-28) and its lowest 14 bits
(should be the lowest 18) -/
def scrambled (x : Nat) : Nat := x / 2 ^ 17 % 2048 * 2 ^ 18 + x % 2 ^ 14

theorem mid_ext (id x : Nat) (h : 2048 ≤ id) : bits (midOf id x) 29 1 = 1 ∧ bits (midOf id x) 0 29 = scrambled x := by
  have e : midOf id x = 1 * 2 ^ 29 + (x / 2 ^ 17 % 2048 * 2 ^ 18 + x % 2 ^ 14) := by
    unfold midOf
    rw [if_neg (by omega), e11, show x &&& 0x3fff = x % 2 ^ 14 from Nat.and_two_pow_sub_one_eq_mod x 14, Nat.shiftRight_eq_div_pow, Nat.shiftLeft_eq,
      or_mul_two_pow 18 _ _ (by omega), or_mul_two_pow 29 _ _ (by omega)]
  rw [e]
  refine ⟨by rw [bits_top _ 29 _ _ (by omega)], ?_⟩
  rw [bits_low _ 29 _ 0 29 (by omega), bits_all _ _ (by omega)]
  rfl

/-- the identifier that goes on the bus -/
def busId (id : Nat) : Nat := if id < 2048 then id else scrambled id

/-- it is the one asked exactly for the identifiers under 2^14 -/
theorem busId_iff (id : Nat) (h : id < 2 ^ 29) : busId id = id ↔ id < 2 ^ 14 := by
  unfold busId scrambled
  split <;> omega

/-- the bytes that go on the bus: each group of four is reversed, in a group that is not full the missing bytes (0) come first -/
def busData (buf : List Byte) (n : Nat) : List Byte :=
  [g buf n 3, g buf n 2, g buf n 1, g buf n 0, g buf n 7, g buf n 6, g buf n 5, g buf n 4].take n

theorem tx_frame (id n : Nat) (buf : List Byte) (hid : id < 2 ^ 29) (hn : n ≤ 8) (m : Mb)
    (h1 : m.mid = midOf id id) (h2 : m.dl = (packBE buf n).1) (h3 : m.dh = (packBE buf n).2) (h4 : m.dlc = n &&& 0xf) :
    frame m = ⟨decide (2048 ≤ id), busId id, busData buf n⟩ := by
  have e : n &&& 0xf = n := by rw [show n &&& 0xf = n % 2 ^ 4 from Nat.and_two_pow_sub_one_eq_mod n 4]; omega
  have hd : (leBytes m.dl m.dh).take m.dlc = busData buf n := by
    rw [h2, h3, h4, e, packBE_eq]
    simp only [leBytes, byteAt_word, busData]
  unfold frame
  rw [hd, h1]
  by_cases h : id < 2048
  · obtain ⟨a, b⟩ := mid_std id id h
    simp only [a, b, busId, h, if_true]
    have : ¬ 2048 ≤ id := by omega
    simp [this]; omega
  · obtain ⟨a, b⟩ := mid_ext id id (by omega)
    have : 2048 ≤ id := by omega
    simp [a, b, busId, h, this]

/-- **C72 (partial), drivers/can/can-sam3x.c**: when can_write returns n one free tx mailbox now waits to send a frame of the format asked with n bytes, and the others
are as they were; when it returns an error nothing waiting to be sent has changed. The identifier is the one asked if it is under 2^14 (`busId_iff`).
Missing: the other identifiers, and the bytes (`busData`): each group of four is sent in reverse order. -/
theorem sam3x_write_partial {id n : Nat} {buf : List Byte} (s : St) (hs : s.Ok) (hid : id < 2 ^ 29) :
    ((write id buf n s).1.Ok) ∧
    (((write id buf n s).2 = .ok n ∧ ∃ j, s.rxc ≤ j ∧ j < 8 ∧ s.out j = none ∧
        (write id buf n s).1.out j = some ⟨decide (2048 ≤ id), busId id, busData buf n⟩ ∧
        ∀ i, i ≠ j → (write id buf n s).1.out i = s.out i) ∨
     ((∀ m, (write id buf n s).2 ≠ .ok m) ∧ (write id buf n s).1.out = s.out)) := by
  obtain ⟨hc, ht, hr, hm⟩ := hs
  have hmod : (s.txi + 1) % s.txc < s.txc := Nat.mod_lt _ (by omega)
  unfold write
  split
  · exact ⟨⟨hc, ht, hr, hm⟩, Or.inr ⟨(by intro m h; cases h), rfl⟩⟩
  rename_i hn
  simp only []
  by_cases hrdy : (s.mb (s.rxc + s.txi)).mrdy = false
  · rw [if_pos hrdy]
    by_cases ha : s.abort
    · rw [if_pos ha]
      exact ⟨⟨hc, ht, hr, hm⟩, Or.inr ⟨(by intro m h; cases h), rfl⟩⟩
    · rw [if_neg ha]
      exact ⟨⟨hc, ht, hr, hm⟩, Or.inr ⟨(by intro m h; cases h), rfl⟩⟩
  · rw [if_neg hrdy]
    simp only [transferTx]
    rw [if_neg hrdy]
    refine ⟨⟨hc, hmod, hr, ?_⟩, Or.inl ⟨rfl, s.rxc + s.txi, by omega, by omega, ?_, ?_, ?_⟩⟩
    · intro j h1 h2
      simp only [setMb]
      split
      · rfl
      · exact hm j h1 h2
    · simp [St.out, hrdy]
    · simp only [St.out, setMb, if_true]
      rw [if_pos ⟨by omega, by omega, trivial, trivial⟩, tx_frame id n buf hid (by omega) _ rfl rfl rfl rfl]
    · intro i hi
      simp [St.out, setMb, hi]

/-- a frame of one byte always carries 0 -/
theorem sam3x_one_byte (b : Byte) : busData [b] 1 = [0] := rfl

/-! ### Reception -/

theorem rd_id (m : Mb) (h : m.mid < 2 ^ 30) :
    (if m.mid &&& 1 <<< 29 ≠ 0 then m.mid &&& (2 ^ 32 - 1 - 1 <<< 29) else m.mid >>> 18) = (frame m).id := by
  have hb := bits_lt m.mid 29 1
  have hbb : bits m.mid 29 1 = m.mid / 2 ^ 29 % 2 := rfl
  rw [shl1]
  by_cases h0 : m.mid &&& 2 ^ 29 = 0
  · have h0' := (and_bit m.mid 29).1 h0
    rw [if_neg (by simpa using h0)]
    simp only [frame, h0']
    rw [if_neg (by omega), Nat.shiftRight_eq_div_pow]
    unfold bits
    omega
  · have h1 : bits m.mid 29 1 = 1 := by
      rcases Nat.lt_or_ge (bits m.mid 29 1) 1 with hh | hh
      · exact absurd ((and_bit m.mid 29).2 (by omega)) h0
      · omega
    rw [if_pos h0]
    simp only [frame, h1, if_true]
    have : m.mid &&& (2 ^ 32 - 1 - 2 ^ 29) = m.mid % 2 ^ 29 := by
      apply Nat.eq_of_testBit_eq
      intro i
      rw [Nat.testBit_and, Nat.testBit_mod_two_pow]
      by_cases hi : i < 29
      · have : (2 ^ 32 - 1 - 2 ^ 29 : Nat).testBit i = true := by
          have : ∀ i, i < 29 → (2 ^ 32 - 1 - 2 ^ 29 : Nat).testBit i = true := by decide
          exact this i hi
        rw [this]; simp [hi]
      · by_cases hi2 : i = 29
        · subst hi2
          have : (2 ^ 32 - 1 - 2 ^ 29 : Nat).testBit 29 = false := by decide
          rw [this]; simp
        · have : m.mid.testBit i = false := Nat.testBit_lt_two_pow (Nat.lt_of_lt_of_le h (Nat.pow_le_pow_right (by omega) (by omega)))
          rw [this]; simp
    rw [this]
    simp [bits]

/-- **C73 (partial), drivers/can/can-sam3x.c**: can_read takes the frame of the last mailbox that has one and gives its identifier and its length, writing n bytes at most.
Missing: the bytes, those of each word in reverse order (`beBytes` where the bus order is `leBytes`). -/
theorem sam3x_read_partial {n old i : Nat} {p : Nat → Byte} (s : St) (hs : s.Ok) (hn0 : 0 < n) (hn : n ≤ 8) (hi : i < s.rxi) (hrdy : (s.mb i).mrdy = true)
    (hlast : ∀ j, i < j → j < s.rxi → (s.mb j).mrdy = false) (hmid : (s.mb i).mid < 2 ^ 30) (hd : (s.mb i).dlc ≤ 8) :
    let r := read p old n s
    let f := frame (s.mb i)
    r.res = .ok f.data.length ∧ r.id = f.id ∧ r.buf = received ((beBytes (s.mb i).dl (s.mb i).dh).take n) p ∧
      (∀ j, j ≠ i → r.st.mb j = s.mb j) ∧ (r.st.mb i).mrdy = false := by
  have key : ∀ k, i < k → k ≤ s.rxi → readLoop p old n k s = transferRx i p old n s := by
    intro k
    induction k with
    | zero => intro h; omega
    | succ k ih =>
      intro h1 h2
      rw [readLoop]
      by_cases he : k = i
      · subst he; rw [if_pos hrdy]
      · rw [hlast k (by omega) (by omega), if_neg (by simp)]; exact ih (by omega) (by omega)
  intro r f
  have hr : r = transferRx i p old n s := by
    show read p old n s = _
    unfold read
    rw [if_neg (by omega), if_neg, key _ hi (Nat.le_refl _)]
    have := hs.2.2.1
    simp only [List.all_eq_true, List.mem_range, Bool.not_eq_true']
    intro h
    rw [h i (by omega)] at hrdy
    cases hrdy
  have e : (s.mb i).dlc &&& 0xf = (s.mb i).dlc := by
    rw [show (s.mb i).dlc &&& 0xf = (s.mb i).dlc % 2 ^ 4 from Nat.and_two_pow_sub_one_eq_mod _ 4]; omega
  have hl : f.data.length = (s.mb i).dlc := by simp [f, frame, leBytes]; omega
  rw [hr, hl]
  unfold transferRx
  simp only []
  rw [if_neg (by simp [hrdy]), rd_id _ hmid, e, unpackBE_eq _ _ _ hn]
  refine ⟨rfl, rfl, rfl, ?_, ?_⟩
  · intro j hj; simp [setMb, hj]
  · simp [setMb]

/-- with no frame: -EAGAIN, nothing touched -/
theorem sam3x_read_empty {n old : Nat} {p : Nat → Byte} (s : St) (hn0 : 0 < n) (hn : n ≤ 8) (h : ∀ j, j < s.rxc → (s.mb j).mrdy = false) :
    read p old n s = ⟨s, p, old, .eagain⟩ := by
  unfold read
  rw [if_neg (by omega), if_pos]
  simp only [List.all_eq_true, List.mem_range, Bool.not_eq_true']
  exact h

/-- between two nodes with this driver, frames of 4 and 8 bytes read with a buffer of that size have their bytes in order: the two reversals cancel. -/
theorem sam3x_pair {n : Nat} {buf : List Byte} (hn : n = 4 ∨ n = 8) (hb : n ≤ buf.length) (dl dh : Nat)
    (h : (leBytes dl dh).take n = busData buf n) : (beBytes dl dh).take n = buf.take n := by
  rw [← take_g buf n (by omega) hb]
  rcases hn with rfl | rfl
  · simp [leBytes, busData] at h
    simp [beBytes, h]
  · simp [leBytes, busData] at h
    simp [beBytes, h]

/-! ### Acceptance -/

/-- mailbox j is set for the call c -/
def For (s : St) (j : Nat) (c : Nat × Nat) : Prop :=
  ((s.mb j).mot = 1 ∨ (s.mb j).mot = 2) ∧ (s.mb j).mid = midOf c.1 c.1 ∧ (s.mb j).mam = midOf c.1 c.2 ∧ c.1 < 2 ^ 29 ∧ c.2 < 2 ^ 29

structure AInv (s : St) (h : List (Nat × Nat)) : Prop where
  len : s.rxi ≤ s.rxc
  on : ∀ c ∈ h, ∃ j < s.rxi, For s j c
  off : ∀ j, j < s.rxi → ∃ c ∈ h, For s j c
  dis : ∀ j, s.rxi ≤ j → j < s.rxc → (s.mb j).mot = 0

theorem ainv_accept {s : St} {h : List (Nat × Nat)} (hi : AInv s h) (id mask : Nat) :
    (∃ s', accept id mask s = (s', .ok 0) ∧ AInv s' (h ++ [(id, mask)]) ∧ s'.rxc = s.rxc) ∨ ((∀ m, (accept id mask s).2 ≠ .ok m) ∧ (accept id mask s).1 = s) := by
  by_cases h1 : id ≥ 2 ^ 29
  · right; unfold accept; rw [if_pos h1]; exact ⟨(by intro m h; cases h), rfl⟩
  by_cases h2 : mask ≥ 2 ^ 29
  · right; unfold accept; rw [if_neg h1, if_pos h2]; exact ⟨(by intro m h; cases h), rfl⟩
  by_cases h3 : s.rxi ≥ s.rxc
  · right; unfold accept; rw [if_neg h1, if_neg h2, if_pos h3]; exact ⟨(by intro m h; cases h), rfl⟩
  left
  unfold accept
  rw [if_neg h1, if_neg h2, if_neg h3]
  refine ⟨_, rfl, ⟨?_, ?_, ?_, ?_⟩, rfl⟩
  · show s.rxi + 1 ≤ s.rxc; omega
  · intro c hc
    rcases List.mem_append.1 hc with hc | hc
    · obtain ⟨j, hj, hf⟩ := hi.on c hc
      refine ⟨j, by show j < s.rxi + 1; omega, ?_⟩
      have : j ≠ s.rxi := by omega
      simpa [For, setMb, this] using hf
    · simp at hc; subst hc
      refine ⟨s.rxi, by show s.rxi < s.rxi + 1; omega, ?_⟩
      simp only [For, setMb, if_true]
      refine ⟨by cases s.over <;> simp, trivial, trivial, by omega, by omega⟩
  · intro j hj
    have hj : j < s.rxi + 1 := hj
    by_cases he : j = s.rxi
    · subst he
      refine ⟨(id, mask), by simp, ?_⟩
      simp only [For, setMb, if_true]
      refine ⟨by cases s.over <;> simp, trivial, trivial, by omega, by omega⟩
    · obtain ⟨c, hc, hf⟩ := hi.off j (by omega)
      exact ⟨c, List.mem_append_left _ hc, by simpa [For, setMb, he] using hf⟩
  · intro j hj hj'
    have hj : s.rxi + 1 ≤ j := hj
    have : j ≠ s.rxi := by omega
    simp only [setMb, this, if_false]
    exact hi.dis j (by omega) hj'

theorem ainv_all (l : List (Nat × Nat)) : ∀ (s : St) (h : List (Nat × Nat)), AInv s h →
    AInv (acceptAll l s).1 (h ++ (acceptAll l s).2) ∧ (acceptAll l s).1.rxc = s.rxc := by
  induction l with
  | nil => intro s h hi; simpa [acceptAll] using hi
  | cons c t ih =>
    intro s h hi
    rcases ainv_accept hi c.1 c.2 with ⟨s', he, hi', hx⟩ | ⟨he, hs⟩
    · have := ih s' _ hi'
      simp only [acceptAll, he]
      rw [hx] at this
      simpa [List.append_assoc] using this
    · have := ih s h hi
      rcases hr : accept c.1 c.2 s with ⟨s', r⟩
      rw [hr] at he hs
      simp only at he hs
      cases r with
      | ok m => exact absurd rfl (he m)
      | _ => simp only [acceptAll, hr]; rw [hs]; exact this

theorem and_mod (a m : Nat) (h : a < 2 ^ 11) : a &&& m % 2 ^ 11 = a &&& m := by
  apply Nat.eq_of_testBit_eq
  intro i
  rw [Nat.testBit_and, Nat.testBit_and, Nat.testBit_mod_two_pow]
  by_cases hi : i < 11
  · simp [hi]
  · have : a.testBit i = false := Nat.testBit_lt_two_pow (Nat.lt_of_lt_of_le h (Nat.pow_le_pow_right (by omega) (by omega)))
    simp [this]

/-- **C74 (partial), drivers/can/can-sam3x.c**: after any sequence of can_accept calls the 11-bit frames received are exactly those that one of the successful calls
accepts, and the 29-bit frames those whose identifier agrees with the `scrambled` identifier on the `scrambled` mask. Missing: the 29-bit frames that should be received
(`sam3x_ext_refused`). -/
theorem sam3x_accept_partial (s : St) (hs : s.Reset) (l : List (Nat × Nat)) (f : Frame) (hf : f.Ok) :
    (∃ j < s.rxc, takes ((acceptAll l s).1.mb j) f) ↔
      ∃ c ∈ (acceptAll l s).2, if f.ext then 2048 ≤ c.1 ∧ f.id &&& scrambled c.2 = scrambled c.1 &&& scrambled c.2 else accepts c.1 c.2 f := by
  have h0 : AInv s [] := ⟨by rw [hs.1]; omega, by simp, (by intro j hj; rw [hs.1] at hj; omega), fun j _ h => hs.2 j h⟩
  obtain ⟨hi, hx⟩ := ainv_all l s [] h0
  simp only [List.nil_append] at hi
  generalize hS : (acceptAll l s).1 = s1 at *
  generalize hH : (acceptAll l s).2 = h at *
  have key : ∀ j c, For s1 j c → (takes (s1.mb j) f ↔ if f.ext then 2048 ≤ c.1 ∧ f.id &&& scrambled c.2 = scrambled c.1 &&& scrambled c.2 else accepts c.1 c.2 f) := by
    intro j c ⟨k1, k2, k3, k4, k5⟩
    unfold takes accepts
    rw [k2, k3]
    have hok := hf.1
    rcases hx : f.ext with _ | _
    · rw [hx] at hok; simp at hok
      by_cases hc : c.1 < 2048
      · obtain ⟨a, b⟩ := mid_std c.1 c.1 hc
        obtain ⟨a', b'⟩ := mid_std c.1 c.2 hc
        rw [a, b, b']
        have d : ¬ 2048 ≤ c.1 := by omega
        have e1 := and_mod f.id c.2 hok
        have e2 := and_mod c.1 c.2 hc
        have e3 : c.1 % 2048 = c.1 := by omega
        simp only [Nat.reducePow] at e1 e2
        simp [k1, d, e1, e2, e3]
      · obtain ⟨a, b⟩ := mid_ext c.1 c.1 (by omega)
        have d : 2048 ≤ c.1 := by omega
        simp [a, d]
    · by_cases hc : c.1 < 2048
      · obtain ⟨a, b⟩ := mid_std c.1 c.1 hc
        have d : ¬ 2048 ≤ c.1 := by omega
        simp [a, d]
      · obtain ⟨a, b⟩ := mid_ext c.1 c.1 (by omega)
        obtain ⟨a', b'⟩ := mid_ext c.1 c.2 (by omega)
        have d : 2048 ≤ c.1 := by omega
        simp [a, b, b', d, k1]
  constructor
  · rintro ⟨j, hj, ht⟩
    rcases Nat.lt_or_ge j s1.rxi with hl | hl
    · obtain ⟨c, hc, hfor⟩ := hi.off j hl
      exact ⟨c, hc, (key j c hfor).1 ht⟩
    · have := hi.dis j hl (by omega)
      have := ht.1
      omega
  · rintro ⟨c, hc, h1⟩
    obtain ⟨j, hj, hfor⟩ := hi.on c hc
    exact ⟨j, by have := hi.len; omega, (key j c hfor).2 h1⟩

/-- can_accept(ctx, 0x20000, CAN_ACCEPT_STRICT_EXT) returns 0 and the frame 0x20000 is not received -/
theorem sam3x_ext_refused (s : St) (hs : s.Reset) (hr : 0 < s.rxc) :
    (acceptAll [(0x20000, 0x1fffffff)] s).2 = [(0x20000, 0x1fffffff)] ∧ accepts 0x20000 0x1fffffff ⟨true, 0x20000, []⟩ ∧
      ¬ ∃ j < s.rxc, takes ((acceptAll [(0x20000, 0x1fffffff)] s).1.mb j) ⟨true, 0x20000, []⟩ := by
  have h1 : (acceptAll [(0x20000, 0x1fffffff)] s).2 = [(0x20000, 0x1fffffff)] := by
    simp only [acceptAll, accept]
    rw [if_neg (by omega), if_neg (by omega), if_neg (by rw [hs.1]; omega)]
  refine ⟨h1, by simp [accepts], ?_⟩
  rw [sam3x_accept_partial s hs _ _ (by simp [Frame.Ok]), h1]
  simp
  decide

/-! ### Non-vacuity -/

def s0 : St := { mb := fun j => ⟨0, 0, 0, 0, if j = 7 then 3 else 0, j == 7, 0⟩, rxc := 7, txc := 1, rxi := 0, txi := 0, abort := false, over := true, acr := fun _ => false }

example : s0.Ok := ⟨rfl, by decide, by decide, by
  intro j (h1 : 7 ≤ j) h2
  have : j = 7 := by omega
  subst this; rfl⟩
example : s0.Reset := ⟨rfl, by decide⟩
example : (write 0x123 [1, 2, 3, 4] 4 s0).1.out 7 = some ⟨false, 0x123, [4, 3, 2, 1]⟩ := by decide
example : (read (fun _ => 0) 0 8 { s0 with rxi := 2, mb := fun j => ⟨0x123 * 2 ^ 18, 0, 0x04030201, 0, 2, j == 1, 4⟩ }).id = 0x123 := by decide

end Pico.Can.Sam3x
