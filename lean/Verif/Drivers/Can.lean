import Verif.Drivers.CanBits
/-
can_write, can_read and can_accept (C72, C73, C74) of
  drivers/can/can-bosch_mcan.c, can-nxp_flexcan.c, can-sam3x.c, can-ti_dcan.c

A frame is what a node sees on the bus: format (11 or 29-bit identifier), identifier, data bytes in the order they are transmitted.
For each controller a `*Frame` function says which frame a mailbox stands for (reference manuals: M_CAN user's manual 2.4, FlexCAN "Message buffer structure",
SAM3X "CAN message ID/data registers", F2837xD "DCAN message object"); the drivers' C code is transcribed with its own macros.
-/
namespace Pico.Can

structure Frame where
  ext : Bool
  id : Nat
  data : List Byte
  deriving DecidableEq, Repr

inductive Res where
  | ok (n : Nat)
  | einval
  | eagain
  | ebusy
  | eio
  | enomem
  deriving DecidableEq, Repr

/-! ### Specification -/

/-- the frame asked by can_write(ctx, id, buf, n) (can.h: identifiers under CAN_ID_COUNT are 11 bits, the others 29 bits) -/
def asked (id : Nat) (buf : List Byte) (n : Nat) : Frame := ⟨decide (2048 ≤ id), id, buf.take n⟩

/-- can_accept(ctx, id, mask) (can.h): the frames of the same format whose identifier and `id` agree on the bits of the mask -/
def accepts (id mask : Nat) (f : Frame) : Prop := f.ext = decide (2048 ≤ id) ∧ f.id &&& mask = id &&& mask

/-- a frame that exists -/
def Frame.Ok (f : Frame) : Prop := f.id < (if f.ext then 2 ^ 29 else 2 ^ 11) ∧ f.data.length ≤ 8

/-! ### Bytes of a mailbox -/

/-- first data byte in bits 0-7 of the first word (M_CAN, DCAN, SAM3X) -/
def leBytes (w0 w1 : Nat) : List Byte := [byteAt w0 0, byteAt w0 1, byteAt w0 2, byteAt w0 3, byteAt w1 0, byteAt w1 1, byteAt w1 2, byteAt w1 3]
/-- first data byte in bits 24-31 of the first word (FlexCAN) -/
def beBytes (w0 w1 : Nat) : List Byte := [byteAt w0 3, byteAt w0 2, byteAt w0 1, byteAt w0 0, byteAt w1 3, byteAt w1 2, byteAt w1 1, byteAt w1 0]

/-- `buf8[k] << s` when case k+1 of the `switch (n)` is run: the cases fall through, so all those up to n are -/
def cs (buf : List Byte) (n k s : Nat) : Nat := if k < n then (buf.getD k 0).toNat <<< s else 0

/-- can-bosch_mcan.c:765-776 -/
def packLE (buf : List Byte) (n : Nat) : Nat × Nat :=
  (0 ||| cs buf n 3 24 ||| cs buf n 2 16 ||| cs buf n 1 8 ||| cs buf n 0 0, 0 ||| cs buf n 7 24 ||| cs buf n 6 16 ||| cs buf n 5 8 ||| cs buf n 4 0)

/-- can-nxp_flexcan.c:584-597, can-sam3x.c:323-332 -/
def packBE (buf : List Byte) (n : Nat) : Nat × Nat :=
  (0 ||| cs buf n 3 0 ||| cs buf n 2 8 ||| cs buf n 1 16 ||| cs buf n 0 24, 0 ||| cs buf n 7 0 ||| cs buf n 6 8 ||| cs buf n 5 16 ||| cs buf n 4 24)

/-- `buf8[k] = (uint8_t)(w >> s)` for the k < n, in the caller's memory (`p k`: the byte at buf8 + k) -/
def wr (n k : Nat) (v : Nat) (p : Nat → Byte) : Nat → Byte := fun i => if i = k ∧ k < n then BitVec.ofNat 8 v else p i

/-- can-bosch_mcan.c:836-846 -/
def unpackLE (w0 w1 n : Nat) (p : Nat → Byte) : Nat → Byte :=
  wr n 0 (w0 >>> 0) (wr n 1 (w0 >>> 8) (wr n 2 (w0 >>> 16) (wr n 3 (w0 >>> 24)
    (wr n 4 (w1 >>> 0) (wr n 5 (w1 >>> 8) (wr n 6 (w1 >>> 16) (wr n 7 (w1 >>> 24) p)))))))

/-- can-nxp_flexcan.c:646-655, can-sam3x.c:389-397 -/
def unpackBE (w0 w1 n : Nat) (p : Nat → Byte) : Nat → Byte :=
  wr n 0 (w0 >>> 24) (wr n 1 (w0 >>> 16) (wr n 2 (w0 >>> 8) (wr n 3 (w0 >>> 0)
    (wr n 4 (w1 >>> 24) (wr n 5 (w1 >>> 16) (wr n 6 (w1 >>> 8) (wr n 7 (w1 >>> 0) p)))))))

/-- the buffer after a reception: the bytes received at its beginning, the rest as it was -/
def received (data : List Byte) (p : Nat → Byte) : Nat → Byte := fun i => if i < data.length then data.getD i 0 else p i

theorem cs_lt (buf : List Byte) (n k : Nat) : (if k < n then (buf.getD k 0).toNat else 0) < 256 := by
  split
  · exact (buf.getD k 0).isLt
  · omega

/-- the byte the switch stores for index k: `buf8[k]` or 0 -/
def g (buf : List Byte) (n k : Nat) : Byte := if k < n then buf.getD k 0 else 0

theorem cs_eq (buf : List Byte) (n k s : Nat) : cs buf n k s = (g buf n k).toNat <<< s := by
  unfold cs g
  split <;> simp

theorem packLE_eq (buf : List Byte) (n : Nat) :
    packLE buf n = (word (g buf n 0) (g buf n 1) (g buf n 2) (g buf n 3), word (g buf n 4) (g buf n 5) (g buf n 6) (g buf n 7)) := by
  simp only [packLE, cs_eq, word, Prod.mk.injEq]
  have h := fun k => (g buf n k).isLt
  exact ⟨or_bytes _ _ _ _ (h 0) (h 1) (h 2), or_bytes _ _ _ _ (h 4) (h 5) (h 6)⟩

theorem packBE_eq (buf : List Byte) (n : Nat) :
    packBE buf n = (word (g buf n 3) (g buf n 2) (g buf n 1) (g buf n 0), word (g buf n 7) (g buf n 6) (g buf n 5) (g buf n 4)) := by
  simp only [packBE, cs_eq, word, Prod.mk.injEq]
  have h := fun k => (g buf n k).isLt
  exact ⟨or_bytes_rev _ _ _ _ (h 1) (h 2) (h 3), or_bytes_rev _ _ _ _ (h 5) (h 6) (h 7)⟩

theorem take_g (buf : List Byte) (n : Nat) (hn : n ≤ 8) (hb : n ≤ buf.length) :
    [g buf n 0, g buf n 1, g buf n 2, g buf n 3, g buf n 4, g buf n 5, g buf n 6, g buf n 7].take n = buf.take n := by
  have e : [g buf n 0, g buf n 1, g buf n 2, g buf n 3, g buf n 4, g buf n 5, g buf n 6, g buf n 7] = (List.range 8).map (g buf n) := by
    simp [List.range, List.range.loop]
  rw [e]
  apply List.ext_getElem
  · simp; omega
  · intro i h1 h2
    simp at h1
    simp only [List.getElem_take, List.getElem_map, List.getElem_range, g]
    rw [if_pos (by omega), List.getD_eq_getElem?_getD, List.getElem?_eq_getElem (by omega)]
    rfl

/-- the n bytes of the caller are the first n bytes of the mailbox, in order -/
theorem packLE_bytes (buf : List Byte) (n : Nat) (hn : n ≤ 8) (hb : n ≤ buf.length) :
    (leBytes (packLE buf n).1 (packLE buf n).2).take n = buf.take n := by
  rw [← take_g buf n hn hb, packLE_eq]
  simp only [leBytes, byteAt_word]

theorem packBE_bytes (buf : List Byte) (n : Nat) (hn : n ≤ 8) (hb : n ≤ buf.length) :
    (beBytes (packBE buf n).1 (packBE buf n).2).take n = buf.take n := by
  rw [← take_g buf n hn hb, packBE_eq]
  simp only [beBytes, byteAt_word]

theorem unpackLE_eq (w0 w1 n : Nat) (hn : n ≤ 8) (p : Nat → Byte) : unpackLE w0 w1 n p = received ((leBytes w0 w1).take n) p := by
  funext i
  have hl : ((leBytes w0 w1).take n).length = n := by simp [leBytes]; omega
  unfold received
  rw [hl]
  by_cases hi : i < n
  · rw [if_pos hi, List.getD_eq_getElem?_getD, List.getElem?_take_of_lt hi]
    have c : ∀ w k, BitVec.ofNat 8 (w >>> (8 * k)) = byteAt w k := cast_shift
    have : i = 0 ∨ i = 1 ∨ i = 2 ∨ i = 3 ∨ i = 4 ∨ i = 5 ∨ i = 6 ∨ i = 7 := by omega
    rcases this with h | h | h | h | h | h | h | h <;> subst h <;> simp only [unpackLE, wr, hi, leBytes] <;> simp [← c]
  · rw [if_neg hi]
    unfold unpackLE wr
    repeat rw [if_neg (by omega)]

theorem unpackBE_eq (w0 w1 n : Nat) (hn : n ≤ 8) (p : Nat → Byte) : unpackBE w0 w1 n p = received ((beBytes w0 w1).take n) p := by
  funext i
  have hl : ((beBytes w0 w1).take n).length = n := by simp [beBytes]; omega
  unfold received
  rw [hl]
  by_cases hi : i < n
  · rw [if_pos hi, List.getD_eq_getElem?_getD, List.getElem?_take_of_lt hi]
    have c : ∀ w k, BitVec.ofNat 8 (w >>> (8 * k)) = byteAt w k := cast_shift
    have : i = 0 ∨ i = 1 ∨ i = 2 ∨ i = 3 ∨ i = 4 ∨ i = 5 ∨ i = 6 ∨ i = 7 := by omega
    rcases this with h | h | h | h | h | h | h | h <;> subst h <;> simp only [unpackBE, wr, hi, beBytes] <;> simp [← c]
  · rw [if_neg hi]
    unfold unpackBE wr
    repeat rw [if_neg (by omega)]

end Pico.Can
