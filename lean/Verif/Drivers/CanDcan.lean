import Verif.Drivers.Can
/-
drivers/can/can-ti_dcan.c: can_write, can_read, can_accept on the DCAN controller of the C28x (F2837xD), 32 message objects.

C28x: a memory cell (char, uint_least8_t, int) has 16 bits, so a buffer is a sequence of 16-bit cells, one byte of the frame per cell.
`1 << index` is computed on 16 bits: undefined from index 15 on. The value the compiled code uses for the mask of can_write and for the mask of can_read is a parameter
(`tm`, `rm`) of the model.
Not modelled: the deadlock counters (the interface registers are never busy for that long), CAN_CTL modes.
-/
namespace Pico.Can.Dcan

/-- a message object -/
structure Obj where
  msk : Nat
  arb : Nat
  mctl : Nat
  da : Nat
  db : Nat

/-- the interface registers IFxMSK, IFxARB, IFxMCTL, IFxDATA, IFxDATB -/
abbrev If := Obj

/-- the frame of an object: ARB bit 30 XTD, bits 0-28 identifier (11-bit ones in 18-28), MCTL bits 0-3 DLC; the first byte is DATA[7:0] -/
def frame (o : Obj) : Frame :=
  ⟨decide (bits o.arb 30 1 = 1), if bits o.arb 30 1 = 1 then bits o.arb 0 29 else bits o.arb 18 11, (leBytes o.da o.db).take (bits o.mctl 0 4)⟩

structure St where
  /-- message objects, number j + 1 in the hardware -/
  ob : Nat → Obj
  if1 : If
  if2 : If
  rxc : Nat
  txc : Nat
  rxi : Nat
  txi : Nat

/-- set_tx_mailboxes, 164-172 -/
def St.Ok (s : St) : Prop := s.rxc + s.txc = 32 ∧ s.txi < s.txc ∧ s.rxi ≤ s.rxc

/-- MCTL.TxRqst (8), NewDat (15) -/
def Obj.txrq (o : Obj) : Bool := bits o.mctl 8 1 == 1
def Obj.ndat (o : Obj) : Bool := bits o.mctl 15 1 == 1

/-- what is waiting to go on the bus: valid (ARB bit 31) tx objects (ARB bit 29) with a transmission request -/
def St.out (s : St) (j : Nat) : Option Frame :=
  if s.rxc ≤ j ∧ j < 32 ∧ bits (s.ob j).arb 31 1 = 1 ∧ bits (s.ob j).arb 29 1 = 1 ∧ (s.ob j).txrq then some (frame (s.ob j)) else none

def setOb (s : St) (j : Nat) (o : Obj) : St := { s with ob := fun i => if i = j then o else s.ob i }

/-- `(uint32_t)buf[k] << s` when case k+1 of the switch is run -/
def cc (buf : List (BitVec 16)) (n k s : Nat) : Nat := if k < n then (buf.getD k 0).toNat <<< s % 2 ^ 32 else 0

/-- copy_data_to_mb, 338-371: DATA_A and DATA_B. (IF1DATB keeps its value, and is not transferred, when n ≤ 4: `none`) -/
def packCells (buf : List (BitVec 16)) (n : Nat) : Nat × Option Nat :=
  (cc buf n 3 24 ||| cc buf n 2 16 ||| cc buf n 1 8 ||| cc buf n 0 0,
   if 4 < n then some (cc buf n 7 24 ||| cc buf n 6 16 ||| cc buf n 5 8 ||| cc buf n 4 0) else none)

/-- transfer_tx_mailbox, 413-453.
IF1CMD = CONTROL, read: MCTL of the object goes to IF1MCTL. IF1CMD = DIR | ARB | CONTROL (| DATA_A | DATA_B), write: IF1ARB, IF1MCTL (IF1DATA, IF1DATB) go to the object. -/
def transferTx (index id : Nat) (buf : List (BitVec 16)) (n : Nat) (s : St) : St × Res :=
  let s := { s with if1 := { s.if1 with mctl := (s.ob index).mctl } }
  if s.if1.mctl &&& 1 <<< 8 ≠ 0 then (s, .eagain)
  else
    let d := packCells buf n
    let arb := (id <<< 18) ||| 1 <<< 31 ||| 1 <<< 29
    let mctl := n ||| (1 <<< 7 ||| 1 <<< 8)
    let i1 : If := { s.if1 with arb := arb, mctl := mctl, da := d.1, db := match d.2 with | some b => b | none => s.if1.db }
    let o := s.ob index
    (setOb { s with if1 := i1 } index { o with arb := arb, mctl := mctl, da := d.1, db := match d.2 with | some b => b | none => o.db }, .ok n)

/-- can_write, 482-500; `tm` the value of `1 << index`; CAN_TXRQ_21 bit i is TxRqst of object i -/
def write (tm : Nat → Nat) (id : Nat) (buf : List (BitVec 16)) (n : Nat) (s : St) : St × Res :=
  if id ≥ 2048 ∨ n = 0 ∨ n > 8 then (s, .einval)
  else
    let index := s.rxc + s.txi
    if (List.range 32).any (fun i => (s.ob i).txrq && (tm index).testBit i) then (s, .eagain)
    else transferTx index id buf n { s with txi := (s.txi + 1) % s.txc }

structure Rd where
  st : St
  buf : Nat → BitVec 16
  id : Nat
  res : Res

/-- `buf[k] = (uint_least8_t)v`: 16 bits are kept -/
def wr (n k : Nat) (v : Nat) (p : Nat → BitVec 16) : Nat → BitVec 16 := fun i => if i = k ∧ k < n then BitVec.ofNat 16 v else p i

/-- copy_mb_to_data, 373-411, for 0 < n ≤ 8 (otherwise nothing); IF2CMD = DATA_A (| DATA_B), read -/
def unpackCells (a b n : Nat) (p : Nat → BitVec 16) : Nat → BitVec 16 :=
  wr n 0 (a &&& 0xff) (wr n 1 (a >>> 8) (wr n 2 (a >>> 16) (wr n 3 (a >>> 24)
    (wr n 4 (b &&& 0xff) (wr n 5 (b >>> 8) (wr n 6 (b >>> 16) (wr n 7 (b >>> 24) p)))))))

/-- transfer_rx_mailbox, 455-480; the first command reads MCTL only, the last one (TXRQST, read) clears NewDat in the object -/
def transferRx (index : Nat) (p : Nat → BitVec 16) (old : Nat) (s : St) : Rd :=
  let o := s.ob index
  let s := { s with if2 := { s.if2 with mctl := o.mctl } }
  if s.if2.mctl &&& 1 <<< 15 ≠ 0 then
    let dlc := s.if2.mctl &&& 0xf
    let ok := 0 < dlc ∧ dlc ≤ 8
    let s := if ok then { s with if2 := { s.if2 with da := o.da, db := if dlc > 3 then o.db else s.if2.db } } else s
    let p := if ok then unpackCells s.if2.da s.if2.db dlc p else p
    let id := (s.if2.arb &&& 0x1fffffff) >>> 18
    ⟨setOb s index { o with mctl := o.mctl &&& (2 ^ 32 - 1 - 1 <<< 15) }, p, id, .ok dlc⟩
  else ⟨s, p, old, .eagain⟩

/-- the loop of can_read, 514-516 (`1 << index` for index < 15) -/
def readLoop (nd : Nat → Bool) (p : Nat → BitVec 16) (old : Nat) : Nat → St → Rd
  | 0, s => ⟨s, p, old, .eio⟩
  | i + 1, s => if nd i then transferRx i p old s else readLoop nd p old i s

/-- can_read, 502-520; `rm` the value of `(1 << rx_mailbox_count) - 1`; CAN_NDAT_21 bit i is NewDat of object i -/
def read (rm : Nat) (p : Nat → BitVec 16) (old n : Nat) (s : St) : Rd :=
  if n = 0 ∨ n > 8 then ⟨s, p, old, .einval⟩
  else
    let nd := fun i => (s.ob i).ndat && rm.testBit i
    if (List.range 32).all (fun i => !nd i) then ⟨s, p, old, .eagain⟩
    else readLoop nd p old s.rxi s

/-- can_accept, 319-336: IF2ARB, IF2MSK, IF2MCTL are written; the command DIR | ARB | CONTROL transfers ARB and MCTL to the object (not MSK: bit 22 is not set) -/
def accept (id mask : Nat) (s : St) : St × Res :=
  if id ≥ 2048 then (s, .einval)
  else if mask ≥ 2048 then (s, .einval)
  else if s.rxi ≥ s.rxc then (s, .enomem)
  else
    let arb := (id <<< 18) ||| 1 <<< 31
    let o := s.ob s.rxi
    ({ setOb { s with if2 := { s.if2 with arb := arb, msk := mask <<< 18, mctl := 0 } } s.rxi { o with arb := arb, mctl := 0 } with rxi := s.rxi + 1 }, .ok 0)

/-- a valid rx object takes the frames of its format (XTD) whose identifier agrees with its own on the bits of its mask if MCTL.UMask (bit 12) is set, is equal otherwise -/
def takes (o : Obj) (f : Frame) : Prop :=
  bits o.arb 31 1 = 1 ∧ bits o.arb 29 1 = 0 ∧ bits o.arb 30 1 = f.ext.toNat ∧
    (let w := if f.ext then f.id else f.id * 2 ^ 18
     if bits o.mctl 12 1 = 1 then w &&& bits o.msk 0 29 = bits o.arb 0 29 &&& bits o.msk 0 29
     else if f.ext then f.id = bits o.arb 0 29 else f.id = bits o.arb 18 11)

/-- after can_ti_dcan_init: the message RAM is cleared -/
def St.Reset (s : St) : Prop := s.rxi = 0 ∧ ∀ j, (s.ob j).arb = 0

def acceptAll : List (Nat × Nat) → St → St × List (Nat × Nat)
  | [], s => (s, [])
  | (id, mask) :: t, s =>
    match accept id mask s with
    | (s', .ok _) => let r := acceptAll t s'; (r.1, (id, mask) :: r.2)
    | (s', _) => acceptAll t s'

end Pico.Can.Dcan
