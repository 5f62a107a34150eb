import Verif.Drivers.Can
/-
drivers/can/can-sam3x.c: can_write, can_read, can_accept on the SAM3X CAN controller (8 mailboxes).

Not modelled: error and low-power modes, time stamps. CAN_SR bit i is MRDY of mailbox i (they are set and cleared together); `CAN_SR & mask` is written with
the mailboxes it designates.
-/
namespace Pico.Can.Sam3x

structure Mb where
  mid : Nat
  mam : Nat
  dl : Nat
  dh : Nat
  /-- CAN_MMR.MOT: 0 disabled, 1 and 2 reception, 3 transmission -/
  mot : Nat
  /-- CAN_MSR.MRDY: a tx mailbox that is not ready is sending; an rx mailbox that is ready has a frame -/
  mrdy : Bool
  /-- CAN_MSR.MDLC (rx), CAN_MCR.MDLC (tx) -/
  dlc : Nat

/-- the frame of a mailbox: MID bit 29 MIDE, bits 18-28 MIDvA, bits 0-17 MIDvB; the first byte on the bus is MDL[7:0] -/
def frame (m : Mb) : Frame :=
  ⟨decide (bits m.mid 29 1 = 1), if bits m.mid 29 1 = 1 then bits m.mid 0 29 else bits m.mid 18 11, (leBytes m.dl m.dh).take m.dlc⟩

structure St where
  mb : Nat → Mb
  rxc : Nat
  txc : Nat
  rxi : Nat
  txi : Nat
  abort : Bool
  over : Bool
  /-- CAN_ACR: abort requests -/
  acr : Nat → Bool

/-- set_tx_mailboxes (81-93): the tx mailboxes, after the rx ones, are in transmission mode -/
def St.Ok (s : St) : Prop := s.rxc + s.txc = 8 ∧ s.txi < s.txc ∧ s.rxi ≤ s.rxc ∧ ∀ j, s.rxc ≤ j → j < 8 → (s.mb j).mot = 3

/-- what is waiting to go on the bus -/
def St.out (s : St) (j : Nat) : Option Frame := if s.rxc ≤ j ∧ j < 8 ∧ (s.mb j).mot = 3 ∧ (s.mb j).mrdy = false then some (frame (s.mb j)) else none

def setMb (s : St) (j : Nat) (m : Mb) : St := { s with mb := fun i => if i = j then m else s.mb i }

/-- CAN_MIDn_MIDvA, CAN_MIDn_MIDvB (66-69) and mailbox_config_mid / mailbox_config_mam, 242-269: the word for an identifier (or mask) `x` of the format of `id` -/
def midOf (id x : Nat) : Nat := if id < 2048 then fld 0x7ff 18 x else 1 <<< 29 ||| (fld 0x7ff 18 (x >>> 17) ||| (x &&& 0x3fff))

/-- transfer_tx_mailbox, 299-345 -/
def transferTx (index id : Nat) (buf : List Byte) (n : Nat) (s : St) : St × Res :=
  let m := s.mb index
  if m.mrdy = false then (s, .eagain)
  else
    let d := packBE buf n
    (setMb s index { mid := midOf id id, mam := midOf id 0, dl := d.1, dh := d.2, mot := 3, mrdy := false, dlc := n &&& 0xf }, .ok n)

/-- can_write, 347-365 -/
def write (id : Nat) (buf : List Byte) (n : Nat) (s : St) : St × Res :=
  if id ≥ 2 ^ 29 ∨ n = 0 ∨ n > 8 then (s, .einval)
  else
    let index := s.rxc + s.txi
    if (s.mb index).mrdy = false then (if s.abort then { s with acr := fun i => s.acr i || decide (i = index) } else s, .eagain)
    else transferTx index id buf n { s with txi := (s.txi + 1) % s.txc }

structure Rd where
  st : St
  buf : Nat → Byte
  id : Nat
  res : Res

/-- transfer_rx_mailbox, 377-412 (with mailbox_read_mid, 367-375); CAN_MCR = MTRC clears MRDY -/
def transferRx (index : Nat) (p : Nat → Byte) (old n : Nat) (s : St) : Rd :=
  let m := s.mb index
  if m.mrdy = false then ⟨s, p, old, .eagain⟩
  else
    let id := if m.mid &&& 1 <<< 29 ≠ 0 then m.mid &&& (2 ^ 32 - 1 - 1 <<< 29) else m.mid >>> 18
    ⟨setMb s index { m with mrdy := false }, unpackBE m.dl m.dh n p, id, .ok (m.dlc &&& 0xf)⟩

/-- the loop of can_read, 426-428 -/
def readLoop (p : Nat → Byte) (old n : Nat) : Nat → St → Rd
  | 0, s => ⟨s, p, old, .eio⟩
  | i + 1, s => if (s.mb i).mrdy then transferRx i p old n s else readLoop p old n i s

/-- can_read, 414-433 -/
def read (p : Nat → Byte) (old n : Nat) (s : St) : Rd :=
  if n = 0 ∨ n > 8 then ⟨s, p, old, .einval⟩
  else if (List.range s.rxc).all (fun i => !(s.mb i).mrdy) then ⟨s, p, old, .eagain⟩
  else readLoop p old n s.rxi s

/-- can_accept, 271-297; CAN_MCR = MTRC: reception starts (MRDY = 0) -/
def accept (id mask : Nat) (s : St) : St × Res :=
  if id ≥ 2 ^ 29 then (s, .einval)
  else if mask ≥ 2 ^ 29 then (s, .einval)
  else if s.rxi ≥ s.rxc then (s, .enomem)
  else
    let m := s.mb s.rxi
    ({ setMb s s.rxi { m with mid := midOf id id, mam := midOf id mask, mot := if s.over then 2 else 1, mrdy := false } with rxi := s.rxi + 1 }, .ok 0)

/-- an rx mailbox takes the frames of its format (MID.MIDE) whose identifier agrees with its MID on the bits of its MAM (MIDvA for 11-bit identifiers) -/
def takes (m : Mb) (f : Frame) : Prop :=
  (m.mot = 1 ∨ m.mot = 2) ∧ bits m.mid 29 1 = f.ext.toNat ∧
    (if f.ext then f.id &&& bits m.mam 0 29 = bits m.mid 0 29 &&& bits m.mam 0 29 else f.id &&& bits m.mam 18 11 = bits m.mid 18 11 &&& bits m.mam 18 11)

/-- after can_sam3x_init: no rx mailbox is active (hardware reset) -/
def St.Reset (s : St) : Prop := s.rxi = 0 ∧ ∀ j, j < s.rxc → (s.mb j).mot = 0

def acceptAll : List (Nat × Nat) → St → St × List (Nat × Nat)
  | [], s => (s, [])
  | (id, mask) :: t, s =>
    match accept id mask s with
    | (s', .ok _) => let r := acceptAll t s'; (r.1, (id, mask) :: r.2)
    | (s', _) => acceptAll t s'

end Pico.Can.Sam3x
