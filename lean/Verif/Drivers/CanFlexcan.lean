import Verif.Drivers.Can
/-
drivers/can/can-nxp_flexcan.c: can_write, can_read, can_accept on the FlexCAN controller (MPC5748G).

Not modelled: the error and freeze modes, the time stamp.
-/
namespace Pico.Can.Flexcan

/-- a mailbox (message buffer) -/
structure Mb where
  cs : Nat
  id : Nat
  dl : Nat
  dh : Nat
  deriving DecidableEq

/-- the frame of a mailbox: CS bit 21 IDE, bits 16-19 DLC; ID bits 0-28 (11-bit identifiers in 18-28); the first byte is the most significant one of DATAL -/
def frame (m : Mb) : Frame :=
  ⟨decide (bits m.cs 21 1 = 1), if bits m.cs 21 1 = 1 then bits m.id 0 29 else bits m.id 18 11, (beBytes m.dl m.dh).take (bits m.cs 16 4)⟩

/-- CS.CODE -/
def code (m : Mb) : Nat := bits m.cs 24 4

structure St where
  mb : Nat → Mb
  /-- IFLAG1-3 -/
  flag : Nat → Bool
  /-- RXIMR -/
  rximr : Nat → Nat
  cnt : Nat
  rxc : Nat
  txc : Nat
  rxi : Nat
  txi : Nat
  abort : Bool

/-- can_nxp_flexcan_init / nxp_flexcan_set_tx_mailboxes (282-297): the tx mailboxes follow the rx ones. `txi` (not initialised by the driver: the context must be zeroed) -/
def St.Ok (s : St) : Prop := s.rxc + s.txc = s.cnt ∧ s.txi < s.txc ∧ s.rxi ≤ s.rxc

/-- what is waiting to go on the bus: the tx mailboxes with code DATA (0xc) -/
def St.out (s : St) (j : Nat) : Option Frame := if s.rxc ≤ j ∧ j < s.cnt ∧ code (s.mb j) = 0xc then some (frame (s.mb j)) else none

def setMb (s : St) (j : Nat) (m : Mb) : St := { s with mb := fun i => if i = j then m else s.mb i }

/-- nxp_flexcan_prepare_tx + mailbox_write + nxp_flexcan_write_mailbox, 539-618 -/
def writeMailbox (index id : Nat) (buf : List Byte) (n : Nat) (s : St) : St × Res :=
  if index ≥ s.cnt then (s, .einval)
  else
    let s := { s with flag := fun i => if i = index then false else s.flag i }
    let m := s.mb index
    if id ≥ 2 ^ 29 then (s, .einval)
    else if (m.cs >>> 24) &&& 0xf = 0xc then
      (if s.abort then setMb s index { m with cs := fld 0xf 24 0x9 } else s, .eagain)
    else
      let w := if id ≥ 2048 then id &&& 0x1fffffff else fld 0x7ff 18 id
      let fl := if id ≥ 2048 then 1 <<< 22 ||| 1 <<< 21 else 0
      let d := packBE buf n
      (setMb s index ⟨fld 0xf 24 0xc ||| (fld 0xf 16 n ||| fl), w, d.1, d.2⟩, .ok n)

/-- can_write, 620-631 -/
def write (id : Nat) (buf : List Byte) (n : Nat) (s : St) : St × Res :=
  if n = 0 ∨ n > 8 then (s, .einval)
  else
    let index := s.rxc + s.txi
    writeMailbox index id buf n { s with txi := (s.txi + 1) % s.txc }

structure Rd where
  st : St
  buf : Nat → Byte
  id : Nat
  res : Res

/-- nxp_flexcan_read_mailbox, 668-704 (with mailbox_read, mailbox_read_id 633-666) -/
def readMailbox (index : Nat) (p : Nat → Byte) (old n : Nat) (s : St) : Rd :=
  if index ≥ s.rxc then ⟨s, p, old, .einval⟩
  else if n = 0 ∨ n > 8 then ⟨s, p, old, .einval⟩
  else if !s.flag index then ⟨s, p, old, .eagain⟩
  else
    let m := s.mb index
    let c := (m.cs >>> 24) &&& 0xf
    if c &&& 1 ≠ 0 then ⟨s, p, old, .eagain⟩
    else
      let s := { s with flag := fun i => if i = index then false else s.flag i }
      if c = 0x4 then ⟨s, p, old, .eagain⟩
      else if c = 0x2 ∨ c = 0x6 then
        let id := if m.cs &&& 1 <<< 21 ≠ 0 then m.id &&& 0x1fffffff else (m.id >>> 18) &&& 0x7ff
        let dlc := (m.cs >>> 16) &&& 0xf
        if dlc = 0 ∨ dlc > 8 then ⟨s, p, id, .einval⟩
        else ⟨s, unpackBE m.dl m.dh dlc p, id, .ok dlc⟩
      else ⟨s, p, old, .eio⟩

/-- the loop of can_read, 714-724 -/
def readLoop (p : Nat → Byte) (old n : Nat) : Nat → St → Rd
  | 0, s => ⟨s, p, old, .eagain⟩
  | i + 1, s =>
    let r := readMailbox i p old n s
    if r.res = .eagain then readLoop p old n i r.st else r

/-- can_read, 706-725 -/
def read (p : Nat → Byte) (old n : Nat) (s : St) : Rd :=
  if n = 0 ∨ n > 8 then ⟨s, p, old, .einval⟩ else readLoop p old n s.rxi s

/-- can_accept, 507-537 -/
def accept (id mask : Nat) (s : St) : St × Res :=
  if id ≥ 2 ^ 29 then (s, .einval)
  else if mask ≥ 2 ^ 29 then (s, .einval)
  else if s.rxi ≥ s.rxc then (s, .enomem)
  else
    let m := s.mb s.rxi
    let s' :=
      if id < 2048 then
        let s := setMb s s.rxi { m with id := fld 0x7ff 18 id, cs := fld 0xf 24 0x4 }
        if mask ≠ 0 then { s with rximr := fun i => if i = s.rxi then fld 0x7ff 18 mask else s.rximr i } else s
      else
        let s := setMb s s.rxi { m with id := id &&& 0x1fffffff, cs := fld 0xf 24 0x4 ||| 1 <<< 21 }
        if mask ≠ 0 then { s with rximr := fun i => if i = s.rxi then (mask &&& 0x1fffffff) ||| 1 <<< 30 else s.rximr i } else s
    ({ s' with rxi := s.rxi + 1 }, .ok 0)

/-- the mask the controller uses for a mailbox: RXIMR if MCR.IRMQ (bit 16) is set, otherwise RXMGMASK, which can_nxp_flexcan_init sets to all ones (435).
The driver never sets IRMQ, which is 0 after reset (`irmq` below). -/
def effMask (irmq : Bool) (s : St) (j : Nat) : Nat := if irmq then s.rximr j else 0xffffffff

/-- an empty rx mailbox (code 4) takes the frames of its format (CS.IDE) whose identifier agrees with its ID on the bits of the mask -/
def takes (irmq : Bool) (s : St) (j : Nat) (f : Frame) : Prop :=
  code (s.mb j) = 4 ∧ bits (s.mb j).cs 21 1 = f.ext.toNat ∧
    (if f.ext then f.id else f.id * 2 ^ 18) &&& (effMask irmq s j &&& 0x1fffffff) = (s.mb j).id &&& (effMask irmq s j &&& 0x1fffffff)

/-- can_nxp_flexcan_init (378-451) as far as reception goes: no mailbox active, no mask -/
def St.Reset (s : St) : Prop := s.rxi = 0 ∧ (∀ j, j < s.rxc → code (s.mb j) = 0) ∧ ∀ j, s.rximr j = 0xffffffff

def acceptAll : List (Nat × Nat) → St → St × List (Nat × Nat)
  | [], s => (s, [])
  | (id, mask) :: t, s =>
    match accept id mask s with
    | (s', .ok _) => let r := acceptAll t s'; (r.1, (id, mask) :: r.2)
    | (s', _) => acceptAll t s'

end Pico.Can.Flexcan
