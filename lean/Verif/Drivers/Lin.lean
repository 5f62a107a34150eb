import Verif.Drivers.Field
/-
LIN interface of the MPC57xx: staging/drivers/lin/lin-nxp_linflexd.c.

Modelled: BIDR, BDRL, BDRM, the flags DTF, DRF, HRF, RXBUSY of LINSR and CEF of LINESR (write 1 to clear), the state of the driver, the
headers and frames asked for.  Lengths are 1 .. 8 and ids below 64 where the functions check it (picoRTOS_assert); `unsigned long`
does not overflow in set_bitrate (bitrate < 2^20).
-/
namespace Pico.Lin
open Pico.Field

abbrev Byte := BitVec 8

/-- what the controller is asked to put on the bus: header and, if `dir`, data -/
structure Frame where
  id : Nat
  dir : Bool
  len : Nat
  data : List Byte
  deriving DecidableEq

inductive Res where | ok (n : Nat) | eagain | einval
  deriving DecidableEq, Repr

/-- `xfer`: ctx->state == LIN_NXP_LINFLEXD_STATE_XFER; `sent`: headers asked for (HTRQ), data sent by a slave (DTRQ); `tx`: data of the last frame are to
be sent, `rx`: data of the last frame are to be received; `ended`: frames whose data have been sent -/
structure St where
  xfer : Bool
  bidr : BitVec 32
  bdrl : BitVec 32
  bdrm : BitVec 32
  dtf : Bool
  drf : Bool
  hrf : Bool
  rxbusy : Bool
  cef : Bool
  sent : List Frame
  tx : Bool
  rx : Bool
  ended : Nat

/-! ### Hardware -/

/-- byte `k` of BDRL / BDRM -/
def byteOf (s : St) (k : Nat) : Byte := if k < 4 then (s.bdrl >>> (8 * k)).setWidth 8 else (s.bdrm >>> (8 * (k - 4))).setWidth 8

/-- what BIDR, BDRL and BDRM ask for -/
def frame (s : St) : Frame :=
  let len := (get 3 10 s.bidr).toNat + 1
  ⟨(get 6 0 s.bidr).toNat, s.bidr.getLsbD 9, len, if s.bidr.getLsbD 9 then (List.range len).map (byteOf s) else []⟩

/-- LINCR2 |= HTRQ -/
def htrq (s : St) : St := { s with sent := s.sent ++ [frame s], tx := s.bidr.getLsbD 9, rx := !s.bidr.getLsbD 9 }

/-! ### Data registers -/

/-- copy_to_bdr, 171-197: the two registers -/
def bdrL (n : Nat) (d : Nat → Byte) : BitVec 32 :=
  let r := 0
  let r := if n ≥ 4 then orIn 8 24 ((d 3).setWidth 32) r else r
  let r := if n ≥ 3 then orIn 8 16 ((d 2).setWidth 32) r else r
  let r := if n ≥ 2 then orIn 8 8 ((d 1).setWidth 32) r else r
  orIn 8 0 ((d 0).setWidth 32) r

def bdrM (n : Nat) (d : Nat → Byte) : BitVec 32 :=
  let r := 0
  let r := if n ≥ 8 then orIn 8 24 ((d 7).setWidth 32) r else r
  let r := if n ≥ 7 then orIn 8 16 ((d 6).setWidth 32) r else r
  let r := if n ≥ 6 then orIn 8 8 ((d 5).setWidth 32) r else r
  if n ≥ 5 then orIn 8 0 ((d 4).setWidth 32) r else r

/-- copy_from_bdr, 300-322: what the caller's buffer holds afterwards -/
def copyFrom (s : St) (n : Nat) (buf : Nat → Byte) : Nat → Byte := fun k => if k < n then byteOf s k else buf k

/-! ### Master -/

/-- lin_write_as_master_idle, 199-222 -/
def writeIdle (id n : Nat) (d : Nat → Byte) (s : St) : St × Res :=
  let s := { s with bidr := bset 9 s.bidr }
  let s := { s with bdrl := bdrL n d, bdrm := bdrM n d }
  let s := { s with bidr := orIn 6 0 (BitVec.ofNat 32 id) s.bidr }
  let s := { s with bidr := orIn 3 10 (BitVec.ofNat 32 (n - 1)) s.bidr }
  let s := { s with bidr := bset 8 s.bidr }
  ({ htrq s with xfer := true }, .eagain)

/-- lin_write_as_master_xfer, 224-237: LINSR |= LINSR_DTF writes back, and clears, every flag that is set -/
def writeXfer (n : Nat) (s : St) : St × Res :=
  if s.dtf = false then (s, .eagain)
  else ({ s with dtf := false, drf := false, hrf := false, xfer := false }, .ok n)

/-- lin_write (285-298) in master mode, lin_write_as_master (239-253) -/
def write (id n : Nat) (d : Nat → Byte) (s : St) : St × Res :=
  if id ≥ 64 ∨ n = 0 ∨ n > 8 then (s, .einval)
  else if s.xfer then writeXfer n s else writeIdle id n d s

/-- lin_read_as_master_idle, 324-343 -/
def readIdle (id n : Nat) (s : St) : St × Res :=
  let s := { s with bidr := orIn 6 0 (BitVec.ofNat 32 id) 0 }
  let s := { s with bidr := orIn 3 10 (BitVec.ofNat 32 (n - 1)) s.bidr }
  let s := { s with bidr := bset 8 s.bidr }
  ({ htrq s with xfer := true }, .eagain)

/-- lin_read_as_master_xfer, 345-378; the buffer -/
def readXfer (n : Nat) (buf : Nat → Byte) (s : St) : St × (Nat → Byte) × Res :=
  if s.cef then ({ s with cef := false, xfer := false }, buf, .eagain)
  else if s.drf = false then (s, buf, .eagain)
  else
    let m := min ((get 3 10 s.bidr).toNat + 1) n
    ({ s with drf := false, xfer := false }, copyFrom s m buf, .ok m)

/-- lin_read (431-445) in master mode, lin_read_as_master (380-394) -/
def read (id n : Nat) (buf : Nat → Byte) (s : St) : St × (Nat → Byte) × Res :=
  if n = 0 ∨ n > 8 then (s, buf, .einval)
  else if s.xfer then readXfer n buf s
  else ((readIdle id n s).1, buf, (readIdle id n s).2)

/-! ### Slave -/

/-- lin_write_as_slave, 255-283 -/
def writeSlave (n : Nat) (d : Nat → Byte) (s : St) : St × Res :=
  if n = 0 ∨ n > 8 then (s, .einval)
  else if s.hrf = false ∨ s.rxbusy then (s, .eagain)
  else
    let s := { s with hrf := false, bdrl := bdrL n d, bdrm := bdrM n d, bidr := bset 8 (orIn 3 10 (BitVec.ofNat 32 (n - 1)) (bset 9 0)) }
    ({ s with sent := s.sent ++ [frame s], tx := true }, .ok n)

/-- lin_read_as_slave, 396-429: state, id, buffer, result -/
def readSlave (n : Nat) (id : Nat) (buf : Nat → Byte) (s : St) : St × Nat × (Nat → Byte) × Res :=
  if n = 0 ∨ n > 8 then (s, id, buf, .einval)
  else if s.hrf = false ∨ s.rxbusy then (s, id, buf, .eagain)
  else if s.drf then
    let m := min ((get 3 10 s.bidr).toNat + 1) n
    ({ s with drf := false, hrf := false }, (get 6 0 s.bidr).toNat, copyFrom s m buf, .ok m)
  else (s, (get 6 0 s.bidr).toNat, buf, .ok 0)

/-! ### Bit rate -/

/-- set_bitrate, 113-135: LINIBRR and LINFBRR -/
def ibr (freq bitrate : Nat) : Nat := freq / (bitrate * 16) % 2 ^ 16
def fbr (freq bitrate : Nat) : Nat := ((freq % (bitrate * 16)) * 16 + (bitrate * 16) / 2) / (bitrate * 16) % 16

/-! ### Runs of a master -/

inductive Ev where
  | call
  /-- the data of the frame have been sent -/
  | sentData
  /-- the slave answered, and its checksum is right -/
  | answer (d : Nat → Byte)
  /-- it is not -/
  | badAnswer

/-- what the controller does -/
def bus (e : Ev) (s : St) : St :=
  match e with
  | .call => s
  | .sentData => if s.tx then { s with tx := false, dtf := true, ended := s.ended + 1 } else s
  | .answer d => if s.rx then { s with rx := false, drf := true, bdrl := bdrL 8 d, bdrm := bdrM 8 d } else s
  | .badAnswer => if s.rx then { s with rx := false, cef := true } else s

/-- lin_write until it does not return -EAGAIN -/
def wstep (id n : Nat) (d : Nat → Byte) (c : St × Option Res) (e : Ev) : St × Option Res :=
  match e with
  | .call =>
    if c.2 = none ∨ c.2 = some .eagain then ((write id n d c.1).1, some (write id n d c.1).2) else c
  | e => (bus e c.1, c.2)

def wrun (id n : Nat) (d : Nat → Byte) (l : List Ev) (c : St × Option Res) : St × Option Res := l.foldl (wstep id n d) c

/-- lin_read until it does not return -EAGAIN; `got`: the answer of the slave, if it came -/
structure RCl where
  st : St
  buf : Nat → Byte
  res : Option Res
  got : Option (Nat → Byte)

def rstep (id n : Nat) (c : RCl) (e : Ev) : RCl :=
  match e with
  | .call =>
    if c.res = none ∨ c.res = some .eagain then
      let r := read id n c.buf c.st
      { c with st := r.1, buf := r.2.1, res := some r.2.2 }
    else c
  | .answer d => { c with st := bus (.answer d) c.st, got := if c.st.rx then some d else c.got }
  | e => { c with st := bus e c.st }

def rrun (id n : Nat) (l : List Ev) (c : RCl) : RCl := l.foldl (rstep id n) c

end Pico.Lin
