import Verif.Drivers.Can
/-
drivers/can/can-bosch_mcan.c: can_write, can_read, can_accept on the M_CAN controller (STM32H7, ATSAMx7x ...).

The message RAM holds 32 tx buffers, an rx fifo of 64 elements, 128 11-bit filters and 64 29-bit filters (can_bosch_mcan_init, 483-546).
Not modelled: cache maintenance, CAN-FD, error counters.
-/
namespace Pico.Can.Mcan

structure Elem where
  w0 : Nat
  w1 : Nat
  w2 : Nat
  w3 : Nat
  deriving DecidableEq

/-- the frame of a tx buffer or rx fifo element: w0 bit 30 XTD, bits 0-28 identifier (11-bit ones in 18-28), w1 bits 16-19 DLC (more than 8 is 8 without FD) -/
def frame (e : Elem) : Frame :=
  ⟨decide (bits e.w0 30 1 = 1), if bits e.w0 30 1 = 1 then bits e.w0 0 29 else bits e.w0 18 11, (leBytes e.w2 e.w3).take (bits e.w1 16 4)⟩

/-! ### Transmission -/

structure Tx where
  /-- tx buffers -/
  el : Nat → Elem
  /-- TXBRP: requests pending -/
  pend : Nat → Bool
  /-- the TXFQS register: bit 21 TFQF (full), bits 16-20 TFQPI (put index) -/
  txfqs : Nat
  /-- PSR.BO and CCCR.INIT -/
  bo : Bool
  ini : Bool
  /-- ctx->bus_off_recovery -/
  rcv : Bool

/-- what is waiting to go on the bus: the frame of each buffer with a request pending -/
def Tx.out (s : Tx) (j : Nat) : Option Frame := if s.pend j then some (frame (s.el j)) else none

/-- hardware: when the queue is not full the put index designates a free buffer -/
def Tx.Hw (s : Tx) : Prop := bits s.txfqs 21 1 = 0 → s.pend (bits s.txfqs 16 5) = false

/-- can_write, 781-826 -/
def write (id : Nat) (buf : List Byte) (n : Nat) (s : Tx) : Tx × Res :=
  if n > 8 then (s, .einval)
  else if s.rcv && s.ini then ({ s with ini := false }, .ebusy)
  else
    let s := { s with rcv := false }
    if s.bo then ({ s with rcv := true }, .eio)
    else if s.txfqs &&& 1 <<< 21 ≠ 0 then (s, .eagain)
    else
      let index := (s.txfqs &&& fld 0x1f 16 0x1f) >>> 16
      let t0 := if id < 2048 then (id <<< 18) &&& 0x1fffffff else 1 <<< 30 ||| (id &&& 0x1fffffff)
      let t1 := fld 0xf 16 n
      let t := packLE buf n
      ({ s with el := fun j => if j = index then ⟨t0, t1, t.1, t.2⟩ else s.el j, pend := fun j => s.pend j || (1 <<< index).testBit j }, .ok n)

/-! ### Reception -/

structure Rx where
  /-- the rx fifo in the message RAM -/
  ram : Nat → Elem
  /-- get index and fill level -/
  gi : Nat
  lvl : Nat
  /-- the other bits of RXF0S (F0F, RF0L, put index), 16 and up -/
  hi : Nat

def Rx.Hw (s : Rx) : Prop := s.gi < 64 ∧ s.lvl ≤ 64

/-- the RXF0S register: bits 0-6 F0FL, 8-13 F0GI -/
def Rx.rxf0s (s : Rx) : Nat := s.hi * 2 ^ 16 + (s.gi * 2 ^ 8 + s.lvl)

/-- frames received and not read, the oldest first -/
def Rx.queue (s : Rx) : List Frame := (List.range s.lvl).map fun k => frame (s.ram ((s.gi + k) % 64))

structure Rd where
  st : Rx
  buf : Nat → Byte
  id : Nat
  res : Res

/-- hardware: an acknowledge (RXF0A) sets the get index to the next element -/
def ack (ai : Nat) (s : Rx) : Rx := { s with gi := (ai + 1) % 64, lvl := s.lvl - 1 }

/-- can_read, 849-880: `p` is the memory at `buf`, `old` the value of `*id` -/
def read (p : Nat → Byte) (old n : Nat) (s : Rx) : Rd :=
  if n = 0 ∨ n > 8 then ⟨s, p, old, .einval⟩
  else if s.rxf0s &&& 0x3f = 0 then ⟨s, p, old, .eagain⟩
  else
    let index := (s.rxf0s &&& fld 0x3f 8 0x3f) >>> 8
    let e := s.ram index
    let id := if e.w0 &&& 1 <<< 30 = 0 then (e.w0 &&& 0x1fffffff) >>> 18 else e.w0 &&& 0x1fffffff
    let dlc := (e.w1 &&& fld 0xf 16 0xf) >>> 16
    ⟨ack (index &&& 0x3f) s, if dlc ≤ 8 then unpackLE e.w2 e.w3 dlc p else p, id, .ok dlc⟩

/-- hardware: a frame arrives (element `e`); `om`: overwrite mode (RXF0C.F0OM, can_settings.rx_overwrite) -/
def arrive (om : Bool) (e : Elem) (s : Rx) : Rx :=
  if s.lvl < 64 then { s with ram := fun i => if i = (s.gi + s.lvl) % 64 then e else s.ram i, lvl := s.lvl + 1 }
  else if om then { s with ram := fun i => if i = s.gi then e else s.ram i, gi := (s.gi + 1) % 64 }
  else s

/-! ### Acceptance -/

structure Flt where
  sf : Nat → Nat
  ef : Nat → Nat × Nat
  n11 : Nat
  n29 : Nat

/-- init_fdcan_filters, 467-480 (and n_filter_11bit, n_filter_29bit 498-499); F1 of the 29-bit filters is not initialised -/
def fltInit (junk : Nat → Nat) : Flt := { sf := fun _ => fld 0x3 30 3, ef := fun i => (fld 0x7 29 0, junk i), n11 := 0, n29 := 0 }

/-- can_accept, 729-754 -/
def accept (id mask : Nat) (s : Flt) : Flt × Res :=
  if id ≥ 2 ^ 29 then (s, .einval)
  else if mask ≥ 2 ^ 29 then (s, .einval)
  else if id < 2048 then
    if s.n11 ≥ 128 then (s, .enomem)
    else ({ s with sf := fun i => if i = s.n11 then fld 0x3 30 2 ||| fld 0x7 27 1 ||| fld 0x7ff 16 id ||| fld 0x7ff 0 mask else s.sf i, n11 := s.n11 + 1 }, .ok 0)
  else
    if s.n29 ≥ 64 then (s, .enomem)
    else ({ s with ef := fun i => if i = s.n29 then (fld 0x7 29 1 ||| (id &&& 0x1fffffff), fld 0x3 30 2 ||| (mask &&& 0x1fffffff)) else s.ef i,
                   n29 := s.n29 + 1 }, .ok 0)

/-- a 11-bit filter element: bits 30-31 SFT (2: classic filter, 3: disabled), 27-29 SFEC (1: store in fifo 0, 0: disabled), 16-26 filter, 0-10 mask -/
def sfMatch (w id : Nat) : Prop := bits w 30 2 = 2 ∧ bits w 27 3 = 1 ∧ id &&& bits w 0 11 = bits w 16 11 &&& bits w 0 11

/-- a 29-bit filter element: F0 bits 29-31 EFEC (1: store in fifo 0, 0: disabled), 0-28 filter; F1 bits 30-31 EFT (2: classic filter), 0-28 mask -/
def efMatch (f : Nat × Nat) (id : Nat) : Prop := bits f.1 29 3 = 1 ∧ bits f.2 30 2 = 2 ∧ id &&& bits f.2 0 29 = bits f.1 0 29 &&& bits f.2 0 29

/-- the frames the controller stores: GFC rejects those that match no filter -/
def stored (s : Flt) (f : Frame) : Prop := if f.ext then ∃ i < 64, efMatch (s.ef i) f.id else ∃ i < 128, sfMatch (s.sf i) f.id

/-- a sequence of can_accept calls; the calls that returned 0 -/
def acceptAll : List (Nat × Nat) → Flt → Flt × List (Nat × Nat)
  | [], s => (s, [])
  | (id, mask) :: t, s =>
    match accept id mask s with
    | (s', .ok _) => let r := acceptAll t s'; (r.1, (id, mask) :: r.2)
    | (s', _) => acceptAll t s'

end Pico.Can.Mcan
