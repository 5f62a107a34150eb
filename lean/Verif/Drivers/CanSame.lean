import Verif.Drivers.CanMcan
import Verif.Drivers.CanTiming
/-
staging/drivers/can/can-same5x.c: can_write, can_read, can_accept and the bit rate of can_setup on the M_CAN controller of the SAME5x (C121).

The elements of the message RAM, the frames they stand for and the receive fifo are those of `Pico.Can.Mcan` (the same controller). Not modelled: CCCR (start and end of the
configuration mode), the loop-back and overwrite bits, the addresses of the arrays, and the read of TXBAR before it is written.
-/
namespace Pico.Can.Same

open Mcan (Elem frame Rx ack Rd)

/-! ### Transmission -/

structure Tx where
  el : Nat → Elem
  /-- TXBRP: requests pending -/
  pend : Nat → Bool
  /-- the TXFQS register: bit 21 TFQF (full), bits 16-20 TFQPI (put index) -/
  txfqs : Nat

/-- what is waiting to go on the bus -/
def Tx.out (s : Tx) (j : Nat) : Option Frame := if s.pend j then some (frame (s.el j)) else none

/-- hardware: when the fifo is not full the put index designates a free buffer; when it is full, one that waits -/
def Tx.Hw (s : Tx) : Prop := s.pend (bits s.txfqs 16 5) = decide (bits s.txfqs 21 1 = 1)

/-- can_write, can-same5x.c:466-499 -/
def write (id : Nat) (buf : List Byte) (n : Nat) (s : Tx) : Tx × Res :=
  if ¬ id < 2048 then (s, .einval)
  else if ¬ n > 0 then (s, .einval)
  else
    let index := (s.txfqs >>> 16) &&& 0x1f
    let t0 := (id <<< 18) &&& 0x1fffffff
    let t1 := fld 0xf 16 n
    if n > 8 then ({ s with el := fun j => if j = index then ⟨t0, t1, 0, 0⟩ else s.el j }, .einval)
    else
      let t := packLE buf n
      ({ s with el := fun j => if j = index then ⟨t0, t1, t.1, t.2⟩ else s.el j, pend := fun j => s.pend j || (1 <<< index).testBit j }, .ok n)

/-! ### Reception -/

/-- can_read, can-same5x.c:501-538: `p` is the memory at `buf`, `old` the value of `*id` -/
def read (p : Nat → Byte) (old n : Nat) (s : Rx) : Rd :=
  if ¬ n > 0 then ⟨s, p, old, .einval⟩
  else if s.rxf0s &&& 0x7f = 0 then ⟨s, p, old, .eagain⟩
  else
    let index := (s.rxf0s >>> 8) &&& 0x3f
    let e := s.ram index
    let dlc := (e.w1 >>> 16) &&& 0xf
    let n := if dlc < n then dlc else n
    if 1 ≤ n ∧ n ≤ 8 then ⟨ack (index &&& 0x3f) s, unpackLE e.w2 e.w3 n p, (e.w0 &&& 0x1fffffff) >>> 18, .ok n⟩
    else ⟨s, p, old, .eio⟩

/-- a history of arrivals (in the mode without overwriting) and of calls of can_read; the results of the calls -/
inductive Ev where
  | arrive (e : Elem)
  | read (p : Nat → Byte) (old n : Nat)

def run : List Ev → Rx → Rx × List Res
  | [], s => (s, [])
  | .arrive e :: t, s => run t (Mcan.arrive false e s)
  | .read p old n :: t, s => let r := read p old n s; let x := run t r.st; (x.1, r.res :: x.2)

/-! ### Acceptance -/

structure Flt where
  sf : Nat → Nat
  n : Nat

/-- can_accept, can-same5x.c:452-464 -/
def accept (id mask : Nat) (s : Flt) : Flt × Res :=
  if ¬ id < 2048 then (s, .einval)
  else if ¬ mask < 2048 then (s, .einval)
  else if ¬ s.n < 128 then (s, .enomem)
  else ({ sf := fun i => if i = s.n then fld 0x3 30 2 ||| fld 0x7 27 5 ||| fld 0x7ff 16 id ||| fld 0x7ff 0 mask else s.sf i, n := s.n + 1 }, .ok 0)

def acceptAll : List (Nat × Nat) → Flt → Flt
  | [], s => s
  | c :: t, s => acceptAll t (accept c.1 c.2 s).1

/-- hardware: a filter element is enabled (SFEC, bits 27-29, not 0) and the identifier fits it (SFT, bits 30-31: 0 range, 1 two identifiers, 2 classic, 3 none) -/
def fits (w id : Nat) : Bool :=
  decide (bits w 27 3 ≠ 0) &&
  match bits w 30 2 with
  | 0 => decide (bits w 16 11 ≤ id ∧ id ≤ bits w 0 11)
  | 1 => decide (id = bits w 16 11 ∨ id = bits w 0 11)
  | 2 => decide (id &&& bits w 0 11 = bits w 16 11 &&& bits w 0 11)
  | _ => false

/-- hardware: whether a frame is stored in fifo 0: the first of the 128 elements that it fits decides (SFEC 1 and 5: fifo 0); without one, GFC: bits 4-5 ANFS, 2-3 ANFE (0: fifo 0).
No list of 29-bit filters is given to the controller -/
def stored (gfc : Nat) (s : Flt) (f : Frame) : Bool :=
  if f.ext then decide (bits gfc 2 2 = 0)
  else match (List.range 128).find? (fun i => fits (s.sf i) f.id) with
    | some i => decide (bits (s.sf i) 27 3 = 1 ∨ bits (s.sf i) 27 3 = 5)
    | none => decide (bits gfc 4 2 = 0)

/-! ### Bit rate -/

/-- set_dbrp_and_seg, can-same5x.c:348-382: the value for DBTP -/
def regs (brp tq : Nat) : Option Nat :=
  if ¬ (4 ≤ tq ∧ tq ≤ 49) then none
  else
    let tq := tq - 1
    let t1 := seg87 tq
    if t1 > 32 then none
    else
      let t2 := tq - t1
      if t1 < 1 ∨ t1 > 32 ∨ t2 < 1 ∨ t2 > 16 then none
      else some (fld 0x1f 16 (brp - 1) ||| fld 0x1f 8 (t1 - 1) ||| fld 0xf 4 (t2 - 1) ||| fld 0xf 0 0)

structure Bt where
  nbtp : Nat
  dbtp : Nat
  deriving DecidableEq, Repr

/-- set_bitrate, can-same5x.c:384-418, on the bit timing registers: DBTP is written, NBTP is not -/
def setup (freq bitrate : Nat) (r : Bt) : Bt × Option Err :=
  match setBitrate .einval 0x1f 1 4 49 regs freq bitrate with
  | .ok d => ({ r with dbtp := d }, none)
  | .error e => (r, some e)

/-- the registers after a reset (SAM D5x/E5x data sheet) -/
def btReset : Bt := ⟨0x06000a03, 0x00000a33⟩

end Pico.Can.Same
