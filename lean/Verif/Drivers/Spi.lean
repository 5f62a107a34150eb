/-
spi_xfer of the drivers that keep a `balance` of frames sent and not received yet (C69), without DMA:
  drivers/spi/spi-arm_pl022.c, spi-atmel_sercom.c, spi-atsamx7x.c, spi-atsamx7x_qspi.c, spi-gd32vf103.c, spi-nxp_dspi.c, spi-pic32mx.c, spi-renesas_ra4.c,
  spi-sam3x.c, spi-stm32h7xx.c, spi-ti_f28x.c, spi-tinyavr.c (`loop`) and spi-lgt8fx8p.c (`burst`)

The client transfers a message of `m.length` bytes: it calls spi_xfer(ctx, &rx[done], &tx[done], length - done) until `done` is the length (spi.h; what
flash-ext-*.c:run_cmd does).  The controller holds at most `T` frames not shifted yet (fifo and shift register) and `R` frames received and not read; a frame
received when there are `R` of them is lost.  It shifts whenever it likes, in particular while the task is preempted.  The flags the driver reads may be late.
Simplifications: a frame is the list of its bytes in memory order; the flag and the data register are accessed in one step (the
controller can only become more ready in between); `balance` is a natural number (it never goes below zero, `bal_pos`).
-/
namespace Pico.Spi

abbrev Byte := BitVec 8
abbrev Frame := List Byte

structure Drv where
  /-- bytes in a frame on the wire (frame_width) -/
  w : Nat
  /-- what transmit_data / write_data and receive_data / read_data return, bytes -/
  a : Nat
  /-- bytes stored in the buffer for each frame received -/
  st : Nat
  /-- condition to push a frame: received in this call, balance, length given to this call -/
  guard : Nat → Nat → Nat → Bool
  T : Nat
  R : Nat
  /-- WDRBT: nothing is shifted while a received frame was not read -/
  wait : Bool
  /-- spi-lgt8fx8p.c: pushes all it can, then reads all it can -/
  burst : Bool

inductive Pc where
  | idle
  /-- at the head of the loop, `r` bytes received by this call -/
  | tx (r : Nat)
  /-- before the reception; `occ`: xfer_occurred -/
  | rx (r : Nat) (occ : Bool)
  deriving DecidableEq

structure St where
  bal : Nat
  pc : Pc
  done : Nat
  buf : Nat → Byte
  tq : List Frame
  rq : List Frame
  /-- history: frames shifted out, what the peer answered, number of answers lost -/
  wire : List Frame
  resp : List Frame
  lost : Nat

def init (old : Nat → Byte) : St := { bal := 0, pc := .idle, done := 0, buf := old, tq := [], rq := [], wire := [], resp := [], lost := 0 }

/-- store `st` bytes of a frame at `p` (missing ones are 0: the data register reads as 0 above the frame) -/
def store (st p : Nat) (f : Frame) (b : Nat → Byte) : Nat → Byte := fun i => if p ≤ i ∧ i < p + st then f.getD (i - p) 0 else b i

/-- One step of spi_xfer, e.g. spi-arm_pl022.c:380-411; burst: spi-lgt8fx8p.c:168-187 (where `balance` is decreased at the end). `rdy`: the flag read. -/
def task (d : Drv) (m : List Byte) (rdy : Bool) (s : St) : St :=
  let n := m.length - s.done
  match s.pc with
  | .idle => s
  | .tx r =>
    if d.guard r s.bal n && rdy && decide (s.tq.length < d.T) then
      { s with tq := s.tq ++ [(m.drop (s.done + (r + s.bal))).take d.w], bal := s.bal + d.a, pc := if d.burst then .tx r else .rx r true }
    else { s with pc := .rx r false }
  | .rx r occ =>
    match s.rq, rdy with
    | f :: q, true =>
      let s' := { s with rq := q, buf := store d.st (s.done + r) f s.buf, bal := s.bal - d.a }
      if d.burst then { s' with pc := .rx (r + d.a) true }
      else if r + d.a = n then { s' with pc := .idle, done := s.done + (r + d.a) }
      else { s' with pc := .tx (r + d.a) }
    | _, _ => if occ && !d.burst then { s with pc := .tx r } else { s with pc := .idle, done := s.done + r }

/-- the controller shifts a frame and receives `f` -/
def shift (d : Drv) (f : Frame) (s : St) : Option St :=
  match s.tq with
  | [] => none
  | g :: t =>
    if d.wait && !s.rq.isEmpty then none
    else
      let s' := { s with tq := t, wire := s.wire ++ [g], resp := s.resp ++ [f] }
      if s.rq.length < d.R then some { s' with rq := s.rq ++ [f] } else some { s' with lost := s.lost + 1 }

inductive Cmd where
  | call
  | task (rdy : Bool)
  | shift (f : Frame)

def step (d : Drv) (m : List Byte) (s : St) : Cmd → Option St
  | .call => if s.pc = .idle ∧ s.done < m.length then some { s with pc := .tx 0 } else none
  | .task rdy => if s.pc = .idle then none else some (task d m rdy s)
  | .shift f => if f.length = d.w then shift d f s else none

inductive Reach (d : Drv) (m : List Byte) : St → Prop where
  | init (old : Nat → Byte) : Reach d m (init old)
  | step {s s' : St} (a : Cmd) : Reach d m s → step d m s a = some s' → Reach d m s'

/-- bytes received so far, all calls together -/
def got (s : St) : Nat :=
  match s.pc with
  | .idle => s.done
  | .tx r | .rx r _ => s.done + r

/-! the drivers -/

/-- tx_n < n -/
def inside (r b n : Nat) : Bool := r + b < n

/-- the plain loop; pl022, sercom, dspi, pic32mx (8- and 32-bit frames), tinyavr, f28x (whose char has 16 bits) -/
def plain (w T R : Nat) : Drv := { w := w, a := w, st := w, guard := inside, T := T, R := R, wait := false, burst := false }
/-- spi-atsamx7x_qspi.c: WDRBT -/
def qspi (w T : Nat) : Drv := { plain w T 1 with wait := true }
/-- spi-gd32vf103.c:345-384, spi-renesas_ra4.c:328-367 (8-bit frames, and 32-bit ones of renesas): one frame at a time -/
def single (w T R : Nat) : Drv := { plain w T R with guard := fun _ b _ => b == 0 }
/-- spi-stm32h7xx.c:455-500: `depth` is the size of the fifo in bytes -/
def limited (w T R depth : Nat) : Drv := { plain w T R with guard := fun r b n => r + b < n && b < depth - w }
/-- spi-lgt8fx8p.c:162-187 -/
def lgt (T R : Nat) : Drv := { plain 1 T R with guard := fun _ b n => n - b ≠ 0, burst := true }
/-- spi-atsamx7x.c:231-270, spi-sam3x.c, frames of at most 8 bits: `switch (ctx->frame_nbits) case sizeof(uint8_t)` never matches, two bytes are counted -/
def sam8 (T : Nat) : Drv := { plain 1 T 1 with a := 2, st := 2, wait := true }
/-- the same with longer frames -/
def sam16 (T : Nat) : Drv := { plain 2 T 1 with wait := true }
/-- spi-pic32mx.c:222-225, spi-renesas_ra4.c, 16-bit frames: `*data = (uint16_t)...` stores one byte -/
def half (d : Drv) : Drv := { d with w := 2, a := 2, st := 1 }

end Pico.Spi
