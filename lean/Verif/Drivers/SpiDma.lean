/-
spi_xfer with two DMA channels (C104):
  drivers/spi/spi-arm_pl022.c:300-372, spi-gd32vf103.c:274-343, spi-atmel_sercom.c:304-371, spi-ti_f28x.c:303-370, spi-stm32h7xx.c:306-389 (five times the same text)

The client calls spi_xfer with the same arguments until it does not return -EAGAIN (n >= threshold: the DMA is used).
The `fill` channel moves frames of the message to the data register while the controller asks for them, the `drain` channel moves frames received to the buffer (C91);
frames are exchanged at any time; the FIFO of reception has `depth` frames, one that comes when it is full is lost.
A frame is of any type: bytes, half words and words are moved as they are.
Simplifications: dma_setup of both channels and the enable bits are one step (the controller asks for nothing before; sercom and ti_f28x: drain is set up first); dma_setup succeeds (its asserts hold for every call made here,
C91); the buffers are not in the data cache (stm32h7xx: the received data are not invalidated by the driver); CR2_TSIZE of stm32h7xx is the count of the channels.
-/
namespace Pico.SpiDma

/-- `en`: the controller has bits that enable its requests (arm_pl022 SSPDMACR, gd32vf103 SPI_CTL1, stm32h7xx CFG1); `fw`: bytes per frame (ctx->frame_width; 1 for ti_f28x, whose bytes have 16 bits);
`w`: bits of the counter of a channel (32 with rp2040, else 16) -/
structure Cfg where
  en : Bool
  depth : Nat
  fw : Nat
  w : Nat

/-- a message of n bytes: its whole frames, and the bytes beyond (n not a multiple of the frame) -/
structure Msg (α : Type) where
  tx : List α
  extra : Nat
  deriving DecidableEq

/-- n -/
def Msg.bytes {α : Type} (q : Cfg) (m : Msg α) : Nat := m.tx.length * q.fw + m.extra
/-- the count of the channels: byte_count / size, as their counter holds it (dma-gd32vf103.c:80, dma-rp2040.c:107, dma-same5x.c:209, dma-stm32h7xx.c:144, dma-ti_f28x.c:165) -/
def Msg.count {α : Type} (q : Cfg) (m : Msg α) : Nat := (m.bytes q / q.fw) % 2 ^ q.w

structure St (α : Type) where
  /-- ctx->state is DMA_WAIT -/
  wait : Bool
  cur : Option (Msg α)
  /-- the requests are enabled -/
  req : Bool
  /-- the frames the fill channel has still to move, those left to the drain channel, and the buffer so far -/
  fill : List α
  left : Nat
  buf : List α
  txf : List α
  rxf : List α
  /-- history: frames exchanged (sent, answer), lost answers, messages with their buffers and the value returned -/
  wire : List (α × α)
  lost : Nat
  fin : List (Msg α × List α × Nat)

def init (q : Cfg) {α : Type} : St α := ⟨false, none, !q.en, [], 0, [], [], [], [], 0, []⟩

/-- spi_xfer_dma_start, :300-339 -/
def start {α : Type} (q : Cfg) (m : Msg α) (s : St α) : St α := { s with wait := true, req := true, fill := m.tx.take (m.count q), left := m.count q, buf := [] }

/-- spi_xfer_dma_wait, :341-358: `&&`; dma_xfer_done: the counter is 0 (C93) -/
def poll {α : Type} (q : Cfg) (m : Msg α) (s : St α) : St α :=
  if s.fill.isEmpty && s.left == 0 then { s with wait := false, req := !q.en, cur := none, fin := s.fin ++ [(m, s.buf, m.bytes q)] } else s

/-- spi_xfer_dma, :360-372 -/
def call {α : Type} (q : Cfg) (m : Msg α) (s : St α) : St α := if s.wait then poll q m s else start q m s

inductive Cmd (α : Type) where
  /-- the client has a new message (of n > 0 bytes, :302: n / fw frames, n % fw bytes beyond) -/
  | begin (m : Msg α)
  | call
  /-- a frame is moved by a channel -/
  | fill
  | drain
  /-- a frame is exchanged, the answer is a -/
  | shift (a : α)

def step {α : Type} (q : Cfg) (s : St α) : Cmd α → Option (St α)
  | .begin m => if s.cur.isNone && decide (m.extra < q.fw) && decide (0 < m.bytes q) then some { s with cur := some m } else none
  | .call => s.cur.map fun m => call q m s
  | .fill => match s.fill with
    | b :: l => if s.req && decide (s.txf.length < q.depth) then some { s with fill := l, txf := s.txf ++ [b] } else none
    | [] => none
  | .drain => match s.rxf, s.left with
    | a :: l, k + 1 => if s.req then some { s with rxf := l, left := k, buf := s.buf ++ [a] } else none
    | _, _ => none
  | .shift a => match s.txf with
    | b :: l => if s.rxf.length < q.depth then some { s with txf := l, rxf := s.rxf ++ [a], wire := s.wire ++ [(b, a)] }
      else some { s with txf := l, wire := s.wire ++ [(b, a)], lost := s.lost + 1 }
    | [] => none

inductive Run {α : Type} (q : Cfg) (s0 : St α) : St α → Prop where
  | refl : Run q s0 s0
  | step {s s' : St α} (a : Cmd α) : Run q s0 s → step q s a = some s' → Run q s0 s'

end Pico.SpiDma
