import Verif.Drivers.Spi1
/-
spi_xfer of drivers/spi/spi-avr_usart.c (C101): a USART of the AVR as SPI master (ATmega328P 21: "MSPIM"): a byte written to UDRn waits in the transmit buffer until the shift register is free; when it was shifted, its answer
comes into the receive buffer (RXC) and, if nothing waits, TXC is set; the two flags are set in any order, the driver reads them one after the other.

Simplifications: the receive buffer has one byte (it has two: the theorem is that one is enough); spi-avr_usart.c includes "spi-avr-usart.h", which does not exist: it is modelled as if it were spi-avr_usart.h.
-/
namespace Pico.Spi1.Usart
open Pico.Spi1

structure St where
  /-- ctx->state is XFER -/
  xfer : Bool
  /-- in a call: RXC was read as set, TXC was not read -/
  mid : Bool
  done : Nat
  buf : Nat → Byte
  /-- transmit buffer, shift register -/
  txb : Option Byte
  sh : Option Byte
  /-- shifted, TXC to be set; TXC -/
  tp : Bool
  txc : Bool
  /-- the answer, to be stored; stored (RXC) -/
  rp : Option Byte
  rx : Option Byte
  /-- history: bytes shifted out, answers, answers lost -/
  wire : List Byte
  resp : List Byte
  lost : Nat

def init (old : Nat → Byte) : St := ⟨false, false, 0, old, none, none, false, false, none, none, [], [], 0⟩

/-- a write to UDRn: ignored while the transmit buffer is used -/
def write (b : Byte) (s : St) : St := if s.txb.isNone then { s with txb := some b } else s

/-- UDRn is read, TXC cleared, spi-avr_usart.c:144-145; 0 is read when there is nothing -/
def take (s : St) : St := { s with mid := false, buf := fun i => if i = s.done then s.rx.getD 0#8 else s.buf i, rx := none, txc := false, done := s.done + 1 }

/-- spi_xfer(ctx, &rx[done], &tx[done], length - done), spi-avr_usart.c:156-170, with run_state_start, :128-133, and run_state_xfer, :135-154, in two steps: to the read of RXC, from the read of TXC -/
def call (m : List Byte) (s : St) : St :=
  if s.mid then
    if s.txc then
      (if 1 < m.length - s.done then write (m.getD (s.done + 1) 0#8) (take s) else { take s with xfer := false })
    else { s with mid := false }
  else if s.xfer = false then { write (m.getD s.done 0#8) s with xfer := true }
  else if s.rx.isNone then s
  else { s with mid := true }

inductive Cmd where
  | call
  /-- the waiting byte enters the shift register -/
  | load
  /-- a byte was shifted; the peer answered f -/
  | shift (f : Byte)
  /-- the answer is stored -/
  | store
  /-- TXC -/
  | flag

def step (m : List Byte) (s : St) : Cmd → Option St
  | .call => if s.done < m.length then some (call m s) else none
  | .load => if s.sh.isNone ∧ s.tp = false ∧ s.txb.isSome then some { s with sh := s.txb, txb := none } else none
  | .shift f => match s.sh with | some b => if s.rp.isNone then some { s with sh := none, tp := true, rp := some f, wire := s.wire ++ [b], resp := s.resp ++ [f] } else none | none => none
  | .store => match s.rp with | some f => (if s.rx.isNone then some { s with rp := none, rx := some f } else some { s with rp := none, lost := s.lost + 1 }) | none => none
  | .flag => if s.tp then some { s with tp := false, txc := s.txc || s.txb.isNone } else none

inductive Run (m : List Byte) (s0 : St) : St → Prop where
  | refl : Run m s0 s0
  | step {s s' : St} (a : Cmd) : Run m s0 s → step m s a = some s' → Run m s0 s'

end Pico.Spi1.Usart
