/-
spi_xfer of the drivers of controllers without FIFOs, one byte per call (C101):
  drivers/spi/spi-avr.c, drivers/spi/spi-avr_irqdriven.c (both modes), staging/drivers/spi/spi-ch552.c, spi-n76e003.c, spi-mc9s08ptxx.c (frames of 8 bits)

The client transfers a message as in Spi.lean: spi_xfer(ctx, &rx[done], &tx[done], length - done) until done is the length.
The controllers (ATmega328P 18, CH552 13, N76E003 14, MC9S08PT60 16): a byte is shifted at any time, then its answer is in the data register and a flag is set.
-/
namespace Pico.Spi1

abbrev Byte := BitVec 8

inductive Kind where
  | avr
  | ch552
  | n76
  | s08
  deriving DecidableEq

structure St where
  /-- ctx->state is XFER (avr) -/
  xfer : Bool
  /-- in the middle of a call: the reception was tested, nothing had come (n76, s08) -/
  mid : Bool
  done : Nat
  buf : Nat → Byte
  /-- the byte that waits for the shift register (s08 only), the one in it, the answer not read -/
  txb : Option Byte
  sh : Option Byte
  rx : Option Byte
  /-- history: bytes shifted out, answers, answers lost -/
  wire : List Byte
  resp : List Byte
  lost : Nat

def init (old : Nat → Byte) : St := ⟨false, false, 0, old, none, none, none, [], [], 0⟩

/-- a write to the data register: ignored while the only buffer is used (WCOL) -/
def write (k : Kind) (b : Byte) (s : St) : St :=
  if k = .s08 then (if s.txb.isNone then { s with txb := some b } else s) else if s.sh.isNone then { s with sh := some b } else s

/-- the answer read, one byte returned -/
def take (f : Byte) (s : St) : St := { s with buf := fun i => if i = s.done then f else s.buf i, rx := none, done := s.done + 1 }

/-- the transmit flag: TXBUF of the n76e003 (clear when the byte was shifted: the best of the readings of its manual), SPTEF of the s08 (set as soon as the byte is in the shift register) -/
def room (k : Kind) (s : St) : Bool := if k = .s08 then s.txb.isNone else s.sh.isNone

/-- spi_xfer.  avr: spi-avr.c:151-191, spi-avr_irqdriven.c:211-250 (one read of SPIF decides; nothing moves in the controller between SPIF seen and the next write);
ch552: spi-ch552.c:139-156 (the same with S0_FREE); n76: spi-n76e003.c:144-160, s08: spi-mc9s08ptxx.c:197-230 (two flags, in two steps) -/
def call (k : Kind) (m : List Byte) (s : St) : St :=
  match k with
  | .avr =>
    if s.xfer = false then { write k (m.getD s.done 0#8) s with xfer := true } else
    match s.rx with
    | none => s
    | some f => if 1 < m.length - s.done then write k (m.getD (s.done + 1) 0#8) (take f s) else { take f s with xfer := false }
  | .ch552 =>
    if s.sh.isNone then (match s.rx with | some f => take f s | none => write k (m.getD s.done 0#8) s) else s
  | _ =>
    if s.mid then (if room k s then { write k (m.getD s.done 0#8) s with mid := false } else { s with mid := false }) else
    match s.rx with | some f => take f s | none => { s with mid := true }

inductive Cmd where
  | call
  /-- the waiting byte enters the shift register (s08) -/
  | load
  /-- a byte was shifted, the answer is f; one that was not read is kept, the new one is lost -/
  | shift (f : Byte)

def step (k : Kind) (m : List Byte) (s : St) : Cmd → Option St
  | .call => if s.done < m.length then some (call k m s) else none
  | .load => if k = .s08 ∧ s.sh.isNone ∧ s.txb.isSome then some { s with sh := s.txb, txb := none } else none
  | .shift f =>
    match s.sh with
    | none => none
    | some b =>
      match s.rx with
      | none => some { s with sh := none, rx := some f, wire := s.wire ++ [b], resp := s.resp ++ [f] }
      | some _ => some { s with sh := none, wire := s.wire ++ [b], resp := s.resp ++ [f], lost := s.lost + 1 }

/-- executions; `quiet`: the controller finishes nothing while the task is inside a call -/
inductive Run (k : Kind) (quiet : Bool) (m : List Byte) (s0 : St) : St → Prop where
  | refl : Run k quiet m s0 s0
  | step {s s' : St} (a : Cmd) : Run k quiet m s0 s → (quiet = true → s.mid = true → a = .call) → step k m s a = some s' → Run k quiet m s0 s'

/-! ### spi-avr_irqdriven.c, driven by interrupts -/
namespace Irq

/-- the FIFOs are queues of `cap` bytes (C46); with the mask m, cap = m - 1 (fifo.h:22-35: r starts at m) -/
structure St where
  xfer : Bool
  count : Nat
  /-- in the loop of irqdriven_run_state_xfer, bytes received by this call -/
  recv : Option Nat
  done : Nat
  buf : Nat → Byte
  txf : List Byte
  rxf : List Byte
  sh : Option Byte
  rx : Option Byte
  /-- number of selections of the peer (gpio_write(ss, false)) -/
  sel : Nat
  /-- history: bytes shifted out with the selection under which they were, answers -/
  wire : List (Byte × Nat)
  resp : List Byte
  lost : Nat

def init (old : Nat → Byte) : St := ⟨false, 0, none, 0, old, [], [], none, none, 0, [], [], 0⟩

/-- irqdriven_run_state_start, spi-avr_irqdriven.c:252-279.  No interrupt comes before the write to SPDR, and the interrupt touches neither state nor count, so it is one step.
Nothing fits (cap = 0): `g`, the old content of the array, is sent -/
def start (cap : Nat) (m : List Byte) (g : Byte) (s : St) : St :=
  let l := (m.drop s.done).take cap
  { s with txf := l.tail, sh := some (l.headD g), xfer := true, count := l.length, sel := s.sel + 1 }

/-- one turn of irqdriven_run_state_xfer, spi-avr_irqdriven.c:281-309 -/
def loop (r : Nat) (s : St) : St :=
  match s.rxf with
  | f :: q =>
    if r = s.count then { s with recv := none, done := s.done + r, count := 0, xfer := decide (r = 0) }
    else { s with recv := some (r + 1), rxf := q, buf := fun i => if i = s.done + r then f else s.buf i }
  | [] =>
    if r = 0 then { s with recv := none }
    else { s with recv := none, done := s.done + r, count := s.count - r, xfer := decide (s.count ≠ r) }

/-- one turn of spi_isr, spi-avr_irqdriven.c:35-57 -/
def isr (cap : Nat) (f : Byte) (s : St) : St :=
  { s with rx := none, rxf := if s.rxf.length < cap then s.rxf ++ [f] else s.rxf, lost := if s.rxf.length < cap then s.lost else s.lost + 1,
           txf := s.txf.tail, sh := match s.txf with | b :: _ => some b | [] => s.sh }

inductive Cmd where
  | call (g : Byte)
  | task
  | isr
  | shift (f : Byte)

def step (cap : Nat) (m : List Byte) (s : St) : Cmd → Option St
  | .call g => if s.recv = none ∧ s.done < m.length then some (if s.xfer then { s with recv := some 0 } else start cap m g s) else none
  | .task => match s.recv with | some r => some (loop r s) | none => none
  | .isr => match s.rx with | some f => some (isr cap f s) | none => none
  | .shift f => match s.sh with | some b => some { s with sh := none, rx := some f, wire := s.wire ++ [(b, s.sel)], resp := s.resp ++ [f] } | none => none

inductive Run (cap : Nat) (m : List Byte) (s0 : St) : St → Prop where
  | refl : Run cap m s0 s0
  | step {s s' : St} (a : Cmd) : Run cap m s0 s → step cap m s a = some s' → Run cap m s0 s'

end Irq
end Pico.Spi1
