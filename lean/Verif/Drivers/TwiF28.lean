import Verif.Drivers.TwiBus
/-
drivers/twi/twi-ti_f28x.c as a master (C117), over a model of the I2C module of the C2000 in FIFO mode (TI SPRUH18, SPRUI33: the module sends START and the address once STT is set, then I2CCNT bytes of
the transmit FIFO, then STOP; it holds the clock while that FIFO is empty; BB is set by the START on the wires and cleared by the STOP; TXFFINT is set while TXFFST <= TXFFIL, RXFFINT by
RXFFST >= RXFFIL, and both stay set until they are cleared by TXFFINTCLR, RXFFINTCLR; the FIFOs have 16 words; a word written to a full FIFO is lost; IRS = 0 resets the module).

What the documents leave open is a parameter: whether an empty FIFO reaches the level 0 of RXFFIL (`zero`), and whether the module ends by itself a frame that is not acknowledged (`stops`).
Simplifications: one master on the bus; n > 0 (asserted); one slave address; the slave role and twi_setup are not modelled; words of the FIFOs have 8 bits.
-/
namespace Pico.TwiF28
open Pico.Twi

/-- nothing on the bus; master transmitter; master receiver; held after a NACK -/
inductive Phase where | idle | w | r | held
  deriving DecidableEq, Repr

/-- STT, TRX, I2CCNT, TXFFIL, NACK, the FIFOs, RXFFINT, and what I2CDRR gives when the FIFO is empty; (history) `bus` -/
structure Hw where
  ph : Phase
  stt : Bool
  trx : Bool
  cnt : Nat
  txil : Nat
  nack : Bool
  tx : List Byte
  rx : List Byte
  rxint : Bool
  drr : Byte
  bus : List Bus

/-- parameters: the address in I2CSAR, and see above -/
structure Par where
  a : BitVec 7
  zero : Bool
  stops : Bool

/-- hardware: words of a FIFO -/
def depth : Nat := 16

/-- hardware: a byte was not acknowledged -/
def refuse (q : Par) (l : List Bus) (h : Hw) : Hw :=
  { h with ph := if q.stops then .idle else .held, stt := false, nack := true, bus := h.bus ++ l ++ (if q.stops then [.stop] else []) }

/-- hardware: one step of the master; `ack`: of the slave, `d`: byte of the slave -/
def go (q : Par) (ack : Bool) (d : Byte) (h : Hw) : Hw :=
  match h.ph with
  | .held => h
  | .idle =>
    if h.stt then
      if ack then { h with ph := if h.trx then .w else .r, stt := false, bus := h.bus ++ [.start, .addr (sla q.a (!h.trx)) true] }
      else refuse q [.start, .addr (sla q.a (!h.trx)) false] h
    else h
  | .w =>
    if h.cnt = 0 then { h with ph := .idle, bus := h.bus ++ [.stop] }
    else
      match h.tx with
      | [] => h
      | b :: l => if ack then { h with tx := l, cnt := h.cnt - 1, bus := h.bus ++ [.tx b true] } else refuse q [.tx b false] { h with tx := l }
  | .r =>
    if h.rx.length ≥ depth then h
    else if h.cnt = 1 then { h with ph := .idle, cnt := 0, rx := h.rx ++ [d], rxint := true, bus := h.bus ++ [.rx d false, .stop] }
    else { h with cnt := h.cnt - 1, rx := h.rx ++ [d], rxint := true, bus := h.bus ++ [.rx d true] }

/-- hardware: I2CSTR.BB -/
def bb (h : Hw) : Bool := decide (h.ph ≠ .idle)

/-- hardware: I2CFFTX.TXFFINT; the driver clears it in reset() only, when the FIFO is empty -/
def txffint (h : Hw) : Bool := decide (h.tx.length ≤ h.txil)

/-- hardware: a word is written to I2CDXR -/
def push (b : Byte) (h : Hw) : Hw := { h with tx := if h.tx.length < depth then h.tx ++ [b] else h.tx }

/-- hardware: I2CDRR is read -/
def pop (h : Hw) : Byte × Hw :=
  match h.rx with
  | [] => (h.drr, h)
  | d :: l => (d, { h with rx := l, drr := d })

/-- hardware: the value written to I2CCNT is cut to 16 bits, and 0 stands for 65536 -/
def cntOf (n : Nat) : Nat := if n % 65536 = 0 then 65536 else n % 65536

/-- the master works meanwhile -/
def works (q : Par) (l : List (Bool × Byte)) (h : Hw) : Hw := l.foldl (fun h e => go q e.1 e.2 h) h

/-- what the master does during a loop: before I2CSTR is read (write), before the word is written or read -/
structure Wk where
  a : Nat → List (Bool × Byte)
  b : Nat → List (Bool × Byte)

def Wk.none : Wk := ⟨fun _ => [], fun _ => []⟩

/-- twi_ti_f28x_state_t -/
inductive State where | idle | xfer
  deriving DecidableEq, Repr

/-- return values: -EAGAIN, -EPIPE, or a count (with the bytes for a read) -/
inductive R where
  | again
  | pipe
  | sent (k : Nat)
  | got (l : List Byte)
  deriving DecidableEq, Repr

def rSent (k : Nat) : R := if k = 0 then .again else .sent k
def rGot (l : List Byte) : R := if l.isEmpty then .again else .got l

/-- reset, twi-ti_f28x.c:92-106, with TXFFIL = 16 and (line 103, which writes I2CFFTX instead of I2CFFRX) RXFFIL = 0 -/
def reset (q : Par) (h : Hw) : Hw :=
  { h with ph := .idle, stt := false, trx := false, nack := false, txil := 16 ||| 0, tx := [], rx := [], rxint := q.zero }

/-- the loop of twi_write_as_master_xfer, twi-ti_f28x.c:276-305, with check_for_errors, :264-274; `l`: bytes left -/
def wLoop (q : Par) : List Byte → Nat → Wk → Hw → State × Hw × R
  | [], sent, _, h => (.idle, h, rSent sent)
  | b :: l, sent, k, h =>
    let h := works q (k.a sent) h
    if h.nack then (.idle, reset q h, .pipe)
    else
      let h := works q (k.b sent) h
      if txffint h = false then (.xfer, h, rSent sent)
      else wLoop q l (sent + 1) k (push b h)

/-- twi_write_as_master_idle, twi-ti_f28x.c:307-321 -/
def wIdle (q : Par) (l : List Byte) (k : Wk) (h : Hw) : State × Hw × R :=
  if bb h then (.idle, h, .again)
  else wLoop q l 0 k { h with cnt := cntOf l.length, stt := true, trx := true }

/-- twi_write_as_master, twi-ti_f28x.c:323-333 -/
def write (q : Par) (l : List Byte) (k : Wk) (s : State) (h : Hw) : State × Hw × R :=
  match s with
  | .idle => wIdle q l k h
  | .xfer => wLoop q l 0 k h

/-- the loop of twi_read_as_master_xfer, twi-ti_f28x.c:405-426; `n`: room left, `got`: what is in the buffer -/
def rLoop (q : Par) : Nat → List Byte → Wk → Hw → State × Hw × R
  | 0, got, _, h => (.idle, h, rGot got)
  | n + 1, got, k, h =>
    let h := works q (k.a got.length) h
    if h.rxint = false then (.xfer, h, rGot got)
    else
      let h := works q (k.b got.length) h
      rLoop q n (got ++ [(pop h).1]) k (pop h).2

/-- twi_read_as_master_idle, twi-ti_f28x.c:428-442 -/
def rIdle (q : Par) (n : Nat) (k : Wk) (h : Hw) : State × Hw × R :=
  if bb h then (.idle, h, .again)
  else rLoop q n [] k { h with cnt := cntOf n, stt := true, trx := false }

/-- twi_read_as_master, twi-ti_f28x.c:444-454 -/
def read (q : Par) (n : Nat) (k : Wk) (s : State) (h : Hw) : State × Hw × R :=
  match s with
  | .idle => rIdle q n k h
  | .xfer => rLoop q n [] k h

/-! ### A task that writes a message: it calls until it has been told that all of it is written -/

structure App where
  st : State
  hw : Hw
  pos : Nat

inductive Ev where
  | call (k : Wk)
  | hw (ack : Bool) (d : Byte)

def wStep (q : Par) (l : List Byte) (x : App) : Ev → App
  | .hw ack d => { x with hw := go q ack d x.hw }
  | .call k =>
    if x.pos ≥ l.length then x
    else
      let (s, h, r) := write q (l.drop x.pos) k x.st x.hw
      match r with
      | .sent j => { st := s, hw := h, pos := x.pos + j }
      | _ => { x with st := s, hw := h }

def wRun (q : Par) (l : List Byte) (evs : List Ev) (x : App) : App := evs.foldl (wStep q l) x

/-- nothing is going on, nothing is asked for; and what reset() leaves -/
structure Quiet (h : Hw) : Prop where
  ph : h.ph = .idle
  stt : h.stt = false
  tx : h.tx = []
  nack : h.nack = false
  txil : h.txil = 16

/-- the slave takes everything -/
def Wk.good (k : Wk) : Prop := ∀ i, (∀ e ∈ k.a i, e.1 = true) ∧ (∀ e ∈ k.b i, e.1 = true)
def Ev.good : Ev → Prop
  | .hw ack _ => ack = true
  | .call k => k.good

end Pico.TwiF28
