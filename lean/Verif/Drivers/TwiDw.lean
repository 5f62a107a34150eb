/-
drivers/twi/twi-dw_apb_i2c.c as a master (C80) over a model of the DesignWare I2C (databook: commands in a FIFO, the master holds the bus when the FIFO gets empty,
a byte not acknowledged aborts: STOP, FIFO flushed until IC_CLR_TX_ABRT is read; disabling flushes the FIFOs).

Simplifications: one master on the bus; n > 0 (asserted); one slave address (IC_TAR); the slave role, set_bitrate and twi_setup are not modelled.
TWI_F_S, TWI_F_P are ignored by the driver, so messages have no flags here: they are written as if both were given.
-/
import Verif.Drivers.TwiBus
namespace Pico.TwiDw
open Pico.Twi

/-- an entry of the FIFO, IC_DATA_CMD, twi-dw_apb_i2c.c:63-68 -/
structure Cmd where
  dat : Byte
  read : Bool
  stop : Bool
  deriving DecidableEq, Repr

inductive Abrt where
  | addr | data
  deriving DecidableEq, Repr

structure Hw where
  txf : List Cmd
  rxf : List Byte
  /-- the master: idle, or holding the bus in a direction (true: read) -/
  dir : Option Bool
  abrt : Option Abrt
  /-- (history) what has been on the bus -/
  bus : List Bus

/-- parameters: depth of the FIFO; `prompt`: IC_STATUS.MST_ACTIVITY is set as soon as there is a command in the FIFO (else only once the master has left its idle state) -/
structure Par where
  a : BitVec 7
  depth : Nat
  prompt : Bool

/-- hardware: one step of the master -/
def go (q : Par) (ack : Bool) (d : Byte) (h : Hw) : Hw :=
  match h.txf with
  | [] => h
  | c :: l =>
    if h.dir ≠ some c.read then
      if ack then { h with dir := some c.read, bus := h.bus ++ [.start, .addr (sla q.a c.read) true] }
      else { h with dir := none, txf := [], abrt := some .addr, bus := h.bus ++ [.start, .addr (sla q.a c.read) false, .stop] }
    else if c.read then
      { h with txf := l, rxf := h.rxf ++ [d], dir := if c.stop then none else h.dir, bus := h.bus ++ [.rx d (!c.stop)] ++ (if c.stop then [.stop] else []) }
    else if ack then
      { h with txf := l, dir := if c.stop then none else h.dir, bus := h.bus ++ [.tx c.dat true] ++ (if c.stop then [.stop] else []) }
    else { h with txf := [], dir := none, abrt := some .data, bus := h.bus ++ [.tx c.dat false, .stop] }

/-- IC_STATUS.MST_ACTIVITY -/
def activity (q : Par) (h : Hw) : Bool := h.dir.isSome || (q.prompt && !h.txf.isEmpty)

/-- IC_STATUS.TFNF -/
def tfnf (q : Par) (h : Hw) : Bool := decide (h.txf.length < q.depth)

/-- hardware: write to IC_DATA_CMD; the FIFO is kept empty while an abort is not cleared -/
def push (c : Cmd) (h : Hw) : Hw := if h.abrt.isSome then h else { h with txf := h.txf ++ [c] }

/-- hardware: IC_ENABLE cleared, then set -/
def reenable (h : Hw) : Hw := { h with txf := [], rxf := [] }

/-- twi_dw_apb_i2c_state_t (master) -/
inductive State where
  | idle | req | xfer
  deriving DecidableEq, Repr

inductive R where
  | again
  | sent (k : Nat)
  | byte (b : Byte)
  | enomsg | enxio
  deriving DecidableEq, Repr

/-- twi_rw_as_master_check_abort, 234-258 -/
def checkAbort (h : Hw) : Hw × Option R :=
  match h.abrt with
  | none => (h, none)
  | some .data => ({ h with abrt := none }, some .enomsg)
  | some .addr => ({ h with abrt := none }, some .enxio)

/-- twi_write_as_master_idle, 260-274 -/
def wIdle (q : Par) (h : Hw) : State × Hw × R :=
  if activity q h then (.idle, h, .again)
  else
    let h := reenable h
    (if tfnf q h then .xfer else .idle, h, .again)

/-- the master works between two iterations: acknowledges and bytes of the slave -/
def works (q : Par) (l : List (Bool × Byte)) (h : Hw) : Hw := l.foldl (fun h e => go q e.1 e.2 h) h

/-- the loop of twi_write_as_master_xfer, 276-309: `l`: bytes left, `sent`; `ev`: work of the master before each iteration -/
def wLoop (q : Par) : List Byte → Nat → (Nat → List (Bool × Byte)) → Hw → State × Hw × R
  | [], sent, _, h => (.idle, h, if sent = 0 then .again else .sent sent)
  | b :: l, sent, ev, h =>
    let h := works q (ev sent) h
    let (h, r) := checkAbort h
    match r with
    | some r => (.idle, h, r)
    | none =>
      if !tfnf q h then (.xfer, h, if sent = 0 then .again else .sent sent)
      else wLoop q l (sent + 1) ev (push ⟨b, false, l.isEmpty⟩ h)

/-- twi_write_as_master, 311-324; `l`: the rest of the buffer -/
def write (q : Par) (l : List Byte) (ev : Nat → List (Bool × Byte)) (s : State) (h : Hw) : State × Hw × R :=
  match s with
  | .idle => wIdle q h
  | _ => wLoop q l 0 ev h

/-- twi_read_as_master_idle, 441-453 -/
def rIdle (q : Par) (h : Hw) : State × Hw × R :=
  if activity q h then (.idle, h, .again) else (.req, reenable h, .again)

/-- twi_read_as_master_req, 455-476 -/
def rReq (q : Par) (n : Nat) (h : Hw) : State × Hw × R :=
  if !tfnf q h then (.req, h, .again)
  else
    let (h, r) := checkAbort h
    match r with
    | some r => (.idle, h, r)
    | none => (.xfer, push ⟨0, true, decide (n = 1)⟩ h, .again)

/-- twi_read_as_master_xfer, 478-497 -/
def rXfer (n : Nat) (h : Hw) : State × Hw × R :=
  let (h, r) := checkAbort h
  match r with
  | some r => (.idle, h, r)
  | none =>
    match h.rxf with
    | [] => (.xfer, h, .again)
    | d :: l => (if n > 1 then .req else .idle, { h with rxf := l }, .byte d)

/-- twi_read_as_master, 499-513 -/
def read (q : Par) (n : Nat) (s : State) (h : Hw) : State × Hw × R :=
  match s with
  | .idle => rIdle q h
  | .req => rReq q n h
  | .xfer => rXfer n h

/-! ### The application -/

inductive M where
  | write (l : List Byte)
  | read (n : Nat)
  deriving DecidableEq, Repr

/-- as a message with both flags -/
def M.msg : M → Msg
  | .write l => .write l true true
  | .read n => .read n true true

structure App where
  state : State
  hw : Hw
  cur : Option M
  pos : Nat
  buf : List Byte
  fin : List (M × Res)
  /-- (history) messages ended with an error; return values larger than asked -/
  failed : List M
  wrong : Bool

def call (q : Par) (ev : Nat → List (Bool × Byte)) (x : App) : App :=
  match x.cur with
  | none => x
  | some (.write l) =>
    let (s, h, r) := write q (l.drop x.pos) ev x.state x.hw
    let x := { x with state := s, hw := h }
    match r with
    | .again => x
    | .sent k =>
      if x.pos + k = l.length then { x with cur := none, pos := 0, fin := x.fin ++ [(.write l, .wrote)] }
      else if k = 0 ∨ x.pos + k > l.length then { x with wrong := true }
      else { x with pos := x.pos + k }
    | .byte _ => { x with wrong := true }
    | _ => { x with cur := none, pos := 0, failed := x.failed ++ [.write l] }
  | some (.read n) =>
    let (s, h, r) := read q (n - x.pos) x.state x.hw
    let x := { x with state := s, hw := h }
    match r with
    | .again => x
    | .byte d =>
      if x.pos + 1 = n then { x with cur := none, pos := 0, buf := [], fin := x.fin ++ [(.read n, .got (x.buf ++ [d]))] }
      else { x with pos := x.pos + 1, buf := x.buf ++ [d] }
    | .sent _ => { x with wrong := true }
    | _ => { x with cur := none, pos := 0, buf := [], failed := x.failed ++ [.read n] }

inductive Ev where
  | begin (m : M)
  /-- a call; `ev`: work of the master during the loop -/
  | call (ev : Nat → List (Bool × Byte))
  | hw (ack : Bool) (d : Byte)

def okMsg : M → Bool
  | .write l => !l.isEmpty
  | .read n => decide (0 < n)

def step (q : Par) (x : App) : Ev → App
  | .begin m => if x.cur = none ∧ okMsg m then { x with cur := some m, pos := 0, buf := [] } else x
  | .call ev => call q ev x
  | .hw ack d => { x with hw := go q ack d x.hw }

def run (q : Par) (l : List Ev) (x : App) : App := l.foldl (step q) x

/-- after twi_dw_apb_i2c_init and twi_setup -/
def boot : App := { state := .idle, hw := ⟨[], [], none, none, []⟩, cur := none, pos := 0, buf := [], fin := [], failed := [], wrong := false }

end Pico.TwiDw
