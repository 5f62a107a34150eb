import Verif.Drivers.TwiBus
/-
drivers/twi/twi-pic32mx.c as a master that writes (C119), over a model of the I2C module of the PIC32MX (DS61116 "Communicating as a master"): SEN and PEN of I2CxCON are set until the START, the STOP is on the wires; a byte
written to I2CxTRN is sent, TRSTAT is set until its acknowledge bit was received, which ACKSTAT then holds, until the next one; I2CxTRN and SEN, PEN have no effect while the module is busy.

Simplifications: one master on the bus; n > 0 (asserted); slave_addr < TWI_ADDR_COUNT (asserted in twi_setup). Not modelled: the slave role, twi_setup, and twi_read: it sets RCEN and ACKEN together and before the address is
sent, which the manual does not allow.
-/
namespace Pico.TwiPic
open Pico.Twi

/-- what the module is doing: SEN, TRSTAT, PEN -/
inductive Act where
  | start
  | byte (b : Byte)
  | stop
  deriving DecidableEq, Repr

/-- `fresh`: the next byte is the first after a START, the address; (history) `bus` -/
structure Hw where
  pend : Option Act
  ackstat : Bool
  fresh : Bool
  bus : List Bus

/-- ctx->slave_addr -/
structure Par where
  a : BitVec 7

/-- hardware: one step of the master; `ack`: of the slave -/
def go (ack : Bool) (h : Hw) : Hw :=
  match h.pend with
  | none => h
  | some .start => { h with pend := none, fresh := true, bus := h.bus ++ [.start] }
  | some (.byte b) => { h with pend := none, ackstat := !ack, fresh := false, bus := h.bus ++ [if h.fresh then .addr b ack else .tx b ack] }
  | some .stop => { h with pend := none, bus := h.bus ++ [.stop] }

/-- hardware: SEN or PEN is set, or I2CxTRN written -/
def ask (x : Act) (h : Hw) : Hw := { h with pend := if h.pend.isNone then some x else h.pend }

/-- the master works meanwhile -/
def works (l : List Bool) (h : Hw) : Hw := l.foldl (fun h e => go e h) h

/-- twi_pic32mx_state_t -/
inductive State where | idle | sla | data | stop
  deriving DecidableEq, Repr

/-- return values: -EAGAIN, or a count (0 signals the end of the transfer) -/
inductive R where
  | again
  | num (k : Nat)
  deriving DecidableEq, Repr

/-- ctx->state, ctx->last -/
structure Ctx where
  st : State
  last : Nat
  deriving DecidableEq, Repr

/-- twi_write_as_master, twi-pic32mx.c:220-235, with twi_rw_as_master_idle, :147-160, twi_write_as_master_sla, :162-172, twi_write_as_master_data, :174-200, twi_rw_as_master_stop, :202-218;
`b :: l` is the buffer, `k`: what the module does between the reads of ACKSTAT and TRSTAT, or before the only read -/
def write (q : Par) (b : Byte) (l : List Byte) (k : List Bool) (c : Ctx) (h : Hw) : Ctx × Hw × R :=
  let y := works k h
  match c.st with
  | .idle => if y.pend = some .stop then (c, y, .again) else (⟨.sla, 0⟩, ask .start y, .again)
  | .sla => if y.pend = some .start then (c, y, .again) else ({ c with st := .data }, ask (.byte (sla q.a false)) y, .again)
  | .data =>
    if h.ackstat then ({ c with st := .stop }, y, .again)
    else
      match y.pend with
      | some (.byte _) => (c, y, .again)
      | _ => if l.isEmpty then (⟨.stop, 1⟩, ask (.byte b) y, .again) else (c, ask (.byte b) y, .num 1)
  | .stop => if y.pend.isSome then (c, y, .again) else ({ c with st := .idle }, ask .stop y, .num c.last)

/-! ### A task that writes a message: it calls until it has had all of it, or 0 -/

structure App where
  c : Ctx
  hw : Hw
  pos : Nat
  /-- 0 was returned -/
  eot : Bool

inductive Ev where
  | call (k : List Bool)
  | hw (ack : Bool)

def wStep (q : Par) (l : List Byte) (x : App) : Ev → App
  | .hw ack => { x with hw := go ack x.hw }
  | .call k =>
    if x.eot then x
    else
      match l.drop x.pos with
      | [] => x
      | b :: l' =>
        let (c, h, r) := write q b l' k x.c x.hw
        match r with
        | .num j => { c := c, hw := h, pos := x.pos + j, eot := decide (j = 0) }
        | .again => { x with c := c, hw := h }

def wRun (q : Par) (l : List Byte) (evs : List Ev) (x : App) : App := evs.foldl (wStep q l) x

/-- the driver at rest -/
def App.of (last : Nat) (h : Hw) : App := ⟨⟨.idle, last⟩, h, 0, false⟩

/-- the slave takes everything -/
def Ev.good : Ev → Prop
  | .hw ack => ack = true
  | .call k => ∀ e ∈ k, e = true

end Pico.TwiPic
