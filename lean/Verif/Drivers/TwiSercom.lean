import Verif.Drivers.TwiBus
/-
drivers/twi/twi-atmel_sercom.c as a master (C118), over a model of the SERCOM in I2C host mode, smart mode off (SMEN is not set by the driver), SCLSM = 1 (set by twi_setup), DS60001507 "I2C host operation":
a write to ADDR sends START and the address; MB is set once the address or a byte of the host was sent, acknowledged or not (RXNACK), SB once a byte of the client was received; both are cleared by a write to ADDR, DATA or
to CMD, and, smart mode off, not by a read of DATA; the next byte is received after a write to CMD only; CMD = 3 sends STOP.

Whether a STOP clears RXNACK is not in the document: it is a parameter (`clears`).
Simplifications: one master on the bus (no ARBLOST, BUSERR); n > 0 (asserted); the slave role and twi_setup are not modelled.
-/
namespace Pico.TwiSercom
open Pico.Twi

/-- what the host was asked for -/
inductive Act where
  | addr (r : Bool)
  | byte (b : Byte)
  | stop
  deriving DecidableEq, Repr

/-- what is asked for, INTFLAG.MB and SB, STATUS.RXNACK, CTRLB.ACKACT, BUSSTATE is owner, DATA; (history) `bus` -/
structure Hw where
  pend : Option Act
  mb : Bool
  sb : Bool
  rxnack : Bool
  ackact : Bool
  own : Bool
  data : Byte
  bus : List Bus

/-- parameters: ctx->slave_addr, and see above -/
structure Par where
  a : BitVec 7
  clears : Bool

/-- hardware: one step of the host; `ack`: of the client, `d`: byte of the client -/
def go (q : Par) (ack : Bool) (d : Byte) (h : Hw) : Hw :=
  match h.pend with
  | none => h
  | some (.addr false) => { h with pend := none, own := true, mb := true, rxnack := !ack, bus := h.bus ++ [.start, .addr (sla q.a false) ack] }
  | some (.addr true) =>
    if ack then { h with pend := none, own := true, sb := true, rxnack := false, data := d, bus := h.bus ++ [.start, .addr (sla q.a true) true, .rx d (!h.ackact)] }
    else { h with pend := none, own := true, mb := true, rxnack := true, bus := h.bus ++ [.start, .addr (sla q.a true) false] }
  | some (.byte b) => { h with pend := none, mb := true, rxnack := !ack, bus := h.bus ++ [.tx b ack] }
  | some .stop => { h with pend := none, own := false, bus := h.bus ++ [.stop] }

/-- hardware: a write to ADDR, DATA or CMD -/
def ask (x : Act) (h : Hw) : Hw := { h with pend := some x, mb := false, sb := false }

/-- the host works meanwhile -/
def works (q : Par) (l : List (Bool × Byte)) (h : Hw) : Hw := l.foldl (fun h e => go q e.1 e.2 h) h

/-- what the host does during a call: between the reads of STATUS and INTFLAG, and after DATA is written -/
structure Wk where
  a : List (Bool × Byte)
  b : List (Bool × Byte)

def Wk.none : Wk := ⟨[], []⟩

/-- twi_atmel_sercom_state_t -/
inductive State where | idle | data | stop
  deriving DecidableEq, Repr

/-- return values: -EAGAIN, or a count (0 signals the end of the transfer) -/
inductive R where
  | again
  | num (k : Nat)
  deriving DecidableEq, Repr

/-- ctx->state, ctx->last -/
structure Ctx where
  st : State
  last : R
  deriving DecidableEq, Repr

/-- twi_send_stop_as_master, twi-atmel_sercom.c:233-243 -/
def sendStop (q : Par) (c : Ctx) (h : Hw) : Ctx × Hw × R :=
  if h.mb = false then (c, h, .again)
  else ({ c with st := .idle }, ask .stop { h with rxnack := if q.clears then false else h.rxnack }, c.last)

/-- twi_stop_as_master, twi-atmel_sercom.c:245-251 -/
def stopM (q : Par) (ret : R) (h : Hw) : Ctx × Hw × R := sendStop q ⟨.stop, ret⟩ h

/-- twi_write_as_master, twi-atmel_sercom.c:311-337, with twi_write_as_master_idle, :280-291 and twi_write_as_master_data, :293-309; `b :: l` is the buffer -/
def write (q : Par) (b : Byte) (l : List Byte) (k : Wk) (c : Ctx) (h : Hw) : Ctx × Hw × R :=
  if h.rxnack then stopM q (.num 0) (works q k.a h)
  else
    let h := works q k.a h
    match c.st with
    | .idle => if h.own then (c, h, .again) else ({ c with st := .data }, ask (.addr false) h, .again)
    | .data =>
      if h.mb = false then (c, h, .again)
      else
        let h := works q k.b (ask (.byte b) h)
        if l.isEmpty then stopM q (.num 1) h else (c, h, .num 1)
    | .stop => sendStop q c h

/-- twi_read_as_master, twi-atmel_sercom.c:456-483, with twi_read_as_master_idle, :415-433 and twi_read_as_master_data, :435-454; the byte stored, if any, is returned too -/
def read (q : Par) (n : Nat) (k : Wk) (c : Ctx) (h : Hw) : Ctx × Hw × R × Option Byte :=
  if h.rxnack then
    let (c, h, r) := stopM q .again (works q k.a h)
    (c, h, r, none)
  else
    let h := works q k.a h
    match c.st with
    | .idle => if h.own then (c, h, .again, none) else ({ c with st := .data }, ask (.addr true) { h with ackact := decide (n = 1) }, .again, none)
    | .data =>
      if h.sb = false then (c, h, .again, none)
      else
        let h := works q k.b { h with ackact := h.ackact || decide (n = 2) }
        if n = 1 then
          let (c, h', r) := stopM q (.num 1) h
          (c, h', r, some h.data)
        else (c, h, .num 1, some h.data)
    | .stop =>
      let (c, h, r) := sendStop q c h
      (c, h, r, none)

/-! ### A task that writes a message, or reads one: it calls until it has had all of it, or 0 -/

structure App where
  c : Ctx
  hw : Hw
  /-- bytes written, or read, so far -/
  pos : Nat
  buf : List Byte
  /-- 0 was returned -/
  eot : Bool

inductive Ev where
  | call (k : Wk)
  | hw (ack : Bool) (d : Byte)

def wStep (q : Par) (l : List Byte) (x : App) : Ev → App
  | .hw ack d => { x with hw := go q ack d x.hw }
  | .call k =>
    if x.eot then x
    else
      match l.drop x.pos with
      | [] => x
      | b :: l' =>
        let (c, h, r) := write q b l' k x.c x.hw
        match r with
        | .num j => { x with c := c, hw := h, pos := x.pos + j, eot := decide (j = 0) }
        | .again => { x with c := c, hw := h }

def wRun (q : Par) (l : List Byte) (evs : List Ev) (x : App) : App := evs.foldl (wStep q l) x

/-- the byte stored at buf + pos is in the buffer of the task once the call has counted it -/
def rStep (q : Par) (n : Nat) (x : App) : Ev → App
  | .hw ack d => { x with hw := go q ack d x.hw }
  | .call k =>
    if x.eot || decide (x.pos ≥ n) then x
    else
      let (c, h, r, b) := read q (n - x.pos) k x.c x.hw
      match r with
      | .num j => { x with c := c, hw := h, pos := x.pos + j, buf := x.buf ++ b.toList, eot := decide (j = 0) }
      | .again => { x with c := c, hw := h }

def rRun (q : Par) (n : Nat) (evs : List Ev) (x : App) : App := evs.foldl (rStep q n) x

/-- nothing is going on -/
structure Quiet (h : Hw) : Prop where
  pend : h.pend = none
  mb : h.mb = false
  sb : h.sb = false
  rxnack : h.rxnack = false
  own : h.own = false

/-- a frame was written, its STOP is still to be sent -/
structure Ending (h : Hw) : Prop where
  pend : h.pend = some .stop
  mb : h.mb = false
  sb : h.sb = false
  rxnack : h.rxnack = false
  own : h.own = true

/-- what is on the bus once a STOP still to be sent was -/
def settled (h : Hw) : List Bus := h.bus ++ if h.pend = some .stop then [.stop] else []

/-- the driver at rest -/
def App.of (last : R) (h : Hw) : App := ⟨⟨.idle, last⟩, h, 0, [], false⟩

/-- the slave takes everything -/
def Wk.good (k : Wk) : Prop := (∀ e ∈ k.a, e.1 = true) ∧ (∀ e ∈ k.b, e.1 = true)
def Ev.good : Ev → Prop
  | .hw ack _ => ack = true
  | .call k => k.good

end Pico.TwiSercom
