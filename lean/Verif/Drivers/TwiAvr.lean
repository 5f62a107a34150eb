/-
drivers/twi/twi-avr.c as a master (C79) over a model of the two-wire interface of the AVR (status codes of the data sheet).

Simplifications: TWCR is a record of its bits; one master on the bus (no arbitration lost, no bus error); a STOP asked for is on the bus at once
(the data sheet: TWINT is not set after a STOP); n > 0 (the functions assert it); the slave role, set_bitrate and twi_setup are not modelled.
-/
import Verif.Drivers.TwiBus
namespace Pico.TwiAvr
open Pico.Twi

/-- TWCR, twi-avr.c:20-25 -/
structure Cr where
  int : Bool
  ea : Bool
  sta : Bool
  sto : Bool
  en : Bool
  deriving DecidableEq, Repr

/-- hardware: what the interface is doing while TWINT is 0 -/
inductive Pend where
  | none | start | addr | tx | rx
  deriving DecidableEq, Repr

structure Hw where
  cr : Cr
  /-- TWSR without the prescaler -/
  tws : Nat
  dr : Byte
  pend : Pend
  /-- (history) what has been on the bus -/
  bus : List Bus

/-- twi_avr_state_t, twi-avr.h:9-16 -/
inductive State where
  | idle | start | sla | data | stop
  deriving DecidableEq, Repr

structure Ctx where
  state : State
  last : Nat
  deriving DecidableEq, Repr

/-- value returned -/
inductive R where
  | again
  /-- 1 -/
  | one
  /-- 1, with a byte stored (read) -/
  | byte (b : Byte)
  /-- ctx->last -/
  | last (n : Nat)
  | efault | epipe | eio
  deriving DecidableEq, Repr

/-- hardware: a write to TWCR with TWINT at one clears the flag and begins the next action, which depends on the bits and on the status -/
def wrCr (v : Cr) (h : Hw) : Hw :=
  if v.int then
    if v.sto then { h with cr := { v with int := false, sto := false }, tws := 0xf8, pend := .none, bus := h.bus ++ [.stop] }
    else if v.sta then { h with cr := { v with int := false }, pend := .start }
    else { h with cr := { v with int := false },
                  pend := if h.tws = 0x08 ∨ h.tws = 0x10 then .addr
                    else if h.tws = 0x18 ∨ h.tws = 0x20 ∨ h.tws = 0x28 ∨ h.tws = 0x30 then .tx
                    else if h.tws = 0x40 ∨ h.tws = 0x50 then .rx
                    else .none }
  else { h with cr := { v with int := h.cr.int } }

/-- hardware: the action ends; `ack`: the slave acknowledges, `d`: the byte it sends -/
def finish (ack : Bool) (d : Byte) (h : Hw) : Hw :=
  match h.pend with
  | .none => h
  | .start => { h with cr := { h.cr with int := true }, pend := .none, tws := if h.tws = 0xf8 then 0x08 else 0x10, bus := h.bus ++ [.start] }
  | .addr => { h with cr := { h.cr with int := true }, pend := .none,
                      tws := if h.dr.getLsbD 0 then (if ack then 0x40 else 0x48) else (if ack then 0x18 else 0x20), bus := h.bus ++ [.addr h.dr ack] }
  | .tx => { h with cr := { h.cr with int := true }, pend := .none, tws := if ack then 0x28 else 0x30, bus := h.bus ++ [.tx h.dr ack] }
  | .rx => { h with cr := { h.cr with int := true }, pend := .none, tws := if h.cr.ea then 0x50 else 0x58, dr := d, bus := h.bus ++ [.rx d h.cr.ea] }

/-- twi_rw_as_master_idle, 174-186 -/
def mIdle (s : Bool) (c : Ctx) (h : Hw) : Ctx × Hw × R :=
  if !s then ({ c with state := .data }, h, .again)
  else ({ c with state := .start }, wrCr ⟨true, false, true, false, true⟩ h, .again)

/-- twi_master_stop, 188-195 -/
def mStop (ret : R) (c : Ctx) (h : Hw) : Ctx × Hw × R :=
  ({ c with state := .idle }, wrCr ⟨true, false, false, true, true⟩ h, ret)

/-- twi_rw_as_master_start, 197-223 -/
def mStart (a : BitVec 7) (r : Bool) (c : Ctx) (h : Hw) : Ctx × Hw × R :=
  let twcr := h.cr
  let tws := h.tws
  if twcr.int = false then (c, h, .again)
  else if tws ≠ 0x8 ∧ tws ≠ 0x10 then mStop .efault c h
  else ({ c with state := .sla }, wrCr { twcr with sta := false, sto := false } { h with dr := sla a r }, .again)

/-- twi_write_as_master_sla, 225-255 -/
def wSla (b : Byte) (n : Nat) (c : Ctx) (h : Hw) : Ctx × Hw × R :=
  let twcr := h.cr
  let tws := h.tws
  if twcr.int = false then (c, h, .again)
  else if tws ≠ 0x18 then mStop .epipe c h
  else
    let h := wrCr twcr { h with dr := b }
    if n = 1 then ({ state := .stop, last := 1 }, h, .again)
    else ({ c with state := .data }, h, .one)

/-- twi_write_as_master_data, 257-288 -/
def wData (b : Byte) (n : Nat) (c : Ctx) (h : Hw) : Ctx × Hw × R :=
  let twcr := h.cr
  let tws := h.tws
  if twcr.int = false then (c, h, .again)
  else if tws = 0x28 then
    let h := wrCr twcr { h with dr := b }
    if n = 1 then ({ state := .stop, last := 1 }, h, .again)
    else (c, h, .one)
  else if tws = 0x30 then mStop .one c h
  else (c, h, .eio)

/-- twi_rw_as_master_stop, 290-302 -/
def rwStop (p : Bool) (c : Ctx) (h : Hw) : Ctx × Hw × R :=
  if h.cr.int = false then (c, h, .again)
  else ({ c with state := .idle }, if p then wrCr ⟨true, false, false, true, true⟩ h else h, .last c.last)

/-- twi_write, twi_write_as_master, 304-320, 548-561; `b`: first byte of the buffer, `n`: its size -/
def write (a : BitVec 7) (b : Byte) (n : Nat) (s p : Bool) (c : Ctx) (h : Hw) : Ctx × Hw × R :=
  match c.state with
  | .idle => mIdle s c h
  | .start => mStart a false c h
  | .sla => wSla b n c h
  | .data => wData b n c h
  | .stop => rwStop p c h

/-- twi_read_as_master_sla, 322-347 -/
def rSla (n : Nat) (c : Ctx) (h : Hw) : Ctx × Hw × R :=
  let twcr := h.cr
  let tws := h.tws
  if twcr.int = false then (c, h, .again)
  else if tws ≠ 0x40 then mStop .epipe c h
  else
    let twcr := if n = 1 then { twcr with ea := false } else { twcr with ea := true }
    ({ c with state := .data }, wrCr twcr h, .again)

/-- twi_read_as_master_data, 349-373 -/
def rData (n : Nat) (c : Ctx) (h : Hw) : Ctx × Hw × R :=
  let twcr := h.cr
  let tws := h.tws
  if twcr.int = false then (c, h, .again)
  else if tws ≠ 0x50 ∧ tws ≠ 0x58 then mStop .eio c h
  else
    let d := h.dr
    let twcr := if n = 2 then { twcr with ea := false } else twcr
    if n = 1 then mStop (.byte d) c h
    else (c, wrCr twcr h, .byte d)

/-- twi_read, twi_read_as_master, 375-392, 563-576 -/
def read (a : BitVec 7) (n : Nat) (s p : Bool) (c : Ctx) (h : Hw) : Ctx × Hw × R :=
  match c.state with
  | .idle => mIdle s c h
  | .start => mStart a true c h
  | .sla => rSla n c h
  | .data => rData n c h
  | .stop => rwStop p c h

/-! ### The application

It does one message after another; it calls the function with the rest of the buffer until all is done or an error is returned. -/

structure App where
  ctx : Ctx
  hw : Hw
  /-- message under way, bytes done -/
  cur : Option Msg
  pos : Nat
  /-- bytes received so far -/
  buf : List Byte
  /-- (history) messages done and how they ended -/
  fin : List (Msg × Res)
  /-- the bus is held: the last message was a write without TWI_F_P -/
  held : Bool
  /-- (history) an error other than EPIPE, or a return value of 0 or larger than asked -/
  wrong : Bool

/-- a message may be begun: TWI_F_S, or the bus is held and this is a write; reads with both flags; not empty -/
def okMsg (held : Bool) : Msg → Bool
  | .write l s _ => !l.isEmpty && (s || held)
  | .read n s p => 0 < n && s && p

def advance (c : Ctx) (h : Hw) (m : Msg) (k : Nat) (total : Nat) (b : List Byte) (held : Bool) (r : Res) (x : App) : App :=
  let x := { x with ctx := c, hw := h, pos := x.pos + k, buf := x.buf ++ b }
  if x.pos = total then { x with cur := none, pos := 0, buf := [], fin := x.fin ++ [(m, match r with | .got _ => .got x.buf | r => r)], held := held }
  else if k = 0 ∨ x.pos > total then { x with wrong := true }
  else x

def fail (c : Ctx) (h : Hw) (m : Msg) (r : R) (x : App) : App :=
  match r with
  | .epipe => { x with ctx := c, hw := h, cur := none, pos := 0, buf := [], fin := x.fin ++ [(m, .absent)], held := false }
  | _ => { x with ctx := c, hw := h, cur := none, pos := 0, buf := [], wrong := true }

def call (a : BitVec 7) (x : App) : App :=
  match x.cur with
  | none => x
  | some (.write l s p) =>
    let (c, h, r) := write a (l.getD x.pos 0) (l.length - x.pos) s p x.ctx x.hw
    match r with
    | .again => { x with ctx := c, hw := h }
    | .one | .byte _ => advance c h (.write l s p) 1 l.length [] (!p) .wrote x
    | .last k => advance c h (.write l s p) k l.length [] (!p) .wrote x
    | r => fail c h (.write l s p) r x
  | some (.read n s p) =>
    let (c, h, r) := read a (n - x.pos) s p x.ctx x.hw
    match r with
    | .again => { x with ctx := c, hw := h }
    | .byte b => advance c h (.read n s p) 1 n [b] false (.got []) x
    | .one => advance c h (.read n s p) 1 n [] false (.got []) x
    | .last k => advance c h (.read n s p) k n [] false (.got []) x
    | r => fail c h (.read n s p) r x

inductive Ev where
  | begin (m : Msg)
  | call
  /-- the action of the interface ends -/
  | hw (ack : Bool) (d : Byte)

def step (a : BitVec 7) (x : App) : Ev → App
  | .begin m => if x.cur = none ∧ okMsg x.held m then { x with cur := some m, pos := 0, buf := [] } else x
  | .call => call a x
  | .hw ack d => { x with hw := finish ack d x.hw }

def run (a : BitVec 7) (l : List Ev) (x : App) : App := l.foldl (step a) x

/-- after twi_avr_init, 82-95 -/
def boot : App :=
  { ctx := ⟨.idle, 0⟩, hw := ⟨⟨false, false, false, false, true⟩, 0xf8, 0, .none, []⟩, cur := none, pos := 0, buf := [], fin := [], held := false, wrong := false }

/-- data bytes of the master are acknowledged -/
def acked (x : App) : Ev → Prop
  | .hw ack _ => x.hw.pend = .tx → ack = true
  | _ => True

end Pico.TwiAvr
