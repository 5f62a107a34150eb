import Verif.Drivers.TwiBus
/-
drivers/twi/twi-sam3x.c as a master (C116), over a model of the TWI of the SAM3X (datasheet 33.8: a write of THR in write mode starts a frame; the clock is held while
THR is empty; a byte that is not acknowledged ends the frame; in read mode a byte is acknowledged unless STOP was asked for before; NACK is cleared by a read of TWI_SR;
a byte received while RHR is full replaces it, OVRE, a flag that the driver does not read).

What a STOP asked for while nothing is going on does is not in the datasheet: it is kept for the next frame (`latch`) or ignored; the theorems say which.
Simplifications: one master on the bus; n > 0 (asserted); one slave address; the slave role and twi_setup are not modelled (set_bitrate is in TwiRate).
-/
namespace Pico.TwiSam
open Pico.Twi

inductive Phase where | idle | w | r
  deriving DecidableEq, Repr

/-- TWI_THR, TWI_RHR, START and STOP asked for, NACK of TWI_SR, MREAD of TWI_MMR; (history) `bus` -/
structure Hw where
  ph : Phase
  thr : Option Byte
  rhr : Option Byte
  start : Bool
  stop : Bool
  nack : Bool
  mread : Bool
  bus : List Bus

/-- parameters: the address in TWI_MMR.DADR, and what an idle controller does with a STOP -/
structure Par where
  a : BitVec 7
  latch : Bool

/-- the slave is not there, or does not take the byte: NACK, STOP -/
def refuse (x : Bus) (pre : List Bus) (h : Hw) : Hw := { h with ph := .idle, thr := none, start := false, stop := false, nack := true, bus := h.bus ++ pre ++ [x, .stop] }

/-- hardware: one step of the master; `ack`: of the slave, `d`: byte of the slave -/
def go (q : Par) (ack : Bool) (d : Byte) (h : Hw) : Hw :=
  match h.ph with
  | .idle =>
    if h.mread then
      if h.start then
        if ack then { h with ph := .r, start := false, bus := h.bus ++ [.start, .addr (sla q.a true) true] } else refuse (.addr (sla q.a true) false) [.start] h
      else h
    else if h.thr.isSome then
      if ack then { h with ph := .w, bus := h.bus ++ [.start, .addr (sla q.a false) true] } else refuse (.addr (sla q.a false) false) [.start] h
    else h
  | .w =>
    match h.thr with
    | some b => if ack then { h with thr := none, bus := h.bus ++ [.tx b true] } else refuse (.tx b false) [] h
    | none => if h.stop then { h with ph := .idle, stop := false, bus := h.bus ++ [.stop] } else h
  | .r =>
    if h.stop then { h with ph := .idle, stop := false, rhr := some d, bus := h.bus ++ [.rx d false, .stop] }
    else { h with rhr := some d, bus := h.bus ++ [.rx d true] }

/-- hardware: write to TWI_CR -/
def cr (q : Par) (start stop : Bool) (h : Hw) : Hw :=
  let idle := decide (h.ph = .idle) && !start && !h.start
  { h with start := h.start || start, stop := if stop then (if idle then h.stop || q.latch else true) else h.stop }

/-- hardware: TWI_SR.TXCOMP -/
def txcomp (h : Hw) : Bool := decide (h.ph = .idle) && h.thr.isNone && !h.start

/-- hardware: TWI_SR is read -/
def sr (h : Hw) : Hw := { h with nack := false }

/-- the master works meanwhile -/
def works (q : Par) (l : List (Bool × Byte)) (h : Hw) : Hw := l.foldl (fun h e => go q e.1 e.2 h) h

/-- what the master does during a loop: before each iteration, between the two reads of TWI_SR, between TWI_CR and TWI_THR (or TWI_RHR) -/
structure Wk where
  a : Nat → List (Bool × Byte)
  b : Nat → List (Bool × Byte)
  c : Nat → List (Bool × Byte)

def Wk.none : Wk := ⟨fun _ => [], fun _ => [], fun _ => []⟩

/-- twi_sam3x_state_t -/
inductive State where | idle | xfer
  deriving DecidableEq, Repr

/-- return values: -EAGAIN, or a count (with the bytes for a read) -/
inductive R where
  | again
  | sent (k : Nat)
  | got (l : List Byte)
  deriving DecidableEq, Repr

def rSent (k : Nat) : R := if k = 0 then .again else .sent k
def rGot (l : List Byte) : R := if l.isEmpty then .again else .got l

/-- twi_write_as_master_idle, twi-sam3x.c:181-192 -/
def wIdle (h : Hw) : State × Hw × R :=
  if txcomp h = false then (.idle, sr h, .again) else (.xfer, { sr h with mread := false }, .again)

/-- the loop of twi_write_as_master_xfer, twi-sam3x.c:194-228; `l`: bytes left -/
def wLoop (q : Par) : List Byte → Nat → Wk → Hw → State × Hw × R
  | [], sent, _, h => (.idle, h, rSent sent)
  | b :: l, sent, k, h =>
    let h := works q (k.a sent) h
    if h.nack then (.idle, sr h, rSent sent)
    else
      let h := works q (k.b sent) (sr h)
      if h.thr.isSome then (.xfer, sr h, rSent sent)
      else
        let h := works q (k.c sent) (cr q false l.isEmpty (sr h))
        wLoop q l (sent + 1) k { h with thr := some b }

/-- twi_write_as_master, twi-sam3x.c:230-244 -/
def write (q : Par) (l : List Byte) (k : Wk) (s : State) (h : Hw) : State × Hw × R :=
  match s with
  | .idle => wIdle h
  | .xfer => wLoop q l 0 k h

/-- twi_read_as_master_idle, twi-sam3x.c:282-297 -/
def rIdle (q : Par) (n : Nat) (h : Hw) : State × Hw × R :=
  if txcomp h = false then (.idle, sr h, .again) else (.xfer, cr q true (decide (n = 1)) { sr h with mread := true }, .again)

/-- the loop of twi_read_as_master_xfer, twi-sam3x.c:299-333; `n`: room left, `got`: what is in the buffer -/
def rLoop (q : Par) : Nat → List Byte → Wk → Hw → State × Hw × R
  | 0, got, _, h => (.idle, h, rGot got)
  | n + 1, got, k, h =>
    let h := works q (k.a got.length) h
    if h.nack then (.idle, sr h, rGot got)
    else
      let h := works q (k.b got.length) (sr h)
      match h.rhr with
      | none => (.xfer, sr h, rGot got)
      | some _ =>
        let h := works q (k.c got.length) (cr q false (decide (n = 0)) (sr h))
        rLoop q n (got ++ [h.rhr.getD 0]) k { h with rhr := none }

/-- twi_read_as_master, twi-sam3x.c:335-349 -/
def read (q : Par) (n : Nat) (k : Wk) (s : State) (h : Hw) : State × Hw × R :=
  match s with
  | .idle => rIdle q n h
  | .xfer => rLoop q n [] k h

/-! ### A task that writes a message, or reads one: it calls until it has had all of it -/

structure App where
  st : State
  hw : Hw
  /-- bytes written, or read, so far -/
  pos : Nat
  buf : List Byte

inductive Ev where
  | call (k : Wk)
  | hw (ack : Bool) (d : Byte)

def wStep (q : Par) (l : List Byte) (x : App) : Ev → App
  | .hw ack d => { x with hw := go q ack d x.hw }
  | .call k =>
    if x.pos ≥ l.length then x
    else
      let (s, h, r) := write q (l.drop x.pos) k x.st x.hw
      match r with
      | .sent j => { x with st := s, hw := h, pos := x.pos + j }
      | _ => { x with st := s, hw := h }

def wRun (q : Par) (l : List Byte) (evs : List Ev) (x : App) : App := evs.foldl (wStep q l) x

def rStep (q : Par) (n : Nat) (x : App) : Ev → App
  | .hw ack d => { x with hw := go q ack d x.hw }
  | .call k =>
    if x.buf.length ≥ n then x
    else
      let (s, h, r) := read q (n - x.buf.length) k x.st x.hw
      match r with
      | .got j => { x with st := s, hw := h, buf := x.buf ++ j }
      | _ => { x with st := s, hw := h }

def rRun (q : Par) (n : Nat) (evs : List Ev) (x : App) : App := evs.foldl (rStep q n) x

/-- nothing is going on, nothing is asked for -/
structure Quiet (h : Hw) : Prop where
  ph : h.ph = .idle
  thr : h.thr = none
  rhr : h.rhr = none
  start : h.start = false
  stop : h.stop = false
  nack : h.nack = false

/-- the slave takes everything -/
def Wk.good (k : Wk) : Prop := ∀ i, (∀ e ∈ k.a i, e.1 = true) ∧ (∀ e ∈ k.b i, e.1 = true) ∧ k.c i = []

/-- and the master does nothing between TWI_CR and TWI_THR -/
def Ev.good : Ev → Prop
  | .hw ack _ => ack = true
  | .call k => k.good

end Pico.TwiSam
