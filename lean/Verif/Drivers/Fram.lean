import Verif.Drivers.TwiAvr
import Verif.Drivers.TwiDw
/-
drivers/eeprom/eeprom-cy15b004j.c (C100) over the models of the TWI drivers: twi-avr.c (TwiAvr.lean) and, for one refutation, twi-dw_apb_i2c.c (TwiDw.lean).

The chip (CY15B004J data sheet): 512 bytes, a latch of 9 bits for the address; the device answers to 1010 d d p, p being the upper bit of the address; the first byte after
a write address loads the latch, every other byte is stored at once (there is no programming time) and moves the latch on, which goes back to 0 after 511; a read gives the byte
at the latch and moves it on.  (A read address could also load p; the driver sends the same p in both addresses, so nothing depends on it.)
Simplifications: those of TwiAvr.lean; `id` is the number of the device the driver was given and of the chip; debug build (picoRTOS_assert returns).
-/
namespace Pico.Fram
open Pico.Twi

abbrev Addr := BitVec 9
abbrev Mem := Addr → Byte

/-! ### the chip -/

inductive Mode where
  | idle
  /-- the address byte comes next -/
  | latch
  | write
  | read
  deriving DecidableEq

structure Chip where
  mem : Mem
  ptr : Addr
  page : Bool
  mode : Mode

/-- the chip that is there, if any -/
structure Dev where
  id : BitVec 2
  present : Bool

/-- is this address byte for the chip -/
def Dev.acks (q : Dev) (b : Byte) : Bool := q.present && (b >>> 2).setWidth 6 == (0b1010#4 ++ q.id : BitVec 6)

def put (m : Mem) (a : Addr) (b : Byte) : Mem := fun x => if x = a then b else m x

/-- what the chip does with what it sees on the bus -/
def Chip.see (c : Chip) : Bus → Chip
  | .start => { c with mode := .idle }
  | .addr b true => { c with page := b.getLsbD 1, mode := if b.getLsbD 0 then .read else .latch }
  | .addr _ false => { c with mode := .idle }
  | .tx b true =>
    match c.mode with
    | .latch => { c with ptr := (BitVec.ofBool c.page ++ b : BitVec 9), mode := .write }
    | .write => { c with mem := put c.mem c.ptr b, ptr := c.ptr + 1#9 }
    | _ => c
  | .tx _ false => c
  | .rx _ _ =>
    match c.mode with
    | .read => { c with ptr := c.ptr + 1#9 }
    | _ => c
  | .stop => { c with mode := .idle }

/-! ### the driver -/

/-- cy15b004j_state_t, eeprom-cy15b004j.h:12-17 -/
inductive State where
  | setup | address | data
  deriving DecidableEq

structure Sys where
  /-- struct eeprom: settings.slave_addr, state -/
  slave : BitVec 16
  state : State
  /-- struct twi: slave_addr; the rest -/
  twiAddr : BitVec 16
  ctx : TwiAvr.Ctx
  hw : TwiAvr.Hw
  chip : Chip

/-- value returned -/
inductive Out where
  | again
  /-- positive, with the bytes stored (read) -/
  | done (k : Nat) (l : List Byte)
  | error
  deriving DecidableEq

/-- the value of twi_write and twi_read -/
def outOf : TwiAvr.R → Out
  | .again => .again
  | .one => .done 1 []
  | .byte b => .done 1 [b]
  | .last n => .done n []
  | _ => .error

/-- what the bus has been doing during a call is seen by the chip -/
def sees (h h' : TwiAvr.Hw) (c : Chip) : Chip := (h'.bus.drop h.bus.length).foldl Chip.see c

/-- TWAR_TWA: seven bits -/
def sla7 (s : Sys) : BitVec 7 := s.twiAddr.setWidth 7

/-- twi_write of twi-avr.c -/
def twiWrite (b : Byte) (n : Nat) (f p : Bool) (s : Sys) : Sys × Out :=
  let r := TwiAvr.write (sla7 s) b n f p s.ctx s.hw
  ({ s with ctx := r.1, hw := r.2.1, chip := sees s.hw r.2.1 s.chip }, outOf r.2.2)

/-- twi_read of twi-avr.c -/
def twiRead (n : Nat) (f p : Bool) (s : Sys) : Sys × Out :=
  let r := TwiAvr.read (sla7 s) n f p s.ctx s.hw
  ({ s with ctx := r.1, hw := r.2.1, chip := sees s.hw r.2.1 s.chip }, outOf r.2.2)

/-- setup, eeprom-cy15b004j.c:32-43 with twi_setup, twi-avr.c:142-165: bit rate 0 is ignored, the mode is already that of a master, the address is not 0 -/
def setup (addr : Nat) (s : Sys) : Sys × Out :=
  let a := if addr ≥ 256 then s.slave ||| 1#16 else s.slave &&& ~~~ 1#16
  ({ s with slave := a, twiAddr := a, state := .address }, .again)

/-- req_address_read, eeprom-cy15b004j.c:45-55 -/
def reqRead (addr : Nat) (s : Sys) : Sys × Out :=
  let r := twiWrite (BitVec.ofNat 8 addr) 1 true false s
  (if r.2 = .done 1 [] then { r.1 with state := .data } else r.1, .again)

/-- data_read, eeprom-cy15b004j.c:57-68 -/
def dataRead (n : Nat) (s : Sys) : Sys × Out :=
  let r := twiRead n true true s
  (match r.2 with | .done k _ => if k = n then { r.1 with state := .setup } else r.1 | _ => r.1, r.2)

/-- eeprom_read, eeprom-cy15b004j.c:70-84 -/
def eRead (addr n : Nat) (s : Sys) : Sys × Out :=
  if 512 ≤ addr ∨ n = 0 then (s, .error) else
  match s.state with
  | .setup => setup addr s
  | .address => reqRead addr s
  | .data => dataRead n s

/-- req_address_write, eeprom-cy15b004j.c:95-107; TWI_F_N(1) is not known to twi-avr.c -/
def reqWrite (addr n : Nat) (s : Sys) : Sys × Out :=
  let r := twiWrite (BitVec.ofNat 8 addr) (1 + n) true true s
  (if r.2 = .done 1 [] then { r.1 with state := .data } else r.1, .again)

/-- data_write, eeprom-cy15b004j.c:109-119 -/
def dataWrite (b : Byte) (n : Nat) (s : Sys) : Sys × Out :=
  let r := twiWrite b n false false s
  (match r.2 with | .done k _ => if k = n then { r.1 with state := .setup } else r.1 | _ => r.1, r.2)

/-- eeprom_write, eeprom-cy15b004j.c:121-135; `b`: first byte of the buffer, `n`: its size -/
def eWrite (addr : Nat) (b : Byte) (n : Nat) (s : Sys) : Sys × Out :=
  if 512 ≤ addr ∨ n = 0 then (s, .error) else
  match s.state with
  | .setup => setup addr s
  | .address => reqWrite addr n s
  | .data => dataWrite b n s

/-- hardware: the action of the interface ends, with the answer of the chip -/
def hwStep (q : Dev) (s : Sys) : Sys :=
  let h := TwiAvr.finish (if s.hw.pend = .addr then q.acks s.hw.dr else q.present) (s.chip.mem s.chip.ptr) s.hw
  { s with hw := h, chip := sees s.hw h s.chip }

/-- eeprom_cy15b004j_init, eeprom-cy15b004j.c:15-26, on a TWI just initialised -/
def init (q : Dev) (c : Chip) : Sys :=
  { slave := 0x50#16 ||| ((q.id.setWidth 16) <<< 1), state := .setup, twiAddr := 0#16, ctx := TwiAvr.boot.ctx, hw := TwiAvr.boot.hw, chip := c }

/-! ### the application

It does one operation after another; it calls with the rest of the range until all is done or an error is returned. -/

inductive Op where
  | write (addr : Nat) (l : List Byte)
  | read (addr n : Nat)
  deriving DecidableEq

/-- an operation that ended well: what was written, what was read -/
inductive Done where
  | wrote (addr : Nat) (l : List Byte)
  | got (addr : Nat) (l : List Byte)
  deriving DecidableEq

structure App where
  sys : Sys
  cur : Option Op
  pos : Nat
  buf : List Byte
  /-- (history) operations done -/
  fin : List Done
  /-- (history) an error was returned, or more was done than asked -/
  wrong : Bool

def advance (t : Sys) (k total : Nat) (d : List Byte → Done) (g : List Byte) (x : App) : App :=
  if x.pos + k = total then { x with sys := t, cur := none, pos := 0, buf := [], fin := x.fin ++ [d (x.buf ++ g)] }
  else if x.pos + k > total then { x with sys := t, wrong := true }
  else { x with sys := t, pos := x.pos + k, buf := x.buf ++ g }

def take (r : Sys × Out) (total : Nat) (d : List Byte → Done) (x : App) : App :=
  match r.2 with
  | .again => { x with sys := r.1 }
  | .done k g => advance r.1 k total d g x
  | .error => { x with sys := r.1, cur := none, pos := 0, buf := [], wrong := true }

def call (x : App) : App :=
  match x.cur with
  | none => x
  | some (.write a l) => take (eWrite (a + x.pos) (l.getD x.pos 0) (l.length - x.pos) x.sys) l.length (fun _ => .wrote a l) x
  | some (.read a n) => take (eRead (a + x.pos) (n - x.pos) x.sys) n (fun g => .got a g) x

inductive Ev where
  | begin (o : Op)
  | call
  | hw

def step (q : Dev) (x : App) : Ev → App
  | .begin o => if x.cur = none then { x with cur := some o, pos := 0, buf := [] } else x
  | .call => call x
  | .hw => { x with sys := hwStep q x.sys }

def run (q : Dev) (l : List Ev) (x : App) : App := l.foldl (step q) x

def boot (q : Dev) (c : Chip) : App := { sys := init q c, cur := none, pos := 0, buf := [], fin := [], wrong := false }

/-! ### the specification -/

/-- the address of byte number i of an operation at `a` -/
def at' (a i : Nat) : Addr := BitVec.ofNat 9 (a + i)

/-- the bytes of `l` at `a`, the others as before -/
def over (m : Mem) (a : Nat) : List Byte → Mem
  | [] => m
  | b :: l => over (put m (at' a 0) b) (a + 1) l

/-- the n bytes at a -/
def slice (m : Mem) (a n : Nat) : List Byte := (List.range n).map (fun i => m (at' a i))

/-- the memory after these operations -/
def after (m : Mem) : List Done → Mem
  | [] => m
  | .wrote a l :: r => after (over m a l) r
  | .got _ _ :: r => after m r

/-- every read gave the contents the operations before it left -/
def Right (m : Mem) : List Done → Prop
  | [] => True
  | .wrote a l :: r => Right (over m a l) r
  | .got a l :: r => l = slice m a l.length ∧ Right m r

/-- inside the chip and not empty -/
def Op.ok : Op → Prop
  | .write a l => l ≠ [] ∧ a + l.length ≤ 512
  | .read a n => 0 < n ∧ a + n ≤ 512

/-- how many bytes -/
def Op.size : Op → Nat
  | .write _ l => l.length
  | .read _ n => n

def Ev.ok : Ev → Prop
  | .begin o => o.ok
  | _ => True

/-- the result has the size asked -/
def Op.done : Op → Done → Prop
  | .write a l, .wrote a' l' => a = a' ∧ l = l'
  | .read a n, .got a' l => a = a' ∧ l.length = n
  | _, _ => False

end Pico.Fram
