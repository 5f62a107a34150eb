/-
drivers/eeprom/eeprom-avr.c (C77).

The hardware, from the data sheet: EEPE is set by a write of EECR.EEPE made within four cycles after one of EECR.EEMPE, and stays set until the byte is programmed (`fin`).
While it is set nothing can start another operation, the EEPROM cannot be read and EEAR cannot be changed; whether EEDR can is left open (`lock`: it cannot; eeprom_write
relies on that).  An interrupt between the two writes of EECR (`irq`) lets the four cycles elapse: nothing starts.
-/
namespace Pico.EepromAvr

abbrev Byte := BitVec 8

structure St where
  mem : Nat → Byte
  eear : Nat
  eedr : Byte
  /-- EEPE: the byte being programmed and its address -/
  prog : Option (Nat × Byte)

/-- C99_EEPROM_AVR_ADDR_COUNT, eeprom-avr.h:7 -/
def count : Nat := 4096

inductive Res where
  | ok (v : Byte)
  | eagain
  | einval
  deriving DecidableEq

/-- hardware: write of EEAR -/
def setAddr (a : Nat) (s : St) : St := if s.prog.isSome then s else { s with eear := a }
/-- hardware: write of EEDR -/
def setData (lock : Bool) (b : Byte) (s : St) : St := if s.prog.isSome && lock then s else { s with eedr := b }
/-- hardware: EEMPE then EEPE; `er`: mode "erase only" -/
def trigger (er irq : Bool) (s : St) : St := if s.prog.isSome || irq then s else { s with prog := some (s.eear, if er then 0xff else s.eedr) }
/-- hardware: the byte is programmed -/
def fin (s : St) : St :=
  match s.prog with
  | some (a, b) => { s with mem := fun x => if x = a then b else s.mem x, prog := none }
  | none => s

/-- eeprom_read, 40-55 -/
def read (addr n : Nat) (s : St) : St × Res :=
  if addr ≥ count ∨ n = 0 then (s, .einval)
  else if s.prog.isSome then (s, .eagain)
  else
    let s := setAddr addr s
    ({ s with eedr := s.mem s.eear }, .ok (s.mem s.eear))

/-- eeprom_erase, 57-77; `spm`: SPMCSR.SPMEN -/
def erase (spm irq : Bool) (addr n : Nat) (s : St) : St × Res :=
  if addr ≥ count ∨ n = 0 then (s, .einval)
  else if s.prog.isSome && spm then (s, .eagain)
  else (trigger true irq (setAddr addr s), .ok 0xff)

/-- eeprom_write, 79-102: the first byte of the buffer is `b` -/
def write (lock spm irq : Bool) (addr : Nat) (b : Byte) (n : Nat) (s : St) : St × Res :=
  if addr ≥ count ∨ n = 0 then (s, .einval)
  else if s.prog.isSome && spm then (s, .eagain)
  else
    let s := setData lock b (setAddr addr s)
    if s.eedr ≠ b then (s, .eagain)
    else (trigger false irq s, .ok b)

inductive Ev where
  | read (addr n : Nat)
  | erase (spm irq : Bool) (addr n : Nat)
  | write (spm irq : Bool) (addr : Nat) (b : Byte) (n : Nat)
  | fin

/-- a state, and (history) the contents the client expects: what it wrote or erased, according to what the calls returned; whether a read returned something else -/
structure Cl where
  st : St
  want : Nat → Byte
  wrong : Bool

def set (f : Nat → Byte) (a : Nat) (b : Byte) : Nat → Byte := fun x => if x = a then b else f x

def step (lock : Bool) (c : Cl) : Ev → Cl
  | .fin => { c with st := fin c.st }
  | .read a n => match read a n c.st with
    | (s, .ok v) => { c with st := s, wrong := c.wrong || v != c.want a }
    | (s, _) => { c with st := s }
  | .erase spm irq a n => match erase spm irq a n c.st with
    | (s, .ok _) => { c with st := s, want := set c.want a 0xff }
    | (s, _) => { c with st := s }
  | .write spm irq a b n => match write lock spm irq a b n c.st with
    | (s, .ok _) => { c with st := s, want := set c.want a b }
    | (s, _) => { c with st := s }

def start (m : Nat → Byte) (eear : Nat) (eedr : Byte) : Cl := ⟨⟨m, eear, eedr, none⟩, m, false⟩

/-- calls that find the EEPROM ready, or are refused: a write during programming is refused if EEDR cannot be changed and the byte is not the one being programmed -/
def Good (lock : Bool) (s : St) : Ev → Prop
  | .fin => True
  | .read _ _ => True
  | .erase spm irq _ _ => irq = false ∧ (s.prog = none ∨ spm = true)
  | .write spm irq _ b _ => irq = false ∧ (s.prog = none ∨ spm = true ∨ (lock = true ∧ s.eedr ≠ b))

inductive Run (lock : Bool) : Cl → Prop where
  | start (m : Nat → Byte) (eear : Nat) (eedr : Byte) : Run lock (start m eear eedr)
  | step {c : Cl} (e : Ev) : Run lock c → Good lock c.st e → Run lock (step lock c e)

end Pico.EepromAvr
