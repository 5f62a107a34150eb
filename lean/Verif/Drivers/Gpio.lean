/-
The GPIO drivers (C78):
  drivers/gpio/gpio-atmel_pio.c, gpio-sam3x_pio.c (`pio`), gpio-avr.c, gpio-gd32vf103.c, gpio-nxp_siu.c, gpio-nxp_siul2.c, gpio-pic32mx.c, gpio-renesas_ra4.c,
  gpio-rp2040_sio.c, gpio-same5x.c, gpio-ti_f28x.c (`strobe`), gpio-stm32h7xx.c, staging gpio-stm32f10xxx.c, gpio-wch_ch32x.c (`bsrr`), gpio-tinyavr.c,
  staging gpio-8051.c, gpio-n76e003.c, gpio-mc9s08ptxx.c (`sfr`), gpio-stm8.c

A function is the list of its accesses to the port; other tasks and interrupt routines may run between two of them.
Simplifications: one port (8051, n76e003 and mc9s08ptxx choose it by a switch or an index); registers narrower than 32 bits are extended with zeros.
`invert` is set by the init functions, except stm32f10xxx, ch32x, stm8, 8051, n76e003 where the context has to be zero.
-/
namespace Pico.Gpio

abbrev Word := BitVec 32

/-- accesses to a port -/
inductive I where
  /-- write `v` to a register that sets, clears, inverts the bits of `v` in the output register -/
  | set (v : Word)
  | clr (v : Word)
  | inv (v : Word)
  /-- write `v` to a register that sets the bits of the low half of `v` and clears those of its high half (set has priority) -/
  | bsr (v : Word)
  /-- read the output register -/
  | ld
  /-- write the output register: the value read, or / and / xor -/
  | stOr (m : Word)
  | stAnd (m : Word)
  | stXor (m : Word)
  /-- write the output register: `v` -/
  | st (v : Word)
  /-- depending on the value read, clear or set the bits of `m` -/
  | flip (m : Word)
  /-- renesas: `bsr` of `m` or of `m << 16` depending on the value read, inverted or not -/
  | flipInv (inverted : Bool) (m : Word)
  /-- direction register: output, input -/
  | dirSet (v : Word)
  | dirClr (v : Word)
  deriving DecidableEq

structure Port where
  out : Word
  dir : Word

def bsrOut (v o : Word) : Word := (o &&& ~~~(v >>> 16)) ||| (v &&& 0xffff#32)

/-- hardware: an access; `a` is the value read by the function -/
def exec : I → Port → Word → Port × Word
  | .set v, p, a => ({ p with out := p.out ||| v }, a)
  | .clr v, p, a => ({ p with out := p.out &&& ~~~v }, a)
  | .inv v, p, a => ({ p with out := p.out ^^^ v }, a)
  | .bsr v, p, a => ({ p with out := bsrOut v p.out }, a)
  | .ld, p, _ => (p, p.out)
  | .stOr m, p, a => ({ p with out := a ||| m }, a)
  | .stAnd m, p, a => ({ p with out := a &&& ~~~m }, a)
  | .stXor m, p, a => ({ p with out := a ^^^ m }, a)
  | .st v, p, a => ({ p with out := v }, a)
  | .flip m, p, a => (if a &&& m ≠ 0 then { p with out := p.out &&& ~~~m } else { p with out := p.out ||| m }, a)
  | .flipInv i m, p, a => ({ p with out := bsrOut (if (decide (a &&& m = 0)) ^^ i then m else m <<< 16) p.out }, a)
  | .dirSet v, p, a => ({ p with dir := p.dir ||| v }, a)
  | .dirClr v, p, a => ({ p with dir := p.dir &&& ~~~v }, a)

/-- without interruption -/
def execAll : List I → Port × Word → Port × Word
  | [], s => s
  | i :: l, s => execAll l (exec i s.1 s.2)

inductive Kind where
  | pio | avr | gd32 | siu | siul2 | pic32 | renesas | strobe | bsrr | tinyavr | sfr | stm8
  deriving DecidableEq, Repr

/-- pins of a port (the *_PIN_COUNT of the headers) -/
def pins : Kind → Nat
  | .pio | .siu | .strobe => 32
  | .gd32 | .siul2 | .renesas | .bsrr | .pic32 => 16
  | .avr | .tinyavr | .sfr | .stm8 => 8

/-- ctx->mask set by the init functions: gpio-atmel_pio.c:77, gpio-nxp_siu.c:28, gpio-nxp_siul2.c:31 ... -/
def mask : Kind → Nat → Word
  | .siu, p => 0x80000000#32 >>> p
  | .siul2, p => 0x8000#32 >>> p
  | .avr, p | .tinyavr, p | .sfr, p | .stm8, p => (1#32 <<< p) &&& 0xff#32
  | _, p => 1#32 <<< p

/-- hardware: the bit of a pin in the registers of its port (NXP number pins from the most significant bit) -/
def bit : Kind → Nat → Nat
  | .siu, p => 31 - p
  | .siul2, p => 15 - p
  | _, p => p

/-- gpio_write(ctx, value): gpio-atmel_pio.c:101-105, gpio-avr.c:53-57, gpio-gd32vf103.c:57-61, gpio-nxp_siu.c:52-56, gpio-nxp_siul2.c:55-59, gpio-pic32mx.c:54-58,
gpio-renesas_ra4.c:66-70, gpio-rp2040_sio.c:75-79, gpio-same5x.c:60-64, gpio-ti_f28x.c:53-59, gpio-stm32h7xx.c:60-64, gpio-stm32f10xxx.c:62-66, gpio-wch_ch32x.c:44-48,
gpio-tinyavr.c:64-70, gpio-8051.c:74-112, gpio-n76e003.c:50-77, gpio-mc9s08ptxx.c:39-45, gpio-stm8.c:40-44 -/
def write (k : Kind) (invert : Bool) (m : Word) (value : Bool) : List I :=
  let hi := value ^^ invert
  match k with
  | .pio | .strobe | .pic32 => [if hi then .set m else .clr m]
  | .gd32 => [if hi then .bsr m else .clr m]
  | .renesas | .bsrr => [if hi then .bsr m else .bsr (m <<< 16)]
  | .avr | .siu | .siul2 | .sfr => [.ld, if hi then .stOr m else .stAnd m]
  | .tinyavr => [if hi then .set m else .clr m, .dirSet m]
  | .stm8 => if hi then [.st m] else [.ld, .stAnd m]

/-- gpio_toggle(ctx): gpio-atmel_pio.c:112-118, gpio-avr.c:64-67, gpio-renesas_ra4.c:77-82, gpio-tinyavr.c:78-82 and the others -/
def toggle (k : Kind) (invert : Bool) (m : Word) : List I :=
  match k with
  | .pio => [.ld, .flip m]
  | .strobe | .pic32 => [.inv m]
  | .tinyavr => [.inv m, .dirSet m]
  | .renesas => [.ld, .flipInv invert m]
  | _ => [.ld, .stXor m]

/-- gpio_read(ctx): the accesses before the input register is read, and the value returned; `inp`: the input register -/
def read (k : Kind) (invert : Bool) (m inp : Word) : List I × Bool :=
  ((match k with | .tinyavr => [.dirClr m] | _ => []), (decide (inp &&& m ≠ 0)) ^^ invert)

/-- gpio_setup and set_invert (gpio-atmel_pio.c:81-99); 0: ignore, 1: disable, 2: enable -/
def setup (sel : Nat) (invert : Bool) : Option Bool := if sel = 0 then some invert else if sel < 3 then some (sel == 2) else none

/-! ### Several tasks

Task `t` owns pin `t`; it does its operations one after the other. -/

inductive Op where
  | write (value : Bool)
  | toggle
  deriving DecidableEq

def code (k : Kind) (invert : Bool) (m : Word) : Op → List I
  | .write v => write k invert m v
  | .toggle => toggle k invert m

structure Sys where
  port : Port
  /-- per task: accesses left of the operation under way, value read, (history) operations begun -/
  todo : Nat → List I
  acc : Nat → Word
  ops : Nat → List Op

def upd {α : Type} (f : Nat → α) (t : Nat) (x : α) : Nat → α := fun i => if i = t then x else f i

inductive Ev where
  /-- task t begins an operation -/
  | begin (t : Nat) (o : Op)
  /-- task t does its next access -/
  | go (t : Nat)

def step (k : Kind) (invert : Nat → Bool) (s : Sys) : Ev → Sys
  | .begin t o => if t < pins k ∧ s.todo t = [] then { s with todo := upd s.todo t (code k (invert t) (mask k t) o), ops := upd s.ops t (s.ops t ++ [o]) } else s
  | .go t => match s.todo t with
    | [] => s
    | i :: l => let r := exec i s.port (s.acc t); { s with port := r.1, todo := upd s.todo t l, acc := upd s.acc t r.2 }

def run (k : Kind) (invert : Nat → Bool) (l : List Ev) (s : Sys) : Sys := l.foldl (step k invert) s

def start (p : Port) (acc : Nat → Word) : Sys := ⟨p, fun _ => [], acc, fun _ => []⟩

/-! ### Specification -/

/-- level of a pin after an operation -/
def level1 (invert : Bool) (b : Bool) : Op → Bool
  | .write v => v ^^ invert
  | .toggle => !b

def level (invert : Bool) (b : Bool) (l : List Op) : Bool := l.foldl (level1 invert) b

end Pico.Gpio
