import Verif.Drivers.Rng
/-
staging/drivers/rng/rng-stm32h7xx_trng.c: the hardware random number generator (C120)

Hardware (RM0433, chapter 34): words are made at any time and wait to be read (`out`); SR.DRDY is set while there is one; a read of DR takes the oldest one, and gives 0 when there is none;
a seed error throws away the words that wait.
-/
namespace Pico.Trng

abbrev Byte := BitVec 8
abbrev Word := BitVec 32

/-- what the generator does meanwhile -/
inductive Ev where
  | make (w : Word)
  | seedError
  deriving DecidableEq, Repr

structure Hw where
  out : List Word
  deriving DecidableEq, Repr

def ev (h : Hw) : Ev → Hw
  | .make w => ⟨h.out ++ [w]⟩
  | .seedError => ⟨[]⟩

def works (l : List Ev) (h : Hw) : Hw := l.foldl ev h

/-- hardware: a read of DR -/
def dr (h : Hw) : Word × Hw := (h.out.headD 0, ⟨h.out.drop 1⟩)

/-- what the generator does during a call: before the i-th read of SR, and between it and the read of DR -/
structure Wk where
  a : Nat → List Ev
  b : Nat → List Ev

def Wk.none : Wk := ⟨fun _ => [], fun _ => []⟩

/-- the switch of rng_read, rng-stm32h7xx_trng.c:95-101 (every case falls through to the next one): the bytes stored -/
def cut (w : Word) (count : Nat) : List Byte :=
  match count with
  | 0 => []
  | 1 => [(w >>> 0).setWidth 8]
  | 2 => [(w >>> 8).setWidth 8, (w >>> 0).setWidth 8]
  | 3 => [(w >>> 16).setWidth 8, (w >>> 8).setWidth 8, (w >>> 0).setWidth 8]
  | _ => [(w >>> 24).setWidth 8, (w >>> 16).setWidth 8, (w >>> 8).setWidth 8, (w >>> 0).setWidth 8]

/-- the do ... while loop of rng_read, rng-stm32h7xx_trng.c:88-102; `count` bytes to go, `i`: passages so far, `buf`: bytes stored. The fuel is never the reason to stop (every passage
stores a byte or leaves) -/
def loop : Nat → Nat → Nat → Wk → List Byte → Hw → List Byte × Hw
  | 0, _, _, _, buf, h => (buf, h)
  | fuel + 1, count, i, k, buf, h =>
    let h := works (k.a i) h
    if h.out.isEmpty then (buf, h)
    else
      let h := works (k.b i) h
      let buf := buf ++ cut (dr h).1 count
      let count := count - (cut (dr h).1 count).length
      if count > 0 then loop fuel count (i + 1) k buf (dr h).2 else (buf, (dr h).2)

/-- return values -/
inductive R where
  | einval
  | again
  | num (k : Nat)
  deriving DecidableEq, Repr

/-- rng_read, rng-stm32h7xx_trng.c:81-110: the bytes stored from `buf` on, the generator, the value returned -/
def read (n : Nat) (k : Wk) (h : Hw) : List Byte × Hw × R :=
  if n = 0 then ([], h, .einval)
  else
    let r := loop n n 0 k [] h
    (r.1, r.2, if r.1.length = 0 then .again else .num r.1.length)

/-- calls of rng_read one after the other, with what the generator does in between -/
def calls : List (List Ev × Nat × Wk) → Hw → List (List Byte × R) × Hw
  | [], h => ([], h)
  | c :: l, h =>
    let r := read c.2.1 c.2.2 (works c.1 h)
    let s := calls l r.2.1
    ((r.1, r.2.2) :: s.1, s.2)

/-! ### Set-up -/

/-- the loop that looks for the divider, rng-stm32h7xx_trng.c:50-52, from `d` on; `freq` in Hz -/
def divider (freq : Nat) : Nat → Nat → Nat
  | 0, d => d
  | fuel + 1, d => if d ≤ 15 then (if freq >>> d ≤ 48000000 then d else divider freq fuel (d + 1)) else d

/-- CR with CONDRST, RNG_CONFIG1, RNG_CONFIG3, CLKDIV, rng-stm32h7xx_trng.c:57-60 -/
def crOf (d : Nat) : Word :=
  (1#32 <<< 30) ||| ((0xf#32 &&& 0x3f#32) <<< 20) ||| ((0xd#32 &&& 0xf#32) <<< 8) ||| ((BitVec.ofNat 32 d &&& 0xf#32) <<< 16)

/-- the wait for CONDRST, rng-stm32h7xx_trng.c:69-70; `busy`: how many times more it is read as set; `dl`: deadlock; `none`: deadlock is -1 at the end -/
def wait : Nat → Nat → Option Nat
  | 0, dl => some dl
  | _ + 1, 0 => none
  | busy + 1, dl + 1 => wait busy dl

/-- the registers written -/
structure Regs where
  cr : Word
  /-- values written to HTCR, in order -/
  htcr : List Word
  deriving DecidableEq, Repr

inductive IR where
  | ok | einval | eio | ebusy
  deriving DecidableEq, Repr

/-- rng_stm32h7xx_trng_init, rng-stm32h7xx_trng.c:37-79; `freq`: what clock_get_freq returns; `D`: CONFIG_DEADLOCK_COUNT; `busy`: how many times CONDRST is read as set after it is cleared -/
def init (freq : Int) (D busy : Nat) (r : Regs) : Regs × IR :=
  if freq ≤ 0 then (r, .einval)
  else
    let d := divider freq.toNat 17 0
    if d < 16 then
      let r : Regs := ⟨crOf d, r.htcr ++ [0x17590abc#32, 0xaa74#32]⟩
      let r := { r with cr := r.cr &&& ~~~(1#32 <<< 30) }
      match wait busy D with
      | none => (r, .ebusy)
      | some _ => ({ r with cr := r.cr ||| ((1#32 <<< 31) ||| (1#32 <<< 2)) }, .ok)
    else (r, .eio)

end Pico.Trng
