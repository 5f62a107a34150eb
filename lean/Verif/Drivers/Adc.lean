/-
The ADC drivers (C86): adc_read of
  drivers/adc: atmel_afec, avr, nxp_sar, pic32mx, renesas_ra4, rp2040, sam3x, same5x, stm32h7xx_sar, ti_type4 (one sample per channel), tinyavr
  staging/drivers/adc: ch552, gd32vf103, mc9s08ptxx, n76e003_sar, nxp_eqadc

Several channels (`struct adc`) share a block; there is one object per channel, and the object is known by the number of its channel.  A history is made of calls of
adc_read by the objects and of steps of the hardware (a conversion ends); a call is not interrupted by another call on the same block, and the hardware moves between
calls.  A sample remembers what it is a conversion of, and when it was made; garbage has time 0, and the clock begins at 1.  A conversion is made of the channel selected
when it starts; starting a converter that runs changes nothing (from the manuals, trusted).  The scaling of the value (multiplier, divider, offset) is in AdcScale.lean.
-/
namespace Pico.Adc

structure Sample where
  ch : Nat
  t : Nat
  deriving DecidableEq, Repr

/-- the hardware moves (`c`: the channel that is converted, for the blocks that can choose), or the object `i` is read -/
inductive Ev
  | hw (c : Nat)
  | read (i : Nat)
  deriving DecidableEq, Repr

/-- a value was delivered: to whom, when, which -/
structure Del where
  i : Nat
  t : Nat
  x : Sample
  deriving DecidableEq, Repr

/-- the clock, the block and its driver, the values delivered (the last one at the end) -/
structure W (S : Type) where
  now : Nat
  s : S
  out : List Del

/-- a driver and its hardware: time, event; `some x`: adc_read returned 1 and the sample x, `none`: -EAGAIN -/
abbrev Step (S : Type) := Nat → Ev → S → S × Option Sample

def ev {S : Type} (step : Step S) (w : W S) (e : Ev) : W S :=
  let r := step w.now e w.s
  ⟨w.now + 1, r.1, match e, r.2 with
    | .read i, some x => w.out ++ [⟨i, w.now, x⟩]
    | _, _ => w.out⟩

def run {S : Type} (step : Step S) (w : W S) (l : List Ev) : W S := l.foldl (ev step) w

def start {S : Type} (s : S) : W S := ⟨1, s, []⟩

/-! ### Blocks with one result register -/

/-- the conversion that runs, end of conversion, result; the channel register; the state of the driver in the block; in the objects; gd32: STRC -/
structure One where
  conv : Option Nat
  flag : Bool
  res : Sample
  chan : Nat
  pacq : Bool
  acq : Nat → Bool
  strc : Bool

def one0 : One := ⟨none, false, ⟨0, 0⟩, 0, false, fun _ => false, false⟩

def set {α : Type} (f : Nat → α) (i : Nat) (v : α) : Nat → α := fun j => if j = i then v else f j

/-- hardware: the conversion ends -/
def hw1 (now : Nat) (s : One) : One :=
  match s.conv with
  | none => s
  | some c => { s with conv := none, flag := true, res := ⟨c, now⟩ }

/-- hardware: a conversion of `i` is started -/
def begin1 (i : Nat) (s : One) : One := { s with conv := some (s.conv.getD i) }

/-- adc-avr.c:130-187, manual trigger -/
def avr : Step One := fun now e s =>
  match e with
  | .hw _ => (hw1 now s, none)
  | .read i =>
    if !s.pacq then ({ begin1 i s with pacq := true }, none)
    else if !s.flag then (s, none)
    else ({ s with flag := false, pacq := false }, some s.res)

/-- adc-avr.c:130-187, free running: the converter never stops and takes the channel register again for the next conversion -/
def avrFree : Step One := fun now e s =>
  match e with
  | .hw _ => ({ s with conv := some s.chan, flag := true, res := ⟨s.conv.getD s.chan, now⟩ }, none)
  | .read i =>
    if !s.pacq then ({ s with chan := i, pacq := true }, none)
    else if !s.flag then (s, none)
    else ({ s with flag := false, pacq := false }, some s.res)

/-- adc-tinyavr.c:152-203 -/
def tinyavr : Step One := fun now e s =>
  match e with
  | .hw _ => (hw1 now s, none)
  | .read i =>
    if !s.pacq then (if s.conv.isSome then (s, none) else ({ begin1 i s with pacq := true }, none))
    else if !s.flag then (s, none)
    else ({ s with flag := false, pacq := false }, some s.res)

/-- adc-rp2040.c:107-147; CS_READY: no conversion runs -/
def rp2040 : Step One := fun now e s =>
  match e with
  | .hw _ => (hw1 now s, none)
  | .read i =>
    if !s.acq i then ({ begin1 i s with acq := set s.acq i true }, none)
    else if s.conv.isSome then (s, none)
    else ({ s with acq := set s.acq i false }, some s.res)

/-- adc-same5x.c:150-196 -/
def same5x : Step One := fun now e s =>
  match e with
  | .hw _ => (hw1 now s, none)
  | .read i =>
    if !s.acq i then (if s.conv.isSome then (s, none) else ({ begin1 i s with acq := set s.acq i true }, none))
    else if s.conv.isSome || !s.flag then (s, none)
    else ({ s with flag := false, acq := set s.acq i false }, some s.res)

/-- staging adc-gd32vf103.c:240-263, single conversions; the hardware sets STRC when a conversion starts, and only a program can clear it; reading the result clears EOC -/
def gd32 : Step One := fun now e s =>
  match e with
  | .hw _ => (hw1 now s, none)
  | .read i =>
    if !s.flag then (if !s.strc then ({ begin1 i s with strc := true }, none) else (s, none))
    else ({ s with flag := false }, some s.res)

/-- staging adc-mc9s08ptxx.c:100-119; ADACT: a conversion runs; writing SC1 and reading the result clear COCO -/
def mc9s08 : Step One := fun now e s =>
  match e with
  | .hw _ => (hw1 now s, none)
  | .read i =>
    if s.conv.isSome then (s, none)
    else if s.flag then ({ s with flag := false }, some s.res)
    else ({ begin1 i s with flag := false }, none)

/-- staging adc-n76e003_sar.c:90-112, adc-ch552.c:57-78 -/
def n76 : Step One := fun now e s =>
  match e with
  | .hw _ => (hw1 now s, none)
  | .read i =>
    if s.flag then (if s.chan ≠ i then (s, none) else ({ s with flag := false }, some s.res))
    else ({ begin1 i s with chan := i }, none)

/-! ### Blocks with a result register and a flag per channel -/

structure Flags where
  flag : Nat → Bool
  data : Nat → Sample

def flags0 : Flags := ⟨fun _ => false, fun _ => ⟨0, 0⟩⟩

/-- adc-nxp_sar.c:137-155 (CEOCFR, cleared by the driver), adc-atmel_afec.c:245-263 (EOC in AFEC_ISR, cleared by reading AFEC_CDR), adc-pic32mx.c:536-570 (ADCDSTAT, cleared by
reading ADCDATA), adc-ti_type4.c:387-420 with one sample per channel and its own ADCINTFLG, staging adc-nxp_eqadc.c:263-285 (RESULT_EMPTY, cleared by the DMA) as far
as its commands reach the converter.  The conversions that are started are not modelled: any channel may be converted at any time -/
def perChan : Step Flags := fun now e s =>
  match e with
  | .hw c => ({ flag := set s.flag c true, data := set s.data c ⟨c, now⟩ }, none)
  | .read i => if s.flag i then ({ s with flag := set s.flag i false }, some (s.data i)) else (s, none)

/-- adc-sam3x.c:115-124, staging adc-gd32vf103.c:265-274 (scan): no flag is looked at -/
def sam3x : Step Flags := fun now e s =>
  match e with
  | .hw c => ({ flag := set s.flag c true, data := set s.data c ⟨c, now⟩ }, none)
  | .read i => (s, some (s.data i))

/-! ### Blocks that convert a sequence -/

/-- the channels still to be converted in the sequence that runs; results; renesas: status[], stm32h7xx: DR_mask; end of sequence -/
structure Sq where
  rem : List Nat
  data : Nat → Sample
  mark : Nat → Bool
  eos : Bool

def sq0 : Sq := ⟨[], fun _ => ⟨0, 0⟩, fun _ => false, false⟩

/-- hardware: the next channel of the sequence is converted -/
def hwSq (now : Nat) (s : Sq) : Sq :=
  match s.rem with
  | [] => s
  | c :: r => { s with rem := r, data := set s.data c ⟨c, now⟩, eos := s.eos || r.isEmpty }

/-- adc-renesas_ra4.c:234-254, single scan; `seq`: the channels of the objects that were initialised -/
def renesas (seq : List Nat) : Step Sq := fun now e s =>
  match e with
  | .hw _ => (hwSq now s, none)
  | .read i =>
    if !s.rem.isEmpty then (s, none)
    else if !s.mark i then ({ s with mark := set s.mark i true, rem := seq }, none)
    else ({ s with mark := set s.mark i false }, some (s.data i))

/-- adc-stm32h7xx_sar.c:524-560, single conversions; the DMA copies a result as soon as it is there; data caches are not modelled -/
def stm32 (seq : List Nat) : Step Sq := fun now e s =>
  match e with
  | .hw _ => (hwSq now s, none)
  | .read i =>
    if s.mark i then ({ s with mark := set s.mark i false }, some (s.data i))
    else if !s.rem.isEmpty then (s, none)
    else if !s.eos then ({ s with rem := seq }, none)
    else ({ s with eos := false, mark := set (fun _ => true) i false }, some (s.data i))

/-! ### nxp_eqadc: the commands -/

/-- incr_read, incr_write, byte_count / 4 of fill_xfer; of drain_xfer (`none`: not written); the commands -/
structure Eq where
  fillRead : Bool
  fillWrite : Bool
  fillN : Nat
  drain : Option (Bool × Bool)
  cmd : List Nat
  deriving DecidableEq, Repr

/-- adc_nxp_eqadc_register_cc, staging adc-nxp_eqadc.c:136-173: lines 159, 162, then 167, 170 -/
def eqRegister (s : Eq) (channel : Nat) : Eq :=
  let s := { s with cmd := s.cmd ++ [channel] }
  let s := { s with fillRead := true, fillN := s.cmd.length, fillWrite := false }
  let s := { s with fillRead := false }
  { s with fillWrite := true }

/-- hardware: the words that a transfer writes: number of the command FIFO (CFPR[k]), channel -/
def eqFill (s : Eq) : List (Nat × Nat) :=
  (List.range s.fillN).map fun k => (if s.fillWrite then k else 0, (s.cmd[if s.fillRead then k else 0]?).getD 0)

/-- the commands that reach the converter: those of FIFO 0, the only one that is started -/
def eqRuns (s : Eq) : List Nat := (eqFill s).filterMap fun w => if w.1 = 0 then some w.2 else none

/-! ### Specification -/

/-- `x` is a conversion of the channel of `i`, made after the last value that was delivered to `i` (among `out`), after the start in any case -/
def Since (out : List Del) (i : Nat) (x : Sample) : Prop := x.ch = i ∧ 0 < x.t ∧ ∀ d ∈ out, d.i = i → d.t < x.t

/-- every value delivered is a conversion of the channel of the object that gets it, made since the last value it got -/
def Good (out : List Del) : Prop := ∀ a d b, out = a ++ d :: b → Since a d.i d.x

/-- every value delivered is a conversion of the channel of the object that gets it -/
def Own (out : List Del) : Prop := ∀ d ∈ out, d.x.ch = d.i

/-- the objects take turns: while one waits for its value (`q`), no other one is read -/
def Turns {S : Type} (step : Step S) : Option Nat → W S → List Ev → Prop
  | _, _, [] => True
  | q, w, .hw c :: l => Turns step q (ev step w (.hw c)) l
  | q, w, .read i :: l => (q = none ∨ q = some i) ∧ Turns step (if (step w.now (.read i) w.s).2.isSome then none else some i) (ev step w (.read i)) l

end Pico.Adc
