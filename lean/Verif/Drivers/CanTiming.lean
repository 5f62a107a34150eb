import Verif.Drivers.CanBits
/-
Bit timing programmed by can_setup (C71): set_bitrate of
  drivers/can/can-bosch_mcan.c, can-nxp_flexcan.c, can-sam3x.c, can-ti_dcan.c, staging/drivers/can/can-pic32mx.c, can-gd32vf103.c

`*Regs` is what the driver writes (C operators on its macros); `*Hw` is what the controller makes of it (reference manuals): the input
clock is divided by `presc`, a bit lasts `quanta` periods of the result, and is sampled at the end of the `sample`-th one.
size_t and unsigned long are 32 bits on all the boards that have these controllers; clock_get_freq gives 0 ≤ freq < 2^31 (an int).
-/
namespace Pico.Can

structure Timing where
  presc : Nat
  quanta : Nat
  sample : Nat
  deriving DecidableEq, Repr

/-- the loop of set_bitrate (can-bosch_mcan.c:635-650, can-nxp_flexcan.c:260-275, can-sam3x.c:192-208, can-ti_dcan.c:277-293, can-pic32mx.c:316-332 with `mult` 2,
can-gd32vf103.c:217-233): `fuel` iterations from `brp`. A division by zero (undefined in C) is 0 here: see `no_wrap`. -/
def search {α : Type} (mult tqMin tqMax : Nat) (segs : Nat → Nat → Option α) (freq bitrate : Nat) : Nat → Nat → Option α
  | 0, _ => none
  | fuel + 1, brp =>
    let div := brp * bitrate % 2 ^ 32 * mult % 2 ^ 32
    let tq := freq / div
    if freq % div ≠ 0 then search mult tqMin tqMax segs freq bitrate fuel (brp + 1)
    else if tq < tqMin ∨ tqMax < tq then search mult tqMin tqMax segs freq bitrate fuel (brp + 1)
    else match segs brp tq with
      | some r => some r
      | none => search mult tqMin tqMax segs freq bitrate fuel (brp + 1)

inductive Err where
  | einval
  | eio
  deriving DecidableEq, Repr

/-- set_bitrate (can-bosch_mcan.c:621-655 and the others); `last`: the value returned when nothing fits -/
def setBitrate {α : Type} (last : Err) (brpMax mult tqMin tqMax : Nat) (segs : Nat → Nat → Option α) (freq bitrate : Nat) : Except Err α :=
  if bitrate = 0 then .error .einval
  else if freq % bitrate ≠ 0 then .error .eio
  else match search mult tqMin tqMax segs freq bitrate brpMax 1 with
    | some r => .ok r
    | none => .error last

/-- div_round_closest(tq * 64, 73) with tq the quanta after SYNC_SEG -/
def seg87 (tq : Nat) : Nat := (tq * 64 + (73 >>> 1)) / 73

/-! ### can-bosch_mcan.c:568-619 -/

def mcanRegs (brp tq : Nat) : Option (Nat × Nat) :=
  let tq := tq - 1
  let tseg1 := seg87 tq
  let tseg2 := tq - tseg1
  let sjw := (tseg2 + 2 ^ 32 - 1) % 2 ^ 32
  if tseg1 < 1 ∨ tseg1 > 0x1f + 1 ∨ tseg2 < 1 ∨ tseg2 > 0xf + 1 ∨ sjw < 1 ∨ sjw > 0xf + 1 then none
  else some (fld 0x1f 16 (brp - 1) ||| fld 0x1f 8 (tseg1 - 1) ||| fld 0xf 4 (tseg2 - 1) ||| fld 0xf 0 (sjw - 1),
    fld 0x7f 25 (sjw - 1) ||| fld 0x1ff 16 (brp - 1) ||| fld 0xff 8 (tseg1 - 1) ||| fld 0x7f 0 (tseg2 - 1))

def mcanSetBitrate := setBitrate .einval (0x1f + 1) 1 1 (0x1f + 1 + (0xf + 1) + 3) mcanRegs

/-- M_CAN user's manual, NBTP: bits 16-24 NBRP, 8-15 NTSEG1, 0-6 NTSEG2, all minus one -/
def mcanHwN (nbtp : Nat) : Timing := ⟨bits nbtp 16 9 + 1, 1 + (bits nbtp 8 8 + 1) + (bits nbtp 0 7 + 1), 1 + (bits nbtp 8 8 + 1)⟩
/-- DBTP: bits 16-20 DBRP, 8-12 DTSEG1, 4-7 DTSEG2 -/
def mcanHwD (dbtp : Nat) : Timing := ⟨bits dbtp 16 5 + 1, 1 + (bits dbtp 8 5 + 1) + (bits dbtp 4 4 + 1), 1 + (bits dbtp 8 5 + 1)⟩

/-! ### can-nxp_flexcan.c:185-244 (`clksrc`: bit 13 of CTRL1, kept) -/

def flexcanRegs (clksrc : Nat) (brp tq : Nat) : Option Nat :=
  let tq := tq - 1
  let p := seg87 tq
  let propseg := if p > 8 then p - 8 else 1
  let pseg1 := if p > 8 then p - propseg else p
  if propseg > 8 then none
  else
    let pseg2 := (tq + 2 ^ 32 - (propseg + pseg1)) % 2 ^ 32
    if propseg < 1 ∨ propseg > 8 ∨ pseg1 < 1 ∨ pseg1 > 8 ∨ pseg2 < 1 ∨ pseg2 > 8 then none
    else some (clksrc <<< 13 ||| (fld 0xff 24 (brp - 1) ||| fld 0x3 22 0 ||| fld 0x7 0 (propseg - 1) ||| fld 0x7 19 (pseg1 - 1) ||| fld 0x7 16 (pseg2 - 1)))

def flexcanSetBitrate (clksrc : Nat) := setBitrate .einval (0xff + 1) 1 16 25 (flexcanRegs clksrc)

/-- FlexCAN CTRL1: bits 24-31 PRESDIV, 19-21 PSEG1, 16-18 PSEG2, 0-2 PROPSEG, all minus one -/
def flexcanHw (w : Nat) : Timing := ⟨bits w 24 8 + 1, 1 + (bits w 0 3 + 1) + (bits w 19 3 + 1) + (bits w 16 3 + 1), 1 + (bits w 0 3 + 1) + (bits w 19 3 + 1)⟩

/-! ### can-sam3x.c:124-177 -/

def sam3xRegs (brp tq : Nat) : Option Nat :=
  let tq := tq - 1
  let p := seg87 tq
  let propag := if p > 8 then p - 8 else 0
  let phase1 := p - propag
  if propag > 8 then none
  else
    let phase2 := (tq + 2 ^ 32 - (propag + phase1)) % 2 ^ 32
    if propag < 1 ∨ propag > 8 ∨ phase1 < 1 ∨ phase1 > 8 ∨ phase2 < 1 ∨ phase2 > 8 then none
    else some (fld 0x7f 16 (brp - 1) ||| fld 0x3 12 0 ||| fld 0x7 8 (propag - 1) ||| fld 0x7 4 (phase1 - 1) ||| fld 0x7 0 (phase2 - 1))

def sam3xSetBitrate := setBitrate .einval (0x7f + 1) 1 8 25 sam3xRegs

/-- SAM3X CAN_BR: bits 16-22 BRP, 8-10 PROPAG, 4-6 PHASE1, 0-2 PHASE2, all minus one -/
def sam3xHw (w : Nat) : Timing := ⟨bits w 16 7 + 1, 1 + (bits w 8 3 + 1) + (bits w 4 3 + 1) + (bits w 0 3 + 1), 1 + (bits w 8 3 + 1) + (bits w 4 3 + 1)⟩

/-! ### can-pic32mx.c:247-301 -/

def pic32mxRegs (brp tq : Nat) : Option Nat :=
  let tq := tq - 1
  let p := seg87 tq
  let prseg := if p > 8 then p - 8 else 0
  let seg1ph := p - prseg
  if prseg > 8 then none
  else
    let seg2ph := (tq + 2 ^ 32 - (prseg + seg1ph)) % 2 ^ 32
    if prseg < 1 ∨ prseg > 8 ∨ seg1ph < 1 ∨ seg1ph > 8 ∨ seg2ph < 1 ∨ seg2ph > 8 then none
    else some (fld 0x3f 0 (brp - 1) ||| fld 0x3 6 0 ||| fld 0x7 8 (prseg - 1) ||| fld 0x7 11 (seg1ph - 1) ||| 1 <<< 15 ||| fld 0x7 16 (seg2ph - 1))

def pic32mxSetBitrate := setBitrate .einval (0x3f + 1) 2 8 25 pic32mxRegs

/-- PIC32MX CiCFG: bits 0-5 BRP (a quantum is 2 (BRP + 1) clocks), 8-10 PRSEG, 11-13 SEG1PH, 16-18 SEG2PH, all minus one -/
def pic32mxHw (w : Nat) : Timing :=
  ⟨2 * (bits w 0 6 + 1), 1 + (bits w 8 3 + 1) + (bits w 11 3 + 1) + (bits w 16 3 + 1), 1 + (bits w 8 3 + 1) + (bits w 11 3 + 1)⟩

/-! ### can-ti_dcan.c:217-260 -/

def dcanRegs (brp tq : Nat) : Option Nat :=
  let tq := tq - 1
  let tseg1 := (seg87 tq + 2 ^ 32 - 3) % 2 ^ 32
  let tseg2 := (tq + 2 ^ 32 - tseg1) % 2 ^ 32
  if tseg1 < 2 ∨ tseg1 > 16 ∨ tseg2 < 1 ∨ tseg2 > 8 then none
  else some (fld 0xf 16 ((brp - 1) >>> 5) ||| fld 0x7 12 (tseg2 - 1) ||| fld 0xf 8 (tseg1 - 1) ||| fld 0x3 6 0x3 ||| fld 0x3f 0 (brp - 1))

def dcanSetBitrate := setBitrate .eio 1024 1 8 25 dcanRegs

/-- F2837xD DCAN CAN_BTR: bits 0-5 BRP, 16-19 BRPE (the four most significant bits of the prescaler), 8-11 TSEG1, 12-14 TSEG2, all minus one -/
def dcanHw (w : Nat) : Timing := ⟨(bits w 16 4 * 64 + bits w 0 6) + 1, 1 + (bits w 8 4 + 1) + (bits w 12 3 + 1), 1 + (bits w 8 4 + 1)⟩

/-! ### can-gd32vf103.c:160-202 -/

def gd32Regs (psc tq : Nat) : Option Nat :=
  let tq := tq - 1
  let bs1 := seg87 tq
  if bs1 > 16 then none
  else
    let bs2 := (tq + 2 ^ 32 - bs1) % 2 ^ 32
    if bs1 < 1 ∨ bs1 > 16 ∨ bs2 < 1 ∨ bs2 > 8 then none
    else some (fld 0x3 24 1 ||| fld 0xf 16 (bs1 - 1) ||| fld 0x7 20 (bs2 - 1) ||| fld 0x3ff 0 psc)

def gd32SetBitrate := setBitrate .einval 0x3ff 1 8 25 gd32Regs

/-- GD32VF103 CAN_BT: bits 0-9 BAUDPSC, 16-19 BS1, 20-22 BS2, all minus one -/
def gd32Hw (w : Nat) : Timing := ⟨bits w 0 10 + 1, 1 + (bits w 16 4 + 1) + (bits w 20 3 + 1), 1 + (bits w 16 4 + 1)⟩

/-! ### Specification -/

/-- the controller does `bitrate` bits per second exactly -/
def Exact (t : Timing) (freq bitrate : Nat) : Prop := freq = t.presc * t.quanta * bitrate

/-- sampled within one quantum of 87.5 % of the bit -/
def SampleOk (t : Timing) : Prop := 7 * t.quanta ≤ 8 * t.sample + 8 ∧ 8 * t.sample ≤ 7 * t.quanta + 8 ∧ t.sample < t.quanta

end Pico.Can
