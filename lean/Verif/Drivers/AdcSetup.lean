/-
The ADC drivers (C88): what the set-up of channels writes to the registers.  Registers are zero after a reset; what their fields mean is from the manuals (trusted):
the decoding functions (`*Seq`, `*Smp`, `*Mux`, ...) are the specification side.
-/
import Verif.Drivers.Field
namespace Pico.AdcSetup
open Field

/-! ### stm32h7xx: the sequence and the sampling times -/

/-- SQR1..SQR4, channel_count, PCSEL, drain_xfer.byte_count -/
structure Stm where
  sqr : Nat → BitVec 32
  count : Nat
  pcsel : BitVec 32
  bytes : Nat

def stm0 : Stm := ⟨fun _ => 0, 0, 0, 0⟩

/-- the switch of adc-stm32h7xx_sar.c:444-464 with the macros of 141-176: register and shift -/
def stmSlot : Nat → Option (Nat × Nat)
  | 15 => some (3, 6) | 14 => some (3, 0)
  | 13 => some (2, 24) | 12 => some (2, 18) | 11 => some (2, 12) | 10 => some (2, 6) | 9 => some (2, 0)
  | 8 => some (1, 24) | 7 => some (1, 18) | 6 => some (1, 12) | 5 => some (1, 6) | 4 => some (1, 0)
  | 3 => some (0, 24) | 2 => some (0, 18) | 1 => some (0, 12) | 0 => some (0, 6)
  | _ => none

def upd {α : Type} (f : Nat → α) (i : Nat) (v : α) : Nat → α := fun j => if j = i then v else f j

/-- adc_stm32h7xx_sar_adc_init, adc-stm32h7xx_sar.c:426-473; the index given to the object is `count` before the call -/
def stmInit (s : Stm) (ch : Nat) : Option Stm :=
  if ch < 20 then
    (stmSlot s.count).map fun (r, t) =>
      let sqr := upd s.sqr r (orIn 5 t (BitVec.ofNat 32 ch) (s.sqr r))
      let sqr := upd sqr 0 (put 4 0 (BitVec.ofNat 32 s.count) (sqr 0))
      ⟨sqr, s.count + 1, s.pcsel ||| (1 <<< ch), (s.count + 1) * 4⟩
  else none

def stmInits : List Nat → Stm → Option Stm
  | [], s => some s
  | c :: l, s => (stmInit s c).bind (stmInits l)

/-- the manual: SQ1 to SQ4 are at 6, 12, 18, 24 in SQR1, SQ5 to SQ9 at 0, 6, ... in SQR2, and so on; L + 1 conversions -/
def stmSeq (sqr : Nat → BitVec 32) : List Nat :=
  (List.range ((get 4 0 (sqr 0)).toNat + 1)).map fun j => (get 5 (6 * ((j + 1) % 5)) (sqr ((j + 1) / 5))).toNat

/-- adc_stm32h7xx_sar_adc_setup, adc-stm32h7xx_sar.c:485-513: SMPR1, SMPR2 -/
def stmSetup (ch smp : Nat) (s : BitVec 32 × BitVec 32) : Option (BitVec 32 × BitVec 32) :=
  if smp < 8 then
    if ch < 9 then some (put 3 (ch * 3) (BitVec.ofNat 32 smp) s.1, s.2)
    else some (s.1, put 3 ((ch - 9) * 3) (BitVec.ofNat 32 smp) s.2)
  else none

/-- the manual: SMP0 to SMP9 in SMPR1, SMP10 to SMP19 in SMPR2 -/
def stmSmp (ch : Nat) (s : BitVec 32 × BitVec 32) : Nat := if ch < 10 then (get 3 (ch * 3) s.1).toNat else (get 3 ((ch - 10) * 3) s.2).toNat

/-! ### gd32vf103: the regular sequence -/

/-- ADC_RSQ0, ADC_RSQ1, ADC_RSQ2; rsq_count -/
structure Gd where
  rsq : Nat → BitVec 32
  count : Nat

def gd0 : Gd := ⟨fun _ => 0, 0⟩

/-- set_rsq, register_channel, staging adc-gd32vf103.c:154-203 -/
def gdInit (s : Gd) (ch : Nat) : Option Gd :=
  if ch < 18 ∧ s.count < 16 then
    let rsq := if s.count < 6 then upd s.rsq 2 (put 5 (s.count * 5) (BitVec.ofNat 32 ch) (s.rsq 2))
      else if s.count < 12 then upd s.rsq 1 (put 5 ((s.count - 6) * 5) (BitVec.ofNat 32 ch) (s.rsq 1))
      else upd s.rsq 0 (put 5 ((s.count - 12) * 5) (BitVec.ofNat 32 ch) (s.rsq 0))
    some ⟨upd rsq 0 (put 4 20 (BitVec.ofNat 32 (s.count + 1)) (rsq 0)), s.count + 1⟩
  else none

def gdInits : List Nat → Gd → Option Gd
  | [], s => some s
  | c :: l, s => (gdInit s c).bind (gdInits l)

/-- the manual: the j-th channel of the sequence: six fields of 5 bits in each of RSQ2, RSQ1, RSQ0 -/
def gdField (rsq : Nat → BitVec 32) (j : Nat) : Nat := (get 5 (j % 6 * 5) (rsq (2 - j / 6))).toNat

/-- the manual: RL + 1 conversions -/
def gdSeq (rsq : Nat → BitVec 32) : List Nat := (List.range ((get 4 20 (rsq 0)).toNat + 1)).map (gdField rsq)

/-! ### atmel_afec: the user sequence and the prescaler -/

/-- AFEC_SEQ1R, AFEC_SEQ2R; AFEC_CHSR; seq -/
structure Af where
  seq1 : BitVec 32
  seq2 : BitVec 32
  chsr : BitVec 32
  count : Nat

def af0 : Af := ⟨0, 0, 0, 0⟩

/-- seq_add, adc_atmel_afec_adc_init, adc-atmel_afec.c:177-234 -/
def afInit (s : Af) (ch : Nat) : Option Af :=
  if ch < 12 ∧ s.count < 12 then
    let s' := if s.count < 8 then { s with seq1 := put 4 (s.count * 4) (BitVec.ofNat 32 ch) s.seq1 }
      else { s with seq2 := put 4 ((s.count - 8) * 4) (BitVec.ofNat 32 ch) s.seq2 }
    some { s' with chsr := s.chsr ||| (1 <<< s.count), count := s.count + 1 }
  else none

def afInits : List Nat → Af → Option Af
  | [], s => some s
  | c :: l, s => (afInit s c).bind (afInits l)

/-- the manual, USEQ = 1: the channels of the positions that are enabled, in order -/
def afSeq (s : Af) : List Nat :=
  ((List.range 12).filter fun j => s.chsr.getLsbD j).map fun j => if j < 8 then (get 4 (j * 4) s.seq1).toNat else (get 4 ((j - 8) * 4) s.seq2).toNat

/-- adc_atmel_afec_init, adc-atmel_afec.c:131-163: AFEC_MR.PRESCAL (8 bits) -/
def afPrescal (f : Nat) : Nat := (f / 20000000 + 256 - 1) % 256

/-- the manual: the AFE clock is f / (PRESCAL + 1) -/
def AfClockOk (f : Nat) : Prop := 4000000 * (afPrescal f + 1) ≤ f ∧ f ≤ 40000000 * (afPrescal f + 1)

/-! ### avr: the multiplexer -/

/-- adc_avr_set_mux, adc-avr.c:90-103: ADMUX, ADCSRB -/
def avrMux (ch : Nat) (s : BitVec 8 × BitVec 8) : BitVec 8 × BitVec 8 :=
  (orIn 4 0 (BitVec.ofNat 8 ch) (clear 4 0 s.1), (s.2 &&& ~~~ 8#8) ||| (8#8 &&& BitVec.ofNat 8 ch))

/-- the manual (2560): MUX4:0 in ADMUX, MUX5 is bit 3 of ADCSRB -/
def avrSel (s : BitVec 8 × BitVec 8) : Nat := (get 5 0 s.1).toNat + 32 * (s.2.getLsbD 3).toNat

/-! ### tinyavr: the prescaler -/

/-- adc_tinyavr_setup, adc-tinyavr.c:89-113: the division factor; `none`: -EINVAL -/
def tinyDiv (clk f : Nat) : Option Nat :=
  let pdiv := clk / f
  if pdiv > 128 then some 256
  else if pdiv > 64 then some 128
  else if pdiv > 32 then some 64
  else if pdiv > 16 then some 32
  else if pdiv > 8 then some 16
  else if pdiv > 4 then some 8
  else if pdiv > 2 then some 4
  else if pdiv > 1 then some 2
  else none

/-! ### renesas_ra4, nxp_sar: the channels that are scanned -/

/-- adc_renesas_ra4_adc_init, adc-renesas_ra4.c:218-220: ADANSA0, ADANSA1 -/
def raInit (ch : Nat) (s : BitVec 16 × BitVec 16) : Option (BitVec 16 × BitVec 16) :=
  if ch < 28 then some (if ch ≤ 14 then (s.1 ||| (1 <<< ch), s.2) else (s.1, s.2 ||| (1 <<< (ch % 16)))) else none

/-- the manual: AN000 to AN014 in ADANSA0, AN016 and after in ADANSA1 -/
def raScan (s : BitVec 16 × BitVec 16) (ch : Nat) : Bool := if ch < 16 then s.1.getLsbD ch else s.2.getLsbD (ch - 16)

/-- adc_nxp_sar_adc_init, adc-nxp_sar.c:110-126: NCMR[] -/
def sarInit (ch : Nat) (s : Nat → BitVec 32) : Option (Nat → BitVec 32) :=
  if ch < 96 then some (upd s (ch / 32) (s (ch / 32) ||| (1 <<< (ch % 32)))) else none

def sarScan (s : Nat → BitVec 32) (ch : Nat) : Bool := (s (ch / 32)).getLsbD (ch % 32)

/-! ### pic32mx: input modes and triggers -/

/-- set_input_mode, adc-pic32mx.c:362-402: ADCIMCON[]; the numbers of the bits are used as masks -/
def picMode (ch : Nat) (signed diff : Bool) (s : Nat → BitVec 32) : Nat → BitVec 32 :=
  let index := ch / 16
  let sign := BitVec.ofNat 32 (ch % 16 * 2)
  let dif := BitVec.ofNat 32 (ch % 16 * 2 + 1)
  let r := s index
  let r := if signed then r ||| sign else r &&& ~~~ sign
  let r := if diff then r ||| dif else r &&& ~~~ dif
  upd s index r

/-- the manual: SIGNx is bit 2x, DIFFx bit 2x + 1 of ADCIMCON1.. (16 channels in each) -/
def picSigned (s : Nat → BitVec 32) (ch : Nat) : Bool := (s (ch / 16)).getLsbD (ch % 16 * 2)
def picDiff (s : Nat → BitVec 32) (ch : Nat) : Bool := (s (ch / 16)).getLsbD (ch % 16 * 2 + 1)

/-- set_trgsrc_and_lvl, adc-pic32mx.c:419-423: ADCTRG[] -/
def picTrig (ch src : Nat) (s : Nat → BitVec 32) : Nat → BitVec 32 := upd s (ch / 4) ((BitVec.ofNat 32 src &&& mask 32 5) <<< (ch % 4 * 8))

/-- the manual: four fields of 5 bits in each register -/
def picSrc (s : Nat → BitVec 32) (ch : Nat) : Nat := (get 5 (ch % 4 * 8) (s (ch / 4))).toNat

end Pico.AdcSetup
