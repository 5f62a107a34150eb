/-
The ADC drivers (C87): the value given for a result (multiplier, divider, offset: adc.h:10-14) and the number of values given (adc_read_multiple).

`w` is the width of `int`: 16 on avr, tinyavr, mc9s08, n76e003, ch552 and ti (C28x), 32 elsewhere.
-/
namespace Pico.AdcScale

/-! ### int -/

def fits (w : Nat) (x : Int) : Bool := decide (-(2 ^ (w - 1)) ≤ x) && decide (x < 2 ^ (w - 1))

/-- the conversion (int)result of an unsigned result: modulo 2^w (implementation-defined in C, so on these compilers) -/
def toInt (w : Nat) (raw : Nat) : Int := (BitVec.ofNat w raw).toInt

/-- the product, the quotient and the sum of two int; `none`: undefined -/
def cmul (w : Nat) (a b : Int) : Option Int := if fits w (a * b) then some (a * b) else none
def cdiv (w : Nat) (a b : Int) : Option Int := if b = 0 then none else if fits w (a.tdiv b) then some (a.tdiv b) else none
def cadd (w : Nat) (a b : Int) : Option Int := if fits w (a + b) then some (a + b) else none

/-- `((int)result * ctx->multiplier) / ctx->divider + ctx->offset`:
adc-avr.c:156, adc-tinyavr.c:181, adc-atmel_afec.c:261, adc-nxp_sar.c:151, adc-pic32mx.c:567, adc-renesas_ra4.c:251, adc-rp2040.c:130, adc-sam3x.c:122, adc-same5x.c:177,
adc-stm32h7xx_sar.c:556, adc-ti_type4.c:411, staging adc-ch552.c:67, adc-gd32vf103.c:260, 271, adc-mc9s08ptxx.c:112, adc-n76e003_sar.c:100, adc-nxp_eqadc.c:281 -/
def scale (w raw : Nat) (m d o : Int) : Option Int := do
  let p ← cmul w (toInt w raw) m
  let q ← cdiv w p d
  cadd w q o

/-- the settings of an object: multiplier, divider, offset -/
structure Set where
  m : Int
  d : Int
  o : Int

/-- adc_*_adc_init of every driver but mc9s08ptxx (adc-avr.c:123-125, ...) -/
def init : Set := ⟨1, 1, 0⟩

/-- adc_mc9s08ptxx_adc_init, staging adc-mc9s08ptxx.c:69-90: does not write them; an object in static memory has zeros -/
def initMc (s : Set) : Set := s

/-- adc_setup of every driver (adc-avr.c:165-172, ...): no check -/
def setup (_ : Set) (n : Set) : Set := n

def value (w : Nat) (s : Set) (raw : Nat) : Option Int := scale w raw s.m s.d s.o

/-! ### ti_type4: the start-of-conversion units -/

/-- request_samples, adc-ti_type4.c:104-119, and adc_ti_type4_adc_init, 298-332: units taken, the ranges [soc_start, soc_end] given, the last one first; `none`: an error -/
def tiInit (s : Nat × List (Nat × Nat)) (n : Nat) : Option (Nat × List (Nat × Nat)) :=
  if n = 0 ∨ 16 < n ∨ 16 < s.1 + n then none else some (s.1 + n, (s.1, s.1 + n - 1) :: s.2)

/-- adc_read_multiple, adc-ti_type4.c:392-417, when the conversions have ended: the values, in order, and the number returned -/
def tiMultiple (start stop n : Nat) (res : Nat → Nat) : Option (List Nat × Nat) :=
  if n = 0 ∨ 16 < n then none
  else
    let max := min (stop + 1) (start + n)
    some ((List.range' start (max - start)).map res, if start < max then max else start)

/-- adc_read_multiple of the other drivers (adc-avr.c:189-194, ...): adc_read -/
def otherMultiple (n : Nat) (res : Nat) : Option (List Nat × Nat) := if n = 0 then none else some ([res], 1)

/-- trig_soft, adc-ti_type4.c:365-375 (16-bit words; the unit 15 shifts 1 by 16, which is taken to give 0) -/
def tiTrig (start stop : Nat) : BitVec 16 := ((1#16 <<< (stop + 1)) - 1#16) &&& ~~~ ((1#16 <<< start) - 1#16)

end Pico.AdcScale
