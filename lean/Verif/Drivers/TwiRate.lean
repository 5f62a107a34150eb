/-
The TWI drivers (C99): set_bitrate of
  drivers/twi: atmel_sercom, avr, dw_apb_i2c, pic32mx, sam3x, ti_f28x
  staging/drivers/twi: gd32vf103, mc9s08ptxx, n76e003, nxp_i2c, renesas_ra4, stm32h7xx

`F`: frequency of the clock (clock_get_freq, positive, below 2^31), `b`: bit rate asked (positive).  `unsigned long` has 32 bits; registers narrower than
the value written are explicit `%`.  The result is the length of a bit on the bus as the manuals give it, `num / den` cycles of the clock, without the time
the lines take to rise and the stretching of the clock by a slave, which only make it longer; `none` is an error return.  Debug build (picoRTOS_assert returns).
What the registers mean is trusted.
-/
namespace Pico.TwiRate

/-- a bit lasts num / den cycles -/
structure Div where
  num : Nat
  den : Nat
  deriving DecidableEq, Repr

/-- unsigned long -/
def m32 (x : Nat) : Nat := x % 2 ^ 32

/-- the loops of twi-avr.c:109-123: twbr outside, shift = 0, 2, 4, 6 inside -/
def avrFind (F b : Nat) : List (Nat × Nat) → Option Div
  | [] => none
  | (twbr, shift) :: l => if F / (16 + 2 * twbr * 2 ^ shift) = b then some ⟨16 + 2 * (twbr % 256) * 4 ^ (shift / 2 % 4), 1⟩ else avrFind F b l

def avrAll : List (Nat × Nat) := (List.range 256).flatMap (fun t => [(t, 0), (t, 2), (t, 4), (t, 6)])

/-- twi-avr.c:97-128; SCL = clock / (16 + 2 * TWBR * 4^TWPS) -/
def avr (F b : Nat) : Option Div := avrFind F b avrAll

/-- twi-dw_apb_i2c.c:150-181; 16-bit counts; the high time is HCNT + SPKLEN + 7, the low time LCNT + 1; the counts are at least 6 and 8 (hardware);
`spk`: IC_FS_SPKLEN, which the driver leaves as it is -/
def dw (spk F b : Nat) : Option Div :=
  let h := F / b / 2 % 65536
  some ⟨max h 6 + spk + 7 + (max h 8 + 1), 1⟩

/-- twi-atmel_sercom.c:129-153; HSBAUD (above 1 MHz): 2 + 2 * HSBAUD cycles, BAUD: 10 + 2 * BAUD cycles (HSBAUDLOW and BAUDLOW are written 0) -/
def sercom (F b : Nat) : Option Div :=
  let factor1 := m32 (b * 16)
  let baud := m32 (0x10000 * m32 (1024 + (2 ^ 32 - m32 (factor1 * 1024) / F))) / 1024
  let hsbaud := F / b / 2
  if baud < 0x10000 then
    if b > 1000000 then some ⟨2 + 2 * (m32 (hsbaud + (2 ^ 32 - 1)) % 256), 1⟩
    else some ⟨10 + 2 * (m32 (baud + (2 ^ 32 - 1)) % 256), 1⟩
  else none

/-- the loops of twi-sam3x.c:114-122 -/
def samFind (d : Nat) : List (Nat × Nat) → Option Div
  | [] => none
  | (ck, cn) :: l => if cn * 2 ^ ck + 4 = d then some ⟨(cn / 2 * 2 ^ ck + 4) + (cn / 2 * 2 ^ ck + 4), 1⟩ else samFind d l

def samAll : List (Nat × Nat) := (List.range 8).flatMap (fun k => (List.range 256).map (fun c => (k, c)))

/-- twi-sam3x.c:97-127; the low time is CLDIV * 2^CKDIV + 4, the high time CHDIV * 2^CKDIV + 4 -/
def sam (F b : Nat) : Option Div := samFind (F / b) samAll

/-- twi-pic32mx.c:81-98; half a bit is BRG + 2 cycles and 104 ns; BRG has `w` bits (12 or 16); the divisions are by zero for t = 0 or a corrected
bit rate of 0 -/
def pic32 (w F b : Nat) : Option Div :=
  let t := m32 (1000000000 / m32 (b * 2) + (2 ^ 32 - 104))
  let c := 1000000000 / t
  if m32 (b * 2) = 0 ∨ t = 0 ∨ c = 0 then none
  else
    let brg := m32 (F / c + (2 ^ 32 - 2))
    some ⟨2 * (brg % 2 ^ w + 2) * 1000000000 + 208 * F, 1000000000⟩

/-- d of twi-ti_f28x.c:145-148 -/
def tiD (ipsc : Nat) : Nat := if ipsc = 1 then 7 else if ipsc = 2 then 6 else 5

/-- the loop of twi-ti_f28x.c:142-157: prescaler and count -/
def tiLoop (F b : Nat) : List Nat → Option (Nat × Nat)
  | [] => none
  | ipsc :: l =>
    let period := m32 (F / ipsc / b + (2 ^ 32 - tiD ipsc))
    if period < 131072 then some (ipsc, period) else tiLoop F b l

def tiRegs (F b : Nat) : Option (Nat × Nat) := tiLoop F b ((List.range 256).map (· + 1))

/-- twi-ti_f28x.c:130-162, called from twi_setup; a bit is (IPSC + 1) * (ICCL + d + ICCH + d) cycles, d by IPSC; IPSC can only be written when IRS = 0
(manual), and reset() (93-107) has set it: it stays 0 -/
def ti (F b : Nat) : Option Div := (tiRegs F b).map (fun r => ⟨(r.2 / 2 % 65536 + 7) + (r.2 / 2 % 65536 + 7), 1⟩)

/-- staging twi-gd32vf103.c:96-126; standard mode: both halves are CLKC cycles; fast mode with DTCY = 0: the low one is twice the high one;
`none` from 60 MHz on and below 2 MHz -/
def gd (F b : Nat) : Option Div :=
  if F < 2000000 ∨ F > 60000000 then none
  else
    let clkc := F / b / 2
    if clkc ≤ 0xfff then some ⟨if b ≤ 100000 then clkc + clkc else clkc + 2 * clkc, 1⟩ else none

/-- staging twi-gd32vf103.c:107-108: the frequency in MHz told to the interface, from the field's old value -/
def gdClk (old F : Nat) : Nat := (old &&& 0x3f) ||| (F / 1000000 &&& 0x3f)

/-- staging twi-mc9s08ptxx.c:89-94 -/
def mc9Table : List Nat :=
  [20, 22, 24, 26, 28, 30, 34, 40, 28, 32, 36, 40, 44, 48, 56, 68,
   48, 56, 64, 72, 80, 88, 104, 128, 80, 96, 112, 128, 144, 160, 192, 240,
   160, 192, 224, 256, 288, 320, 284, 480, 320, 384, 448, 512, 576, 640, 768, 960,
   640, 768, 896, 1024, 1152, 1280, 1536, 1920, 1280, 1536, 1792, 2048, 2304, 2560, 3072, 3840]

/-- the SCL divider of the manual -/
def mc9Divider (icr : Nat) : Nat := if icr = 38 then 384 else mc9Table.getD icr 0

def mc9Find (b : Nat) : List (Nat × Nat) → Option Div
  | [] => none
  | (mult, icr) :: l => if 2 ^ mult * mc9Table.getD icr 0 = b then some ⟨2 ^ mult * mc9Divider icr, 1⟩ else mc9Find b l

def mc9All : List (Nat × Nat) := (List.range 3).flatMap (fun k => (List.range 64).map (fun c => (k, c)))

/-- staging twi-mc9s08ptxx.c:78-112; SCL = clock / (2^MULT * divider) -/
def mc9 (_F b : Nat) : Option Div := mc9Find b mc9All

/-- staging twi-n76e003.c:46-56; SCL = clock / (4 * (I2CLK + 1)), 8 bits -/
def n76 (F b : Nat) : Option Div := some ⟨4 * (m32 (F / b / 4 + (2 ^ 32 - 1)) % 256 + 1), 1⟩

/-- the SCL divider of the manual: bits 7-6 the multiplier (3 is reserved: 0 here), 5-3 the prescaler, 2-0 the tap -/
def nxpDivider (ibc : Nat) : Nat :=
  let mul := [1, 2, 4, 0].getD (ibc / 64 % 4) 0
  let scl2tap := [4, 4, 6, 6, 14, 30, 62, 126].getD (ibc / 8 % 8) 0
  let tap2tap := [1, 2, 4, 8, 16, 32, 64, 128].getD (ibc / 8 % 8) 0
  let tap := [5, 6, 7, 8, 9, 10, 12, 15].getD (ibc % 8) 0
  mul * (2 * (scl2tap + (tap - 1) * tap2tap + 2))

/-- staging twi-nxp_i2c.c:53-69 -/
def nxp (F b : Nat) : Option Div := if F / b ≤ 0xff then some ⟨nxpDivider (F / b), 1⟩ else none

/-- the loop of staging twi-renesas_ra4.c:158-170; a bit is 2^CKS * ((BRL + 1) + (BRH + 1)) cycles -/
def raLoop (F b : Nat) : List Nat → Option Div
  | [] => none
  | cks :: l =>
    let br := F / b / (2 ^ cks * 2)
    if br ≤ 0x1f then some ⟨2 ^ cks * ((br + 1) + (br + 1)), 1⟩ else raLoop F b l

/-- staging twi-renesas_ra4.c:148-175 -/
def renesas (F b : Nat) : Option Div := raLoop F b [0, 1, 2, 3, 4, 5, 6, 7]

/-- the loop of staging twi-stm32h7xx.c:127-129, from prescaler `k + 1` on: prescaler and half period -/
def stmLoop (F b : Nat) : Nat → Nat → Option (Nat × Nat)
  | 0, _ => none
  | n + 1, k => if F / (k + 1) / b / 2 ≤ 255 then some (k + 1, F / (k + 1) / b / 2) else stmLoop F b n (k + 1)

/-- staging twi-stm32h7xx.c:115-138; a bit is (PRESC + 1) * (SCLL + 1 + SCLH + 1) cycles and `sync` for the synchronization; PRESC has 4 bits, SCLL and SCLH 8.
The loop always ends (`stm_ends`): `F` iterations are enough. -/
def stm (sync F b : Nat) : Option Div :=
  (stmLoop F b (F + 1) 0).map (fun r => ⟨((r.1 + (2 ^ 32 - 1)) % 16 + 1) * ((m32 (r.2 + (2 ^ 32 - 1)) % 256 + 1) + (m32 (r.2 + (2 ^ 32 - 1)) % 256 + 1)) + sync, 1⟩)

/-! ## the specification -/

/-- the bus is not faster than asked (by less than one bit per second) -/
def NotFaster (F b : Nat) (d : Div) : Prop := F * d.den < (b + 1) * d.num

/-- a bit is longer than asked by no more than `k` cycles of the clock -/
def Near (F b k : Nat) (d : Div) : Prop := b * d.num ≤ (F + b * k) * d.den

end Pico.TwiRate
