/-
The UART drivers (C82): set_baudrate of
  drivers/uart: arm_pl011, atmel_sercom, atsamx7x, atsamx7x_usart (and _irqdriven), avr (and _irqdriven), gd32vf103, nxp_linflexd, pic32mx, renesas_ra4_sci, sam3x,
  stm32h7xx, tinyavr_usart
  staging/drivers/uart: 8051, 8051_irqdriven, mc9s08ptxx_sci, n76e003 (and _irqdriven)

`F`: frequency of the clock (clock_get_freq, positive), `b`: baud rate asked.  `unsigned long` has 32 bits; registers narrower than the value written are explicit `%`.
The result is the length of a bit on the line as the manuals give it, `num / den` cycles of the clock (`num = 0`: the generator is stopped); `none` is an error return
or a trap.  Debug build (picoRTOS_assert returns).  What the registers mean is trusted.
-/
namespace Pico.UartRate

/-- a bit lasts num / den cycles -/
structure Div where
  num : Nat
  den : Nat
  deriving DecidableEq, Repr

/-- unsigned long -/
def m32 (x : Nat) : Nat := x % 2 ^ 32

/-- uart-atsamx7x.c:89-102, uart-sam3x.c:71-84; CD has 16 bits, a bit is 16 * CD cycles, CD = 0 stops the generator -/
def sam (F b : Nat) : Option Div := some ⟨16 * (F / m32 (b * 16) % 65536), 1⟩

/-- uart-atsamx7x_usart.c:168-183, uart-atsamx7x_usart_irqdriven.c:212-227: the same, rounded; OVER = 0, SYNC = 0 -/
def usart (F b : Nat) : Option Div := some ⟨16 * (m32 (F + m32 (b * 16) / 2) / m32 (b * 16) % 65536), 1⟩

/-- uart-avr.c:64-77, uart-avr_irqdriven.c:135-148; U2X: a bit is 8 * (UBRR + 1) cycles, UBRR has 12 bits -/
def avr (F b : Nat) : Option Div := some ⟨8 * (m32 (F / 8 / b + (2 ^ 32 - 1)) % 2 ^ 16 % 4096 + 1), 1⟩

/-- uart-pic32mx.c:76-89; BRGH = 0: a bit is 16 * (BRG + 1) cycles -/
def pic32 (F b : Nat) : Option Div := some ⟨16 * (m32 (F / m32 (b * 16) + (2 ^ 32 - 1)) % 65536 + 1), 1⟩

/-- uart-tinyavr_usart.c:85-98; normal mode: a bit is 16 * BAUD / 64 cycles -/
def tinyavr (F b : Nat) : Option Div := some ⟨16 * (m32 (F / 16 / b * 64) % 65536), 64⟩

/-- staging uart-mc9s08ptxx_sci.c:80-95; 13 bits, a bit is 16 * SBR cycles -/
def mc9 (F b : Nat) : Option Div :=
  let sbr := F / 16 / b
  some ⟨16 * (sbr / 256 % 32 * 256 + sbr % 256), 1⟩

/-- the loop of uart-renesas_ra4_sci.c:129-139; a bit is 32 * 4^n * (BRR + 1) cycles -/
def raLoop (F b : Nat) : List Nat → Option Div
  | [] => none
  | cks :: l =>
    let brr := m32 (F / m32 (64 * cks / 2 * b) + (2 ^ 32 - 1))
    if brr ≤ 0xff then some ⟨32 * cks * (brr + 1), 1⟩ else raLoop F b l

/-- uart-renesas_ra4_sci.c:117-142 -/
def renesas (F b : Nat) : Option Div := raLoop F b [1, 4, 16, 64]

/-- the loop of uart-stm32h7xx.c:197-206; OVER8 = 0: a bit is prescaler * BRR cycles, BRR below 16 is not allowed -/
def stmLoop (F b : Nat) : List Nat → Option Div
  | [] => none
  | p :: l =>
    let d := F / p / b
    if d ≤ 0xffff then some ⟨if d < 16 then 0 else p * d, 1⟩ else stmLoop F b l

/-- uart-stm32h7xx.c:184-210 -/
def stm32 (F b : Nat) : Option Div := stmLoop F b [1, 2, 4, 6, 8, 10, 12, 16, 32, 64, 128, 256]

/-- uart-nxp_linflexd.c:123-145; a bit is 16 * IBR + FBR cycles, FBR has 4 bits, IBR = 0 stops the generator -/
def lin (F b : Nat) : Option Div :=
  let d := m32 (16 * b)
  let i := F / d % 65536
  some ⟨if i = 0 then 0 else 16 * i + m32 (m32 (F % d * 16) + d / 2) / d % 16, 1⟩

/-- uart-gd32vf103.c:100-116; a bit is 16 * INTDIV + FRADIV cycles; `none`: division by 0 -/
def gd32 (F b : Nat) : Option Div :=
  let d := m32 (16 * b)
  if F / d = 0 then none
  else some ⟨16 * (F / d % 4096) + m32 (F % d * 16) / (F / d) % 16, 1⟩

/-- uart-arm_pl011.c:129-144; a bit is 16 * (DIVINT + DIVFRAC / 64) cycles; DIVINT = 0 is not allowed (no clock) -/
def pl011 (F b : Nat) : Option Div :=
  let d := m32 (16 * b)
  let i := F / d % 65536
  some ⟨if i = 0 then 0 else 64 * i + m32 (F % d * 100) / d % 64, 4⟩

/-- uart-atmel_sercom.c:142-159; SAMPR = 0: the rate is F / 16 * (1 - BAUD / 65536) -/
def sercom (F b : Nat) : Option Div :=
  let f1 := m32 (b * 16)
  if f1 ≤ F then
    let baud := 0x10000 * (1024 - m32 (f1 * 1024) / F) / 1024
    if baud < 0x10000 then some ⟨16 * 65536, 65536 - baud⟩ else none
  else none

/-- timer 1 in mode 2: overflows every 256 - TH1 cycles -/
def th1 (n : Nat) : Nat := 256 - m32 (256 + 2 ^ 32 - n) % 256

/-- timer 3: every 65536 - RH3:RL3 cycles -/
def r3 (n : Nat) : Nat := 65536 - (m32 (65536 + 2 ^ 32 - n) / 256 % 256 * 256 + m32 (65536 + 2 ^ 32 - n) % 256)

/-- staging uart-8051.c:47-70; SMOD = 0: a bit is 32 overflows; the clock given is that of timer 1 -/
def mcs51 (F b : Nat) : Option Div := some ⟨32 * th1 ((F / 32 + b / 2) / b), 1⟩

/-- staging uart-8051_irqdriven.c:125-149: SMOD = 1 -/
def mcs51i (F b : Nat) : Option Div := some ⟨16 * th1 ((F / 16 + b / 2) / b), 1⟩

/-- staging uart-n76e003.c:77-137, UART0 on timer 1: SMOD = 1 -/
def n76t1 (F b : Nat) : Option Div := if F / 16 = 0 then none else some ⟨16 * th1 (F / 16 / b), 1⟩

/-- the same, UART0 on timer 3 -/
def n76t3 (F b : Nat) : Option Div := if F / 16 = 0 then none else some ⟨16 * r3 (F / 16 / b), 1⟩

/-- the same, UART1: T3CON is set to TF3 only, so SMOD_1 = 0: a bit is 32 overflows -/
def n76u1 (F b : Nat) : Option Div := if F / 16 = 0 then none else some ⟨32 * r3 (F / 16 / b), 1⟩

/-! ### Specification -/

/-- a bit lasts 1 / b second, up to `t` (in cycles * baud rate * den): |num / den - F / b| <= t / (b * den) -/
def RateOk (F b : Nat) (d : Div) (t : Nat) : Prop := 0 < d.num ∧ 0 < d.den ∧ d.num * b ≤ d.den * F + t ∧ d.den * F ≤ d.num * b + t

/-- a bit is at most one part in `k` too long or too short -/
def Within (F b : Nat) (d : Div) (k : Nat) : Prop := 0 < d.num ∧ 0 < d.den ∧ k * (d.num * b) ≤ k * (d.den * F) + d.den * F ∧ k * (d.den * F) ≤ k * (d.num * b) + d.den * F

end Pico.UartRate
