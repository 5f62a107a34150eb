/-
The UART drivers (C83): the character format set by uart_setup in
  drivers/uart: arm_pl011, atmel_sercom, atsamx7x, atsamx7x_usart (and _irqdriven), avr (and _irqdriven), gd32vf103, nxp_linflexd, pic32mx, renesas_ra4_sci, sam3x,
  stm32h7xx, tinyavr_usart
  staging/drivers/uart: mc9s08ptxx_sci   (8051 and n76e003 write no format at all)

Registers are bit-vectors, every write of the driver is there.  `none` is an error return (debug build, picoRTOS_assert returns).  The frame the registers give on the
line (`*Fmt`) follows the manuals and is trusted.  Baud rates are C82; here set_baudrate appears only where it shares a register or a latch with the format.
-/
namespace Pico.UartFmt

/-- drivers/include/uart.h:40-45: `par` and `cstopb` are the values of the enumerations (0: ignore) -/
structure Settings where
  cs : Nat
  par : Nat
  cstopb : Nat
  deriving DecidableEq, Repr

/-- parity on the line -/
inductive Parity
  | none | odd | even | other
  deriving DecidableEq, Repr

/-- stop bits on the line -/
inductive Stop
  | one | two | other
  deriving DecidableEq, Repr

/-- format of a character on the line -/
structure Fmt where
  data : Nat
  par : Parity
  stop : Stop
  deriving DecidableEq, Repr

/-! ### Specification -/

/-- uart.h:15-21 -/
def askedPar : Nat → Parity
  | 1 => .none
  | 2 => .odd
  | 3 => .even
  | _ => .other

/-- uart.h:29-34 -/
def askedStop : Nat → Stop
  | 1 => .one
  | 2 => .two
  | _ => .other

/-- what was asked for, 0 meaning as it was -/
def want (s : Settings) (f : Fmt) : Fmt where
  data := if s.cs = 0 then f.data else s.cs
  par := if s.par = 0 then f.par else askedPar s.par
  stop := if s.cstopb = 0 then f.stop else askedStop s.cstopb

/-- values of the enumerations -/
def InRange (s : Settings) : Prop := s.par < 4 ∧ s.cstopb < 3

/-! ### uart_setup -/

/-- the body shared by every uart_setup: uart-arm_pl011.c:187-212 and the same in the other drivers -/
def setup {R : Type} (setCs setPar setStop : Nat → R → Option R) (s : Settings) (r : R) : Option R :=
  match (if s.cs ≠ 0 then setCs s.cs r else some r) with
  | none => none
  | some r =>
    match (if s.par ≠ 0 then setPar s.par r else some r) with
    | none => none
    | some r => if s.cstopb ≠ 0 then setStop s.cstopb r else some r

/-- the two assertions at the head of every set_parity -/
def okPar (p : Nat) : Bool := p != 0 && p < 4
/-- the two assertions at the head of every set_cstopb -/
def okStop (p : Nat) : Bool := p != 0 && p < 3

/-! ### arm_pl011 -/

/-- LCR_H, the baud registers as written and as used: a write to LCR_H latches them -/
structure Pl011 where
  lcr : BitVec 32
  brd : Nat
  latched : Nat
  deriving DecidableEq

/-- a write to UARTLCR_H -/
def Pl011.wr (r : Pl011) (v : BitVec 32) : Pl011 := { r with lcr := v, latched := r.brd }

/-- uart-arm_pl011.c:129-144: `v` is the value computed (C82) -/
def pl011Baud (v : Nat) (r : Pl011) : Pl011 := { r with brd := v }

/-- uart-arm_pl011.c:146-155 -/
def pl011Cs (c : Nat) (r : Pl011) : Option Pl011 :=
  if 5 ≤ c ∧ c ≤ 8 then
    let r := r.wr (r.lcr &&& ~~~ 0x60)
    some (r.wr (r.lcr ||| ((BitVec.ofNat 32 (c - 5) &&& 3) <<< 5)))
  else none

/-- uart-arm_pl011.c:157-174 -/
def pl011Par (p : Nat) (r : Pl011) : Option Pl011 :=
  if okPar p then
    if p = 1 then some (r.wr (r.lcr &&& ~~~ 0x2))
    else
      let r := r.wr (r.lcr ||| 0x2)
      if p = 2 then some (r.wr (r.lcr &&& ~~~ 0x4)) else some (r.wr (r.lcr ||| 0x4))
  else none

/-- uart-arm_pl011.c:176-185 -/
def pl011Stop (p : Nat) (r : Pl011) : Option Pl011 :=
  if okStop p then (if p = 2 then some (r.wr (r.lcr ||| 0x8)) else some (r.wr (r.lcr &&& ~~~ 0x8))) else none

/-- uart-arm_pl011.c:187-212; `baud`: the value for the divider, `none` when the baud rate is 0 (ignore) -/
def pl011Setup (baud : Option Nat) (s : Settings) (r : Pl011) : Option Pl011 :=
  setup pl011Cs pl011Par pl011Stop s (match baud with | none => r | some v => pl011Baud v r)

/-- the frame: WLEN 5..8 bits, PEN, EPS (even), SPS (stick), STP2 -/
def pl011Fmt (r : Pl011) : Fmt where
  data := 5 + (r.lcr.getLsbD 5).toNat + 2 * (r.lcr.getLsbD 6).toNat
  par := if r.lcr.getLsbD 1 then (if r.lcr.getLsbD 7 then .other else if r.lcr.getLsbD 2 then .even else .odd) else .none
  stop := if r.lcr.getLsbD 3 then .two else .one

/-! ### atmel_sercom -/

structure Sercom where
  ctrla : BitVec 32
  ctrlb : BitVec 32
  deriving DecidableEq

/-- uart-atmel_sercom.c:161-170 -/
def sercomCs (c : Nat) (r : Sercom) : Option Sercom :=
  if 5 ≤ c ∧ c ≤ 9 then
    let r := { r with ctrlb := r.ctrlb &&& ~~~ 0x7 }
    some { r with ctrlb := r.ctrlb ||| (BitVec.ofNat 32 (c % 8) &&& 7) }
  else none

/-- uart-atmel_sercom.c:172-186 -/
def sercomPar (p : Nat) (r : Sercom) : Option Sercom :=
  if okPar p then
    let r := { r with ctrla := r.ctrla &&& ~~~ 0x0f000000 }
    if p = 1 then some r
    else
      let r := { r with ctrla := r.ctrla ||| 0x01000000 }
      if p = 2 then some { r with ctrlb := r.ctrlb ||| 0x2000 } else some { r with ctrlb := r.ctrlb &&& ~~~ 0x2000 }
  else none

/-- uart-atmel_sercom.c:188-197 -/
def sercomStop (p : Nat) (r : Sercom) : Option Sercom :=
  if okStop p then (if p = 2 then some { r with ctrlb := r.ctrlb ||| 0x40 } else some { r with ctrlb := r.ctrlb &&& ~~~ 0x40 }) else none

/-- uart-atmel_sercom.c:199-227: the result and the registers (SYNCBUSY assumed to clear; after an error, the format bits already written are not modelled);
`baud` is false when set_baudrate fails -/
def sercomSetup (baud : Bool) (s : Settings) (r : Sercom) : Option Sercom × Sercom :=
  let r := { r with ctrla := r.ctrla &&& ~~~ 0x2 }
  if baud then
    match setup sercomCs sercomPar sercomStop s r with
    | none => (none, r)
    | some r => (some { r with ctrla := r.ctrla ||| 0x2 }, { r with ctrla := r.ctrla ||| 0x2 })
  else (none, r)

/-- uart-atmel_sercom.c:128-140: init, from the reset values (0); CTRLA_CMODE is `(1 < 28)`, that is 1 -/
def sercomInit (r : Sercom) : Sercom :=
  let r := { r with ctrla := r.ctrla &&& ~~~ (1 ||| 0x1c) }
  let r := { r with ctrla := r.ctrla ||| 0x4 }
  { r with ctrlb := r.ctrlb ||| 0x30000 }

/-- the frame: CHSIZE 5..7 bits, 0: 8, 1: 9; FORM 0: no parity, 1: parity, PMODE odd; SBMODE -/
def sercomFmt (r : Sercom) : Fmt where
  data := match (r.ctrlb.getLsbD 2), (r.ctrlb.getLsbD 1), (r.ctrlb.getLsbD 0) with
    | false, false, false => 8
    | false, false, true => 9
    | true, false, true => 5
    | true, true, false => 6
    | true, true, true => 7
    | _, _, _ => 0
  par := match (r.ctrla.getLsbD 27), (r.ctrla.getLsbD 26), (r.ctrla.getLsbD 25), (r.ctrla.getLsbD 24) with
    | false, false, false, false => .none
    | false, false, false, true => if r.ctrlb.getLsbD 13 then .odd else .even
    | _, _, _, _ => .other
  stop := if r.ctrlb.getLsbD 6 then .two else .one

/-- DORD: least significant bit first on the line -/
def sercomLsbFirst (r : Sercom) : Bool := r.ctrla.getLsbD 30

/-! ### atsamx7x, sam3x (UART) and atsamx7x_usart -/

/-- uart-atsamx7x.c:104-120, uart-sam3x.c:86-102, uart-atsamx7x_usart.c:196-212, uart-atsamx7x_usart_irqdriven.c:240-256 -/
def samPar (p : Nat) (r : BitVec 32) : Option (BitVec 32) :=
  if okPar p then
    let r := r &&& ~~~ 0xe00
    if p = 1 then some (r ||| 0x800) else if p = 2 then some (r ||| 0x200) else some (r ||| 0)
  else none

/-- uart-atsamx7x.c:122-139, uart-sam3x.c:104-121: cs and stop bits are ignored -/
def samSetup (s : Settings) (r : BitVec 32) : Option (BitVec 32) := if s.par ≠ 0 then samPar s.par r else some r

/-- PAR: 0 even, 1 odd, 2 space, 3 mark, 4.. none (UART) -/
def mrPar (r : BitVec 32) : Parity :=
  match r.getLsbD 11, r.getLsbD 10, r.getLsbD 9 with
  | false, false, false => .even
  | false, false, true => .odd
  | true, false, false => .none
  | _, _, _ => .other

/-- the frame of the UART: always 8 bits, one stop bit -/
def samFmt (r : BitVec 32) : Fmt := ⟨8, mrPar r, .one⟩

/-- uart-atsamx7x_usart.c:185-194, uart-atsamx7x_usart_irqdriven.c:229-238 -/
def usartCs (c : Nat) (r : BitVec 32) : Option (BitVec 32) :=
  if 5 ≤ c ∧ c ≤ 8 then
    let r := r &&& ~~~ 0xc0
    some (r ||| ((BitVec.ofNat 32 (c - 5) &&& 3) <<< 6))
  else none

/-- uart-atsamx7x_usart.c:214-223, uart-atsamx7x_usart_irqdriven.c:258-267 -/
def usartStop (p : Nat) (r : BitVec 32) : Option (BitVec 32) :=
  if okStop p then
    let r := r &&& ~~~ 0x3000
    if p = 2 then some (r ||| 0x2000) else some r
  else none

/-- uart-atsamx7x_usart.c:225-254, uart-atsamx7x_usart_irqdriven.c:269-298: set_cs is called even when cs is 0; set_parity twice -/
def usartSetup (s : Settings) (r : BitVec 32) : Option (BitVec 32) :=
  match usartCs s.cs r with
  | none => none
  | some r =>
    match (if s.par ≠ 0 then samPar s.par r else some r) with
    | none => none
    | some r => setup usartCs samPar usartStop ⟨0, s.par, s.cstopb⟩ r

/-- the frame of the USART (asynchronous, MODE9 = 0): CHRL 5..8 bits, NBSTOP 0: 1, 2: 2 -/
def usartFmt (r : BitVec 32) : Fmt where
  data := if r.getLsbD 17 then 9 else 5 + (r.getLsbD 6).toNat + 2 * (r.getLsbD 7).toNat
  par := mrPar r
  stop := match r.getLsbD 13, r.getLsbD 12 with
    | false, false => .one
    | true, false => .two
    | _, _ => .other

/-! ### avr -/

structure Avr where
  b : BitVec 8
  c : BitVec 8
  deriving DecidableEq

/-- uart-avr.c:79-100, uart-avr_irqdriven.c:150-171 -/
def avrCs (n : Nat) (r : Avr) : Option Avr :=
  if 5 ≤ n ∧ n ≤ 8 then
    let r := { r with b := r.b &&& ~~~ 0x4 }
    let r := { r with c := r.c &&& ~~~ 0x6 }
    match n with
    | 5 => some r
    | 6 => some { r with c := r.c ||| 0x2 }
    | 7 => some { r with c := r.c ||| 0x4 }
    | 8 => some { r with c := r.c ||| 0x6 }
    | _ => none
  else none

/-- uart-avr.c:102-116, uart-avr_irqdriven.c:173-187 -/
def avrPar (p : Nat) (r : Avr) : Option Avr :=
  if okPar p then
    let r := { r with c := r.c &&& ~~~ 0x30 }
    if p = 1 then some r else if p = 2 then some { r with c := r.c ||| 0x30 } else some { r with c := r.c ||| 0x20 }
  else none

/-- uart-avr.c:118-127, uart-avr_irqdriven.c:189-198 -/
def avrStop (p : Nat) (r : Avr) : Option Avr :=
  if okStop p then (if p = 2 then some { r with c := r.c ||| 0x8 } else some { r with c := r.c &&& ~~~ 0x8 }) else none

/-- UCSZ 0..3: 5..8 bits, 7: 9; UPM 0 none, 2 even, 3 odd; USBS -/
def avrFmt (r : Avr) : Fmt where
  data := match r.b.getLsbD 2, r.c.getLsbD 2, r.c.getLsbD 1 with
    | false, h, l => 5 + l.toNat + 2 * h.toNat
    | true, true, true => 9
    | _, _, _ => 0
  par := match r.c.getLsbD 5, r.c.getLsbD 4 with
    | false, false => .none
    | true, false => .even
    | true, true => .odd
    | _, _ => .other
  stop := if r.c.getLsbD 3 then .two else .one

/-! ### tinyavr_usart -/

/-- uart-tinyavr_usart.c:100-120 -/
def tinyCs (n : Nat) (r : BitVec 8) : Option (BitVec 8) :=
  if 5 ≤ n ∧ n ≤ 8 then
    let r := r &&& ~~~ 0x7
    match n with
    | 5 => some (r ||| 0)
    | 6 => some (r ||| 1)
    | 7 => some (r ||| 2)
    | 8 => some (r ||| 3)
    | _ => none
  else none

/-- uart-tinyavr_usart.c:122-135 -/
def tinyPar (p : Nat) (r : BitVec 8) : Option (BitVec 8) :=
  if okPar p then
    let r := r &&& ~~~ 0x30
    if p = 1 then some r else if p = 2 then some (r ||| 0x30) else some (r ||| 0x20)
  else none

/-- uart-tinyavr_usart.c:137-146 -/
def tinyStop (p : Nat) (r : BitVec 8) : Option (BitVec 8) :=
  if okStop p then (if p = 2 then some (r ||| 0x8) else some (r &&& ~~~ 0x8)) else none

/-- CHSIZE 0..3: 5..8 bits, 6 and 7: 9; PMODE; SBMODE -/
def tinyFmt (r : BitVec 8) : Fmt where
  data := match r.getLsbD 2, r.getLsbD 1, r.getLsbD 0 with
    | false, h, l => 5 + l.toNat + 2 * h.toNat
    | true, true, _ => 9
    | _, _, _ => 0
  par := match r.getLsbD 5, r.getLsbD 4 with
    | false, false => .none
    | true, false => .even
    | true, true => .odd
    | _, _ => .other
  stop := if r.getLsbD 3 then .two else .one

/-! ### gd32vf103 and stm32h7xx: the word length counts the parity bit -/

structure Two where
  c0 : BitVec 32
  c1 : BitVec 32
  deriving DecidableEq

/-- uart-gd32vf103.c:118-127 -/
def gdCs (n : Nat) (r : Two) : Option Two :=
  if 8 ≤ n ∧ n ≤ 9 then (if n = 9 then some { r with c0 := r.c0 ||| 0x1000 } else some { r with c0 := r.c0 &&& ~~~ 0x1000 }) else none

/-- uart-gd32vf103.c:129-145, uart-stm32h7xx.c:238-253 (PCE is bit 10, PS bit 9 in both) -/
def gdPar (p : Nat) (r : Two) : Option Two :=
  if okPar p then
    if p = 1 then some { r with c0 := r.c0 &&& ~~~ 0x400 }
    else
      let r := { r with c0 := r.c0 ||| 0x400 }
      if p = 2 then some { r with c0 := r.c0 ||| 0x200 } else some { r with c0 := r.c0 &&& ~~~ 0x200 }
  else none

/-- uart-gd32vf103.c:147-158, uart-stm32h7xx.c:255-266 -/
def gdStop (p : Nat) (r : Two) : Option Two :=
  if okStop p then
    let r := { r with c1 := r.c1 &&& ~~~ 0x3000 }
    if p = 2 then some { r with c1 := r.c1 ||| 0x2000 } else some r
  else none

/-- stop bits of both -/
def stb (r : BitVec 32) : Stop :=
  match r.getLsbD 13, r.getLsbD 12 with
  | false, false => .one
  | true, false => .two
  | _, _ => .other

/-- parity of both -/
def pce (r : BitVec 32) : Parity := if r.getLsbD 10 then (if r.getLsbD 9 then .odd else .even) else .none

/-- WL: words of 8 or 9 bits, the last of which is the parity bit if there is one -/
def gdFmt (r : Two) : Fmt := ⟨8 + (r.c0.getLsbD 12).toNat - (r.c0.getLsbD 10).toNat, pce r.c0, stb r.c1⟩

/-- uart-stm32h7xx.c:212-236 -/
def stmCs (n : Nat) (r : Two) : Option Two :=
  if 7 ≤ n ∧ n ≤ 8 then
    let r := { r with c0 := r.c0 &&& ~~~ 0x10000000 }
    match n with
    | 7 =>
      let r := { r with c0 := r.c0 &&& ~~~ 0x1000 }
      some { r with c0 := r.c0 ||| 0x10000000 }
    | 8 =>
      let r := { r with c0 := r.c0 &&& ~~~ 0x1000 }
      some { r with c0 := r.c0 &&& ~~~ 0x10000000 }
    | _ => none
  else none

/-- M1 M0: 00 words of 8 bits, 01 of 9, 10 of 7, parity bit included -/
def stmFmt (r : Two) : Fmt :=
  ⟨(match r.c0.getLsbD 28, r.c0.getLsbD 12 with
    | false, false => 8
    | false, true => 9
    | true, false => 7
    | true, true => 0) - (r.c0.getLsbD 10).toNat, pce r.c0, stb r.c1⟩

/-- uart-stm32h7xx.c:268-299: result and registers, as for sercom; `baud` is false when set_baudrate fails -/
def stmSetup (baud : Bool) (s : Settings) (r : Two) : Option Two × Two :=
  let r := { r with c0 := r.c0 &&& ~~~ 0x1 }
  if baud then
    match setup stmCs gdPar gdStop s r with
    | none => (none, r)
    | some r => (some { r with c0 := r.c0 ||| 0x1 }, { r with c0 := r.c0 ||| 0x1 })
  else (none, r)

/-! ### nxp_linflexd -/

/-- UARTCR and GCR -/
structure Lin where
  cr : BitVec 32
  gcr : BitVec 32
  deriving DecidableEq

/-- uart-nxp_linflexd.c:161-184 -/
def linCs (n : Nat) (r : Lin) : Option Lin :=
  if 6 < n ∧ n < 9 then
    let r := { r with cr := r.cr &&& ~~~ 0x80 }
    match n with
    | 8 => some { r with cr := r.cr ||| 0x2 }
    | 7 => some { r with cr := r.cr &&& ~~~ 0x2 }
    | _ => none
  else none

/-- uart-nxp_linflexd.c:147-159 -/
def linPar (p : Nat) (r : Lin) : Option Lin :=
  if okPar p then
    let r := if p ≠ 1 then { r with cr := r.cr ||| 0x4 } else { r with cr := r.cr &&& ~~~ 0x4 }
    if p = 2 then some { r with cr := r.cr ||| 0x8 } else some { r with cr := r.cr &&& ~~~ 0x8 }
  else none

/-- uart-nxp_linflexd.c:186-197 -/
def linStop (p : Nat) (r : Lin) : Option Lin :=
  if okStop p then
    let r := { r with cr := r.cr &&& ~~~ 0x60000 }
    if p = 2 then some { r with cr := r.cr ||| 0x20000 } else some r
  else none

/-- the frame received: WL1 WL0: 00 7 bits, 01 8; PCE, PC1 PC0: 00 even, 01 odd; SBUR 0: 1, 1: 2 -/
def linRx (r : Lin) : Fmt where
  data := match r.cr.getLsbD 7, r.cr.getLsbD 1 with
    | false, false => 7
    | false, true => 8
    | true, _ => 16
  par := if r.cr.getLsbD 2 then (match r.cr.getLsbD 6, r.cr.getLsbD 3 with | false, false => .even | false, true => .odd | _, _ => .other) else .none
  stop := match r.cr.getLsbD 18, r.cr.getLsbD 17 with
    | false, false => .one
    | false, true => .two
    | _, _ => .other

/-- the frame sent: the same but the stop bits, which are GCR.STOP -/
def linTx (r : Lin) : Fmt := { linRx r with stop := if r.gcr.getLsbD 1 then .two else .one }

/-! ### pic32mx -/

/-- uart-pic32mx.c:91-104 (writes to CLR and SET) -/
def picPar (p : Nat) (r : BitVec 32) : Option (BitVec 32) :=
  if okPar p then
    let r := r &&& ~~~ 0x6
    if p = 1 then some r else if p = 2 then some (r ||| 0x4) else some (r ||| 0x2)
  else none

/-- uart-pic32mx.c:106-115 -/
def picStop (p : Nat) (r : BitVec 32) : Option (BitVec 32) :=
  if okStop p then (if p = 2 then some (r ||| 0x1) else some (r &&& ~~~ 0x1)) else none

/-- uart-pic32mx.c:117-139: cs is ignored -/
def picSetup (s : Settings) (r : BitVec 32) : Option (BitVec 32) := setup (fun _ r => some r) picPar picStop s r

/-- PDSEL: 0 8 bits, 1 8 bits even, 2 8 bits odd, 3 9 bits -/
def picFmt (r : BitVec 32) : Fmt where
  data := if r.getLsbD 2 && r.getLsbD 1 then 9 else 8
  par := match r.getLsbD 2, r.getLsbD 1 with
    | false, true => .even
    | true, false => .odd
    | _, _ => .none
  stop := if r.getLsbD 0 then .two else .one

/-! ### renesas_ra4_sci -/

structure Ra where
  smr : BitVec 8
  scmr : BitVec 8
  scr : BitVec 8
  deriving DecidableEq

/-- uart-renesas_ra4_sci.c:134-135, the part of set_baudrate in SMR; `i` the prescaler found (C82) -/
def raBaud (i : Nat) (r : Ra) : Ra :=
  let r := { r with smr := r.smr &&& ~~~ 0x3 }
  { r with smr := r.smr ||| (BitVec.ofNat 8 i &&& 0x3) }

/-- uart-renesas_ra4_sci.c:144-170 -/
def raCs (n : Nat) (r : Ra) : Option Ra :=
  if 7 ≤ n ∧ n ≤ 9 then
    match n with
    | 7 => let r := { r with smr := r.smr ||| 0x40 }; some { r with scmr := r.scmr ||| 0x10 }
    | 8 => let r := { r with smr := r.smr &&& ~~~ 0x40 }; some { r with scmr := r.scmr ||| 0x10 }
    | 9 => some { r with scmr := r.scmr &&& ~~~ 0x10 }
    | _ => none
  else none

/-- uart-renesas_ra4_sci.c:172-189 -/
def raPar (p : Nat) (r : Ra) : Option Ra :=
  if okPar p then
    if p = 1 then some { r with smr := r.smr &&& ~~~ 0x20 }
    else
      let r := { r with smr := r.smr ||| 0x20 }
      if p = 2 then some { r with smr := r.smr ||| 0x10 } else some { r with smr := r.smr &&& ~~~ 0x10 }
  else none

/-- uart-renesas_ra4_sci.c:191-200 -/
def raStop (p : Nat) (r : Ra) : Option Ra :=
  if okStop p then (if p = 2 then some { r with smr := r.smr ||| 0x8 } else some { r with smr := r.smr &&& ~~~ 0x8 }) else none

/-- CHR1 CHR: 0x 9 bits, 10 8, 11 7; PE, PM (odd); STOP -/
def raFmt (r : Ra) : Fmt where
  data := if r.scmr.getLsbD 4 then (if r.smr.getLsbD 6 then 7 else 8) else 9
  par := if r.smr.getLsbD 5 then (if r.smr.getLsbD 4 then .odd else .even) else .none
  stop := if r.smr.getLsbD 3 then .two else .one

/-- uart-renesas_ra4_sci.c:202-233: result and registers, as for sercom; `baud`: `none` ignored, `some none` refused, `some (some i)` the prescaler -/
def raSetup (baud : Option (Option Nat)) (s : Settings) (r : Ra) : Option Ra × Ra :=
  let r := { r with scr := r.scr &&& ~~~ 0x30 }
  match baud with
  | some none => (none, r)
  | _ =>
    let r := match baud with | some (some i) => raBaud i r | _ => r
    match setup raCs raPar raStop s r with
    | none => (none, r)
    | some r => (some { r with scr := r.scr ||| 0x30 }, { r with scr := r.scr ||| 0x30 })

/-! ### mc9s08ptxx_sci -/

/-- C1 and C2 -/
structure Mc where
  c1 : BitVec 8
  c2 : BitVec 8
  bdh : BitVec 8
  deriving DecidableEq

/-- staging uart-mc9s08ptxx_sci.c:97-111: even parity is written to C2 -/
def mcPar (p : Nat) (r : Mc) : Option Mc :=
  if okPar p then
    let r := { r with c1 := r.c1 &&& ~~~ 0x2 }
    if p = 1 then some r else if p = 2 then some { r with c1 := r.c1 ||| (0x2 ||| 0x1) } else some { r with c2 := r.c2 ||| 0x2 }
  else none

/-- staging uart-mc9s08ptxx_sci.c:115-133: cs and stop bits are ignored -/
def mcSetup (s : Settings) (r : Mc) : Option Mc := if s.par ≠ 0 then mcPar s.par r else some r

/-- M: words of 8 or 9 bits, parity bit included; PE, PT (odd); BDH.SBNS -/
def mcFmt (r : Mc) : Fmt where
  data := 8 + (r.c1.getLsbD 4).toNat - (r.c1.getLsbD 1).toNat
  par := if r.c1.getLsbD 1 then (if r.c1.getLsbD 0 then .odd else .even) else .none
  stop := if r.bdh.getLsbD 5 then .two else .one

/-- C2.RWU: the receiver sleeps -/
def mcSleeps (r : Mc) : Bool := r.c2.getLsbD 1

end Pico.UartFmt
