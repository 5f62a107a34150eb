/-
The SPI drivers (C89, C90): spi_setup of
  drivers/spi: arm_pl022, atmel_sercom, atsamx7x, atsamx7x_qspi, avr (and _irqdriven, lgt8fx8p: same text), gd32vf103, nxp_dspi, pic32mx, renesas_ra4, sam3x (same
  text as atsamx7x), stm32h7xx, ti_f28x, tinyavr
  staging/drivers/spi: ch552, mc9s08ptxx, n76e003
(avr_usart does not compile: it includes a header that does not exist.)

Registers are bit vectors, every write of spi_setup to the registers named is there; `none` is an error return (debug build, picoRTOS_assert returns).  clock_get_freq
gives f > 0.  What the registers mean (`*View`) is from the manuals (trusted).  `unsigned long` is 32 bits.  Busy-waits are taken to end.
-/
import Verif.Drivers.Field

namespace Pico.SpiSetup
open Pico.Field

/-- drivers/include/spi.h:69-76; `mode`, `clk`, `csPol` are the values of the enumerations (0: ignore) -/
structure Settings where
  bitrate : Nat
  mode : Nat
  clk : Nat
  nbits : Nat
  csPol : Nat
  cs : Nat
  deriving DecidableEq, Repr

/-- what is seen on the lines: SCK is the clock of the block divided by `div`, idle level and phase of SCK, master or slave, bits per frame, controller on; and `fn`, the size
of a frame in the eyes of spi_xfer (ctx->frame_nbits) -/
structure View where
  div : Nat
  cpol : Bool
  cpha : Bool
  master : Bool
  nbits : Nat
  on : Bool
  fn : Nat
  deriving DecidableEq, Repr

/-- `if (x != 0 && (res = step()) < 0) return res;` -/
def opt {α : Type} (x : Nat) (step : α → Option α) (a : α) : Option α := if x = 0 then some a else step a

/-- the switch of set_clkmode in most drivers; polarity at bit p, phase at bit h of the same register -/
def clk2 {n : Nat} (p h k : Nat) (r : BitVec n) : Option (BitVec n) :=
  match k with
  | 1 => some (bclr h (bclr p r))
  | 2 => some (bset h (bclr p r))
  | 3 => some (bclr h (bset p r))
  | 4 => some (bset h (bset p r))
  | _ => none

/-! ### avr -/

structure Avr where
  spcr : BitVec 8
  spsr : BitVec 8
  deriving DecidableEq, Repr

/-- spi-avr.c:106, and what follows the table in memory: `for (i = 0; i < sizeof(spr); i++)` goes to 13 (unsigned is 2 bytes) -/
def avrSpr (mem : Nat → BitVec 16) (i : Nat) : BitVec 16 := if i < 7 then BitVec.ofNat 16 ([4, 0, 5, 1, 6, 2, 3].getD i 0) else mem i

/-- set_bitrate, spi-avr.c:100-123 -/
def avrRate (mem : Nat → BitVec 16) (f b : Nat) (r : Avr) : Option Avr :=
  ((List.range 14).find? fun i => decide (f >>> (i + 1) ≤ b)).map fun i =>
    ⟨put 2 0 ((avrSpr mem i).setWidth 8) r.spcr, bclr 0 r.spsr ||| (1#8 &&& (avrSpr mem i >>> 2).setWidth 8)⟩

/-- set_mode, spi-avr.c:51-63 -/
def avrMode (m : Nat) (r : Avr) : Option Avr := some { r with spcr := if m = 1 then bset 4 r.spcr else bclr 4 r.spcr }

/-- set_clkmode, spi-avr.c:65-98 -/
def avrClk (k : Nat) (r : Avr) : Option Avr := (clk2 3 2 k r.spcr).map fun x => { r with spcr := x }

/-- spi_setup, spi-avr.c:125-148 -/
def avrSetup (mem : Nat → BitVec 16) (f : Nat) (s : Settings) (r : Avr) : Option Avr :=
  (opt s.mode (avrMode s.mode) r).bind fun r => (opt s.clk (avrClk s.clk) r).bind fun r => opt s.bitrate (avrRate mem f s.bitrate) r

/-- ATmega328P, 19.5: SPR and SPI2X -/
def avrDiv (r : Avr) : Nat :=
  let d := match (get 2 0 r.spcr).toNat with
    | 0 => 4
    | 1 => 16
    | 2 => 64
    | _ => 128
  if r.spsr.getLsbD 0 then d / 2 else d

def avrView (r : Avr) : View := ⟨avrDiv r, r.spcr.getLsbD 3, r.spcr.getLsbD 2, r.spcr.getLsbD 4, 8, r.spcr.getLsbD 6, 8⟩

/-! ### arm_pl022 -/

/-- `fn`: frame_nbits of the object -/
structure Pl where
  cr0 : BitVec 32
  cr1 : BitVec 32
  cpsr : BitVec 32
  fn : Nat
  deriving DecidableEq, Repr

/-- the values of the two loops, in order, spi-arm_pl022.c:148-150 -/
def plCands : List (Nat × Nat) := (List.range 127).flatMap fun i => (List.range 256).map fun j => (2 * (i + 1), j)

/-- spi-arm_pl022.c:151-154, `divider - 2ul` wraps -/
def plOk (d : Nat) (c : Nat × Nat) : Bool := decide ((d + (2 ^ 32 - 2)) % 2 ^ 32 < c.1 * (1 + c.2)) && decide (c.1 * (1 + c.2) < (d + 2) % 2 ^ 32)

/-- set_bitrate, spi-arm_pl022.c:129-168 -/
def plRate (f b : Nat) (r : Pl) : Option Pl :=
  (plCands.find? (plOk (f / b))).map fun c => { r with cpsr := BitVec.ofNat 32 c.1 &&& mask 32 8, cr0 := put 8 8 (BitVec.ofNat 32 c.2) r.cr0 }

/-- set_clkmode, spi-arm_pl022.c:181-214 -/
def plClk (k : Nat) (r : Pl) : Option Pl := (clk2 6 7 k r.cr0).map fun x => { r with cr0 := x }

/-- set_frame_nbits, spi-arm_pl022.c:216-230 -/
def plBits (n : Nat) (r : Pl) : Option Pl := if 4 ≤ n ∧ n ≤ 16 then some { r with cr0 := put 4 0 (BitVec.ofNat 32 (n - 1)) r.cr0, fn := n } else none

/-- set_mode, spi-arm_pl022.c:170-179 -/
def plMode (m : Nat) (r : Pl) : Option Pl := some { r with cr1 := if m = 1 then bclr 2 r.cr1 else bset 2 r.cr1 }

/-- spi_setup, spi-arm_pl022.c:232-264 -/
def plSetup (f : Nat) (s : Settings) (r : Pl) : Option Pl :=
  (opt s.bitrate (plRate f s.bitrate) { r with cr1 := bclr 1 r.cr1 }).bind fun r => (opt s.clk (plClk s.clk) r).bind fun r =>
    (opt s.nbits (plBits s.nbits) r).bind fun r => (opt s.mode (plMode s.mode) r).map fun r => { r with cr1 := bset 1 r.cr1 }

def plView (r : Pl) : View :=
  ⟨(get 8 0 r.cpsr).toNat * (1 + (get 8 8 r.cr0).toNat), r.cr0.getLsbD 6, r.cr0.getLsbD 7, !r.cr1.getLsbD 2, (get 4 0 r.cr0).toNat + 1, r.cr1.getLsbD 1, r.fn⟩

/-! ### atmel_sercom -/

structure Ser where
  ctrla : BitVec 32
  ctrlb : BitVec 32
  ctrlc : BitVec 32
  baud : BitVec 32
  len : BitVec 16
  fn : Nat
  deriving DecidableEq, Repr

/-- writing CTRLA: SWRST (bit 0) resets the registers of the SERCOM -/
def serA (x : BitVec 32) (r : Ser) : Ser := if x.getLsbD 0 then ⟨0, 0, 0, 0, 0, r.fn⟩ else { r with ctrla := x }

/-- set_bitrate, spi-atmel_sercom.c:144-159 -/
def serRate (f b : Nat) (r : Ser) : Option Ser :=
  let baud := (f / (2 * b) + (2 ^ 32 - 1)) % 2 ^ 32
  if baud < 0x100 then some { r with baud := BitVec.ofNat 32 baud &&& mask 32 8 } else none

/-- spi-atmel_sercom.c:26-28: `(1 < 29)` and `(1 < 28)`, that is 1, so that the bits are bit 0 -/
def serCpol : Nat := 0
def serCpha : Nat := 0

/-- set_clkmode, spi-atmel_sercom.c:174-207 -/
def serClk (k : Nat) (r : Ser) : Option Ser :=
  match k with
  | 1 => let r := serA (bclr serCpol r.ctrla) r; some (serA (bclr serCpha r.ctrla) r)
  | 2 => let r := serA (bclr serCpol r.ctrla) r; some (serA (bset serCpha r.ctrla) r)
  | 3 => let r := serA (bset serCpol r.ctrla) r; some (serA (bclr serCpha r.ctrla) r)
  | 4 => let r := serA (bset serCpol r.ctrla) r; some (serA (bset serCpha r.ctrla) r)
  | _ => none

/-- set_frame_nbits, spi-atmel_sercom.c:209-228; limits: spi-atmel_sercom.h -/
def serBits (n : Nat) (r : Ser) : Option Ser :=
  if 8 ≤ n ∧ n ≤ 32 then
    if n ≤ 8 then some { r with ctrlc := bclr 24 r.ctrlc, fn := n }
    else some { r with len := 256#16 ||| BitVec.ofNat 16 ((n - 1) / 8 + 1), ctrlc := bset 24 r.ctrlc, fn := n }
  else none

/-- set_mode, spi-atmel_sercom.c:161-172 -/
def serMode (m : Nat) (r : Ser) : Option Ser :=
  let r := serA (clear 3 2 r.ctrla) r
  some (serA (orIn 3 2 (BitVec.ofNat 32 (if m = 1 then 3 else 2)) r.ctrla) r)

/-- spi_setup, spi-atmel_sercom.c:230-257 -/
def serSetup (f : Nat) (s : Settings) (r : Ser) : Option Ser :=
  (opt s.bitrate (serRate f s.bitrate) (serA (bclr 1 r.ctrla) r)).bind fun r => (opt s.clk (serClk s.clk) r).bind fun r =>
    (opt s.nbits (serBits s.nbits) r).bind fun r => (opt s.mode (serMode s.mode) r).map fun r => serA (bset 1 r.ctrla) r

/-- SAM E5x, 35: CPOL is bit 29, CPHA bit 28; CTRLB: RXEN (bit 17) -/
def serView (r : Ser) : View :=
  ⟨2 * ((get 8 0 r.baud).toNat + 1), r.ctrla.getLsbD 29, r.ctrla.getLsbD 28, (get 3 2 r.ctrla).toNat == 3,
    if r.ctrlc.getLsbD 24 then 8 * (get 8 0 r.len).toNat else 8, r.ctrla.getLsbD 1, r.fn⟩

def serRx (r : Ser) : Bool := r.ctrlb.getLsbD 17

/-! ### atsamx7x, sam3x -/

structure Sam where
  csr : Nat → BitVec 32
  mr : BitVec 32
  fn : Nat

def upd (c : Nat → BitVec 32) (i : Nat) (x : BitVec 32) : Nat → BitVec 32 := fun j => if j = i then x else c j

/-- set_bitrate, spi-atsamx7x.c:121-134: there is no ~ -/
def samRate (cs f b : Nat) (r : Sam) : Option Sam := some { r with csr := upd r.csr cs (orIn 8 8 (BitVec.ofNat 32 (f / b)) (r.csr cs &&& (mask 32 8 <<< 8))) }

/-- set_clkmode, spi-atsamx7x.c:136-170 -/
def samClk (cs k : Nat) (r : Sam) : Option Sam :=
  match k with
  | 1 => some { r with csr := upd r.csr cs (bset 1 (bclr 0 (r.csr cs))) }
  | 2 => some { r with csr := upd r.csr cs (bclr 1 (bclr 0 (r.csr cs))) }
  | 3 => some { r with csr := upd r.csr cs (bset 1 (bset 0 (r.csr cs))) }
  | 4 => some { r with csr := upd r.csr cs (bclr 1 (bset 0 (r.csr cs))) }
  | _ => none

/-- set_frame_nbits, spi-atsamx7x.c:172-189 -/
def samBits (cs n : Nat) (r : Sam) : Option Sam :=
  if 8 ≤ n ∧ n ≤ 16 then some { r with csr := upd r.csr cs (put 4 4 (BitVec.ofNat 32 (n - 8)) (r.csr cs)), fn := n } else none

/-- set_mode, spi-atsamx7x.c:191-200 -/
def samMode (m : Nat) (r : Sam) : Option Sam := some { r with mr := if m = 1 then bset 0 r.mr else bclr 0 r.mr }

/-- spi_setup, spi-atsamx7x.c:202-233 -/
def samSetup (f : Nat) (s : Settings) (r : Sam) : Option Sam :=
  if s.cs < 4 then
    (opt s.bitrate (samRate s.cs f s.bitrate) r).bind fun r => (opt s.clk (samClk s.cs s.clk) r).bind fun r =>
      (opt s.nbits (samBits s.cs s.nbits) r).bind fun r => (opt s.mode (samMode s.mode) r).map fun r =>
        { r with mr := put 4 16 (~~~ (1#32 <<< s.cs)) r.mr }
  else none

/-- the chip select `cs` seen as a SPI (it is on since spi_atsamx7x_init) -/
def samView (cs : Nat) (r : Sam) : View :=
  ⟨(get 8 8 (r.csr cs)).toNat, (r.csr cs).getLsbD 0, !(r.csr cs).getLsbD 1, r.mr.getLsbD 0, (get 4 4 (r.csr cs)).toNat + 8, true, r.fn⟩

/-- PCS: xxx0 is NPCS0, xx01 NPCS1, x011 NPCS2, 0111 NPCS3 -/
def samSel (r : Sam) : Option Nat := (List.range 4).find? fun i => !r.mr.getLsbD (16 + i)

/-! ### atsamx7x_qspi -/

structure Qspi where
  scr : BitVec 32
  mr : BitVec 32
  fn : Nat
  deriving DecidableEq, Repr

/-- set_bitrate, spi-atsamx7x_qspi.c:146-158 -/
def qspiRate (f b : Nat) (r : Qspi) : Option Qspi := some { r with scr := orIn 8 8 (BitVec.ofNat 32 (f / b)) (r.scr &&& (mask 32 8 <<< 8)) }

/-- set_clkmode, spi-atsamx7x_qspi.c:160-191 -/
def qspiClk (k : Nat) (r : Qspi) : Option Qspi := (clk2 0 1 k r.scr).map fun x => { r with scr := x }

/-- set_frame_nbits, spi-atsamx7x_qspi.c:193-209 -/
def qspiBits (n : Nat) (r : Qspi) : Option Qspi := if 8 ≤ n ∧ n ≤ 16 then some { r with mr := put 4 8 (BitVec.ofNat 32 (n - 8)) r.mr, fn := n } else none

/-- spi_setup, spi-atsamx7x_qspi.c:211-233 -/
def qspiSetup (f : Nat) (s : Settings) (r : Qspi) : Option Qspi :=
  (opt s.bitrate (qspiRate f s.bitrate) r).bind fun r => (opt s.clk (qspiClk s.clk) r).bind fun r => opt s.nbits (qspiBits s.nbits) r

def qspiView (r : Qspi) : View := ⟨(get 8 8 r.scr).toNat + 1, r.scr.getLsbD 0, r.scr.getLsbD 1, true, (get 4 8 r.mr).toNat + 8, true, r.fn⟩

/-! ### gd32vf103 -/

structure Gd where
  ctl0 : BitVec 32
  ctl1 : BitVec 32
  fn : Nat
  deriving DecidableEq, Repr

/-- set_bitrate, spi-gd32vf103.c:104-124 (`i` is psc - 1) -/
def gdRate (f b : Nat) (r : Gd) : Option Gd := ((List.range 8).find? fun i => decide (f >>> (i + 1) = b)).map fun i => { r with ctl0 := put 3 3 (BitVec.ofNat 32 i) r.ctl0 }

/-- set_clkmode, spi-gd32vf103.c:126-158 -/
def gdClk (k : Nat) (r : Gd) : Option Gd := (clk2 1 0 k r.ctl0).map fun x => { r with ctl0 := x }

/-- set_frame_nbits, spi-gd32vf103.c:160-178 -/
def gdBits (n : Nat) (r : Gd) : Option Gd :=
  if n = 8 then some { r with ctl0 := bclr 11 r.ctl0, fn := n } else if n = 16 then some { r with ctl0 := bset 11 r.ctl0, fn := n } else none

/-- set_mode, spi-gd32vf103.c:180-192 -/
def gdMode (m : Nat) (r : Gd) : Option Gd := some (if m = 1 then { r with ctl0 := bset 2 r.ctl0, ctl1 := bset 2 r.ctl1 } else { r with ctl0 := bclr 2 r.ctl0 })

/-- spi_setup (and spi_enable), spi-gd32vf103.c:194-236 -/
def gdSetup (f : Nat) (s : Settings) (r : Gd) : Option Gd :=
  (opt s.bitrate (gdRate f s.bitrate) { r with ctl0 := bclr 6 r.ctl0 }).bind fun r => (opt s.clk (gdClk s.clk) r).bind fun r =>
    (opt s.nbits (gdBits s.nbits) r).bind fun r => (opt s.mode (gdMode s.mode) r).map fun r => { r with ctl0 := bset 6 r.ctl0 }

def gdView (r : Gd) : View :=
  ⟨2 ^ ((get 3 3 r.ctl0).toNat + 1), r.ctl0.getLsbD 1, r.ctl0.getLsbD 0, r.ctl0.getLsbD 2, if r.ctl0.getLsbD 11 then 16 else 8, r.ctl0.getLsbD 6, r.fn⟩

/-! ### stm32h7xx -/

structure Stm where
  cr1 : BitVec 32
  cfg1 : BitVec 32
  cfg2 : BitVec 32
  fn : Nat
  deriving DecidableEq, Repr

/-- set_bitrate, spi-stm32h7xx.c:176-196 (`mbr - 1`) -/
def stmMbr (f b : Nat) : Nat := ((List.range 8).find? fun i => decide (f / 2 ^ (i + 1) ≤ b)).getD 8

def stmRate (f b : Nat) (r : Stm) : Option Stm := some { r with cfg1 := put 3 28 (BitVec.ofNat 32 (stmMbr f b)) r.cfg1 }

/-- set_clkmode, spi-stm32h7xx.c:209-242 -/
def stmClk (k : Nat) (r : Stm) : Option Stm := (clk2 25 24 k r.cfg2).map fun x => { r with cfg2 := x }

/-- set_frame_nbits, spi-stm32h7xx.c:244-257 -/
def stmBits (n : Nat) (r : Stm) : Option Stm := if 4 ≤ n ∧ n ≤ 32 then some { r with cfg1 := put 5 0 (BitVec.ofNat 32 (n - 1)) r.cfg1, fn := n } else none

/-- set_mode, spi-stm32h7xx.c:198-207 -/
def stmMode (m : Nat) (r : Stm) : Option Stm := some { r with cfg2 := if m = 1 then bset 22 r.cfg2 else bclr 22 r.cfg2 }

/-- set_cs_pol, spi-stm32h7xx.c:259-268 -/
def stmPol (p : Nat) (r : Stm) : Option Stm := some { r with cfg2 := if p = 1 then bclr 28 r.cfg2 else bset 28 r.cfg2 }

/-- spi_setup, spi-stm32h7xx.c:270-304 -/
def stmSetup (f : Nat) (s : Settings) (r : Stm) : Option Stm :=
  (opt s.bitrate (stmRate f s.bitrate) { r with cr1 := bclr 0 r.cr1, cfg2 := bset 29 (bclr 26 r.cfg2) }).bind fun r => (opt s.clk (stmClk s.clk) r).bind fun r =>
    (opt s.nbits (stmBits s.nbits) r).bind fun r => (opt s.mode (stmMode s.mode) r).bind fun r => (opt s.csPol (stmPol s.csPol) r).map fun r =>
      { r with cr1 := bset 0 r.cr1 }

def stmView (r : Stm) : View :=
  ⟨2 ^ ((get 3 28 r.cfg1).toNat + 1), r.cfg2.getLsbD 25, r.cfg2.getLsbD 24, r.cfg2.getLsbD 22, (get 5 0 r.cfg1).toNat + 1, r.cr1.getLsbD 0, r.fn⟩

/-- active level of the chip select -/
def stmCsHigh (r : Stm) : Bool := r.cfg2.getLsbD 28

/-! ### nxp_dspi -/

structure Dspi where
  mcr : BitVec 32
  ctar : BitVec 32
  fn : Nat
  cs : Nat
  deriving DecidableEq, Repr

def pbr : List Nat := [2, 3, 5, 7]
def br : List Nat := [2, 4, 6, 8, 16, 32, 64, 128, 256, 512, 1024, 2048, 4096, 8192, 16384, 32768]

/-- set_bitrate, spi-nxp_dspi.c:143-187: CTAR is written from 0 -/
def dspiRate (f b : Nat) (r : Dspi) : Option Dspi :=
  let dbr := if b > f / 4 then 2 else 1
  (((List.range 4).flatMap fun i => (List.range 16).map fun j => (i, j)).find? fun c => decide (f / (pbr.getD c.1 0 * dbr) / br.getD c.2 0 = b)).map fun c =>
    { r with ctar := orIn 4 0 (BitVec.ofNat 32 c.2) (orIn 2 16 (BitVec.ofNat 32 c.1) (orIn 1 31 (BitVec.ofNat 32 (dbr - 1)) 0)) }

/-- set_clock_mode, spi-nxp_dspi.c:189-215 -/
def dspiClk (k : Nat) (r : Dspi) : Option Dspi :=
  if 1 ≤ k ∧ k ≤ 4 then
    let cpol := if 3 ≤ k then 1#32 else 0#32
    let cpha := if k = 2 ∨ k = 4 then 1#32 else 0#32
    some { r with ctar := put 1 25 cpha (put 1 26 cpol r.ctar) }
  else none

/-- set_frame_nbits, spi-nxp_dspi.c:217-231 -/
def dspiBits (n : Nat) (r : Dspi) : Option Dspi := if 4 ≤ n ∧ n ≤ 16 then some { r with ctar := put 4 27 (BitVec.ofNat 32 (n - 1)) r.ctar, fn := n } else none

/-- set_mode, spi-nxp_dspi.c:233-242 -/
def dspiMode (m : Nat) (r : Dspi) : Option Dspi := some { r with mcr := if m = 1 then bset 31 r.mcr else bclr 31 r.mcr }

/-- set_cs_pol, spi-nxp_dspi.c:244-256: PCSIS -/
def dspiPol (p cs : Nat) (r : Dspi) : Option Dspi :=
  let m := (1#32 <<< cs &&& mask 32 6) <<< 16
  some { r with mcr := if p = 1 then r.mcr ||| m else r.mcr &&& ~~~ m }

/-- spi_setup, spi-nxp_dspi.c:258-293 -/
def dspiSetup (f : Nat) (s : Settings) (r : Dspi) : Option Dspi :=
  (opt s.bitrate (dspiRate f s.bitrate) { r with mcr := bset 0 r.mcr }).bind fun r => (opt s.clk (dspiClk s.clk) r).bind fun r =>
    (opt s.nbits (dspiBits s.nbits) r).bind fun r => (opt s.mode (dspiMode s.mode) r).bind fun r => (opt s.csPol (dspiPol s.csPol s.cs) r).map fun r =>
      { r with cs := s.cs, mcr := bclr 0 r.mcr }

/-- SCK = f / PBR * (1 + DBR) / BR; the prescalers by the numbers of the manual -/
def dspiView (r : Dspi) : View :=
  ⟨pbr.getD (get 2 16 r.ctar).toNat 0 * br.getD (get 4 0 r.ctar).toNat 0 / (if r.ctar.getLsbD 31 then 2 else 1), r.ctar.getLsbD 26, r.ctar.getLsbD 25, r.mcr.getLsbD 31,
    (get 4 27 r.ctar).toNat + 1, !r.mcr.getLsbD 0, r.fn⟩

/-- the inactive level of a chip select -/
def dspiIdle (r : Dspi) (cs : Nat) : Bool := r.mcr.getLsbD (16 + cs)

/-! ### pic32mx -/

structure Pic where
  con : BitVec 32
  brg : BitVec 32
  fn : Nat
  deriving DecidableEq, Repr

/-- set_bitrate, spi-pic32mx.c:91-104 -/
def picRate (f b : Nat) (r : Pic) : Option Pic := some { r with brg := BitVec.ofNat 32 (f / (b * 2) + (2 ^ 32 - 1)) }

/-- set_clkmode, spi-pic32mx.c:117-148 -/
def picClk (k : Nat) (r : Pic) : Option Pic :=
  match k with
  | 1 => some { r with con := bclr 6 (bclr 8 r.con) }
  | 2 => some { r with con := bset 8 (bclr 6 r.con) }
  | 3 => some { r with con := bclr 8 (bset 6 r.con) }
  | 4 => some { r with con := bset 6 (bset 8 r.con) }
  | _ => none

/-- set_frame_nbits, spi-pic32mx.c:150-169 -/
def picBits (n : Nat) (r : Pic) : Option Pic :=
  let c := bclr 10 (bclr 11 r.con)
  if n = 32 then some { r with con := bset 11 c, fn := n } else if n = 16 then some { r with con := bset 10 c, fn := n } else if n = 8 then some { r with con := c, fn := n } else none

/-- set_mode, spi-pic32mx.c:106-115 -/
def picMode (m : Nat) (r : Pic) : Option Pic := some { r with con := if m = 1 then bset 5 (bset 28 r.con) else bclr 5 (bclr 28 r.con) }

/-- spi_setup, spi-pic32mx.c:171-195 -/
def picSetup (f : Nat) (s : Settings) (r : Pic) : Option Pic :=
  (opt s.bitrate (picRate f s.bitrate) r).bind fun r => (opt s.clk (picClk s.clk) r).bind fun r => (opt s.nbits (picBits s.nbits) r).bind fun r => opt s.mode (picMode s.mode) r

/-- BRG has 13 bits; CKE = 1: data change from the active to the idle level of the clock, that is CPHA = 0 -/
def picView (r : Pic) : View :=
  ⟨2 * ((get 13 0 r.brg).toNat + 1), r.con.getLsbD 6, !r.con.getLsbD 8, r.con.getLsbD 5, if r.con.getLsbD 11 then 32 else if r.con.getLsbD 10 then 16 else 8, r.con.getLsbD 15, r.fn⟩

/-! ### renesas_ra4 -/

structure Ra where
  spcr : BitVec 8
  spbr : BitVec 8
  sslp : BitVec 8
  spcmd : BitVec 16
  fn : Nat
  ssl : Nat
  deriving DecidableEq, Repr

/-- set_bitrate, spi-renesas_ra4.c:121-145 -/
def raRate (f b : Nat) (r : Ra) : Option Ra :=
  (((List.range 255).flatMap fun n => (List.range 4).map fun p => (n, p)).find? fun c => decide (f / (2 * (c.1 + 1) * 2 ^ c.2) = b)).map fun c =>
    { r with spbr := BitVec.ofNat 8 c.1, spcmd := put 2 2 (BitVec.ofNat 16 c.2) r.spcmd }

/-- set_clkmode, spi-renesas_ra4.c:147-180 -/
def raClk (k : Nat) (r : Ra) : Option Ra := (clk2 1 0 k r.spcmd).map fun x => { r with spcmd := x }

/-- set_frame_nbits, spi-renesas_ra4.c:194-211: SPB -/
def raSpb (n : Nat) : Option Nat :=
  if n = 8 then some 4 else if 9 ≤ n ∧ n ≤ 16 then some (n - 1) else if n = 20 then some 0 else if n = 24 then some 1 else if n = 32 then some 2 else none

/-- set_frame_nbits, spi-renesas_ra4.c:182-216 -/
def raBits (n : Nat) (r : Ra) : Option Ra := if 8 ≤ n ∧ n ≤ 32 then (raSpb n).map fun spb => { r with spcmd := put 4 8 (BitVec.ofNat 16 spb) r.spcmd, fn := n } else none

/-- set_mode, spi-renesas_ra4.c:218-227 -/
def raMode (m : Nat) (r : Ra) : Option Ra := some { r with spcr := if m = 1 then bset 3 r.spcr else bclr 3 r.spcr }

/-- set_cs_pol, spi-renesas_ra4.c:229-240 -/
def raPol (p : Nat) (r : Ra) : Option Ra := some { r with sslp := if p = 1 then bclr r.ssl r.sslp else bset r.ssl r.sslp }

/-- spi_setup, spi-renesas_ra4.c:242-281 -/
def raSetup (f : Nat) (s : Settings) (r : Ra) : Option Ra :=
  if s.cs < 4 then
    (opt s.bitrate (raRate f s.bitrate) { r with spcr := bclr 6 r.spcr }).bind fun r => (opt s.clk (raClk s.clk) r).bind fun r =>
      (opt s.nbits (raBits s.nbits) r).bind fun r => (opt s.mode (raMode s.mode) r).bind fun r =>
        (opt s.csPol (raPol s.csPol) { r with ssl := s.cs, spcmd := put 3 4 (BitVec.ofNat 16 s.cs) r.spcmd }).map fun r => { r with spcr := bset 6 r.spcr }
  else none

/-- RA4M1, SPCMD0.SPB -/
def raNbits : Nat → Nat
  | 0 => 20
  | 1 => 24
  | 2 => 32
  | 3 => 32
  | 4 => 8
  | 5 => 8
  | 6 => 8
  | 7 => 8
  | k => k + 1

def raView (r : Ra) : View :=
  ⟨2 * (r.spbr.toNat + 1) * 2 ^ (get 2 2 r.spcmd).toNat, r.spcmd.getLsbD 1, r.spcmd.getLsbD 0, r.spcr.getLsbD 3, raNbits (get 4 8 r.spcmd).toNat, r.spcr.getLsbD 6, r.fn⟩

def raSel (r : Ra) : Nat := (get 3 4 r.spcmd).toNat
def raCsHigh (r : Ra) (cs : Nat) : Bool := r.sslp.getLsbD cs

/-! ### ti_f28x -/

structure Ti where
  ccr : BitVec 16
  ctl : BitVec 16
  brr : BitVec 16
  fn : Nat
  lshift : Nat
  deriving DecidableEq, Repr

/-- set_bitrate, spi-ti_f28x.c:172-188 -/
def tiRate (f b : Nat) (r : Ti) : Option Ti := some { r with brr := (BitVec.ofNat 16 (f / b) - 1#16) &&& mask 16 7 }

/-- set_mode, spi-ti_f28x.c:190-199 -/
def tiMode (m : Nat) (r : Ti) : Option Ti := some { r with ctl := if m = 1 then bset 2 r.ctl else bclr 2 r.ctl }

/-- set_clkmode, spi-ti_f28x.c:201-233 -/
def tiClk (k : Nat) (r : Ti) : Option Ti :=
  match k with
  | 1 => some { r with ccr := bclr 6 r.ccr, ctl := bclr 3 r.ctl }
  | 2 => some { r with ccr := bclr 6 r.ccr, ctl := bset 3 r.ctl }
  | 3 => some { r with ccr := bset 6 r.ccr, ctl := bclr 3 r.ctl }
  | 4 => some { r with ccr := bset 6 r.ccr, ctl := bset 3 r.ctl }
  | _ => none

/-- set_frame_nbits, spi-ti_f28x.c:235-246 -/
def tiBits (n : Nat) (r : Ti) : Option Ti := if n ≤ 16 then some { r with ccr := put 4 0 (BitVec.ofNat 16 (n - 1)) r.ccr, fn := n, lshift := 16 - n } else none

/-- spi_setup, spi-ti_f28x.c:248-279: set_clkmode is called if `mode` is set -/
def tiSetup (f : Nat) (s : Settings) (r : Ti) : Option Ti :=
  (opt s.bitrate (tiRate f s.bitrate) { r with ccr := bclr 7 r.ccr }).bind fun r => (opt s.mode (tiMode s.mode) r).bind fun r =>
    (opt s.mode (tiClk s.clk) r).bind fun r => (opt s.nbits (tiBits s.nbits) r).map fun r => { r with ccr := bset 7 r.ccr }

/-- SPRUHM8, 18.2: LSPCLK / (SPIBRR + 1), or LSPCLK / 4 if SPIBRR is 0, 1 or 2; CLK_PHASE = 0: data are output on the first edge and latched on the second one, that is CPHA = 1 -/
def tiView (r : Ti) : View :=
  let x := (get 7 0 r.brr).toNat
  ⟨if x ≤ 2 then 4 else x + 1, r.ccr.getLsbD 6, !r.ctl.getLsbD 3, r.ctl.getLsbD 2, (get 4 0 r.ccr).toNat + 1, r.ccr.getLsbD 7, r.fn⟩

/-! ### tinyavr -/

structure Tiny where
  a : BitVec 8
  b : BitVec 8
  deriving DecidableEq, Repr

/-- set_bitrate, spi-tinyavr.c:84-116 -/
def tinyRate (f b : Nat) (r : Tiny) : Option Tiny :=
  let pdiv := f / b
  let c := bclr 4 (clear 2 1 r.a)
  if 127 < pdiv then some { r with a := orIn 2 1 3#8 c }
  else if 31 < pdiv then some { r with a := orIn 2 1 2#8 (if pdiv < 64 then bset 4 c else c) }
  else if 7 < pdiv then some { r with a := orIn 2 1 1#8 (if pdiv < 16 then bset 4 c else c) }
  else if 1 < pdiv then some { r with a := orIn 2 1 0#8 (if pdiv < 4 then bset 4 c else c) }
  else none

/-- set_mode, spi-tinyavr.c:59-71 -/
def tinyMode (m : Nat) (r : Tiny) : Option Tiny := some { r with a := if m = 1 then bset 5 r.a else bclr 5 r.a }

/-- set_clkmode, spi-tinyavr.c:73-82: the value of the enumeration -/
def tinyClk (k : Nat) (r : Tiny) : Option Tiny := if k < 5 then some { r with b := put 2 0 (BitVec.ofNat 8 k) r.b } else none

/-- spi_setup, spi-tinyavr.c:118-142 -/
def tinySetup (f : Nat) (s : Settings) (r : Tiny) : Option Tiny :=
  (opt s.mode (tinyMode s.mode) r).bind fun r => (opt s.clk (tinyClk s.clk) r).bind fun r => opt s.bitrate (tinyRate f s.bitrate) r

/-- PRESC: 4, 16, 64, 128; CLK2X halves; MODE: bit 1 is the polarity, bit 0 the phase -/
def tinyView (r : Tiny) : View :=
  let d := match (get 2 1 r.a).toNat with
    | 0 => 4
    | 1 => 16
    | 2 => 64
    | _ => 128
  ⟨if r.a.getLsbD 4 then d / 2 else d, r.b.getLsbD 1, r.b.getLsbD 0, r.a.getLsbD 5, 8, r.a.getLsbD 0, 8⟩

/-! ### ch552 -/

structure Ch where
  ctrl : BitVec 8
  setup : BitVec 8
  ck : BitVec 8
  deriving DecidableEq, Repr

/-- set_bitrate, spi-ch552.c:62-72 -/
def chRate (f b : Nat) (r : Ch) : Option Ch := some { r with ck := BitVec.ofNat 8 (f / b) }

/-- set_mode, spi-ch552.c:74-90 -/
def chMode (m : Nat) (r : Ch) : Option Ch :=
  some (if m = 1 then { r with setup := bclr 7 r.setup, ctrl := bclr 7 (bset 6 (bset 5 r.ctrl)) } else { r with setup := bset 7 r.setup, ctrl := bset 7 (bclr 6 (bclr 5 r.ctrl)) })

/-- set_clkmode, spi-ch552.c:92-113 -/
def chClk (k : Nat) (r : Ch) : Option Ch := if k = 1 then some { r with ctrl := bclr 3 r.ctrl } else if k = 4 then some { r with ctrl := bset 3 r.ctrl } else none

/-- spi_setup, spi-ch552.c:115-137 -/
def chSetup (f : Nat) (s : Settings) (r : Ch) : Option Ch :=
  (opt s.bitrate (chRate f s.bitrate) r).bind fun r => (opt s.clk (chClk s.clk) r).bind fun r => opt s.mode (chMode s.mode) r

/-- SPI0_CK_SE is the divider; bS0_MST_CLK: mode 0 or mode 3; on: bS0_CLR_ALL is 0 -/
def chView (r : Ch) : View :=
  ⟨r.ck.toNat, r.ctrl.getLsbD 3, r.ctrl.getLsbD 3, !r.setup.getLsbD 7, 8, !r.ctrl.getLsbD 1, 8⟩

/-! ### mc9s08ptxx -/

structure Mc where
  c1 : BitVec 8
  c2 : BitVec 8
  br : BitVec 8
  fw : Nat
  deriving DecidableEq, Repr

/-- set_bitrate, spi-mc9s08ptxx.c:79-106 (`(i, j)` is (sprr - 1, spr - 1)) -/
def mcRate (f b : Nat) (r : Mc) : Option Mc :=
  (((List.range 8).flatMap fun i => (List.range 9).map fun j => (i, j)).find? fun c => decide (f / ((c.1 + 1) * 2 ^ (c.2 + 1)) = b)).map fun c =>
    { r with br := orIn 4 0 (BitVec.ofNat 8 c.2) (orIn 3 4 (BitVec.ofNat 8 c.1) 0) }

/-- set_mode, spi-mc9s08ptxx.c:108-121 -/
def mcMode (m : Nat) (r : Mc) : Option Mc := some (if m = 1 then { r with c1 := bset 1 (bset 4 r.c1), c2 := bset 4 r.c2 } else { r with c1 := bclr 4 r.c1 })

/-- set_clkmode, spi-mc9s08ptxx.c:123-156 -/
def mcClk (k : Nat) (r : Mc) : Option Mc := (clk2 3 2 k r.c1).map fun x => { r with c1 := x }

/-- set_frame_nbits, spi-mc9s08ptxx.c:158-169 -/
def mcBits (n : Nat) (r : Mc) : Option Mc := if n = 8 then some { r with c2 := bclr 6 r.c2, fw := 1 } else if n = 16 then some { r with c2 := bset 6 r.c2, fw := 2 } else none

/-- spi_setup, spi-mc9s08ptxx.c:171-196 -/
def mcSetup (f : Nat) (s : Settings) (r : Mc) : Option Mc :=
  (opt s.bitrate (mcRate f s.bitrate) r).bind fun r => (opt s.mode (mcMode s.mode) r).bind fun r => (opt s.clk (mcClk s.clk) r).bind fun r => opt s.nbits (mcBits s.nbits) r

def mcView (r : Mc) : View :=
  ⟨((get 3 4 r.br).toNat + 1) * 2 ^ ((get 4 0 r.br).toNat + 1), r.c1.getLsbD 3, r.c1.getLsbD 2, r.c1.getLsbD 4, if r.c2.getLsbD 6 then 16 else 8, r.c1.getLsbD 6, 8 * r.fw⟩

/-! ### n76e003 -/

/-- set_bitrate, spi-n76e003.c:49-71: the quotient is cast to char -/
def n76Rate (f b : Nat) (r : BitVec 8) : Option (BitVec 8) :=
  let spr := f / b % 256
  if spr = 2 then some (clear 2 0 r) else if spr = 4 then some (orIn 2 0 1#8 (clear 2 0 r)) else if spr = 8 then some (orIn 2 0 2#8 (clear 2 0 r))
  else if spr = 16 then some (orIn 2 0 3#8 (clear 2 0 r)) else none

/-- set_mode, spi-n76e003.c:73-82 -/
def n76Mode (m : Nat) (r : BitVec 8) : Option (BitVec 8) := some (if m = 1 then bset 4 r else bclr 4 r)

/-- set_clkmode, spi-n76e003.c:84-117; spi_setup, 119-143 -/
def n76Setup (f : Nat) (s : Settings) (r : BitVec 8) : Option (BitVec 8) :=
  (opt s.bitrate (n76Rate f s.bitrate) r).bind fun r => (opt s.clk (clk2 3 2 s.clk) r).bind fun r => opt s.mode (n76Mode s.mode) r

def n76View (r : BitVec 8) : View := ⟨2 ^ ((get 2 0 r).toNat + 1), r.getLsbD 3, r.getLsbD 2, r.getLsbD 4, 8, r.getLsbD 6, 8⟩

end Pico.SpiSetup
