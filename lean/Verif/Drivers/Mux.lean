/-
The pin multiplexers (C94): drivers/mux/mux-*.c, staging/drivers/mux/mux-*.c.

`Pin` is what the rest of the chip sees of a pin, `Call` what a program asks, `Call.Does` what it should get: the specification, the same for all
drivers. For each driver: the registers, what they mean for a pin (`view`, from the manuals) and the functions.

Simplifications: one call runs to its end (no other task in the middle of `REG &= ..; REG |= ..`); the write protections (renesas PWPR but see `Ra`, ti EALLOW)
are lifted by the functions themselves; slew rates, drive strengths, filters and the level driven are not part of `Pin`.
picoRTOS_assert is on: a wrong argument gives -EINVAL.
-/
import Verif.Drivers.Field
namespace Pico.Mux
open Field

inductive Role where
  /-- under control of the GPIO block -/
  | gpio
  | analog
  /-- given to the peripheral function n -/
  | func (n : Nat)
deriving DecidableEq, Repr

/-- the buffers that are on; `periph`: the peripheral decides -/
inductive Dir where
  | none | inp | out | both | periph
deriving DecidableEq, Repr

inductive Pull where
  | none | up | down | both
deriving DecidableEq, Repr

structure Pin where
  role : Role
  dir : Dir
  pull : Pull
  od : Bool
deriving DecidableEq, Repr

/-- what a program asks of a pin; `f`: `none` for GPIO; `pull`, `od`: `none` when the function has no such argument -/
inductive Call where
  | analog
  | input (f : Option Nat) (pull : Option Pull)
  | output (f : Option Nat) (od : Option Bool)
  | io (f : Option Nat)
  | pullUp
  | pullDown
  | pushPull
  | openDrain
deriving DecidableEq, Repr

def roleOf : Option Nat → Role
  | none => .gpio
  | some n => .func n

/-- the pin has the role asked, its buffers are those asked (for a peripheral function, the peripheral may decide); the other calls change one thing -/
def Call.Does : Call → Pin → Pin → Prop
  | .analog, _, v' => v'.role = .analog ∧ v'.dir ≠ .out ∧ v'.dir ≠ .both
  | .input f pl, _, v' => v'.role = roleOf f ∧ (v'.dir = .inp ∨ (f ≠ none ∧ v'.dir = .periph)) ∧ ∀ p, pl = some p → v'.pull = p
  | .output f od, _, v' => v'.role = roleOf f ∧ (v'.dir = .out ∨ (f ≠ none ∧ v'.dir = .periph)) ∧ ∀ b, od = some b → v'.od = b
  | .io f, _, v' => v'.role = roleOf f ∧ (v'.dir = .both ∨ (f ≠ none ∧ v'.dir = .periph))
  | .pullUp, v, v' => v' = { v with pull := .up }
  | .pullDown, v, v' => v' = { v with pull := .down }
  | .pushPull, v, v' => v' = { v with od := false }
  | .openDrain, v, v' => v' = { v with od := true }

/-- what was not asked is as it was -/
def Call.Keeps : Call → Pin → Pin → Prop
  | .input _ pl, v, v' => (pl = none → v'.pull = v.pull) ∧ v'.od = v.od
  | .output _ od, v, v' => v'.pull = v.pull ∧ (od = none → v'.od = v.od)
  | .analog, v, v' | .io _, v, v' => v'.pull = v.pull ∧ v'.od = v.od
  | _, _, _ => True

def einval : Int := -22

/-- a driver: the call asked on a pin; `none` when the driver has no such function -/
structure Drv (R : Type) where
  step : Call → Nat → R → Int × R
  view : R → Nat → Pin

/-- a history of calls -/
def Drv.run {R : Type} (d : Drv R) : List (Call × Nat) → R → R
  | [], r => r
  | x :: l, r => d.run l (d.step x.1 x.2 r).2

/-- an element of an array of registers -/
def upd {n : Nat} (a : Nat → BitVec n) (i : Nat) (f : BitVec n → BitVec n) : Nat → BitVec n := fun j => if j = i then f (a j) else a j

/-! ### stm32h7xx -/

/-- mux-stm32h7xx.c:6-17 -/
structure Stm where
  moder : BitVec 32
  otyper : BitVec 32
  pupdr : BitVec 32
  afrl : BitVec 32
  afrh : BitVec 32
deriving DecidableEq

namespace Stm

/-- RM0433 GPIOx_MODER, PUPDR, OTYPER, AFRL, AFRH -/
def view (r : Stm) (p : Nat) : Pin :=
  let m := (Field.get 2 (2 * p) r.moder).toNat
  { role := if m = 3 then .analog else if m = 2 then .func (if p < 8 then (Field.get 4 (4 * p) r.afrl).toNat else (Field.get 4 (4 * (p - 8)) r.afrh).toNat) else .gpio
    dir := if m = 3 then .none else if m = 2 then .periph else if m = 1 then .out else .inp
    pull := match (Field.get 2 (2 * p) r.pupdr).toNat with | 0 => .none | 1 => .up | 2 => .down | _ => .both
    od := r.otyper.getLsbD p }

/-- mux-stm32h7xx.c:60-202; lines 136: `0x1f & (pin * 4)` -/
def step : Call → Nat → Stm → Int × Stm
  | .analog, p, r => if 16 ≤ p then (einval, r) else (0, { r with moder := orIn 2 (p * 2) 3#32 r.moder })
  | .output none none, p, r => if 16 ≤ p then (einval, r) else (0, { r with moder := put 2 (p * 2) 1#32 r.moder })
  | .input none none, p, r => if 16 ≤ p then (einval, r) else (0, { r with moder := clear 2 (p * 2) r.moder })
  | .io (some alt), p, r =>
    if 16 ≤ p then (einval, r) else if 16 ≤ alt then (einval, r) else
    let t := p * 4 % 32
    let r := { r with moder := put 2 (p * 2) 2#32 r.moder }
    if p < 8 then (0, { r with afrl := put 4 t (BitVec.ofNat 32 alt) r.afrl }) else (0, { r with afrh := put 4 t (BitVec.ofNat 32 alt) r.afrh })
  | .pullUp, p, r => if 16 ≤ p then (einval, r) else (0, { r with pupdr := put 2 (p * 2) 1#32 r.pupdr })
  | .pullDown, p, r => if 16 ≤ p then (einval, r) else (0, { r with pupdr := put 2 (p * 2) 2#32 r.pupdr })
  | .pushPull, p, r => if 16 ≤ p then (einval, r) else (0, { r with otyper := bclr p r.otyper })
  | .openDrain, p, r => if 16 ≤ p then (einval, r) else (0, { r with otyper := bset p r.otyper })
  | _, _, r => (einval, r)

/-- the calls the driver has: mux_stm32h7xx_alt is `io (some alt)` -/
def Has : Call → Prop
  | .analog | .output none none | .input none none | .pullUp | .pullDown | .pushPull | .openDrain => True
  | .io (some alt) => alt < 16
  | _ => False

def drv : Drv Stm := ⟨step, view⟩

end Stm

/-! ### gd32vf103, stm32f10xxx, ch32x: two registers with 4 bits per pin -/

/-- mux-gd32vf103.c:4-12 CTL0, CTL1, OCTL; staging mux-stm32f10xxx.c CRL, CRH; mux-wch_ch32x.c CFGLR, CFGHR -/
structure Cnf where
  lo : BitVec 32
  hi : BitVec 32
  octl : BitVec 32
deriving DecidableEq

namespace Cnf

def reg (r : Cnf) (p : Nat) : BitVec 32 := if p < 8 then r.lo else r.hi

def setReg (r : Cnf) (p : Nat) (f : BitVec 32 → BitVec 32) : Cnf := if p < 8 then { r with lo := f r.lo } else { r with hi := f r.hi }

def sh (p : Nat) : Nat := 4 * (p % 8)

/-- GD32VF103 user manual GPIOx_CTL0, RM0008 GPIOx_CRL, CH32V003 RM CFGLR: mode 0 is input; configuration 0 analog, 1 floating, 2 pulled up or down according to the output
register; for outputs, bit 0 of the configuration is open drain, bit 1 peripheral. Which peripheral is not decided there (`func 0`) -/
def view (r : Cnf) (p : Nat) : Pin :=
  let cnf := (Field.get 2 (sh p + 2) (r.reg p)).toNat
  let md := (Field.get 2 (sh p) (r.reg p)).toNat
  if md = 0 then
    { role := if cnf = 0 then .analog else .gpio
      dir := if cnf = 0 then .none else .inp
      pull := if cnf = 2 then (if r.octl.getLsbD p then .up else .down) else .none
      od := false }
  else
    { role := if 2 ≤ cnf then .func 0 else .gpio
      dir := if 2 ≤ cnf then .periph else .out
      pull := .none
      od := cnf % 2 == 1 }

/-- mux-gd32vf103.c:62-69, 88-93, 144-149: the four bits are cleared, then or-ed -/
def gdWord (p cnf md : Nat) (v : BitVec 32) : BitVec 32 := orIn 2 (sh p) (BitVec.ofNat 32 md) (orIn 2 (sh p + 2) (BitVec.ofNat 32 cnf) (clear 4 (sh p) v))

/-- the mode bits for a speed, lines 154-162, 197-205: 10MHz 1, 2MHz 2, 50MHz 3 -/
def gdSpeed : Nat → Nat
  | 0 => 1
  | 1 => 2
  | _ => 3

/-- mux-gd32vf103.c:55-209; `io (some 0)` with open drain or not is mux_gd32vf103_afio, seen as an output of a peripheral; for any of the three speeds -/
def gdStep (speed : Nat) : Call → Nat → Cnf → Int × Cnf
  | .analog, p, r => if 16 ≤ p then (einval, r) else (0, r.setReg p (clear 4 (sh p)))
  | .input none (some .none), p, r => if 16 ≤ p then (einval, r) else (0, r.setReg p (fun v => orIn 2 (sh p + 2) 1#32 (clear 4 (sh p) v)))
  | .input none (some .down), p, r =>
    if 16 ≤ p then (einval, r) else (0, { (r.setReg p (fun v => orIn 2 (sh p + 2) 2#32 (clear 4 (sh p) v))) with octl := bclr p r.octl })
  | .input none (some .up), p, r =>
    if 16 ≤ p then (einval, r) else (0, { (r.setReg p (fun v => orIn 2 (sh p + 2) 2#32 (clear 4 (sh p) v))) with octl := bset p r.octl })
  | .output none (some od), p, r =>
    if 16 ≤ p then (einval, r) else if 3 ≤ speed then (einval, r) else (0, r.setReg p (gdWord p (if od then 1 else 0) (gdSpeed speed)))
  | .output (some 0) (some od), p, r =>
    if 16 ≤ p then (einval, r) else if 3 ≤ speed then (einval, r) else (0, r.setReg p (gdWord p (if od then 3 else 2) (gdSpeed speed)))
  | _, _, r => (einval, r)

/-- staging mux-stm32f10xxx.c:93-116 set_cnf_mode -/
def setCnfMode (r : Cnf) (p cnf md : Nat) : Cnf := r.setReg p (fun v => put 2 (sh p) (BitVec.ofNat 32 md) (put 2 (sh p + 2) (BitVec.ofNat 32 cnf) v))

/-- staging mux-stm32f10xxx.c:118-161 -/
def f10Step : Call → Nat → Cnf → Int × Cnf
  | .analog, p, r => if 16 ≤ p then (einval, r) else (0, setCnfMode r p 0 0)
  | .output none (some od), p, r => if 16 ≤ p then (einval, r) else (0, setCnfMode r p (if od then 1 else 0) 1)
  | .input none (some .none), p, r => if 16 ≤ p then (einval, r) else (0, setCnfMode r p 1 0)
  | .input none none, p, r => if 16 ≤ p then (einval, r) else (0, setCnfMode r p 2 0)
  | .output (some 0) (some od), p, r => if 16 ≤ p then (einval, r) else (0, setCnfMode r p (if od then 3 else 2) 1)
  | _, _, r => (einval, r)

/-- staging mux-wch_ch32x.c:31-72 -/
def chStep : Call → Nat → Cnf → Int × Cnf
  | .analog, p, r => if 16 ≤ p then (einval, r) else (0, r.setReg p (fun v => clear 2 (sh p) (put 2 (sh p + 2) 0#32 v)))
  | .input none (some .none), p, r => if 16 ≤ p then (einval, r) else (0, r.setReg p (fun v => clear 2 (sh p) (put 2 (sh p + 2) 1#32 v)))
  | .input none none, p, r => if 16 ≤ p then (einval, r) else (0, r.setReg p (fun v => clear 2 (sh p) (put 2 (sh p + 2) 2#32 v)))
  | .output none (some od), p, r =>
    if 16 ≤ p then (einval, r) else (0, r.setReg p (fun v => put 2 (sh p) 1#32 (put 2 (sh p + 2) (BitVec.ofNat 32 (if od then 1 else 0)) v)))
  | .output (some 0) (some od), p, r =>
    if 16 ≤ p then (einval, r) else (0, r.setReg p (fun v => put 2 (sh p) 1#32 (put 2 (sh p + 2) (BitVec.ofNat 32 (if od then 3 else 2)) v)))
  | _, _, r => (einval, r)

/-- the calls of gd32vf103 -/
def GdHas : Call → Prop
  | .analog | .input none (some .none) | .input none (some .up) | .input none (some .down) | .output none (some _) | .output (some 0) (some _) => True
  | _ => False

/-- the calls of stm32f10xxx and ch32x: `input none none` is the pulled input, whose direction has to be chosen with the output register -/
def FHas : Call → Prop
  | .analog | .input none (some .none) | .input none none | .output none (some _) | .output (some 0) (some _) => True
  | _ => False

def gd (speed : Nat) : Drv Cnf := ⟨gdStep speed, view⟩
def f10 : Drv Cnf := ⟨f10Step, view⟩
def ch : Drv Cnf := ⟨chStep, view⟩

end Cnf

/-! ### rp2040 -/

/-- mux-rp2040.c:6-57: GPIOn_CTRL, pads GPIOn -/
structure Rp where
  ctrl : Nat → BitVec 32
  pads : Nat → BitVec 32

namespace Rp

/-- buffers from output disable (the function drives otherwise) and input enable -/
def dirOf (od ie : Bool) : Dir := match od, ie with
  | true, true => .inp
  | false, true => .both
  | false, false => .out
  | true, false => .none

def pullOf (u d : Bool) : Pull := match u, d with
  | false, false => .none
  | true, false => .up
  | false, true => .down
  | true, true => .both

/-- RP2040 datasheet: FUNCSEL; OD bit 7, IE bit 6, PUE bit 3, PDE bit 2. Every function is a peripheral (5 is SIO, that is GPIO) -/
def view (r : Rp) (p : Nat) : Pin :=
  { role := .func (Field.get 5 0 (r.ctrl p)).toNat
    dir := dirOf ((r.pads p).getLsbD 7) ((r.pads p).getLsbD 6)
    pull := pullOf ((r.pads p).getLsbD 3) ((r.pads p).getLsbD 2)
    od := false }

/-- mux-rp2040.c:87-209: drive 4mA is 1 << 4, Schmitt 1 << 1 -/
def step : Call → Nat → Rp → Int × Rp
  | .io (some f), p, r => if 30 ≤ p then (einval, r) else if 10 ≤ f then (einval, r) else
    (0, ⟨upd r.ctrl p (fun _ => BitVec.ofNat 32 f &&& mask 32 5), upd r.pads p (fun _ => 0x52#32)⟩)
  | .input (some f) none, p, r => if 30 ≤ p then (einval, r) else if 10 ≤ f then (einval, r) else
    (0, ⟨upd r.ctrl p (fun _ => BitVec.ofNat 32 f &&& mask 32 5), upd r.pads p (fun _ => 0xd2#32)⟩)
  | .output (some f) none, p, r => if 30 ≤ p then (einval, r) else if 10 ≤ f then (einval, r) else
    (0, ⟨upd r.ctrl p (fun _ => BitVec.ofNat 32 f &&& mask 32 5), upd r.pads p (fun _ => 0x16#32)⟩)
  | .pullUp, p, r => if 30 ≤ p then (einval, r) else (0, { r with pads := upd r.pads p (fun v => bclr 2 (bset 3 v)) })
  | .pullDown, p, r => if 30 ≤ p then (einval, r) else (0, { r with pads := upd r.pads p (fun v => bclr 3 (bset 2 v)) })
  | _, _, r => (einval, r)

/-- mux-rp2040.c:215-260: mux_rp2040_override, mux_rp2040_set_drive -/
def override (over p : Nat) (r : Rp) : Int × Rp :=
  if 30 ≤ p then (einval, r) else if 4 ≤ over then (einval, r) else (0, { r with ctrl := upd r.ctrl p (put 2 8 (BitVec.ofNat 32 over)) })

def setDrive (drive p : Nat) (r : Rp) : Int × Rp :=
  if 30 ≤ p then (einval, r) else if 4 ≤ drive then (einval, r) else (0, { r with pads := upd r.pads p (put 2 4 (BitVec.ofNat 32 drive)) })

def Has : Call → Prop
  | .io (some f) | .input (some f) none | .output (some f) none => f < 10
  | .pullUp | .pullDown => True
  | _ => False

def drv : Drv Rp := ⟨step, view⟩

end Rp

/-! ### nxp_siul2 -/

/-- mux-nxp_siul2.c:25-33 MSCR, IMCR -/
structure Siul2 where
  mscr : Nat → BitVec 32
  imcr : Nat → BitVec 32

namespace Siul2

/-- buffers from output enable and input enable -/
def dirOf (oe ie : Bool) : Dir := match oe, ie with
  | true, true => .both
  | true, false => .out
  | false, true => .inp
  | false, false => .none

/-- SIUL2 MSCR: APC bit 22, OBE 25, IBE 19, PUE 16, PUS 17, SSS bits 3-0 (0: GPIO). SSS is the source of the output only: the function an input feeds is in IMCR -/
def view (r : Siul2) (p : Nat) : Pin :=
  let v := r.mscr p
  { role := if v.getLsbD 22 then .analog else if (Field.get 4 0 v).toNat = 0 then .gpio else .func (Field.get 4 0 v).toNat
    dir := dirOf (v.getLsbD 25) (v.getLsbD 19)
    pull := if v.getLsbD 16 then (if v.getLsbD 17 then .up else .down) else .none
    od := false }

/-- mux-nxp_siul2.c:79-95 -/
def output (mux p : Nat) (r : Siul2) : Int × Siul2 :=
  if 264 ≤ p then (einval, r) else if 6 ≤ mux then (einval, r) else
  (0, { r with mscr := upd r.mscr p (fun v => orIn 2 28 3#32 (bset 25 (put 4 0 (BitVec.ofNat 32 mux) v))) })

/-- mux-nxp_siul2.c:108-122 -/
def input (mux imcr p : Nat) (r : Siul2) : Int × Siul2 :=
  if 264 ≤ p then (einval, r) else if 6 ≤ mux then (einval, r) else if 512 ≤ imcr then (einval, r) else
  (0, { mscr := upd r.mscr p (bset 19), imcr := upd r.imcr imcr (fun _ => BitVec.ofNat 32 mux &&& mask 32 4) })

/-- mux-nxp_siul2.c:134-140: MSCR_APC | MSCR_IBE -/
def analog (p : Nat) (r : Siul2) : Int × Siul2 :=
  if 264 ≤ p then (einval, r) else (0, { r with mscr := upd r.mscr p (fun _ => 0x480000#32) })

/-- mux-nxp_siul2.c:152-179 -/
def pullUp (p : Nat) (r : Siul2) : Int × Siul2 := if 264 ≤ p then (einval, r) else (0, { r with mscr := upd r.mscr p (fun v => v ||| 0x30000#32) })

def pullDown (p : Nat) (r : Siul2) : Int × Siul2 := if 264 ≤ p then (einval, r) else (0, { r with mscr := upd r.mscr p (fun v => bclr 17 (bset 16 v)) })

/-- the calls on a pin; inputs with a given IMCR register -/
def step (imcr : Nat) : Call → Nat → Siul2 → Int × Siul2
  | .analog, p, r => analog p r
  | .output none none, p, r => output 0 p r
  | .output (some n) none, p, r => output n p r
  | .input none none, p, r => input 0 imcr p r
  | .input (some n) none, p, r => input n imcr p r
  | .pullUp, p, r => pullUp p r
  | .pullDown, p, r => pullDown p r
  | _, _, r => (einval, r)

def drv (imcr : Nat) : Drv Siul2 := ⟨step imcr, view⟩

end Siul2

/-! ### nxp_siu -/

/-- mux-nxp_siu.c:7-98 PCR, IMUX -/
structure Siu where
  pcr : Nat → BitVec 16
  imux : Nat → BitVec 32

namespace Siu

/-- SIU_PCR: PA bits 12-10 (0: GPIO), OBE 9, IBE 8, WPE 1, WPS 0 -/
def view (r : Siu) (p : Nat) : Pin :=
  let v := r.pcr p
  { role := if (Field.get 3 10 v).toNat = 0 then .gpio else .func (Field.get 3 10 v).toNat
    dir := Siul2.dirOf (v.getLsbD 9) (v.getLsbD 8)
    pull := if v.getLsbD 1 then (if v.getLsbD 0 then .up else .down) else .none
    od := false }

/-- the function of a call: GPIO is 0 -/
def code : Option Nat → Nat
  | none => 0
  | some n => n

/-- mux-nxp_siu.c:137-246; `cnt` is MUX_NXP_SIU_PCR_COUNT; a peripheral function 0 does not exist (0 is GPIO) -/
def step (cnt : Nat) : Call → Nat → Siu → Int × Siu
  | .output f none, p, r => if cnt ≤ p then (einval, r) else if 4 ≤ code f ∨ f = some 0 then (einval, r) else
    (0, { r with pcr := upd r.pcr p (fun v => orIn 2 2 3#16 (orIn 2 6 3#16 (bclr 8 (bset 9 (put 3 10 (BitVec.ofNat 16 (code f)) v))))) })
  | .input f none, p, r => if cnt ≤ p then (einval, r) else if 4 ≤ code f ∨ f = some 0 then (einval, r) else
    (0, { r with pcr := upd r.pcr p (fun v => bclr 9 (bset 8 (put 3 10 (BitVec.ofNat 16 (code f)) v))) })
  | .pullUp, p, r => if cnt ≤ p then (einval, r) else (0, { r with pcr := upd r.pcr p (fun v => v ||| 3#16) })
  | .pullDown, p, r => if cnt ≤ p then (einval, r) else (0, { r with pcr := upd r.pcr p (fun v => bclr 0 (bset 1 v)) })
  | _, _, r => (einval, r)

/-- mux-nxp_siu.c:197-209 -/
def muxsel (reg sel value : Nat) (r : Siu) : Int × Siu :=
  if 13 ≤ reg then (einval, r) else if 16 ≤ sel then (einval, r) else if 3 < value then (einval, r) else
  (0, { r with imux := upd r.imux reg (put 2 (sel * 2) (BitVec.ofNat 32 value)) })

def Has : Call → Prop
  | .output none none | .input none none | .pullUp | .pullDown => True
  | .output (some n) none | .input (some n) none => 1 ≤ n ∧ n < 4
  | _ => False

def drv (cnt : Nat) : Drv Siu := ⟨step cnt, view⟩

end Siu

/-! ### Ports with one bit per pin: pic32mx, atmel_pio, sam3x_pio, avr, mc9s08ptxx, stm8 -/

/-- mux-pic32mx.c:8-24 -/
structure Pic where
  ansel : BitVec 32
  tris : BitVec 32
  cnpu : BitVec 32
  cnpd : BitVec 32
deriving DecidableEq

namespace Pic

/-- PIC32 family reference manual, section 12: ANSEL 1 is analog; TRIS 1 is input -/
def view (r : Pic) (p : Nat) : Pin :=
  { role := if r.ansel.getLsbD p then .analog else .gpio
    dir := if r.tris.getLsbD p then (if r.ansel.getLsbD p then .none else .inp) else .out
    pull := Rp.pullOf (r.cnpu.getLsbD p) (r.cnpd.getLsbD p)
    od := false }

/-- mux-pic32mx.c:62-108, 158-182; MUX_PIC32MX_PIN_COUNT is 16 -/
def step : Call → Nat → Pic → Int × Pic
  | .analog, p, r => if 16 ≤ p then (einval, r) else (0, { r with ansel := bset p r.ansel, tris := bset p r.tris })
  | .input none none, p, r => if 16 ≤ p then (einval, r) else (0, { r with ansel := bclr p r.ansel, tris := bset p r.tris })
  | .output none none, p, r => if 16 ≤ p then (einval, r) else (0, { r with ansel := bclr p r.ansel, tris := bclr p r.tris })
  | .pullUp, p, r => if 16 ≤ p then (einval, r) else (0, { r with cnpu := bset p r.cnpu, cnpd := bclr p r.cnpd })
  | .pullDown, p, r => if 16 ≤ p then (einval, r) else (0, { r with cnpd := bset p r.cnpd, cnpu := bclr p r.cnpu })
  | _, _, r => (einval, r)

def Has : Call → Prop
  | .analog | .input none none | .output none none | .pullUp | .pullDown => True
  | _ => False

def drv : Drv Pic := ⟨step, view⟩

end Pic

/-- mux-atmel_pio.c:6-62; mux-sam3x_pio.c: ABSR is `sel0`, and `sel1` is 0. PER, PDR, OER, ODR, PUER set and clear bits of PSR, OSR, PUSR -/
structure Pio where
  psr : BitVec 32
  osr : BitVec 32
  pusr : BitVec 32
  sel0 : BitVec 32
  sel1 : BitVec 32
deriving DecidableEq

namespace Pio

/-- SAM E70 and SAM3X datasheets: PSR 1 is GPIO; the peripheral is A, B, C, D (0 to 3); OSR is the direction of the GPIO; PUSR 0 is pull-up (the pull-down of the E70 is not touched) -/
def view (r : Pio) (p : Nat) : Pin :=
  { role := if r.psr.getLsbD p then .gpio else .func ((if r.sel0.getLsbD p then 1 else 0) + (if r.sel1.getLsbD p then 2 else 0))
    dir := if r.psr.getLsbD p then (if r.osr.getLsbD p then .out else .inp) else .periph
    pull := if r.pusr.getLsbD p then .none else .up
    od := false }

/-- mux-atmel_pio.c:80-121 mux_atmel_pio, for the pin p; `nf` peripherals -/
def select (f : Option Nat) (p : Nat) (r : Pio) : Pio :=
  match f with
  | none => { r with psr := bset p r.psr }
  | some 0 => { r with psr := bclr p r.psr, sel0 := bclr p r.sel0, sel1 := bclr p r.sel1 }
  | some 1 => { r with psr := bclr p r.psr, sel0 := bset p r.sel0, sel1 := bclr p r.sel1 }
  | some 2 => { r with psr := bclr p r.psr, sel0 := bclr p r.sel0, sel1 := bset p r.sel1 }
  | some _ => { r with psr := bclr p r.psr, sel0 := bset p r.sel0, sel1 := bset p r.sel1 }

/-- mux-sam3x_pio.c:77-108 -/
def select3 (f : Option Nat) (p : Nat) (r : Pio) : Pio :=
  match f with
  | none => { r with psr := bset p r.psr }
  | some 0 => { r with psr := bclr p r.psr, sel0 := bclr p r.sel0 }
  | some _ => { r with psr := bclr p r.psr, sel0 := bset p r.sel0 }

def valid (n : Nat) : Option Nat → Bool
  | none => true
  | some k => decide (k < n)

/-- mux-atmel_pio.c:134-194, mux-sam3x_pio.c:122-179 -/
def stepWith (n : Nat) (sel : Option Nat → Nat → Pio → Pio) : Call → Nat → Pio → Int × Pio
  | .input f none, p, r => if 32 ≤ p then (einval, r) else if valid n f = false then (einval, r) else
    let r := sel f p r
    (0, { r with osr := bclr p r.osr })
  | .output f none, p, r => if 32 ≤ p then (einval, r) else if valid n f = false then (einval, r) else
    let r := sel f p r
    (0, { r with osr := bset p r.osr })
  | .pullUp, p, r => if 32 ≤ p then (einval, r) else (0, { r with pusr := bclr p r.pusr })
  | _, _, r => (einval, r)

def Has (n : Nat) : Call → Prop
  | .input f none | .output f none => valid n f = true
  | .pullUp => True
  | _ => False

def drv : Drv Pio := ⟨stepWith 4 select, view⟩
def drv3 : Drv Pio := ⟨stepWith 2 select3, fun r p => view { r with sel1 := 0#32 } p⟩

end Pio

/-- mux-avr.c:6-10 -/
structure Avr where
  ddr : BitVec 8
  port : BitVec 8
deriving DecidableEq

namespace Avr

/-- AVR: DDR 1 is output; the PORT bit of an input is its pull-up. Peripherals take their pins by themselves -/
def view (r : Avr) (p : Nat) : Pin :=
  { role := .gpio, dir := if r.ddr.getLsbD p then .out else .inp
    pull := if r.ddr.getLsbD p then .none else if r.port.getLsbD p then .up else .none, od := false }

/-- mux-avr.c:41-47 -/
def input (p : Nat) (r : Avr) : Int × Avr := if 8 ≤ p then (einval, r) else (0, { r with ddr := bclr p r.ddr })

/-- mux-avr.c:60-71 -/
def output (value : Bool) (p : Nat) (r : Avr) : Int × Avr :=
  if 8 ≤ p then (einval, r) else (0, { ddr := bset p r.ddr, port := if value then bset p r.port else bclr p r.port })

def step (value : Bool) : Call → Nat → Avr → Int × Avr
  | .input none none, p, r => input p r
  | .output none none, p, r => output value p r
  | _, _, r => (einval, r)

def Has : Call → Prop
  | .input none none | .output none none => True
  | _ => False

def drv (value : Bool) : Drv Avr := ⟨step value, view⟩

end Avr

/-- staging mux-mc9s08ptxx.c: PTxOE, PTxIE, PTxPE of a port -/
structure Mc where
  oe : BitVec 8
  ie : BitVec 8
  pe : BitVec 8
deriving DecidableEq

namespace Mc

def view (r : Mc) (p : Nat) : Pin :=
  { role := .gpio, dir := Siul2.dirOf (r.oe.getLsbD p) (r.ie.getLsbD p), pull := if r.pe.getLsbD p then .up else .none, od := false }

/-- staging mux-mc9s08ptxx.c:17-44 -/
def step : Call → Nat → Mc → Int × Mc
  | .output none none, p, r => if 8 ≤ p then (einval, r) else (0, { r with oe := bset p r.oe, ie := bclr p r.ie })
  | .input none none, p, r => if 8 ≤ p then (einval, r) else (0, { r with oe := bclr p r.oe, ie := bset p r.ie })
  | .pullUp, p, r => if 8 ≤ p then (einval, r) else (0, { r with pe := bset p r.pe })
  | _, _, r => (einval, r)

def Has : Call → Prop
  | .input none none | .output none none | .pullUp => True
  | _ => False

def drv : Drv Mc := ⟨step, view⟩

end Mc

/-- staging mux-stm8.c:6-12 -/
structure Stm8 where
  ddr : BitVec 8
  cr1 : BitVec 8
  cr2 : BitVec 8
deriving DecidableEq

namespace Stm8

/-- RM0016 11.9: CR1 of an input is its pull-up, of an output push-pull -/
def view (r : Stm8) (p : Nat) : Pin :=
  { role := .gpio, dir := if r.ddr.getLsbD p then .out else .inp
    pull := if r.ddr.getLsbD p then .none else if r.cr1.getLsbD p then .up else .none
    od := r.ddr.getLsbD p && !r.cr1.getLsbD p }

/-- staging mux-stm8.c:20-70 -/
def step : Call → Nat → Stm8 → Int × Stm8
  | .output none (some od), p, r =>
    if 8 ≤ p then (einval, r) else (0, { ddr := bset p r.ddr, cr1 := if od then bclr p r.cr1 else bset p r.cr1, cr2 := bclr p r.cr2 })
  | .input none (some .none), p, r => if 8 ≤ p then (einval, r) else (0, { ddr := bclr p r.ddr, cr1 := bclr p r.cr1, cr2 := bclr p r.cr2 })
  | .input none (some .up), p, r => if 8 ≤ p then (einval, r) else (0, { ddr := bclr p r.ddr, cr1 := bset p r.cr1, cr2 := bclr p r.cr2 })
  | _, _, r => (einval, r)

def Has : Call → Prop
  | .output none (some _) | .input none (some .none) | .input none (some .up) => True
  | _ => False

def drv : Drv Stm8 := ⟨step, view⟩

end Stm8

/-! ### same5x -/

/-- mux-same5x.c:8-23 -/
structure Sa where
  dir : BitVec 32
  out : BitVec 32
  pmux : Nat → BitVec 8
  pincfg : Nat → BitVec 8

namespace Sa

/-- SAM E5x datasheet, PORT: PINCFG PMUXEN bit 0, INEN 1, PULLEN 2; PMUX low half for even pins, high for odd; the pull of an input is up when its OUT bit is 1 -/
def view (r : Sa) (p : Nat) : Pin :=
  let c := r.pincfg p
  { role := if c.getLsbD 0 then .func (Field.get 4 (4 * (p % 2)) (r.pmux (p / 2))).toNat else .gpio
    dir := if c.getLsbD 0 then .periph else Siul2.dirOf (r.dir.getLsbD p) (c.getLsbD 1)
    pull := if c.getLsbD 2 then (if r.out.getLsbD p then .up else .down) else .none
    od := false }

/-- mux-same5x.c:49-69 -/
def setPmux (n p : Nat) (r : Sa) : Sa :=
  if p % 2 = 1 then { r with pmux := upd r.pmux (p / 2) (put 4 4 (BitVec.ofNat 8 n)) } else { r with pmux := upd r.pmux (p / 2) (put 4 0 (BitVec.ofNat 8 n)) }

/-- mux-same5x.c:82-155; MUX_PMUX_GPIO is 14 -/
def step : Call → Nat → Sa → Int × Sa
  | .input none none, p, r => if 32 ≤ p then (einval, r) else (0, { r with dir := bclr p r.dir })
  | .input (some n) none, p, r => if 32 ≤ p then (einval, r) else if 14 ≤ n then (einval, r) else
    let r := setPmux n p r
    (0, { r with pincfg := upd r.pincfg p (fun _ => 3#8), dir := bclr p r.dir })
  | .output none none, p, r => if 32 ≤ p then (einval, r) else (0, { r with dir := bset p r.dir })
  | .output (some n) none, p, r => if 32 ≤ p then (einval, r) else if 14 ≤ n then (einval, r) else
    let r := setPmux n p r
    (0, { r with pincfg := upd r.pincfg p (fun _ => 1#8), dir := bset p r.dir })
  | .pullUp, p, r | .pullDown, p, r => if 32 ≤ p then (einval, r) else (0, { r with pincfg := upd r.pincfg p (bset 2) })
  | _, _, r => (einval, r)

/-- the calls with which the driver does what is asked: the peripheral functions -/
def Has : Call → Prop
  | .input (some n) none | .output (some n) none => n < 14
  | _ => False

def drv : Drv Sa := ⟨step, view⟩

end Sa

/-! ### ti_f28x -/

/-- mux-ti_f28x.c:7-20; QSEL is not part of `Pin` -/
structure Ti where
  mux1 : BitVec 32
  mux2 : BitVec 32
  gmux1 : BitVec 32
  gmux2 : BitVec 32
  dir : BitVec 32
  pud : BitVec 32
  qsel1 : BitVec 32
  qsel2 : BitVec 32
deriving DecidableEq

namespace Ti

/-- TMS320F2837xD manual, 8.7: the function is GMUX:MUX, and MUX 0 is GPIO whatever GMUX; PUD 0 is pull-up -/
def view (r : Ti) (p : Nat) : Pin :=
  let m := if p < 16 then (Field.get 2 (2 * p) r.mux1).toNat else (Field.get 2 (2 * (p - 16)) r.mux2).toNat
  let g := if p < 16 then (Field.get 2 (2 * p) r.gmux1).toNat else (Field.get 2 (2 * (p - 16)) r.gmux2).toNat
  { role := if m = 0 then .gpio else .func (4 * g + m)
    dir := if m = 0 then (if r.dir.getLsbD p then .out else .inp) else .periph
    pull := if r.pud.getLsbD p then .none else .up
    od := false }

/-- mux-ti_f28x.c:22-48 -/
def setMux (g m p : Nat) (r : Ti) : Ti :=
  if p < 16 then { r with gmux1 := put 2 (p * 2) (BitVec.ofNat 32 g) r.gmux1, mux1 := put 2 (p * 2) (BitVec.ofNat 32 m) r.mux1 }
  else { r with gmux2 := put 2 ((p - 16) * 2) (BitVec.ofNat 32 g) r.gmux2, mux2 := put 2 ((p - 16) * 2) (BitVec.ofNat 32 m) r.mux2 }

/-- mux-ti_f28x.c:78-121 -/
def output (g m p : Nat) (r : Ti) : Int × Ti :=
  if 32 ≤ p then (einval, r) else if 4 ≤ g then (einval, r) else if 4 ≤ m then (einval, r) else (0, setMux g m p { r with dir := bset p r.dir })

def input (g m p : Nat) (r : Ti) : Int × Ti :=
  if 32 ≤ p then (einval, r) else if 4 ≤ g then (einval, r) else if 4 ≤ m then (einval, r) else (0, setMux g m p { r with dir := bclr p r.dir })

/-- mux-ti_f28x.c:133-143 -/
def pullUp (p : Nat) (r : Ti) : Int × Ti := if 32 ≤ p then (einval, r) else (0, { r with pud := bclr p r.pud })

/-- mux-ti_f28x.c:156-177 -/
def setQsel (q p : Nat) (r : Ti) : Int × Ti :=
  if 32 ≤ p then (einval, r) else if 4 ≤ q then (einval, r) else
  (0, if p < 16 then { r with qsel1 := put 2 (p * 2) (BitVec.ofNat 32 q) r.qsel1 } else { r with qsel2 := put 2 ((p - 16) * 2) (BitVec.ofNat 32 q) r.qsel2 })

/-- function n as GMUX, MUX; GPIO is 0, 0 (MUX 0 is no peripheral function) -/
def step : Call → Nat → Ti → Int × Ti
  | .output none none, p, r => output 0 0 p r
  | .output (some n) none, p, r => if n % 4 = 0 then (einval, r) else output (n / 4) (n % 4) p r
  | .input none none, p, r => input 0 0 p r
  | .input (some n) none, p, r => if n % 4 = 0 then (einval, r) else input (n / 4) (n % 4) p r
  | .pullUp, p, r => pullUp p r
  | _, _, r => (einval, r)

def Has : Call → Prop
  | .output none none | .input none none | .pullUp => True
  | .output (some n) none | .input (some n) none => n < 16 ∧ n % 4 ≠ 0
  | _ => False

def drv : Drv Ti := ⟨step, view⟩

end Ti

/-! ### tinyavr -/

/-- mux-tinyavr.c:7-31 -/
structure Tiny where
  dir : BitVec 8
  pinctrl : Nat → BitVec 8
  portmux : Nat → BitVec 8

namespace Tiny

/-- PINnCTRL: PULLUPEN bit 3 (its effect is on inputs) -/
def view (r : Tiny) (p : Nat) : Pin :=
  { role := .gpio, dir := if r.dir.getLsbD p then .out else .inp, pull := if (r.pinctrl p).getLsbD 3 then .up else .none, od := false }

/-- mux-tinyavr.c:61-100 -/
def step : Call → Nat → Tiny → Int × Tiny
  | .input none none, p, r => if 8 ≤ p then (einval, r) else (0, { r with dir := bclr p r.dir })
  | .output none none, p, r => if 8 ≤ p then (einval, r) else (0, { r with dir := bset p r.dir })
  | .pullUp, p, r => if 8 ≤ p then (einval, r) else (0, { r with pinctrl := upd r.pinctrl p (fun _ => 8#8) })
  | _, _, r => (einval, r)

/-- mux-tinyavr.c:104-121; MUX_TINYAVR_ALT_COUNT is 0x31 -/
def selectAlt (alt : Nat) (r : Tiny) : Int × Tiny :=
  if 0x31 ≤ alt then (einval, r) else (0, { r with portmux := upd r.portmux (alt / 16) (bset (alt % 16)) })

def Has : Call → Prop
  | .input none none | .output none none | .pullUp => True
  | _ => False

def drv : Drv Tiny := ⟨step, view⟩

end Tiny

/-! ### renesas_ra4 -/

/-- mux-renesas_ra4.c:10-14; PWPR -/
structure Ra where
  pfs : Nat → BitVec 32
  b0wi : Bool
  pfswe : Bool

namespace Ra

/-- RA4 manual 19.2.5 PmnPFS: PSEL bits 28-24, PMR 16, ASEL 15, NCODR 6, PCR 4, PDR 2; `port` of the context -/
def view (port : Nat) (r : Ra) (p : Nat) : Pin :=
  let v := r.pfs (port * 16 + p)
  { role := if v.getLsbD 15 then .analog else if v.getLsbD 16 then .func (Field.get 5 24 v).toNat else .gpio
    dir := if v.getLsbD 16 then .periph else if v.getLsbD 2 then .out else if v.getLsbD 15 then .none else .inp
    pull := if v.getLsbD 4 then .up else .none
    od := v.getLsbD 6 }

/-- RA4 manual 19.2.6: PFSWE can be written when B0WI is 0, before the write -/
def writePwpr (b0wi pfswe : Bool) (r : Ra) : Ra := { r with b0wi := b0wi, pfswe := if r.b0wi then r.pfswe else pfswe }

/-- the PFS registers can be written while PFSWE is 1 -/
def writePfs (i : Nat) (f : BitVec 32 → BitVec 32) (r : Ra) : Ra := if r.pfswe then { r with pfs := upd r.pfs i f } else r

/-- mux-renesas_ra4.c:37-46 enable_write, disable_write around an access -/
def guarded (i : Nat) (f : BitVec 32 → BitVec 32) (r : Ra) : Ra := writePwpr true false (writePfs i f (writePwpr false true (writePwpr false false r)))

/-- mux-renesas_ra4.c:78-190 -/
def step (port : Nat) : Call → Nat → Ra → Int × Ra
  | .output none none, p, r => if 16 ≤ p then (einval, r) else (0, guarded (port * 16 + p) (fun _ => 4#32) r)
  | .input none none, p, r => if 16 ≤ p then (einval, r) else (0, guarded (port * 16 + p) (fun _ => 0#32) r)
  | .analog, p, r => if 16 ≤ p then (einval, r) else (0, guarded (port * 16 + p) (fun _ => 0x8000#32) r)
  | .io (some n), p, r => if 16 ≤ p then (einval, r) else if 32 ≤ n then (einval, r) else
    (0, guarded (port * 16 + p) (fun _ => 0x10000#32 ||| ((BitVec.ofNat 32 n &&& mask 32 5) <<< 24)) r)
  | .pullUp, p, r => if 16 ≤ p then (einval, r) else (0, guarded (port * 16 + p) (bset 4) r)
  | _, _, r => (einval, r)

def Has : Call → Prop
  | .output none none | .input none none | .analog | .pullUp => True
  | .io (some n) => n < 32
  | _ => False

def drv (port : Nat) : Drv Ra := ⟨step port, view port⟩

end Ra

/-! ### 8051, n76e003, ch552: a mode of two bits per pin -/

/-- staging mux-8051.c, mux-n76e003.c: `hi` is PxM1, `lo` PxM0 (PxM2 for the n76e003); mux-ch552.c: Px_MOD_OC, Px_DIR_PU; for the ports by number -/
structure Two where
  hi : Nat → BitVec 8
  lo : Nat → BitVec 8

namespace Two

/-- the mode of a pin, as the values of the enumerations of the headers and as in the tables of the manuals (STC12C5Axx 4.1, N76E003 7.1, CH552 10.2) -/
def mode (r : Two) (port p : Nat) : Nat := (if (r.hi port).getLsbD p then 2 else 0) + (if (r.lo port).getLsbD p then 1 else 0)

/-- `R |= x; R &= ~(x ^ mask)` with x the mask or 0 -/
def setBit (b : Bool) (p : Nat) (v : BitVec 8) : BitVec 8 :=
  let m := 1#8 <<< p
  let x := if b then m else 0#8
  (v ||| x) &&& ~~~ (x ^^^ m)

/-- staging mux-8051.c:58-116, mux-n76e003.c:33-73 (ports 0 to 3), mux-ch552.c:27-62 (P1 to P3); `count`: number of ports; port 2 has no registers in the driver -/
def setMode (count port p m : Nat) (r : Two) : Int × Two :=
  if 8 ≤ p then (einval, r) else if 4 ≤ m then (einval, r) else if count ≤ port then (-5, r)
  else if port = 2 then (0, r)
  else (0, { hi := upd r.hi port (setBit (m / 2 % 2 == 1) p), lo := upd r.lo port (setBit (m % 2 == 1) p) })

end Two

end Pico.Mux
