import Verif.Drivers.DmaSpec
import Verif.Drivers.Field

/-
The DMA channel drivers: rp2040, gd32vf103, stm32h7xx, nxp_edma, same5x, ti_f28x (drivers/dma/).

The controllers are modelled from their manuals: a sequencer (`Seq`) moves one unit per bus cycle it is granted.
A schedule is a list of cycles, each with or without a request of the peripheral of the channel; it is arbitrary.
Errors of the bus, arbitration between channels, alignment and FIFO packing are not modelled.
Asserts are those of a build with asserts off turned on to return (`picoRTOS_assert(x, return ...)`).
-/
namespace Pico.Dma

open Field

/-- include: EINVAL, EAGAIN as returned (negated) -/
def einval : Int := -22
def eagain : Int := -11

/-- the part of a channel that moves data: current addresses, steps, bytes per unit, units left, and what was moved (oldest first) -/
structure Seq where
  src : BitVec 32
  dst : BitVec 32
  sstep : BitVec 32
  dstep : BitVec 32
  unit : Nat
  left : Nat
  log : List Beat
deriving DecidableEq, Repr

/-- one unit is moved -/
def Seq.beat (s : Seq) : Seq :=
  match s.left with
  | 0 => s
  | n + 1 => { s with src := s.src + s.sstep, dst := s.dst + s.dstep, left := n, log := s.log ++ [⟨s.src, s.dst, s.unit⟩] }

/-- the width codes 0, 1, 2 are 1, 2 and 4 bytes, 3 is reserved; used by rp2040 (DATA_SIZE), gd32vf103 and stm32h7xx (xWIDTH, xSIZE), same5x (BEATSIZE) -/
def width (code : Nat) : Option Nat := if code = 0 then some 1 else if code = 1 then some 2 else if code = 2 then some 4 else none

/-! ### rp2040 -/

/-- drivers/dma/dma-rp2040.c:4-22 one channel. READ_ADDR and WRITE_ADDR are the addresses of the sequencer; TRANS_COUNT is written as the reload
value of the count. BUSY (read only) is `left ≠ 0`. -/
structure Rp where
  ctrl : BitVec 32
  reload : BitVec 32
  seq : Seq
deriving DecidableEq, Repr

/-- (RP2040 datasheet 2.5.7) a write of CTRL_TRIG sets the steps and the width, and starts a transfer if EN is written as one and the channel is not busy;
reserved width: modelled as units of 0 bytes -/
def Rp.writeCtrl (v : BitVec 32) (c : Rp) : Rp :=
  let u := (width (Field.get 2 2 v).toNat).getD 0
  { c with
    ctrl := v
    seq := { c.seq with
      unit := u
      sstep := if v.getLsbD 4 then BitVec.ofNat 32 u else 0#32
      dstep := if v.getLsbD 5 then BitVec.ofNat 32 u else 0#32
      left := if v.getLsbD 0 ∧ c.seq.left = 0 then c.reload.toNat else c.seq.left } }

/-- a cycle of the channel: a unit moves if the channel is enabled and the peripheral requests it or the request is permanent (TREQ_SEL 0x3f) -/
def Rp.cycle (req : Bool) (c : Rp) : Rp :=
  if c.ctrl.getLsbD 0 ∧ (req = true ∨ Field.get 6 15 c.ctrl = 0x3f#32) then { c with seq := c.seq.beat } else c

def Rp.cycles : List Bool → Rp → Rp
  | [], c => c
  | r :: rs, c => Rp.cycles rs (c.cycle r)

/-- register accesses, with the cycles of the channel between them -/
def Rp.run : List (Rp → Rp) → List (List Bool) → Rp → Rp
  | [], _, c => c
  | o :: os, gs, c => Rp.run os gs.tail (o (Rp.cycles (gs.headD []) c))

/-- `CTRL_TRIG = f(CTRL_TRIG)`; the BUSY bit read is dropped by the write -/
def Rp.ctrlOp (f : BitVec 32 → BitVec 32) (c : Rp) : Rp := c.writeCtrl (f c.ctrl)

/-- drivers/dma/dma-rp2040.c:81-90 dma_r2040_init, register accesses (the channel was reset); channel < 12, treq < 0x40 -/
def Rp.initOps (channel treq : Nat) : List (Rp → Rp) :=
  [ Rp.ctrlOp (bclr 0),
    Rp.ctrlOp (Field.clear 6 15),
    Rp.ctrlOp (Field.orIn 6 15 (BitVec.ofNat 32 treq)),
    Rp.ctrlOp (Field.clear 4 11),
    Rp.ctrlOp (Field.orIn 4 11 (BitVec.ofNat 32 channel)) ]

/-- drivers/dma/dma-rp2040.c:70-93 dma_r2040_init -/
def Rp.init (channel treq : Nat) (gs : List (List Bool)) (c : Rp) : Int × Rp :=
  if 12 ≤ channel then (einval, c)
  else if 0x40 ≤ treq then (einval, c)
  else (0, Rp.run (Rp.initOps channel treq) gs c)

/-- drivers/dma/dma-rp2040.c:105-120 the register accesses of dma_setup -/
def Rp.setupOps (x : Xfer) : List (Rp → Rp) :=
  [ fun c => { c with seq := { c.seq with src := x.saddr } },
    fun c => { c with seq := { c.seq with dst := x.daddr } },
    fun c => { c with reload := x.byteCount / x.size },
    Rp.ctrlOp (if x.incrRead ≠ 0 then bset 4 else bclr 4),
    Rp.ctrlOp (if x.incrWrite ≠ 0 then bset 5 else bclr 5),
    Rp.ctrlOp (Field.clear 2 2) ] ++
  (if x.size = 2#32 then [Rp.ctrlOp (Field.orIn 2 2 1#32)] else []) ++
  (if x.size = 4#32 then [Rp.ctrlOp (Field.orIn 2 2 2#32)] else []) ++
  [ Rp.ctrlOp (bset 0) ]

/-- drivers/dma/dma-rp2040.c:99-103 the asserts of dma_setup -/
def Rp.accepts (x : Xfer) : Bool :=
  x.size != 0#32 && x.size != 3#32 && decide (x.size.toNat < 5) && decide (x.incrRead ≤ 2) && decide (x.incrWrite ≤ 2)

/-- drivers/dma/dma-rp2040.c:97-122 dma_setup -/
def Rp.setup (x : Xfer) (gs : List (List Bool)) (c : Rp) : Int × Rp :=
  if Rp.accepts x then (0, Rp.run (Rp.setupOps x) gs c) else (einval, c)

/-- drivers/dma/dma-rp2040.c:124-139 dma_xfer; g: the cycles between dma_setup and the last write. The asserts are a part of those of dma_setup. -/
def Rp.xfer (x : Xfer) (gs : List (List Bool)) (g : List Bool) (c : Rp) : Int × Rp :=
  if Rp.accepts x then
    let (_, c) := Rp.setup x gs c
    (0, Rp.ctrlOp (Field.orIn 6 15 0x3f#32) (Rp.cycles g c))
  else (einval, c)

/-- drivers/dma/dma-rp2040.c:141-149 dma_xfer_done -/
def Rp.done (c : Rp) : Int × Rp :=
  if c.seq.left ≠ 0 then (eagain, c) else (0, Rp.ctrlOp (bclr 0) c)

/-! ### gd32vf103 -/

/-- drivers/dma/dma-gd32vf103.c:11-21 one channel; CNT has 16 bits. The addresses and the count are latched when CHEN goes from 0 to 1. -/
structure Gd where
  ctl : BitVec 32
  cnt : BitVec 16
  paddr : BitVec 32
  maddr : BitVec 32
  seq : Seq
deriving DecidableEq, Repr

/-- (GD32VF103 user manual 9.5) enabling the channel: widths MWIDTH (11:10) and PWIDTH (9:8), PNAGA (6), MNAGA (7), DIR (4: 1 is from memory).
Different or reserved widths: nothing is modelled (no unit is moved); the driver always writes equal widths. -/
def Gd.latch (c : Gd) : Seq :=
  match width (Field.get 2 10 c.ctl).toNat with
  | none => { c.seq with left := 0 }
  | some u =>
    if Field.get 2 8 c.ctl ≠ Field.get 2 10 c.ctl then { c.seq with left := 0 }
    else
      let ps := if c.ctl.getLsbD 6 then BitVec.ofNat 32 u else 0#32
      let ms := if c.ctl.getLsbD 7 then BitVec.ofNat 32 u else 0#32
      if c.ctl.getLsbD 4 then { src := c.maddr, dst := c.paddr, sstep := ms, dstep := ps, unit := u, left := c.cnt.toNat, log := c.seq.log }
      else { src := c.paddr, dst := c.maddr, sstep := ps, dstep := ms, unit := u, left := c.cnt.toNat, log := c.seq.log }

/-- a cycle: a unit moves if the channel is enabled and the peripheral requests it, or in the memory to memory mode (M2M, bit 14); CNT counts down -/
def Gd.cycle (req : Bool) (c : Gd) : Gd :=
  if c.ctl.getLsbD 0 ∧ (req = true ∨ c.ctl.getLsbD 14) then
    let s := c.seq.beat
    { c with seq := s, cnt := BitVec.ofNat 16 s.left }
  else c

def Gd.cycles : List Bool → Gd → Gd
  | [], c => c
  | r :: rs, c => Gd.cycles rs (c.cycle r)

/-- drivers/dma/dma-gd32vf103.c:69-73 the asserts of dma_prepare, and the value returned -/
def Gd.check (x : Xfer) : Int :=
  if x.size = 0#32 then eagain
  else if 4 < x.size.toNat then eagain
  else if x.byteCount = 0#32 then eagain
  else if 2 < x.incrRead then einval
  else if 2 < x.incrWrite then einval
  else 0

/-- picoRTOS_device.h (mach-gd32vf103:41, 87; mach-stm32h7xx:115, 126) DMA_PADDR_BASE; the comparison is of intptr_t, signed -/
def fromPeripheral (x : Xfer) : Bool := (0x40000000#32).sle x.saddr

/-- drivers/dma/dma-gd32vf103.c:77-78, 86-92, 98-104 the value of CTL that dma_prepare leaves; w: size - 1, fp: the source is a peripheral, rd, wr: increments -/
def Gd.ctlOf (w : BitVec 32) (fp rd wr : Bool) : BitVec 32 :=
  let ctl0 := ((w &&& 3#32) <<< 10) ||| ((w &&& 3#32) <<< 8)
  if fp then
    let ctl := bclr 4 ctl0
    let ctl := if rd then bset 6 ctl else bclr 6 ctl
    if wr then bset 7 ctl else bclr 7 ctl
  else
    let ctl := bset 4 ctl0
    let ctl := if rd then bset 7 ctl else bclr 7 ctl
    if wr then bset 6 ctl else bclr 6 ctl

/-- drivers/dma/dma-gd32vf103.c:67-108 dma_prepare after its asserts; CHEN is cleared by the first write, so no unit moves before the end -/
def Gd.prepare (x : Xfer) (c : Gd) : Gd :=
  { c with
    ctl := Gd.ctlOf (x.size - 1#32) (fromPeripheral x) (decide (x.incrRead ≠ 0)) (decide (x.incrWrite ≠ 0))
    cnt := BitVec.ofNat 16 (x.byteCount / x.size).toNat
    paddr := if fromPeripheral x then x.saddr else x.daddr
    maddr := if fromPeripheral x then x.daddr else x.saddr }

/-- drivers/dma/dma-gd32vf103.c:110-120 dma_setup -/
def Gd.setup (x : Xfer) (c : Gd) : Int × Gd :=
  if Gd.check x ≠ 0 then (Gd.check x, c)
  else
    let c := Gd.prepare x c
    (0, { c with ctl := bset 0 c.ctl, seq := c.latch })

/-- drivers/dma/dma-gd32vf103.c:122-132 dma_xfer -/
def Gd.xfer (x : Xfer) (c : Gd) : Int × Gd :=
  if Gd.check x ≠ 0 then (Gd.check x, c)
  else
    let c := Gd.prepare x c
    (0, { c with ctl := bset 0 c.ctl, seq := c.latch })

/-- drivers/dma/dma-gd32vf103.c:135-141 dma_xfer_done -/
def Gd.done (c : Gd) : Int := if c.cnt ≠ 0#16 then eagain else 0

/-! ### stm32h7xx -/

/-- drivers/dma/dma-stm32h7xx.c:7-20 one stream; NDTR has 16 bits. Simplified: clearing EN takes effect at once. Flags are not modelled. -/
structure St where
  cr : BitVec 32
  ndtr : BitVec 16
  par : BitVec 32
  m0ar : BitVec 32
  seq : Seq
deriving DecidableEq, Repr

/-- (RM0433 16.5.5) enabling the stream: MSIZE (14:13), PSIZE (12:11), MINC (10), PINC (9), PINCOS (15: the peripheral address steps by 4 whatever PSIZE is),
DIR (7:6: 0 is from peripheral, 1 is from memory). Different or reserved widths and other directions: no unit is modelled; the driver does not write them, except for size 6 and 7. -/
def St.latch (c : St) : Seq :=
  match width (Field.get 2 13 c.cr).toNat with
  | none => { c.seq with left := 0 }
  | some u =>
    if Field.get 2 11 c.cr ≠ Field.get 2 13 c.cr then { c.seq with left := 0 }
    else
      let ps := if c.cr.getLsbD 9 then (if c.cr.getLsbD 15 then 4#32 else BitVec.ofNat 32 u) else 0#32
      let ms := if c.cr.getLsbD 10 then BitVec.ofNat 32 u else 0#32
      if Field.get 2 6 c.cr = 1#32 then { src := c.m0ar, dst := c.par, sstep := ms, dstep := ps, unit := u, left := c.ndtr.toNat, log := c.seq.log }
      else if Field.get 2 6 c.cr = 0#32 then { src := c.par, dst := c.m0ar, sstep := ps, dstep := ms, unit := u, left := c.ndtr.toNat, log := c.seq.log }
      else { c.seq with left := 0 }

/-- a cycle: a unit moves if the stream is enabled and the peripheral requests it; when the count gets to 0 the stream is disabled by the hardware, or starts over
in circular mode (CIRC, bit 8) -/
def St.cycle (req : Bool) (c : St) : St :=
  if c.cr.getLsbD 0 ∧ req = true ∧ c.seq.left ≠ 0 then
    let s := c.seq.beat
    if s.left = 0 then
      if c.cr.getLsbD 8 then { c with seq := St.latch { c with seq := s } }
      else { c with seq := s, cr := bclr 0 c.cr }
    else { c with seq := s }
  else c

def St.cycles : List Bool → St → St
  | [], c => c
  | r :: rs, c => St.cycles rs (c.cycle r)

/-- drivers/dma/dma-stm32h7xx.c:120-127 dma_stm32h7xx_setup -/
def St.settings (circ : Bool) (c : St) : St := { c with cr := if circ then bset 8 c.cr else bclr 8 c.cr }

/-- drivers/dma/dma-stm32h7xx.c:134-165 the value of SxCR written last by dma_setup; fp: the source is a peripheral, rd, wr: increments -/
def St.crOf (size : BitVec 32) (fp rd wr : Bool) : BitVec 32 :=
  let cr := 1#32
  let cr := cr ||| (((size >>> 1) &&& 3#32) <<< 13)
  let cr := cr ||| (((size >>> 1) &&& 3#32) <<< 11)
  if fp then
    let cr := if wr then bset 10 cr else cr
    if rd then bset 15 (bset 9 cr) else cr
  else
    let cr := cr ||| ((1#32 &&& 3#32) <<< 6)
    let cr := if rd then bset 10 cr else cr
    if wr then bset 15 (bset 9 cr) else cr

/-- drivers/dma/dma-stm32h7xx.c:129-167 dma_setup; the stream is disabled first, so no unit moves before the last write.
Size 0 divides by zero (the quotient is modelled as 0). -/
def St.setup (x : Xfer) (c : St) : Int × St :=
  if 2 < x.incrRead then (einval, c)
  else if 2 < x.incrWrite then (einval, c)
  else
    let c := { c with
      cr := St.crOf x.size (fromPeripheral x) (decide (x.incrRead ≠ 0)) (decide (x.incrWrite ≠ 0))
      ndtr := BitVec.ofNat 16 (x.byteCount / x.size).toNat
      par := if fromPeripheral x then x.saddr else x.daddr
      m0ar := if fromPeripheral x then x.daddr else x.saddr }
    (0, { c with seq := c.latch })

/-- drivers/dma/dma-stm32h7xx.c:169-172 dma_xfer -/
def St.xfer (x : Xfer) (c : St) : Int × St := St.setup x c

/-- drivers/dma/dma-stm32h7xx.c:174-209 dma_xfer_done (channel 0 to 7) -/
def St.done (c : St) : Int := if c.cr.getLsbD 0 then eagain else 0

/-! ### nxp_edma -/

/-- drivers/dma/dma-nxp_edma.c:29-41 the TCD of a channel, with its request enable bit (ERQ) and its start bit; CR.EMLM is set by dma_nxp_edma_init.
CITER and BITER are 1 (the only value written), so a minor loop is the whole transfer. SADDR and DADDR are the addresses of the sequencer,
SOFF and DOFF its steps (16 bits, signed). ACTIVE is `left ≠ 0`. -/
structure Ed where
  attr : BitVec 16
  nbytes : BitVec 32
  slast : BitVec 32
  dlast : BitVec 32
  erq : Bool
  start : Bool
  seq : Seq
deriving DecidableEq, Repr

/-- the size codes of ATTR: 0 to 3 are 1, 2, 4 and 8 bytes; the others are not modelled -/
def edWidth (code : Nat) : Option Nat := if code < 4 then some (2 ^ code) else none

/-- (MPC5xxx reference manual, eDMA) a service request: the number of units of the minor loop. With EMLM set and no offset enabled (bits 31 and 30 of NBYTES),
the count is bits 29:0; a count that is not a multiple of the sizes is a configuration error: nothing moves. -/
def Ed.activate (c : Ed) : Ed :=
  match edWidth (Field.get 3 8 c.attr).toNat with
  | none => { c with start := false }
  | some u =>
    if Field.get 3 0 c.attr ≠ Field.get 3 8 c.attr ∨ c.nbytes.getLsbD 31 ∨ c.nbytes.getLsbD 30 then { c with start := false }
    else if c.nbytes.toNat % u ≠ 0 then { c with start := false }
    else { c with start := false, seq := { c.seq with unit := u, left := c.nbytes.toNat / u } }

/-- a cycle: an active channel moves a unit, with the last address adjustments at the end; an idle one becomes active if it was started or if the peripheral requests it -/
def Ed.cycle (req : Bool) (c : Ed) : Ed :=
  if c.seq.left ≠ 0 then
    let s := c.seq.beat
    if s.left = 0 then { c with seq := { s with src := s.src + c.slast, dst := s.dst + c.dlast } } else { c with seq := s }
  else if c.start = true ∨ (c.erq = true ∧ req = true) then c.activate
  else c

def Ed.cycles : List Bool → Ed → Ed
  | [], c => c
  | r :: rs, c => Ed.cycles rs (c.cycle r)

/-- drivers/dma/dma-nxp_edma.c:118-132 nxp_edma_data_size -/
def edSize (size : BitVec 32) : BitVec 32 :=
  if size = 1#32 then 0#32 else if size = 2#32 then 1#32 else if size = 4#32 then 2#32 else if size = 8#32 then 3#32 else 0#32

/-- a signed 16-bit offset as the step of an address -/
def edOff (v : BitVec 32) : BitVec 32 := (v.setWidth 16).signExtend 32

/-- drivers/dma/dma-nxp_edma.c:146-181 setup_tcd (with setup_tcd_attr, lines 134-144); the channel is idle -/
def Ed.tcd (x : Xfer) (c : Ed) : Int × Ed :=
  let c := { c with seq := { c.seq with src := x.saddr } }
  if 8 < x.size.toNat then (einval, c)
  else
    (0, { c with
      attr := (((edSize x.size &&& 7#32) <<< 8) ||| (edSize x.size &&& 7#32)).setWidth 16
      nbytes := x.byteCount
      slast := if x.incrRead ≠ 0 then - x.byteCount else 0#32
      dlast := if x.incrWrite ≠ 0 then - x.byteCount else 0#32
      seq := { c.seq with
        dst := x.daddr
        sstep := if x.incrRead ≠ 0 then edOff x.size else 0#32
        dstep := if x.incrWrite ≠ 0 then edOff x.size else 0#32 } })

/-- drivers/dma/dma-nxp_edma.c:185-197 dma_setup -/
def Ed.setup (x : Xfer) (c : Ed) : Int × Ed :=
  let (res, c) := Ed.tcd x c
  if res < 0 then (res, c) else (0, { c with erq := true })

/-- drivers/dma/dma-nxp_edma.c:199-217 dma_xfer -/
def Ed.xfer (x : Xfer) (c : Ed) : Int × Ed :=
  if c.seq.left ≠ 0 then (eagain, c)
  else
    let (res, c) := Ed.tcd x c
    if res < 0 then (res, c) else (0, { c with start := true })

/-- drivers/dma/dma-nxp_edma.c:219-227 dma_xfer_done -/
def Ed.done (c : Ed) : Int := if c.seq.left ≠ 0 then eagain else 0

/-! ### same5x -/

/-- drivers/dma/dma-same5x.c:24-34, dma-same5x.h:12-18 a channel and its descriptor: BTCTRL, BTCNT, SRCADDR, DSTADDR, ENABLE and TRIGACT of CHCTRLA, TCMPL of CHINTFLAG -/
structure Sa where
  btctrl : BitVec 16
  btcnt : BitVec 16
  srcaddr : BitVec 32
  dstaddr : BitVec 32
  enable : Bool
  trigact : Nat
  tcmpl : Bool
  seq : Seq
deriving DecidableEq, Repr

/-- (SAM D5x/E5x datasheet 22.10) enabling the channel fetches the descriptor: BEATSIZE (9:8), SRCINC (10), DSTINC (11), VALID (0). With increments on, the address in the
descriptor is the one after the last beat: the first beat is at SRCADDR - BTCNT * size. STEPSIZE is 0 (the only value written). -/
def Sa.fetch (c : Sa) : Seq :=
  match width (Field.get 2 8 c.btctrl).toNat with
  | none => { c.seq with left := 0 }
  | some u =>
    let len := BitVec.ofNat 32 (c.btcnt.toNat * u)
    { src := if c.btctrl.getLsbD 10 then c.srcaddr - len else c.srcaddr
      dst := if c.btctrl.getLsbD 11 then c.dstaddr - len else c.dstaddr
      sstep := if c.btctrl.getLsbD 10 then BitVec.ofNat 32 u else 0#32
      dstep := if c.btctrl.getLsbD 11 then BitVec.ofNat 32 u else 0#32
      unit := u
      left := if c.btctrl.getLsbD 0 then c.btcnt.toNat else 0
      log := c.seq.log }

/-- a trigger, of the peripheral or of the software: with TRIGACT 2 (the value of dma_same5x_dma_init) one burst moves, of one beat (BURSTLEN 0);
with TRIGACT 0 or 3 the whole block. At the end TCMPL is set and the channel is disabled. -/
def Sa.trigger (c : Sa) : Sa :=
  if c.enable = true ∧ c.seq.left ≠ 0 then
    let s := if c.trigact = 2 then c.seq.beat else Nat.repeat Seq.beat c.seq.left c.seq
    if s.left = 0 then { c with seq := s, tcmpl := true, enable := false } else { c with seq := s }
  else c

def Sa.cycle (req : Bool) (c : Sa) : Sa := if req = true then c.trigger else c

def Sa.cycles : List Bool → Sa → Sa
  | [], c => c
  | r :: rs, c => Sa.cycles rs (c.cycle r)

/-- drivers/dma/dma-same5x.c:174-190 dma_same5x_dma_init, CHCTRLA is written with TRIGACT 2 and ENABLE clear -/
def Sa.init (c : Sa) : Sa := { c with enable := false, trigact := 2 }

/-- drivers/dma/dma-same5x.c:201-207 the value of BTCTRL; rd, wr: increments -/
def Sa.btctrlOf (size : BitVec 32) (rd wr : Bool) : BitVec 16 :=
  ((if wr then 1#32 <<< 11 else 0#32) ||| (if rd then 1#32 <<< 10 else 0#32) ||| (((size >>> 1) &&& 3#32) <<< 8) ||| 1#32).setWidth 16

/-- drivers/dma/dma-same5x.c:192-224 dma_setup -/
def Sa.setup (x : Xfer) (c : Sa) : Int × Sa :=
  if x.size = 0#32 then (einval, c)
  else if 4 < x.size.toNat then (einval, c)
  else if 2 < x.incrRead then (einval, c)
  else if 2 < x.incrWrite then (einval, c)
  else
    let c := { c with
      btctrl := Sa.btctrlOf x.size (decide (x.incrRead ≠ 0)) (decide (x.incrWrite ≠ 0))
      btcnt := (x.byteCount / x.size).setWidth 16
      srcaddr := if x.incrRead = 0 then x.saddr else x.saddr + x.byteCount
      dstaddr := if x.incrWrite = 0 then x.daddr else x.daddr + x.byteCount
      tcmpl := false }
    (0, { c with enable := true, seq := c.fetch })

/-- drivers/dma/dma-same5x.c:226-237 dma_xfer: one software trigger -/
def Sa.xfer (x : Xfer) (c : Sa) : Int × Sa :=
  let (res, c) := Sa.setup x c
  if res < 0 then (res, c) else (0, c.trigger)

/-- drivers/dma/dma-same5x.c:240-246 dma_xfer_done -/
def Sa.done (c : Sa) : Int := if c.tcmpl = true then 0 else eagain

/-! ### ti_f28x -/

/-- drivers/dma/dma-ti_f28x.c:15-40 one channel. The C28x addresses 16-bit words: sizeof(uint16_t) is 1, sizeof(uint32_t) is 2, and "bytes" are words. MODE.DATASIZE,
TRANSFER_SIZE (bursts less one), BURST_SIZE is 0 and the steps are those of the sequencer; RUNSTS and TRANSFERSTS of CONTROL. -/
structure Ti where
  wide : Bool
  tsize : BitVec 16
  run : Bool
  busy : Bool
  seq : Seq
deriving DecidableEq, Repr

/-- a cycle with a request: a burst, of one word with BURST_SIZE 0. TRANSFERSTS is set by the first burst and cleared by the last one, which also stops the channel
(CONTINUOUS 0). The 32-bit mode is not modelled: nothing moves. -/
def Ti.cycle (req : Bool) (c : Ti) : Ti :=
  if c.run = true ∧ req = true ∧ c.wide = false then
    let s := c.seq.beat
    if s.left = 0 then { c with seq := s, run := false, busy := false } else { c with seq := s, busy := true }
  else c

def Ti.cycles : List Bool → Ti → Ti
  | [], c => c
  | r :: rs, c => Ti.cycles rs (c.cycle r)

/-- drivers/dma/dma-ti_f28x.c:148-179 dma_setup, on a channel that is stopped; the addresses and the counts are loaded when the channel is run. SRC_TRANSFER_STEP and
DST_TRANSFER_STEP apply at the end of each burst; the burst steps do not, with bursts of one word. -/
def Ti.setup (x : Xfer) (c : Ti) : Int × Ti :=
  if x.size.toNat < 1 then (einval, c)
  else if 2 < x.size.toNat then (einval, c)
  else if 2 < x.incrRead then (einval, c)
  else if 2 < x.incrWrite then (einval, c)
  else
    let tsize := BitVec.ofNat 16 (x.byteCount / x.size).toNat - 1#16
    (0, { wide := decide (x.size = 2#32)
          tsize := tsize
          run := true
          busy := false
          seq := { src := x.saddr
                   dst := x.daddr
                   sstep := if x.incrRead ≠ 0 then edOff x.size else 0#32
                   dstep := if x.incrWrite ≠ 0 then edOff x.size else 0#32
                   unit := 1
                   left := tsize.toNat + 1
                   log := c.seq.log } })

/-- drivers/dma/dma-ti_f28x.c:181-190 dma_xfer -/
def Ti.xfer (x : Xfer) (c : Ti) : Int × Ti := Ti.setup x c

/-- drivers/dma/dma-ti_f28x.c:192-202 dma_xfer_done: the channel is halted -/
def Ti.done (c : Ti) : Int × Ti := if c.busy = true then (eagain, c) else (0, { c with run := false })

end Pico.Dma
