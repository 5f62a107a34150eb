import Verif.Drivers.Field
/-
Scatter-gather DMA of the MPC57xx (eDMA): staging/drivers/dmasg/dmasg-nxp_edma.c, drivers/include/dmasg.h.

Modelled: the 64 transfer descriptors, the start, active and done bits, the request enable bits, the engine that serves one channel at a time.
Not modelled: errors of the bus, alignment errors, channel links and preemption (never turned on by the driver).
-/
namespace Pico.Dmasg
open Pico.Field

abbrev Addr := BitVec 32

/-! ### What is asked for: drivers/include/dmasg.h alone -/

/-- struct dmasg_xfer, drivers/include/dmasg.h:10-24; `int` and `size_t` are 32 bits -/
structure Xfer where
  saddr : Addr
  smod : Nat
  ssize : Nat
  dmod : Nat
  dsize : Nat
  soff : BitVec 32
  count : BitVec 32
  slast : BitVec 32
  daddr : Addr
  doff : BitVec 32
  dlast : BitVec 32

/-- address of the k-th unit: k offsets from the base, and with a modulo m only the m low bits of the address move -/
def place (m : Nat) (base off : BitVec 32) (k : Nat) : Addr :=
  if m = 0 then base + BitVec.ofNat 32 (k * off.toNat)
  else BitVec.ofNat 32 (base.toNat / 2 ^ m * 2 ^ m + (base.toNat + k * off.toNat) % 2 ^ m)

/-- where the b-th byte of the transfer comes from, and where it goes to -/
def Xfer.src (x : Xfer) (b : Nat) : Addr := place x.smod x.saddr x.soff (b / x.ssize) + BitVec.ofNat 32 (b % x.ssize)
def Xfer.dst (x : Xfer) (b : Nat) : Addr := place x.dmod x.daddr x.doff (b / x.dsize) + BitVec.ofNat 32 (b % x.dsize)

/-- bytes are read, then written, in groups of the greater of the two sizes -/
def Xfer.group (x : Xfer) : Nat := max x.ssize x.dsize

/-- the transfer: its groups of moves of a byte -/
def Xfer.wanted (x : Xfer) : List (List (Addr × Addr)) :=
  (List.range (x.count.toNat / x.group)).map fun c => (List.range x.group).map fun j => (x.src (c * x.group + j), x.dst (c * x.group + j))

/-- the transfer that starts from where this one has stopped, after the last adjustments -/
def Xfer.next (x : Xfer) : Xfer :=
  { x with
    saddr := place x.smod x.saddr x.soff (x.count.toNat / x.ssize) + x.slast
    daddr := place x.dmod x.daddr x.doff (x.count.toNat / x.dsize) + x.dlast }

/-- n transfers, each from where the one before has stopped -/
def Xfer.rounds : Nat → Xfer → List (List (Addr × Addr))
  | 0, _ => []
  | n + 1, x => x.wanted ++ Xfer.rounds n x.next

def Xfer.nth : Nat → Xfer → Xfer
  | 0, x => x
  | n + 1, x => Xfer.nth n x.next

/-- transfers that the controller can do: sizes of 1, 2, 4, 8 bytes, offsets of 16 bits, signed, a multiple of both sizes, less than 2^30 bytes -/
structure Xfer.Valid (x : Xfer) : Prop where
  ss : x.ssize = 1 ∨ x.ssize = 2 ∨ x.ssize = 4 ∨ x.ssize = 8
  ds : x.dsize = 1 ∨ x.dsize = 2 ∨ x.dsize = 4 ∨ x.dsize = 8
  sm : x.smod < 32
  dm : x.dmod < 32
  so : (x.soff.setWidth 16).signExtend 32 = x.soff
  do_ : (x.doff.setWidth 16).signExtend 32 = x.doff
  pos : 0 < x.count.toNat
  lt : x.count.toNat < 2 ^ 30
  sdiv : x.count.toNat % x.ssize = 0
  ddiv : x.count.toNat % x.dsize = 0

abbrev Mem := Addr → BitVec 8

/-- a group on plain memory: the bytes are read, then written in order -/
def applyGroup (g : List (Addr × Addr)) (m : Mem) : Mem := g.foldl (fun m' p => fun a => if a = p.2 then m p.1 else m' a) m

def applyAll (gs : List (List (Addr × Addr))) (m : Mem) : Mem := gs.foldl (fun m g => applyGroup g m) m

/-! ### The controller (MPC57xx reference manual, eDMA) -/

/-- struct DMASG_NXP_EDMA, TCD, dmasg-nxp_edma.c:29-41, with the bits START, ACTIVE, DONE and ERQ of the channel -/
structure Tcd where
  saddr : Addr
  attr : BitVec 16
  soff : BitVec 16
  nbytes : BitVec 32
  slast : BitVec 32
  daddr : Addr
  citer : BitVec 16
  doff : BitVec 16
  dlast : BitVec 32
  biter : BitVec 16
  start : Bool
  active : Bool
  done : Bool
  erq : Bool

/-- the channel that is served: addresses now, bytes left -/
structure Run where
  ch : Nat
  sa : Addr
  da : Addr
  left : Nat

/-- `log`: the groups moved for each channel, oldest first -/
structure Eng where
  tcd : Nat → Tcd
  run : Option Run
  log : Nat → List (List (Addr × Addr))

def updT (e : Eng) (ch : Nat) (f : Tcd → Tcd) : Eng := { e with tcd := fun c => if c = ch then f (e.tcd c) else e.tcd c }

/-- next address, with modulo m -/
def nxt (m : Nat) (off a : Addr) : Addr :=
  if m = 0 then a + off else BitVec.ofNat 32 (a.toNat / 2 ^ m * 2 ^ m + (a.toNat + off.toNat) % 2 ^ m)

def nxtN (m : Nat) (off : Addr) : Nat → Addr → Addr
  | 0, a => a
  | k + 1, a => nxtN m off k (nxt m off a)

def Tcd.smod (t : Tcd) : Nat := (get 5 11 t.attr).toNat
def Tcd.scode (t : Tcd) : Nat := (get 3 8 t.attr).toNat
def Tcd.dmod (t : Tcd) : Nat := (get 5 3 t.attr).toNat
def Tcd.dcode (t : Tcd) : Nat := (get 3 0 t.attr).toNat
def Tcd.ss (t : Tcd) : Nat := 2 ^ t.scode
def Tcd.ds (t : Tcd) : Nat := 2 ^ t.dcode

/-- sizes up to 8 bytes (greater ones are not modelled), no minor loop offset (bits 31 and 30 of NBYTES, CR.EMLM is set), count a multiple of the sizes; anything
else is a configuration error, or is not modelled: nothing moves -/
def Tcd.ok (t : Tcd) : Prop :=
  t.scode < 4 ∧ t.dcode < 4 ∧ 0 < t.nbytes.toNat ∧ t.nbytes.toNat < 2 ^ 30 ∧ t.nbytes.toNat % t.ss = 0 ∧ t.nbytes.toNat % t.ds = 0

instance (t : Tcd) : Decidable t.ok := by unfold Tcd.ok; infer_instance

/-- the engine is free and picks a channel that is waiting: START falls, ACTIVE rises -/
def arb (ch : Nat) (e : Eng) : Eng :=
  match e.run with
  | some _ => e
  | none =>
    if (e.tcd ch).start then
      if (e.tcd ch).ok then
        { updT e ch (fun t => { t with start := false, active := true, done := false }) with
          run := some ⟨ch, (e.tcd ch).saddr, (e.tcd ch).daddr, (e.tcd ch).nbytes.toNat⟩ }
      else updT e ch (fun t => { t with start := false })
    else e

/-- the bytes of a group from the addresses sa, da -/
def groupAt (t : Tcd) (sa da : Addr) : List (Addr × Addr) :=
  (List.range (max t.ss t.ds)).map fun j =>
    (nxtN t.smod (t.soff.signExtend 32) (j / t.ss) sa + BitVec.ofNat 32 (j % t.ss), nxtN t.dmod (t.doff.signExtend 32) (j / t.ds) da + BitVec.ofNat 32 (j % t.ds))

/-- end of a minor loop, and of the major loop when CITER was 1 -/
def Tcd.finish (t : Tcd) (sa da : Addr) : Tcd :=
  if t.citer = 1#16 then { t with saddr := sa + t.slast, daddr := da + t.dlast, citer := t.biter, active := false, done := true }
  else { t with saddr := sa, daddr := da, citer := t.citer - 1#16, active := false }

/-- the engine moves a group -/
def unit (e : Eng) : Eng :=
  match e.run with
  | none => e
  | some r =>
    let t := e.tcd r.ch
    let w := max t.ss t.ds
    let sa := nxtN t.smod (t.soff.signExtend 32) (w / t.ss) r.sa
    let da := nxtN t.dmod (t.doff.signExtend 32) (w / t.ds) r.da
    let e1 := { e with log := fun c => if c = r.ch then e.log c ++ [groupAt t r.sa r.da] else e.log c }
    if r.left ≤ w then { updT e1 r.ch (fun t => t.finish sa da) with run := none }
    else { e1 with run := some ⟨r.ch, sa, da, r.left - w⟩ }

/-- a request of the peripheral of the channel: it is served if ERQ is set -/
def request (ch : Nat) (e : Eng) : Eng := updT e ch (fun t => if t.erq then { t with start := true } else t)

/-! ### The driver -/

def einval : Int := -22
def eagain : Int := -11

/-- nxp_edma_data_size, dmasg-nxp_edma.c:104-118: the assert of the default case (picoRTOS_assert_void) does not stop a build without a debugger -/
def dataSize (n : Nat) : BitVec 32 := if n = 1 then 0 else if n = 2 then 1 else if n = 4 then 2 else if n = 8 then 3 else 0

/-- setup_tcd_attr, dmasg-nxp_edma.c:128-131 -/
def attrOf (x : Xfer) : BitVec 32 :=
  (((BitVec.ofNat 32 x.smod &&& 0x1f#32) <<< 11) ||| ((BitVec.ofNat 32 x.dmod &&& 0x1f#32) <<< 3) ||| ((dataSize x.ssize &&& 7#32) <<< 8) ||| (dataSize x.dsize &&& 7#32))

/-- setup_tcd with setup_tcd_attr, dmasg-nxp_edma.c:120-164; SADDR is written before the checks -/
def setupTcd (ch : Nat) (x : Xfer) (e : Eng) : Int × Eng :=
  let e := updT e ch (fun t => { t with saddr := x.saddr })
  if x.smod > 31 ∨ x.dmod > 31 ∨ x.ssize > 8 ∨ x.dsize > 8 then (einval, e)
  else
    (0, updT e ch (fun t =>
      { t with
        attr := (attrOf x).setWidth 16
        soff := x.soff.setWidth 16
        nbytes := x.count
        citer := 1#16
        slast := x.slast
        daddr := x.daddr
        doff := x.doff.setWidth 16
        dlast := x.dlast
        biter := 1#16 }))

/-- dmasg_nxp_edma_dmasg_setup, dmasg-nxp_edma.c:166-176 -/
def setup (ch : Nat) (x : Xfer) (e : Eng) : Int × Eng :=
  let r := setupTcd ch x e
  if r.1 < 0 then r else (0, updT r.2 (ch % 64) (fun t => { t with erq := true }))

/-- dmasg_xfer, dmasg-nxp_edma.c:180-198 -/
def xfer (ch : Nat) (x : Xfer) (e : Eng) : Int × Eng :=
  if (e.tcd ch).active then (eagain, e)
  else
    let e := updT e (ch % 64) (fun t => { t with done := false })
    let r := setupTcd ch x e
    if r.1 < 0 then r else (0, updT r.2 (ch % 64) (fun t => { t with start := true }))

/-- dmasg_xfer_done, dmasg-nxp_edma.c:200-208 -/
def xferDone (ch : Nat) (e : Eng) : Int := if (e.tcd ch).active then eagain else 0

/-! ### Runs -/

inductive Ev where
  | xfer (ch : Nat) (x : Xfer)
  | setup (ch : Nat) (x : Xfer)
  | poll (ch : Nat)
  | request (ch : Nat)
  | arb (ch : Nat)
  | unit

def step (e : Eng) : Ev → Eng
  | .xfer ch x => (xfer (ch % 64) x e).2
  | .setup ch x => (setup (ch % 64) x e).2
  | .poll _ => e
  | .request ch => request ch e
  | .arb ch => arb ch e
  | .unit => unit e

def runs : List Ev → Eng → Eng
  | [], e => e
  | v :: vs, e => runs vs (step e v)

/-- the event is not a call that gives the channel something to do -/
def Ev.spares (ch : Nat) : Ev → Prop
  | .xfer c _ => c % 64 ≠ ch
  | .setup c _ => c % 64 ≠ ch
  | _ => True

/-- ACTIVE is set for the channel that is served, and no other -/
def Wf (e : Eng) : Prop := ∀ c, (e.tcd c).active = true ↔ ∃ r, e.run = some r ∧ r.ch = c

end Pico.Dmasg
