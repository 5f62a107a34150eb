/-
What a DMA transfer is, from drivers/include/dma.h alone: units of `size` are taken from `saddr` and put at `daddr`,
`byte_count / size` of them, each side stepping by `size` or staying where it is.

A unit moved is recorded as a bus access (`Beat`), so that reading the data register of a peripheral twice is not the same as
reading it once; `applyBeats` gives the effect of a list of beats on plain memory.
-/
namespace Pico.Dma

/-- drivers/include/dma.h:17-26 struct dma_xfer; the increments are values of the enumeration of lines 11-15 (0 OFF, 1 ON, 2 COUNT) -/
structure Xfer where
  saddr : BitVec 32
  daddr : BitVec 32
  incrRead : Nat
  incrWrite : Nat
  size : BitVec 32
  byteCount : BitVec 32
deriving DecidableEq, Repr

/-- one bus transfer: `size` addressable units read at src and written at dst -/
structure Beat where
  src : BitVec 32
  dst : BitVec 32
  size : Nat
deriving DecidableEq, Repr

/-- the k-th unit of a transfer -/
def Xfer.unit (x : Xfer) (k : Nat) : Beat :=
  { src := x.saddr + (if x.incrRead = 0 then 0#32 else BitVec.ofNat 32 (k * x.size.toNat))
    dst := x.daddr + (if x.incrWrite = 0 then 0#32 else BitVec.ofNat 32 (k * x.size.toNat))
    size := x.size.toNat }

/-- number of units of a transfer -/
def Xfer.units (x : Xfer) : Nat := x.byteCount.toNat / x.size.toNat

/-- the units of a transfer, in order -/
def Xfer.wanted (x : Xfer) : List Beat := (List.range x.units).map x.unit

abbrev Mem := BitVec 32 → BitVec 8

/-- a unit is read, then written -/
def Beat.apply (b : Beat) (m : Mem) : Mem := fun a => if (a - b.dst).toNat < b.size then m (b.src + (a - b.dst)) else m a

def applyBeats (bs : List Beat) (m : Mem) : Mem := bs.foldl (fun m b => b.apply m) m

end Pico.Dma
