import Verif.Drivers.FlashInt
/-
Internal flash of the MPC57xx (C112): staging/drivers/flash/flash-nxp_c55fmc.c, and the state machine of
staging/drivers/flash/flash-sam3x.c.

The memory is a function from addresses to bytes.  Programming clears bits (new contents = old AND data), erasing sets all bits of the
blocks selected that are not locked.  `size_t` and pointers are `Nat` (addresses are below 2 ^ 25), except where the code relies on
wrap-around (blankcheck).
-/
namespace Pico.C55
open Pico.FlashInt (Byte Mem programmed Res)

/-- struct nxp_c55fmc_bit_mapping, 45-50 -/
structure Blk where
  start : Nat
  last : Nat
  reg : Nat
  bit : Nat
deriving DecidableEq, Repr

/-- FLASH_NXP_C55FMC_MAP, arch/powerpc/e200z7/mach-mpc577x/picoRTOS_device.h:94-114 -/
def map577x : List Blk := [
  ⟨0x600000, 0x603fff, 1, 31⟩, ⟨0x604000, 0x607fff, 1, 30⟩,
  ⟨0x800000, 0x83ffff, 2, 0⟩, ⟨0x840000, 0x87ffff, 2, 1⟩, ⟨0x880000, 0x8bffff, 2, 2⟩, ⟨0x8c0000, 0x8fffff, 2, 3⟩,
  ⟨0x900000, 0x93ffff, 2, 4⟩, ⟨0x940000, 0x93ffff, 2, 5⟩, ⟨0x980000, 0x93ffff, 2, 6⟩, ⟨0x9c0000, 0x93ffff, 2, 7⟩,
  ⟨0xa00000, 0xa3ffff, 2, 8⟩, ⟨0xa40000, 0xa7ffff, 2, 9⟩, ⟨0xa80000, 0xabffff, 2, 10⟩, ⟨0xac0000, 0xafffff, 2, 11⟩,
  ⟨0xb00000, 0xb3ffff, 2, 12⟩, ⟨0xb40000, 0xb7ffff, 2, 13⟩, ⟨0xb80000, 0xbbffff, 2, 14⟩, ⟨0xbc0000, 0xbfffff, 2, 15⟩]

/-- FLASH_NXP_C55FMC_MAP, arch/powerpc/e200z4/mach-mpc574x/picoRTOS_device.h:151-191 -/
def map574x : List Blk := [
  ⟨0x0f8c000, 0x0f8ffff, 0, 15⟩, ⟨0x0f90000, 0x0f93fff, 0, 31⟩, ⟨0x0f94000, 0x0f97fff, 0, 30⟩, ⟨0x0f98000, 0x0f9bfff, 0, 29⟩,
  ⟨0x0f9c000, 0x0f9ffff, 0, 28⟩, ⟨0x0fa0000, 0x0fa3fff, 0, 27⟩, ⟨0x0fa4000, 0x0fa7fff, 0, 26⟩, ⟨0x0fa8000, 0x0fabfff, 0, 25⟩,
  ⟨0x0fac000, 0x0faffff, 0, 24⟩, ⟨0x0fb0000, 0x0fb7fff, 0, 23⟩, ⟨0x0fb8000, 0x0fbffff, 0, 22⟩, ⟨0x0fc0000, 0x0fc7fff, 0, 13⟩,
  ⟨0x0fc8000, 0x0fcffff, 0, 12⟩, ⟨0x0fd0000, 0x0fd7fff, 0, 11⟩, ⟨0x0fd8000, 0x0fdffff, 0, 10⟩, ⟨0x0fe0000, 0x0feffff, 0, 9⟩,
  ⟨0x0ff0000, 0x0ffffff, 0, 7⟩, ⟨0x1000000, 0x103ffff, 2, 31⟩, ⟨0x1040000, 0x107ffff, 2, 30⟩, ⟨0x1080000, 0x10bffff, 2, 29⟩,
  ⟨0x10c0000, 0x10fffff, 2, 28⟩, ⟨0x1100000, 0x113ffff, 2, 27⟩, ⟨0x1140000, 0x117ffff, 2, 26⟩, ⟨0x1180000, 0x11bffff, 2, 25⟩,
  ⟨0x11c0000, 0x11fffff, 2, 24⟩, ⟨0x1200000, 0x123ffff, 2, 23⟩, ⟨0x1240000, 0x127ffff, 2, 22⟩, ⟨0x1280000, 0x12bffff, 2, 21⟩,
  ⟨0x12c0000, 0x12fffff, 2, 20⟩, ⟨0x1300000, 0x133ffff, 2, 19⟩, ⟨0x1340000, 0x137ffff, 2, 18⟩, ⟨0x1380000, 0x13bffff, 2, 17⟩,
  ⟨0x13c0000, 0x13fffff, 2, 16⟩, ⟨0x1400000, 0x143ffff, 2, 15⟩, ⟨0x1440000, 0x147ffff, 2, 14⟩, ⟨0x1480000, 0x14bffff, 2, 13⟩,
  ⟨0x14c0000, 0x14fffff, 2, 12⟩, ⟨0x1500000, 0x153ffff, 2, 11⟩, ⟨0x1540000, 0x157ffff, 2, 10⟩]

/-- the driver (`ctx->state`, `ctx->last`) and the controller: the bits of MCR, the page buffer, SEL0-3, LOCK0-3, the memory -/
structure St where
  busy : Bool
  last : Nat
  pgm : Bool
  ers : Bool
  ehv : Bool
  done : Bool
  peg : Bool
  buf : Nat → Option Byte
  sel : Nat → BitVec 32
  lock : Nat → BitVec 32
  mem : Mem

/-- 0x80000000u >> m->bit, 119, 292, 310 -/
def mask (b : Blk) : BitVec 32 := 0x80000000#32 >>> b.bit

def set (f : Nat → BitVec 32) (i : Nat) (v : BitVec 32) : Nat → BitVec 32 := fun j => if j = i then v else f j

/-! ### Hardware -/

/-- what the page buffer makes of the memory -/
def burn (buf : Nat → Option Byte) (m : Mem) : Mem := fun x => match buf x with | some b => m x &&& b | none => m x

/-- blocks selected and not locked are erased; `H`: the blocks as they are -/
def wipe (H : List Blk) (sel lock : Nat → BitVec 32) (m : Mem) : Mem := fun x =>
  if H.any (fun b => decide (b.start ≤ x ∧ x ≤ b.last ∧ sel b.reg &&& mask b ≠ 0 ∧ lock b.reg &&& mask b = 0)) then 0xff else m x

/-- the operation in progress, if any, ends, well (PEG = 1) or not: then nothing has changed -/
def fin (H : List Blk) (good : Bool) (s : St) : St :=
  if s.ehv ∧ s.done = false then
    { s with done := true, peg := good, buf := fun _ => none,
             mem := if good then (if s.pgm then burn s.buf s.mem else if s.ers then wipe H s.sel s.lock s.mem else s.mem) else s.mem }
  else s

/-! ### flash_write -/

/-- the loop of flash_write_idle, 228-234: `c` words remain, `k` bytes are written; stops at the end of a page of PGM_SIZE (128) -/
def fillBuf (off : Nat) (data : Nat → Byte) : Nat → Nat → (Nat → Option Byte) → Nat × (Nat → Option Byte)
  | 0, k, b => (k, b)
  | c + 1, k, b =>
    let b := fun x => if off + k ≤ x ∧ x < off + k + 4 then some (data (x - off)) else b x
    if (off + k + 4) % 128 = 0 then (k + 4, b) else fillBuf off data c (k + 4) b

/-- flash_write_idle, 211-243 -/
def writeIdle (off : Nat) (data : Nat → Byte) (n : Nat) (s : St) : St × Res :=
  let r := fillBuf off data (min n 128 / 4) 0 s.buf
  ({ s with pgm := true, buf := r.2, ehv := true, done := false, busy := true, last := r.1 }, .eagain)

/-- flash_write_busy, 245-265, abort_write, 205-209 -/
def writeBusy (s : St) : St × Res :=
  if s.done = false then (s, .eagain)
  else if s.peg = false then ({ s with pgm := false, ehv := false, busy := false }, .eio)
  else ({ s with ehv := false, pgm := false, busy := false }, .ok s.last)

/-- flash_write, 267-282 -/
def write (off : Nat) (data : Nat → Byte) (n : Nat) (s : St) : St × Res :=
  if off % 8 ≠ 0 ∨ n = 0 ∨ n % 8 ≠ 0 then (s, .einval)
  else if s.busy then writeBusy s else writeIdle off data n s

/-- the client: flash_write(ctx, off + done, &data[done], n - done) until done = n -/
structure Cl where
  st : St
  done : Nat
  failed : Bool

inductive Ev where
  | call
  | fin (good : Bool)

def step (H : List Blk) (off : Nat) (data : Nat → Byte) (n : Nat) (c : Cl) : Ev → Cl
  | .fin g => { c with st := fin H g c.st }
  | .call =>
    if c.failed ∨ c.done = n then c
    else
      match write (off + c.done) (fun i => data (c.done + i)) (n - c.done) c.st with
      | (s, .ok k) => { c with st := s, done := c.done + k }
      | (s, .eagain) => { c with st := s }
      | (s, _) => { c with st := s, failed := true }

def run (H : List Blk) (off : Nat) (data : Nat → Byte) (n : Nat) (l : List Ev) (c : Cl) : Cl := l.foldl (step H off data n) c

/-- a controller at rest with nothing selected, and the driver idle (flash_nxp_c55fmc_init does not set `state`: it is if the context is static) -/
def rest (lock : Nat → BitVec 32) (m : Mem) : St := ⟨false, 0, false, false, false, true, true, fun _ => none, fun _ => 0, lock, m⟩

def start (lock : Nat → BitVec 32) (m : Mem) : Cl := ⟨rest lock m, 0, false⟩

/-! ### flash_erase -/

/-- flash_erase_idle, 110-138 -/
def eraseIdle (M : List Blk) (block : Nat) (s : St) : St × Res :=
  match M[block]? with
  | none => (s, .einval)
  | some m => ({ s with ers := true, sel := set s.sel m.reg (mask m), ehv := true, done := false, busy := true }, .eagain)

/-- flash_erase_busy, 140-170, abort_erase, 101-108 -/
def eraseBusy (M : List Blk) (block : Nat) (s : St) : St × Res :=
  match M[block]? with
  | none => (s, .einval)
  | some m =>
    if s.done = false then (s, .eagain)
    else if s.peg = false then ({ s with ehv := false, ers := false, sel := set s.sel m.reg 0, busy := false }, .eio)
    else ({ s with ehv := false, ers := false, sel := set s.sel m.reg 0, busy := false }, .ok 0)

/-- flash_probe, 65-68: map[COUNT - 1].end_addr - map[0].start_addr + 1 -/
def totalSize (M : List Blk) : Nat :=
  match M.head?, M.getLast? with
  | some a, some b => b.last - a.start + 1
  | _, _ => 0

/-- flash_erase, 172-185: the offset is taken for the number of a block -/
def erase (M : List Blk) (offset : Nat) (s : St) : St × Res :=
  if offset ≥ totalSize M then (s, .einval)
  else if s.busy then eraseBusy M offset s else eraseIdle M offset s

/-- the client of flash_erase: again while it returns -EAGAIN -/
def eraseStep (H M : List Blk) (off : Nat) (c : St × Option Res) : Ev → St × Option Res
  | .fin g => (fin H g c.1, c.2)
  | .call =>
    match c.2 with
    | none => ((erase M off c.1).1, some (erase M off c.1).2)
    | some .eagain => ((erase M off c.1).1, some (erase M off c.1).2)
    | some _ => c

def eraseRun (H M : List Blk) (off : Nat) (l : List Ev) (c : St × Option Res) : St × Option Res := l.foldl (eraseStep H M off) c

/-! ### flash_lock, flash_unlock -/

/-- flash_lock, 284-303; 90-96 refuses a number that is not in the table (after map[offset].bit was read outside of it) -/
def lockOp (M : List Blk) (offset : Nat) (s : St) : St × Res :=
  if offset ≥ totalSize M then (s, .einval)
  else match M[offset]? with
    | none => (s, .einval)
    | some m => ({ s with lock := set s.lock m.reg (s.lock m.reg ||| mask m) }, .ok 0)

/-- flash_unlock, 305-320 -/
def unlockOp (M : List Blk) (offset : Nat) (s : St) : St × Res :=
  if offset ≥ totalSize M then (s, .einval)
  else match M[offset]? with
    | none => (s, .einval)
    | some m => ({ s with lock := set s.lock m.reg (s.lock m.reg &&& ~~~mask m) }, .ok 0)

/-! ### flash_nxp_c55fmc_blankcheck -/

/-- number of words, 195: unsigned long, size_t of 32 bits -/
def words (b : Blk) : Nat := ((BitVec.ofNat 32 b.last - BitVec.ofNat 32 b.start) + 1).toNat / 4

/-- the loop, 197-202: *ptr32++ != (uint32_t)-1 -/
def blankLoop (m : Mem) : Nat → Nat → Bool
  | 0, _ => true
  | c + 1, p => if m p = 0xff ∧ m (p + 1) = 0xff ∧ m (p + 2) = 0xff ∧ m (p + 3) = 0xff then blankLoop m c (p + 4) else false

/-- flash_nxp_c55fmc_blankcheck, 187-205 -/
def blankcheck (M : List Blk) (block : Nat) (m : Mem) : Res :=
  match M[block]? with
  | none => .einval
  | some b => if blankLoop m (words b) b.start then .ok 0 else .efault

/-! ### staging/drivers/flash/flash-sam3x.c -/

namespace Sam3x

/-- ctx->state == FLASH_SAM3X_STATE_BUSY; the commands given to the controller (EEFC_FCR) -/
structure St where
  busy : Bool
  fcr : List (Nat × Nat)

/-- what EEFC_FSR reads: FRDY, FLOCKE, FCMDE -/
abbrev Fsr := Bool × Bool × Bool

/-- run_cmd_busy, 54-68 -/
def runCmdBusy (n : Nat) (f : Fsr) (s : St) : St × Res :=
  if f.1 = false then (s, .eagain)
  else if f.2.1 = true ∨ f.2.2 = true then ({ s with busy := false }, .efault) else ({ s with busy := false }, .ok n)

/-- run_cmd, 70-89: the state is not changed when the command is given -/
def runCmd (cmd arg : Nat) (f : Fsr) (s : St) : St × Res :=
  if s.busy then runCmdBusy 0 f s else ({ s with fcr := s.fcr ++ [(cmd, arg)] }, .eagain)

/-- flash_erase, 147-152: FCMD_EWP -/
def erase (pages block : Nat) (f : Fsr) (s : St) : St × Res := if block ≥ pages then (s, .einval) else runCmd 3 block f s

/-- flash_lock / flash_unlock, 240-252: FCMD_SLB, FCMD_CLB -/
def lock (pages block : Nat) (f : Fsr) (s : St) : St × Res := if block ≥ pages then (s, .einval) else runCmd 8 block f s
def unlock (pages block : Nat) (f : Fsr) (s : St) : St × Res := if block ≥ pages then (s, .einval) else runCmd 9 block f s

/-- the loop of init_efd_busywait, 100-104: `d` is deadlock; none: -EBUSY -/
def waitDescr : Nat → (Nat → Fsr) → St → Option (St × Res)
  | d, f, s =>
    match runCmd 0 0 (f 0) s with
    | (s, .eagain) =>
      match d with
      | 0 => none
      | d + 1 => waitDescr d (fun i => f (i + 1)) s
    | (s, r) => some (s, r)

end Sam3x
end Pico.C55
