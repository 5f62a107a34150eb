/-
Internal flash drivers (C75):
  drivers/flash/flash-same5x.c, flash-gd32vf103.c, flash-atmel_eefc.c
(flash-pic32mx.c does not agree with flash-attributes.h and calls a function that does not exist, flash_get_block_addr: it is not modelled.)

The memory is a function from addresses to bytes. Programming clears bits (new contents = old AND data), erasing sets all bits of an erase block.
Client: flash_write(ctx, off + done, &data[done], n - done) until done = n; flash_erase(ctx, off) until it returns 0.
-/
namespace Pico.FlashInt

abbrev Byte := BitVec 8
abbrev Mem := Nat → Byte

/-! ### Specification -/

/-- contents after the bytes `data 0 .. data (n-1)` have been programmed from address `a` on -/
def programmed (a n : Nat) (data : Nat → Byte) (m : Mem) : Mem := fun x => if a ≤ x ∧ x < a + n then m x &&& data (x - a) else m x

/-- contents after the n bytes at `a` have been erased -/
def erased (a n : Nat) (m : Mem) : Mem := fun x => if a ≤ x ∧ x < a + n then 0xff else m x

inductive Res where
  | ok (n : Nat)
  | eagain
  | einval
  | efault
  | eio
  | eperm
  deriving DecidableEq, Repr

/-! ### drivers/flash/flash-same5x.c -/

namespace Same5x

/-- an operation given to the controller and not finished -/
inductive Op where
  /-- CMD_WP, CMD_WQW: the page buffer (n bytes from address a) is programmed -/
  | prog (a n : Nat) (d : Nat → Byte)
  /-- CMD_EB -/
  | erase (a : Nat)

structure St where
  /-- ctx->state == FLASH_SAME5X_STATE_BUSY -/
  busy : Bool
  mem : Mem
  /-- STATUS.READY is 0 while there is an operation -/
  op : Option Op
  /-- INTFLAG.PROGE or ADDRE -/
  err : Bool

/-- hardware: the block erased by CMD_EB has PAGES_PER_BLOCK (16) pages; ADDR is any address in it -/
def blockLen (page : Nat) : Nat := 16 * page

def exec (page : Nat) (m : Mem) : Op → Mem
  | .prog a n d => programmed a n d m
  | .erase a => erased (a / blockLen page * blockLen page) (blockLen page) m

/-- hardware: the operation ends, well or not (locked region, invalid address): then nothing has changed -/
def fin (page : Nat) (good : Bool) (s : St) : St :=
  match s.op with
  | none => s
  | some o => { s with op := none, mem := if good then exec page s.mem o else s.mem, err := s.err || !good }

/-- run_cmd_busy, 152-168 -/
def busyStep (n : Nat) (s : St) : St × Res :=
  if s.op.isSome then (s, .eagain)
  else
    let s := { s with busy := false }
    if s.err then ({ s with err := false }, .efault) else (s, .ok n)

/-- write_data, 216-234 with flash_write_idle, 199-214 -/
def writeData (a : Nat) (d : Nat → Byte) (n : Nat) (s : St) : St × Res :=
  if s.busy then busyStep n s else ({ s with busy := true, op := some (.prog a n d) }, .eagain)

/-- the loop of flash_write, 246-267: `k` is nwritten, `n` what remains; the unit depends on `offset`, not on offset + nwritten -/
def writeLoop (page offset : Nat) (data : Nat → Byte) : Nat → Nat → Nat → St → St × Res
  | 0, k, _, s => (s, .ok k)
  | fuel + 1, k, n, s =>
    if n = 0 then (s, .ok k)
    else
      let u := if offset % page = 0 ∧ page ≤ n then page else if offset % 16 = 0 ∧ 16 ≤ n then 16 else 0
      if u = 0 then (s, .einval)
      else
        match writeData (offset + k) (fun i => data (k + i)) u s with
        | (s, .ok r) => writeLoop page offset data fuel (k + r) (n - r) s
        | (s, e) => (s, if k = 0 then e else .ok k)

/-- flash_write, 236-273 (`page`: ctx->attr.erase_unit_len, the page size found by flash_probe) -/
def write (page offset : Nat) (data : Nat → Byte) (n : Nat) (s : St) : St × Res :=
  if n = 0 then (s, .einval) else if n % 4 ≠ 0 then (s, .einval) else writeLoop page offset data n 0 n s

/-- flash_erase, 192-197 with run_cmd, 170-190 -/
def erase (page total offset : Nat) (s : St) : St × Res :=
  if offset ≥ total then (s, .einval)
  else if offset % page ≠ 0 then (s, .einval)
  else if s.busy then busyStep 0 s else ({ s with busy := true, op := some (.erase offset) }, .eagain)

/-- the client of flash_write -/
structure Cl where
  st : St
  done : Nat
  /-- an error was returned: the client stops -/
  failed : Bool

/-- one step: a call of the client, or the end of an operation -/
inductive Ev where
  | call
  | fin (good : Bool)

def step (page off : Nat) (data : Nat → Byte) (n : Nat) (c : Cl) : Ev → Cl
  | .fin g => { c with st := fin page g c.st }
  | .call =>
    if c.failed ∨ c.done = n then c
    else
      match write page (off + c.done) (fun i => data (c.done + i)) (n - c.done) c.st with
      | (s, .ok k) => { c with st := s, done := c.done + k }
      | (s, .eagain) => { c with st := s }
      | (s, _) => { c with st := s, failed := true }

def run (page off : Nat) (data : Nat → Byte) (n : Nat) (l : List Ev) (c : Cl) : Cl := l.foldl (step page off data n) c

/-- flash_same5x_init: idle -/
def start (m : Mem) : Cl := ⟨⟨false, m, none, false⟩, 0, false⟩

/-- the client of flash_erase: `res` the last result -/
def eraseStep (page total off : Nat) (c : St × Option Res) : Ev → St × Option Res
  | .fin g => (fin page g c.1, c.2)
  | .call =>
    match c.2 with
    | some (.ok _) => c
    | some .efault => c
    | some .einval => c
    | _ => let r := erase page total off c.1; (r.1, some r.2)

end Same5x

/-! ### drivers/flash/flash-gd32vf103.c -/

namespace Gd32

/-- hardware: a 32-bit store with FMC_CTL.PG set programs the word if it is erased, otherwise sets PGERR and changes nothing -/
def store (a : Nat) (d : Nat → Byte) (m : Mem) : Mem :=
  if m a = 0xff ∧ m (a + 1) = 0xff ∧ m (a + 2) = 0xff ∧ m (a + 3) = 0xff then
    fun x => if a ≤ x ∧ x < a + 4 then d (x - a) else m x
  else m

/-- the loop of flash_write, 167-173; `b` gives the values of FMC_STAT.BUSY read -/
def writeLoop (offset : Nat) (data : Nat → Byte) (n : Nat) : Nat → Nat → (Nat → Bool) → Mem → Mem × Nat
  | 0, k, _, m => (m, k)
  | fuel + 1, k, b, m =>
    if k = n then (m, k)
    else if b 0 then (m, k)
    else writeLoop offset data n fuel (k + 4) (fun i => b (i + 1)) (store (offset + k) (fun i => data (k + i)) m)

/-- flash_write, 150-181 -/
def write (total offset : Nat) (data : Nat → Byte) (n : Nat) (b : Nat → Bool) (m : Mem) : Mem × Res :=
  if n = 0 ∨ n ≥ total ∨ n % 4 ≠ 0 then (m, .einval)
  else if b 0 then (m, .eagain)
  else
    let r := writeLoop offset data n n 0 (fun i => b (i + 1)) m
    (r.1, if r.2 = 0 then .eagain else .ok r.2)

end Gd32

/-! ### drivers/flash/flash-atmel_eefc.c -/

namespace Eefc

/-- EEFC_FCR: FKEY, FARG, FCMD (47-52) -/
def fcr (farg fcmd : Nat) : Nat := (0x5a &&& 0xff) <<< 24 ||| (farg &&& 0xffff) <<< 8 ||| (fcmd &&& 0xff)

structure St where
  pending : Bool
  /-- the last value written to EEFC_FCR -/
  cmd : Nat
  /-- the latch buffer: what was written in the flash area since the last command -/
  latch : List (Nat × Byte)

/-- what the second call finds in EEFC_FSR: FLERR, FLOCKE, FCMDE, FRDY -/
def result (flerr flocke fcmde frdy : Bool) : Res :=
  if flerr then .eio else if flocke then .eperm else if fcmde then .einval else if frdy then .ok 0 else .eagain

/-- flash_erase, 153-176; `fsr` the status read -/
def erase (unit total offset : Nat) (fsr : Bool × Bool × Bool × Bool) (s : St) : St × Res :=
  if offset % unit ≠ 0 then (s, .einval)
  else if offset ≥ total then (s, .einval)
  else if !s.pending then ({ s with cmd := fcr (offset ||| 0x2) 0x07, pending := true }, .eagain)
  else ({ s with pending := false }, result fsr.1 fsr.2.1 fsr.2.2.1 fsr.2.2.2)

/-- flash_write, 180-208 -/
def write (page total offset : Nat) (data : Nat → Byte) (n : Nat) (fsr : Bool × Bool × Bool × Bool) (s : St) : St × Res :=
  if n = 0 then (s, .einval)
  else if offset % page ≠ 0 then (s, .einval)
  else if offset + n ≥ total then (s, .einval)
  else if !s.pending then
    ({ s with latch := s.latch ++ (List.range (min n page)).map (fun i => (offset + i, data i)), cmd := 0x5a <<< 24 ||| 0x01, pending := true }, .eagain)
  else ({ s with pending := false }, result fsr.1 fsr.2.1 fsr.2.2.1 fsr.2.2.2)

/-- flash_lock / flash_unlock, 210-256 -/
def lock (fcmd page offset : Nat) (fsr : Bool × Bool × Bool × Bool) (s : St) : St × Res :=
  if offset % page ≠ 0 then (s, .einval)
  else if !s.pending then ({ s with cmd := fcr (offset / page) fcmd, pending := true }, .eagain)
  else ({ s with pending := false }, result fsr.1 fsr.2.1 fsr.2.2.1 fsr.2.2.2)

/-- hardware: fields of FCR -/
def fargOf (w : Nat) : Nat := w / 2 ^ 8 % 2 ^ 16
def fcmdOf (w : Nat) : Nat := w % 2 ^ 8

/-- hardware, EPA with FARG[1:0] = 2: erases the 16 pages from page FARG[15:4] * 16 on -/
def epaFirst (w : Nat) : Nat := fargOf w / 16 * 16

end Eefc

end Pico.FlashInt
