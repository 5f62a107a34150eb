/-
The drivers of external (SPI) flash memories (C70): drivers/flash-ext/flash-ext-s25fl1.c and flash-ext-sst26vf.c, and the memories they drive.

The client repeats the same call, with the same arguments, until it returns something else than an error; every function below is given iteration by iteration
of its `for (;;)` (the stack buffers are rebuilt at each iteration, the static ones are in the state), so a sequence of calls is a sequence of iterations.
spi_xfer exchanges any number of bytes up to what it is asked for, chosen by the schedule (C69 is about the drivers below).
Simplifications: the chip select is asserted from the first to the last byte of a message of run_cmd, and raised then (the memories take a command when it is);
an error of spi_xfer is the same as an exchange of no byte (run_cmd changes the same things); size_t and int do not overflow.
-/
namespace Pico.FlashExt

abbrev Byte := BitVec 8

/-- The memory: its contents, write enable latch, operation under way, the other bits of its status registers, protected addresses, identification, what it
answers when nothing is specified, bytes received since the chip select was asserted. -/
structure Dev where
  mem : Nat → Byte
  wel : Bool
  busy : Bool
  sr1 : Byte
  sr2 : Byte
  sr3 : Byte
  prot : Nat → Bool
  id : Byte × Byte × Byte
  junk : List Byte → Byte
  sel : List Byte

def addr (a b c : Byte) : Nat := a.toNat * 65536 + b.toNat * 256 + c.toNat

def status (d : Dev) : Byte := (d.sr1 &&& 0xfc#8) ||| (if d.wel then 2#8 else 0#8) ||| (if d.busy then 1#8 else 0#8)

/-- what the memory sends while it receives the byte that follows `d.sel` -/
def answer (d : Dev) : Byte :=
  match d.sel with
  | [] => d.junk []
  | c :: t =>
    if c = 0x05#8 then status d
    else if c = 0x35#8 then d.sr2
    else if c = 0x33#8 then d.sr3
    else if d.busy then d.junk d.sel
    else if c = 0x9f#8 then (match t with | [] => d.id.1 | [_] => d.id.2.1 | [_, _] => d.id.2.2 | _ => d.junk d.sel)
    else if c = 0x03#8 then (match t with | a :: b :: e :: u => d.mem (addr a b e + u.length) | _ => d.junk d.sel)
    else d.junk d.sel

/-- page program: the data start at address `A` and wrap inside the page of 256 bytes; programming only clears bits -/
def program (A : Nat) (data : List Byte) (mem : Nat → Byte) : Nat → Byte := fun x =>
  if x / 256 = A / 256 then
    (match data[(x % 256 + 256 - A % 256) % 256]? with
     | some b => mem x &&& b
     | none => mem x)
  else mem x

def erase4k (A : Nat) (mem : Nat → Byte) : Nat → Byte := fun x => if x / 4096 = A / 4096 then 0xff#8 else mem x

/-- the chip select is raised: the command is executed. `busy` is set by the operations that take time; a busy memory ignores commands. -/
def commit (d : Dev) : Dev :=
  let d0 := { d with sel := [] }
  if d.busy then d0
  else match d.sel with
    | [] => d0
    | c :: t =>
      if c = 0x06#8 then { d0 with wel := true }
      else if c = 0x04#8 then { d0 with wel := false }
      else if d.wel then
        match t with
        | a :: b :: e :: u =>
          if c = 0x20#8 then (if d.prot (addr a b e) then { d0 with wel := false } else { d0 with mem := erase4k (addr a b e) d.mem, wel := false, busy := true })
          else if c = 0x02#8 then (if d.prot (addr a b e) then { d0 with wel := false } else { d0 with mem := program (addr a b e) u d.mem, wel := false, busy := true })
          else if c = 0x01#8 then { d0 with sr1 := a &&& 0xfc#8, sr2 := b, sr3 := e, wel := false, busy := true }
          else d0
        | _ => d0
      else d0

/-- bytes exchanged: the bytes sent are received by the memory one after the other, each answered -/
def send (d : Dev) : List Byte → Dev × List Byte
  | [] => (d, [])
  | b :: t => let r := send { d with sel := d.sel ++ [b] } t; (r.1, answer d :: r.2)

/-- struct flash_ext (flash-ext-s25fl1.h:10-17), the static buffers of the functions, the buffer of the caller, the memory, and (history) the messages sent -/
structure St where
  left : Nat
  seq : Nat
  jedec : List Byte
  total : Nat
  /-- static pp of flash_ext_write, rd of flash_ext_read, rsr and wsr of quad_enable, jedec of s25fl1's probe -/
  pp : List Byte
  rd : List Byte
  rsr : List Byte
  wsr : List Byte
  jed : List Byte
  out : List Byte
  dev : Dev
  log : List (List Byte)

/-- flash_ext_s25fl1_init (flash-ext-s25fl1.c:46-55), flash_ext_sst26vf_init (flash-ext-sst26vf.c:55-64); the static buffers are zero when the program starts -/
def init (out : List Byte) (d : Dev) : St :=
  { left := 0, seq := 0, jedec := [0, 0, 0], total := 0, pp := List.replicate 260 0, rd := List.replicate 260 0, rsr := [0, 0], wsr := [1, 0, 0, 0],
    jed := [0, 0, 0, 0], out := out, dev := d, log := [] }

/-- what the schedule decides before an exchange: how many bytes spi_xfer exchanges at most, and whether the operation under way in the memory has ended -/
structure Choice where
  k : Nat
  fin : Bool

def settle (fin : Bool) (d : Dev) : Dev := if fin then { d with busy := false } else d

/-- run_cmd (flash-ext-s25fl1.c:8-22 = flash-ext-sst26vf.c:19-33): the new state, the buffer, whether the message is complete -/
def runCmd (c : Choice) (s : St) (buf : List Byte) : St × List Byte × Bool :=
  let left := if s.left = 0 then buf.length else s.left
  let index := buf.length - left
  let k := min c.k left
  let r := send (settle c.fin s.dev) ((buf.drop index).take k)
  let buf' := buf.take index ++ r.2 ++ buf.drop (index + k)
  if left - k = 0 then ({ s with left := 0, dev := commit r.1, log := s.log ++ [r.1.sel] }, buf', true)
  else ({ s with left := left - k, dev := r.1 }, buf', false)

/-- outcome of an iteration: loop again, return an error the caller answers by calling again, return a value, return an error for good -/
inductive Out where
  | more
  | again
  | done (v : Nat)
  | fail
  deriving DecidableEq

/-- the end of an iteration: `if (res < 0) break; ctx->seq++` -/
def next (r : St × List Byte × Bool) : St × Out := if r.2.2 then ({ r.1 with seq := r.1.seq + 1 }, .more) else (r.1, .again)

/-- run_busy (flash-ext-s25fl1.c:31-44) followed by the end of the iteration -/
def runBusy (c : Choice) (s : St) : St × Out :=
  let r := runCmd c s [0x05#8, 0]
  if r.2.2 && (r.2.1.getD 1 0 &&& 1#8) != 0#8 then (r.1, .again) else next r

def byte (x : Nat) : Byte := BitVec.ofNat 8 x

/-- command and 24-bit address -/
def cmdAddr (c : Byte) (off : Nat) : List Byte := [c, byte (off / 65536), byte (off / 256), byte off]

/-- flash_ext_s25fl1_reset (flash-ext-s25fl1.c:57-77), flash_ext_sst26vf_reset -/
def reset (c : Choice) (s : St) : St × Out :=
  match s.seq with
  | 0 => next (runCmd c s [0x66#8])
  | 1 => next (runCmd c s [0x99#8])
  | _ => ({ s with seq := 0 }, .done 0)

/-- flash_ext_s25fl1_quad_enable (flash-ext-s25fl1.c:79-143) -/
def quadEnable (en : Bool) (c : Choice) (s : St) : St × Out :=
  match s.seq with
  | 0 => let r := runCmd c s (0x05#8 :: s.rsr.drop 1); next ({ r.1 with rsr := r.2.1 }, r.2)
  | 1 =>
    let s := { s with wsr := s.wsr.set 1 (s.rsr.getD 1 0) }
    let r := runCmd c s (0x35#8 :: s.rsr.drop 1); next ({ r.1 with rsr := r.2.1 }, r.2)
  | 2 =>
    let q := s.rsr.getD 1 0
    let w := if en then q ||| 2#8 else q &&& 0xfd#8
    let s := { s with wsr := s.wsr.set 2 w }
    if w = q then ({ s with seq := 0 }, .done 0)
    else let r := runCmd c s (0x33#8 :: s.rsr.drop 1); next ({ r.1 with rsr := r.2.1 }, r.2)
  | 3 => next (runCmd c { s with wsr := s.wsr.set 3 (s.rsr.getD 1 0) } [0x06#8])
  | 4 => let r := runCmd c s (0x01#8 :: s.wsr.drop 1); next ({ r.1 with wsr := r.2.1 }, r.2)
  | 5 => runBusy c s
  | _ => ({ s with seq := 0 }, .more)

/-- flash_ext_erase (flash-ext-s25fl1.c:184-211, flash-ext-sst26vf.c:127-154); erase_unit_len is 4096 on both -/
def erase (off : Nat) (c : Choice) (s : St) : St × Out :=
  if off % 4096 ≠ 0 ∨ s.total ≤ off then (s, .fail)
  else match s.seq with
    | 0 => next (runCmd c s [0x06#8])
    | 1 => next (runCmd c s (cmdAddr 0x20#8 off))
    | 2 => runBusy c s
    | _ => ({ s with seq := 0 }, .done 0)

/-- flash_ext_read (flash-ext-s25fl1.c:231-255, flash-ext-sst26vf.c:173-197); make_rd_req (216-229) returns n. There is no `case 1`. -/
def read (off n : Nat) (c : Choice) (s : St) : St × Out :=
  if n = 0 ∨ s.total ≤ off + n then (s, .fail)
  else
    let n := min n 256
    match s.seq with
    | 0 => ({ s with rd := cmdAddr 0x03#8 off ++ s.rd.drop 4, seq := 1 }, .more)
    | 2 => let r := runCmd c s s.rd; next ({ r.1 with rd := r.2.1 }, r.2)
    | 3 => ({ s with out := (s.rd.drop 4).take n ++ s.out.drop n, seq := 0 }, .done n)
    | _ => ({ s with seq := 0 }, .done n)

/-- flash_ext_write (flash-ext-s25fl1.c:273-301; flash-ext-sst26vf.c:213-239, which also tests the end of the data: `chk`); make_pp_req (257-271) -/
def write (chk : Bool) (off : Nat) (data : List Byte) (c : Choice) (s : St) : St × Out :=
  if data = [] ∨ off % 256 ≠ 0 ∨ (chk = true ∧ s.total ≤ off + data.length) then (s, .fail)
  else
    let n := min data.length 256
    match s.seq with
    | 0 => next (runCmd c s [0x06#8])
    | 1 => ({ s with pp := cmdAddr 0x02#8 off ++ data.take n ++ s.pp.drop (4 + n), seq := 2 }, .more)
    | 2 => let r := runCmd c s s.pp; next ({ r.1 with pp := r.2.1 }, r.2)
    | 3 => runBusy c s
    | _ => ({ s with seq := 0 }, .done n)

/-- flash_ext_lock of s25fl1 (303-328): the offset is ignored -/
def lock (_off : Nat) (c : Choice) (s : St) : St × Out :=
  match s.seq with
  | 0 => next (runCmd c s [0x06#8])
  | 1 => next (runCmd c s [0x39#8, 0, 0x2#8, 0])
  | 2 => runBusy c s
  | 3 => next (runCmd c s [0x04#8])
  | _ => ({ s with seq := 0 }, .done 0)

/-- flash_ext_unlock of s25fl1 (330-352) -/
def unlock (off : Nat) (c : Choice) (s : St) : St × Out :=
  match s.seq with
  | 0 => next (runCmd c s [0x06#8])
  | 1 => next (runCmd c s [0x39#8, byte (off / 65536), byte (off / 256) &&& 0xfc#8, 0])
  | 2 => runBusy c s
  | 3 => next (runCmd c s [0x04#8])
  | _ => ({ s with seq := 0 }, .done 0)

/-- flash_ext_lock and flash_ext_unlock of sst26vf (flash-ext-sst26vf.c:241-255) -/
def noLock (_off : Nat) (_c : Choice) (s : St) : St × Out := (s, .done 0)

/-- flash_ext_probe of s25fl1 (145-176): erase units counted in the device, by the third identification byte -/
def units25 (t : Byte) : Option Nat := if t = 0x15#8 then some 512 else if t = 0x16#8 then some 1024 else if t = 0x17#8 then some 2048 else none
/-- flash_ext_probe of sst26vf (90-118) -/
def units26 (t : Byte) : Option Nat := if t &&& 0xf#8 = 1#8 then some 512 else if t &&& 0xf#8 = 2#8 then some 1024 else none

/-- the end of flash_ext_probe: attributes from the identification read -/
def identify (m1 m2 : Byte) (units : Byte → Option Nat) (s : St) (j : List Byte) : St × Out :=
  let s := { s with jedec := j }
  if j.getD 0 0 = m1 ∧ j.getD 1 0 = m2 then
    match units (j.getD 2 0) with
    | some u => ({ s with total := 4096 * u }, .done 0)
    | none => (s, .fail)
  else (s, .fail)

/-- flash_ext_probe, s25fl1: the message is in a static buffer -/
def probe25 (c : Choice) (s : St) : St × Out :=
  let r := runCmd c s (0x9f#8 :: s.jed.drop 1)
  let s1 := { r.1 with jed := r.2.1 }
  if r.2.2 then identify 0x01#8 0x40#8 units25 s1 (r.2.1.drop 1) else (s1, .again)

/-- flash_ext_probe, sst26vf: the message is on the stack -/
def probe26 (c : Choice) (s : St) : St × Out :=
  let r := runCmd c s [0x9f#8, 0, 0, 0]
  if r.2.2 then identify 0xbf#8 0x26#8 units26 r.1 (r.2.1.drop 1) else (r.1, .again)

/-- the client: calls again until the function returns something else than -EAGAIN -/
def drive (f : Choice → St → St × Out) : List Choice → St → St × Out
  | [], s => (s, .again)
  | c :: cs, s => match f c s with
    | (s', .done v) => (s', .done v)
    | (s', .fail) => (s', .fail)
    | (s', _) => drive f cs s'

end Pico.FlashExt
