/-
1-wire on a UART: staging/drivers/w1/w1-uart.c.

The UART is any: each call says whether uart_setup, uart_write and uart_read succeed; a byte sent comes back later, less the bits during
which somebody else pulls the line. `n` is taken to be > 0 (picoRTOS_assert, l.112, 153).
-/
namespace Pico.W1

abbrev Byte := BitVec 8

/-- w1_uart_state_t, w1-uart.h:13-20 -/
inductive Mode where | idle | reset | write0 | write1 | read
  deriving DecidableEq, Repr

inductive Err where | eagain | einval | eio
  deriving DecidableEq, Repr

inductive Res where | ok (n : Nat) | err (e : Err)
  deriving DecidableEq, Repr

/-- what the UART answers during one call: `setup`, `write`, `read` = none for success; a uart_setup that fails leaves the rate `after` -/
structure Ans where
  setup : Option Err := none
  after : Nat := 0
  write : Option Err := none
  read : Option Err := none

/-- struct w1 (w1-uart.h:28-34; reset_state is `presence`), the rate of the UART, what it sent (rate and byte), what is on the line, what
it received -/
structure St where
  tx : Nat
  rx : Nat
  mode : Mode
  presence : Bool
  baud : Nat
  sent : List (Nat × Byte)
  air : List Byte
  fifo : List Byte

/-- the settings of w1_reset (l.46-48), write_zero (l.71-73), write_one (l.93-95), read_pulse (l.132-134); all of 8 bits, no parity, 1 stop bit -/
def rate : Mode → Nat
  | .reset => 18000
  | .write0 => 120000
  | .write1 => 1000000
  | .read => 120000
  | .idle => 0

/-- w1_uart_init, l.4-13 -/
def init (baud : Nat) : St := ⟨0, 0, .idle, false, baud, [], [], []⟩

/-- `if (ctx->state != m && uart_setup(...) < 0) return res; ctx->state = m` (l.50-54, 75-79, 97-101, 136-140) -/
def setup (a : Ans) (m : Mode) (s : St) : St × Option Err :=
  if s.mode = m then (s, none) else
  match a.setup with
  | some e => ({ s with baud := a.after }, some e)
  | none => ({ s with baud := rate m, mode := m }, none)

/-- uart_write of one byte (uart.h): it succeeds, or fails and sends nothing -/
def uwrite (a : Ans) (b : Byte) (s : St) : St × Option Err :=
  match a.write with
  | some e => (s, some e)
  | none => ({ s with sent := s.sent ++ [(s.baud, b)], air := s.air ++ [b] }, none)

/-- uart_read of one byte (uart.h): the oldest received, or an error -/
def uread (a : Ans) (s : St) : St × Except Err Byte :=
  match a.read, s.fifo with
  | some e, _ => (s, .error e)
  | none, [] => (s, .error .eagain)
  | none, b :: r => ({ s with fifo := r }, .ok b)

/-- write_zero (l.66-86), write_one (l.88-108), read_pulse (l.127-149): rate, a byte sent, a byte received if there is one (0 otherwise: l.130; unused
by the first two) -/
def slot (a : Ans) (m : Mode) (b : Byte) (s : St) : St × Except Err Byte :=
  match setup a m s with
  | (s1, some e) => (s1, .error e)
  | (s1, none) =>
    match uwrite a b s1 with
    | (s2, some e) => (s2, .error e)
    | (s2, none) =>
      match uread a s2 with
      | (s3, .ok v) => (s3, .ok v)
      | (s3, .error _) => (s3, .ok 0)

/-- w1_write, l.110-125 -/
def write (a : Ans) (b : Byte) (s : St) : St × Res :=
  let r := if b &&& (1#8 <<< s.tx) ≠ 0 then slot a .write1 0xff s else slot a .write0 0xf0 s
  match r with
  | (s1, .error _) => (s1, .err .eagain)
  | (s1, .ok _) => if s1.tx + 1 = 8 then ({ s1 with tx := 0 }, .ok 1) else ({ s1 with tx := s1.tx + 1 }, .err .eagain)

/-- w1_read, l.151-170; the byte is the one of the caller's buffer -/
def read (a : Ans) (buf : Byte) (s : St) : St × Byte × Res :=
  match slot a .read 0x00 s with
  | (s1, .error e) => (s1, buf, .err e)
  | (s1, .ok v) =>
    let buf1 := buf ||| ((if v ≠ 0 then 1#8 else 0#8) <<< s1.rx)
    if s1.rx + 1 = 8 then ({ s1 with rx := 0 }, buf1, .ok 1) else ({ s1 with rx := s1.rx + 1 }, buf1, .err .eagain)

/-- w1_reset (l.43-64), w1_reset_pulse (l.15-28), w1_reset_presence (l.30-41) -/
def reset (a : Ans) (s : St) : St × Res :=
  match setup a .reset s with
  | (s1, some e) => (s1, .err e)
  | (s1, none) =>
    if s1.presence then
      match uread a s1 with
      | (s2, .error e) => (s2, .err e)
      | (s2, .ok _) => ({ s2 with presence := false }, .ok 0)
    else
      match uwrite a 0x00 s1 with
      | (s2, some e) => (s2, .err e)
      | (s2, none) => ({ s2 with presence := true }, .err .eagain)

/-- what may happen: a call; the byte on the line is received, less the bits others pull down (wired and; bits of `pull` at 0); a byte comes from somebody else -/
inductive Ev where
  | call (a : Ans)
  | echo (pull : Byte)
  | other (b : Byte)

/-- the line -/
def line (e : Ev) (s : St) : St :=
  match e with
  | .call _ => s
  | .echo pull => match s.air with
    | [] => s
    | b :: r => { s with air := r, fifo := s.fifo ++ [b &&& pull] }
  | .other b => { s with fifo := s.fifo ++ [b] }

/-- a task that writes bytes: w1_write of the first one until it returns 1, then the next -/
structure WCl where
  st : St
  done : List Byte
  todo : List Byte

def wstep (c : WCl) (e : Ev) : WCl :=
  match e with
  | .call a => match c.todo with
    | [] => c
    | b :: rest =>
      match write a b c.st with
      | (s1, .ok _) => ⟨s1, c.done ++ [b], rest⟩
      | (s1, .err _) => ⟨s1, c.done, c.todo⟩
  | e => { c with st := line e c.st }

def wrun (l : List Ev) (c : WCl) : WCl := l.foldl wstep c

/-- a task that reads a byte: w1_read until it returns 1 -/
structure RCl where
  st : St
  buf : Byte
  res : Option Res

def rstep (c : RCl) (e : Ev) : RCl :=
  match e with
  | .call a =>
    if c.res = some (.ok 1) then c else
    match read a c.buf c.st with
    | (s1, b1, r) => ⟨s1, b1, some r⟩
  | e => { c with st := line e c.st }

def rrun (l : List Ev) (c : RCl) : RCl := l.foldl rstep c

/-- a task that resets the bus: w1_reset until it returns 0 -/
def zstep (c : St × Option Res) (e : Ev) : St × Option Res :=
  match e with
  | .call a =>
    if c.2 = some (.ok 0) then c else
    match reset a c.1 with
    | (s1, r) => (s1, some r)
  | e => (line e c.1, c.2)

def zrun (l : List Ev) (c : St × Option Res) : St × Option Res := l.foldl zstep c

end Pico.W1
