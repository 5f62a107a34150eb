/-
The UART drivers (C84): uart_write and uart_read of the polled drivers
  drivers/uart: arm_pl011, atmel_sercom, atsamx7x, atsamx7x_usart, avr (and avr_irqdriven in normal mode), gd32vf103, nxp_linflexd, pic32mx, renesas_ra4_sci, sam3x,
  stm32h7xx, tinyavr_usart
  staging/drivers/uart: 8051, mc9s08ptxx_sci, n76e003

A transmitter holds up to `D` bytes (FIFO or holding register) and sends them in order; a write when it is full overwrites the last.  A receiver holds up to `D` bytes;
a byte arriving when it is full is lost.  The line moves between any two accesses of the driver, as it pleases: that is the environment `e`, indexed by the polls of the
status register.  `n = 0` is refused (-EINVAL) by every driver and is not modelled beyond that; int overflows of the count are not modelled.
-/
namespace Pico.UartPoll

abbrev Byte := BitVec 8

/-- returned by uart_write: -EAGAIN or a number of bytes -/
inductive WRes
  | einval | again | sent (n : Nat)
  deriving DecidableEq, Repr

/-- number of bytes a caller takes as written -/
def WRes.count : WRes → Nat
  | .sent n => n
  | _ => 0

/-- transmitter: bytes held, bytes gone on the line, oldest first -/
structure Tx where
  q : List Byte
  line : List Byte
  deriving DecidableEq, Repr

/-- the line takes up to `k` bytes -/
def Tx.drain (k : Nat) (t : Tx) : Tx := ⟨t.q.drop k, t.line ++ t.q.take k⟩

/-- a write to the data register -/
def Tx.push (D : Nat) (b : Byte) (t : Tx) : Tx := if t.q.length < D then { t with q := t.q ++ [b] } else { t with q := t.q.dropLast ++ [b] }

/-- the loop of uart_write: uart-arm_pl011.c:220-225, uart-atmel_sercom.c:235-240, uart-atsamx7x.c:147-152, uart-sam3x.c:129-134, uart-atsamx7x_usart.c:262-267,
uart-avr.c:164-171, uart-gd32vf103.c:193-198, uart-pic32mx.c:147-152, uart-renesas_ra4_sci.c:241-248, uart-stm32h7xx.c:307-312, uart-tinyavr_usart.c:181-188,
staging uart-mc9s08ptxx_sci.c:141-148.  `rdy`: the status bit polled.  Result: bytes written, transmitter -/
def txLoop (D : Nat) (rdy : Tx → Bool) (e : Nat → Nat) : List Byte → Nat → Tx → Nat × Tx
  | [], _, t => (0, t)
  | b :: bs, i, t =>
    let t := t.drain (e i)
    if rdy t then
      let r := txLoop D rdy e bs (i + 1) (t.push D b)
      (r.1 + 1, r.2)
    else (0, t)

/-- uart_write of the same drivers -/
def write (D : Nat) (rdy : Tx → Bool) (e : Nat → Nat) (buf : List Byte) (t : Tx) : WRes × Tx :=
  if buf = [] then (.einval, t)
  else
    let r := txLoop D rdy e buf 0 t
    if r.1 = 0 then (.again, r.2) else (.sent r.1, r.2)

/-- the status bits: TXFF, DRE, TXRDY, UDRE, TBE, UTXBF, TDRE, TXFNF, DREIF -/
def notFull (D : Nat) (t : Tx) : Bool := t.q.length < D

/-- uart-atsamx7x_usart.c:263: TXEMPTY, nothing left at all -/
def empty (t : Tx) : Bool := t.q = []

/-! ### receiver -/

/-- returned by uart_read -/
inductive RRes
  | einval | again | got (l : List Byte)
  deriving DecidableEq, Repr

/-- bytes a caller gets -/
def RRes.bytes : RRes → List Byte
  | .got l => l
  | _ => []

/-- receiver: bytes held; ghosts: all the bytes that arrived, how many were lost; `dead`: it does not receive any more -/
structure Rx where
  q : List Byte
  arr : List Byte
  lost : Nat
  dead : Bool
  deriving DecidableEq, Repr

/-- a byte arrives; `stall`: an overrun stops the receiver until its flag is cleared -/
def Rx.arrive (D : Nat) (stall : Bool) (r : Rx) (b : Byte) : Rx :=
  if r.dead = false ∧ r.q.length < D then { r with q := r.q ++ [b], arr := r.arr ++ [b] }
  else { r with arr := r.arr ++ [b], lost := r.lost + 1, dead := r.dead || stall }

/-- the loop of uart_read: uart-arm_pl011.c:239-244, uart-atmel_sercom.c:254-259, uart-atsamx7x.c:166-171, uart-sam3x.c:148-153, uart-atsamx7x_usart.c:281-286,
uart-avr.c:185-192, uart-gd32vf103.c:212-217, uart-pic32mx.c:166-171, uart-renesas_ra4_sci.c:262-269, uart-stm32h7xx.c:326-331, staging uart-8051.c:119-129,
uart-mc9s08ptxx_sci.c:162-169, uart-n76e003.c:251-273 -/
def rxLoop (D : Nat) (stall : Bool) (e : Nat → List Byte) : Nat → Nat → Rx → List Byte × Rx
  | 0, _, r => ([], r)
  | n + 1, i, r =>
    let r := (e i).foldl (Rx.arrive D stall) r
    match r.q with
    | [] => ([], r)
    | b :: q =>
      let x := rxLoop D stall e n (i + 1) { r with q := q }
      (b :: x.1, x.2)

/-- uart_read of the same drivers; `zero`: nothing is 0 instead of -EAGAIN (uart-arm_pl011.c:246) -/
def read (D : Nat) (stall zero : Bool) (e : Nat → List Byte) (n : Nat) (r : Rx) : RRes × Rx :=
  if n = 0 then (.einval, r)
  else
    let x := rxLoop D stall e n 0 r
    if x.1 = [] ∧ zero = false then (.again, x.2) else (.got x.1, x.2)

/-! ### tinyavr_usart: framing errors -/

/-- receiver whose bytes carry the frame error flag -/
structure RxF where
  q : List (Byte × Bool)
  deriving DecidableEq

/-- uart-tinyavr_usart.c:202-211 -/
def tinyLoop (e : Nat → List (Byte × Bool)) : Nat → Nat → RxF → List Byte × RxF
  | 0, _, r => ([], r)
  | n + 1, i, r =>
    let r : RxF := ⟨r.q ++ e i⟩
    match r.q with
    | [] => ([], r)
    | (b, ferr) :: q =>
      if ferr then ([], r)
      else
        let x := tinyLoop e n (i + 1) ⟨q⟩
        (b :: x.1, x.2)

/-- uart-tinyavr_usart.c:196-217 -/
def tinyRead (e : Nat → List (Byte × Bool)) (n : Nat) (r : RxF) : RRes × RxF :=
  if n = 0 then (.einval, r)
  else
    let x := tinyLoop e n 0 r
    if x.1 = [] then (.again, x.2) else (.got x.1, x.2)

/-! ### 8051: no holding register, TI tells the end of a byte -/

structure T51 where
  /-- byte in the shifter -/
  cur : Option Byte
  ti : Bool
  trig : Bool
  line : List Byte
  deriving DecidableEq

/-- the byte ends, if the line so wishes -/
def T51.tick (go : Bool) (t : T51) : T51 :=
  match t.cur with
  | some b => if go then { t with cur := none, ti := true, line := t.line ++ [b] } else t
  | none => t

/-- staging uart-8051.c:94-103; a write to SBUF replaces the byte being sent -/
def loop51 (e : Nat → Bool) : List Byte → Nat → T51 → Nat × T51
  | [], _, t => (0, t)
  | b :: bs, i, t =>
    let t := t.tick (e i)
    if t.ti = false ∧ t.trig = false then (0, t)
    else
      let r := loop51 e bs (i + 1) { t with ti := false, cur := some b, trig := false }
      (r.1 + 1, r.2)

/-- staging uart-8051.c:88-109 -/
def write51 (e : Nat → Bool) (buf : List Byte) (t : T51) : WRes × T51 :=
  if buf = [] then (.einval, t)
  else
    let r := loop51 e buf 0 t
    if r.1 = 0 then (.again, r.2) else (.sent r.1, r.2)

/-! ### n76e003 (UART0): started and waited for -/

/-- `busy`: ctx->busy -/
structure T76 where
  cur : Option Byte
  ti : Bool
  busy : Bool
  line : List Byte
  deriving DecidableEq

def T76.tick (go : Bool) (t : T76) : T76 :=
  match t.cur with
  | some b => if go then { t with cur := none, ti := true, line := t.line ++ [b] } else t
  | none => t

/-- staging uart-n76e003.c:156-169 in the loop 194-214; the line moves between the write to SBUF and the poll -/
def loop76 (e : Nat → Bool) : List Byte → Nat → T76 → Nat × T76
  | [], _, t => (0, t)
  | b :: bs, i, t =>
    let t := if t.busy then t else { t with cur := some b, busy := true }
    let t := t.tick (e i)
    if t.ti = false then (0, t)
    else
      let r := loop76 e bs (i + 1) { t with ti := false, busy := false }
      (r.1 + 1, r.2)

/-- staging uart-n76e003.c:188-220 -/
def write76 (e : Nat → Bool) (buf : List Byte) (t : T76) : WRes × T76 :=
  if buf = [] then (.einval, t)
  else
    let r := loop76 e buf 0 t
    if r.1 = 0 then (.again, r.2) else (.sent r.1, r.2)

/-! ### nxp_linflexd -/

/-- DTF: the byte was sent; DRF: a byte was received, it is in `rxd`; both flags are cleared by writing 1 -/
structure Lin where
  start : Bool
  cur : Option Byte
  dtf : Bool
  drf : Bool
  rxd : Byte
  line : List Byte
  deriving DecidableEq

/-- the byte ends, if the line so wishes; a byte arrives, if any -/
def Lin.tick (x : Bool × Option Byte) (t : Lin) : Lin :=
  let t := match t.cur with
    | some b => if x.1 then { t with cur := none, dtf := true, line := t.line ++ [b] } else t
    | none => t
  match x.2 with
  | some b => { t with drf := true, rxd := b }
  | none => t

/-- uart-nxp_linflexd.c:236-249; `UARTSR |= DTFTFF` writes back every flag that is set.  `none`: return -EAGAIN out of the loop -/
def linLoop (e : Nat → Bool × Option Byte) : List Byte → Nat → Lin → Option Nat × Lin
  | [], _, t => (some 0, t)
  | b :: bs, i, t =>
    if t.start then
      let r := linLoop e bs i { t with start := false, cur := some b }
      (r.1.map (· + 1), r.2)
    else
      let t := t.tick (e i)
      if t.dtf = false then (none, t)
      else
        let r := linLoop e bs (i + 1) { t with dtf := false, drf := false, cur := some b }
        (r.1.map (· + 1), r.2)

/-- uart-nxp_linflexd.c:230-255 -/
def linWrite (e : Nat → Bool × Option Byte) (buf : List Byte) (t : Lin) : WRes × Lin :=
  if buf = [] then (.einval, t)
  else
    match linLoop e buf 0 t with
    | (none, t) => (.again, t)
    | (some n, t) => (.sent n, t)

/-- uart-nxp_linflexd.c:257-276, for one byte -/
def linRead1 (t : Lin) : RRes × Lin := if t.drf then (.got [t.rxd], { t with drf := false }) else (.again, t)

/-! ### Specification -/

/-- a history of calls to `uart_write`: the buffers, the environment of each call, what leaves between the calls -/
def writes (D : Nat) (rdy : Tx → Bool) : List (List Byte × (Nat → Nat) × Nat) → Tx → List Byte × Tx
  | [], t => ([], t)
  | (buf, e, k) :: l, t =>
    let r := write D rdy e buf t
    let x := writes D rdy l (r.2.drain k)
    (buf.take r.1.count ++ x.1, x.2)

/-- a history of calls to `uart_read`: sizes, environment of each call, what arrives between the calls -/
def reads (D : Nat) (stall zero : Bool) : List (Nat × (Nat → List Byte) × List Byte) → Rx → List Byte × Rx
  | [], r => ([], r)
  | (n, e, a) :: l, r =>
    let x := read D stall zero e n r
    let y := reads D stall zero l (a.foldl (Rx.arrive D stall) x.2)
    (x.1.bytes ++ y.1, y.2)

end Pico.UartPoll
