/-
What is seen on a two-wire bus (C79, C80): shared by the models of the TWI drivers. Specification only.
-/
namespace Pico.Twi

abbrev Byte := BitVec 8

/-- what happens on the wires -/
inductive Bus where
  /-- START or repeated START -/
  | start
  /-- address and direction byte, acknowledged or not -/
  | addr (b : Byte) (ack : Bool)
  /-- data byte of the master, acknowledged or not by the slave -/
  | tx (b : Byte) (ack : Bool)
  /-- data byte of the slave, acknowledged or not by the master -/
  | rx (b : Byte) (ack : Bool)
  | stop
  deriving DecidableEq, Repr

/-- a message: what the application asks for; `s`, `p`: TWI_F_S, TWI_F_P -/
inductive Msg where
  | write (l : List Byte) (s p : Bool)
  | read (n : Nat) (s p : Bool)
  deriving DecidableEq, Repr

/-- how it ended for the application -/
inductive Res where
  | wrote
  | got (l : List Byte)
  /-- nobody answered at that address -/
  | absent
  deriving DecidableEq, Repr

/-- the address byte: 7-bit address and direction -/
def sla (a : BitVec 7) (r : Bool) : Byte := a ++ BitVec.ofBool r

/-- the bytes received: all acknowledged but the last -/
def rxs (l : List Byte) : List Bus := l.dropLast.map (fun d => .rx d true) ++ l.getLast?.toList.map (fun d => .rx d false)

/-- what a finished message must have put on the bus -/
def seen (a : BitVec 7) : Msg × Res → List Bus
  | (.write l s p, .wrote) => (if s then [.start, .addr (sla a false) true] else []) ++ l.map (fun b => .tx b true) ++ (if p then [.stop] else [])
  | (.read _ s p, .got l) => (if s then [.start, .addr (sla a true) true] else []) ++ rxs l ++ (if p then [.stop] else [])
  | (.write _ _ _, .absent) => [.start, .addr (sla a false) false, .stop]
  | (.read _ _ _, .absent) => [.start, .addr (sla a true) false, .stop]
  | _ => []

/-- results that fit the message: as many bytes as asked -/
def fits : Msg × Res → Prop
  | (.write _ _ _, .wrote) => True
  | (.read n _ _, .got l) => l.length = n
  | (_, .absent) => True
  | _ => False

end Pico.Twi
