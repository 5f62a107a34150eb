/-
The start of the second core of the RP2040 (C103): arch/arm/armv6-m/mach-rp2040/picoRTOS-SMP_port.c:122-239

Core 1 waits in the boot ROM (RP2040 datasheet 2.8.2): it takes words from its FIFO, echoes every one, and expects 0, 1, then a vector table, a stack pointer and an entry point; a 0 makes it start again;
then it goes to the entry point.  The two FIFOs have 8 words; core 1 waits for room.
Simplifications: a flush ends when the FIFO is empty (CONFIG_DEADLOCK_COUNT is not reached by the words the FIFOs can hold); the other waits can run out at any moment (`giveUp`), and CONFIG_DEADLOCK_COUNT attempts are not counted.
-/
namespace Pico.Core1

abbrev Word := BitVec 32

/-- what core 0 sends: *VTOR, the stack of core 1, core1_start_first_task -/
structure Seq where
  vtor : Word
  sp : Word
  entry : Word

/-- the words of picoRTOS-SMP_port.c:212-221, in order -/
def Seq.word (q : Seq) : Nat → Word
  | 2 => 1#32
  | 3 => q.vtor
  | 4 => q.sp
  | 5 => q.entry
  | _ => 0#32

/-- the boot ROM of core 1, then out of it -/
inductive Rom where
  | idle
  | one
  | vtor (v : Word)
  | sp (v s : Word)
  | started (v s e : Word)
  /-- it runs the idle task (arch_idle), and has released the lock -/
  | idles (v s e : Word)
  deriving DecidableEq

/-- a word taken by the boot ROM -/
def Rom.take (w : Word) : Rom → Rom
  | .idle => if w = 1#32 then .one else .idle
  | .one => if w = 0#32 then .idle else .vtor w
  | .vtor v => if w = 0#32 then .idle else .sp v w
  | .sp v s => if w = 0#32 then .idle else .started v s w
  | r => r

/-- core 0 in arch_core_init (:183-229): takes the lock; flushes before word i, writes word i, waits for its echo; takes the lock again; is done -/
inductive Pc where
  | lock
  | flush (i : Nat)
  | send (i : Nat)
  | wait (i : Nat)
  | lock2
  | done
  deriving DecidableEq

structure St where
  pc : Pc
  /-- to core 1, to core 0 -/
  tx : List Word
  rx : List Word
  rom : Rom
  /-- SIO_SPINLOCK0 is taken -/
  locked : Bool

inductive Cmd where
  | core0
  /-- arch_xfer_to_core1 returns -1: a wait ran out (:159-163, :170-174) -/
  | giveUp
  | core1
  /-- the idle task of core 1 begins (arch_idle, :231-239) -/
  | idle

/-- after word i: :211-223; the flush comes before the words 0 and 1 only -/
def next (i : Nat) : Pc := if i = 5 then .lock2 else if i = 0 then .flush 1 else .send (i + 1)

def step (q : Seq) (s : St) : Cmd → Option St
  | .core0 =>
    match s.pc with
    | .lock => if s.locked then none else some { s with pc := .flush 0, locked := true }
    | .flush i => match s.rx with | _ :: r => some { s with rx := r } | [] => some { s with pc := .send i }
    | .send i => if s.tx.length < 8 then some { s with pc := .wait i, tx := s.tx ++ [q.word i] } else none
    | .wait i => match s.rx with | w :: r => some { s with rx := r, pc := if w = q.word i then next i else .flush 0 } | [] => none
    | .lock2 => if s.locked then none else some { s with pc := .done, locked := false }
    | .done => none
  | .giveUp => match s.pc with | .send _ => some { s with pc := .flush 0 } | .wait _ => some { s with pc := .flush 0 } | _ => none
  | .core1 =>
    match s.rom with
    | .started _ _ _ => none
    | .idles _ _ _ => none
    | r => match s.tx with | w :: t => if s.rx.length < 8 then some { s with tx := t, rx := s.rx ++ [w], rom := r.take w } else none | [] => none
  | .idle => match s.rom with | .started v p e => some { s with rom := .idles v p e, locked := false } | _ => none

/-- executions; `patient`: no wait runs out -/
inductive Run (q : Seq) (patient : Bool) (s0 : St) : St → Prop where
  | refl : Run q patient s0 s0
  | step {s s' : St} (a : Cmd) : Run q patient s0 s → (patient = true → a ≠ .giveUp) → step q s a = some s' → Run q patient s0 s'

/-- before arch_core_init, the lock being free (RESET_ALL_SPINLOCKS): whatever is in the FIFOs, wherever core 1 is in its boot ROM -/
def Before (s : St) : Prop := s.pc = .lock ∧ s.locked = false ∧ (∀ v p e, s.rom ≠ .started v p e) ∧ ∀ v p e, s.rom ≠ .idles v p e
/-- as after a reset: nothing in the FIFOs -/
def fresh : St := ⟨.lock, [], [], .idle, false⟩

/-- the stack of core 1: `stack` of :203-209, the word written there, and what core1_start_first_task (:122-139) pops -/
def stackOf (bottom top : Word) : Word := bottom + 4#32 * (((top - bottom) >>> 2) - 1#32)

end Pico.Core1
