import Verif.Arch.Cache
/-
The SMP scheduler on cores whose data caches are not kept coherent by the hardware: what
picoRTOS_flush_dcache / picoRTOS_invalidate_dcache in picoRTOS_tick and picoRTOS_syscall
(scheduler/picoRTOS-SMP.c:564-678) are there for.

Modelled: one memory and one data cache for each core (lines of `2 ^ k` bytes, `Verif/Arch/Cache.lean`),
lines filled and evicted by the hardware at any time, stores of the tasks to their own stacks, stores of
the scheduler to its structure, and the four calls of a scheduler pass.  The caches are write-through
(`wb = false`), as INVALIDATE_AND_ENABLE_CACHE leaves them on e200z4 and e200z7 (include/macros.S:54-83
and 67-96: L1CSR0 is written 2, then 3 - DCWM, bit 11, stays 0), or write-back (`wb = true`).

Simplified: which task is chosen and what is stored in the structure is left open (any task that no
other core runs, any bytes).  The lock is a guard (what the lock gives is C64).  Stacks and the
structure are given as whole lines: `task->stack` and `stack_count` are whole lines by picoRTOS_task_init
(C21), the structure has `aligned(ARCH_L1_DCACHE_LINESIZE)` (88).
-/
namespace Pico.Noncoh
open Pico.Cache

/-- `K` cores, `T` tasks (with the idle tasks), and where things are, in line numbers: the stack of task `t` is lines `lo t .. hi t`, the scheduler
structure lines `pl .. ph` -/
structure Lay where
  K : Nat
  T : Nat
  k : Nat
  lo : Fin T → Nat
  hi : Fin T → Nat
  pl : Nat
  ph : Nat

/-- byte `a` is in the stack of task `t` -/
def Lay.stack (y : Lay) (t : Fin y.T) (a : Nat) : Prop := y.lo t ≤ num y.k a ∧ num y.k a < y.hi t

/-- byte `a` is in the scheduler structure -/
def Lay.sched (y : Lay) (a : Nat) : Prop := y.pl ≤ num y.k a ∧ num y.k a < y.ph

/-- disjoint, not empty, and within the address space (not in its first line) -/
structure Lay.WF (y : Lay) : Prop where
  k32 : y.k < 32
  stacks : ∀ t u a, t ≠ u → y.stack t a → ¬ y.stack u a
  apart : ∀ t a, y.stack t a → ¬ y.sched a
  low : ∀ t, 1 ≤ y.lo t
  high : ∀ t, y.hi t * 2 ^ y.k ≤ 2 ^ 32
  plow : 1 ≤ y.pl
  pne : y.pl < y.ph
  phigh : y.ph * 2 ^ y.k ≤ 2 ^ 32

/-- memory, and for each core the lines of its cache (`true`: memory has not got it) -/
structure Mach (K : Nat) where
  mem : Nat → Byte
  line : Fin K → Nat → Option (Bool × (Nat → Byte))

/-- the memory and the cache of core `c` -/
def Mach.on {K : Nat} (m : Mach K) (c : Fin K) : Cache.St := ⟨m.mem, m.line c⟩

/-- put back what core `c` did -/
def Mach.put {K : Nat} (m : Mach K) (c : Fin K) (s : Cache.St) : Mach K := ⟨s.mem, fun c' => if c' = c then s.line else m.line c'⟩

/-- a load of byte `a` on core `c` -/
def Mach.load {K : Nat} (m : Mach K) (k : Nat) (c : Fin K) (a : Nat) : Byte := (m.on c).load k a

def updB (f : Nat → Byte) (a : Nat) (v : Byte) : Nat → Byte := fun x => if x = a then v else f x

/-- a store of byte `a` on core `c`.  Write-through: memory gets it, and the line if it is in the cache;
write-back: the line, fetched if it was not there. -/
def Mach.store {K : Nat} (wb : Bool) (k : Nat) (c : Fin K) (a : Nat) (v : Byte) (m : Mach K) : Mach K :=
  if wb then
    m.put c ⟨m.mem, fun l => if l = num k a then
      some (true, updB (match m.line c l with | some (_, d) => d | none => m.mem) a v) else m.line c l⟩
  else
    m.put c ⟨updB m.mem a v, fun l => if l = num k a then
      (m.line c l).map (fun p => (p.1, updB p.2 a v)) else m.line c l⟩

/-- line `l` enters the cache of core `c` (a load, or a prefetch) -/
def Mach.fill {K : Nat} (c : Fin K) (l : Nat) (m : Mach K) : Mach K :=
  m.put c ⟨m.mem, fun i => if i = l ∧ m.line c i = none then some (false, m.mem) else m.line c i⟩

/-- line `l` leaves the cache of core `c` -/
def Mach.evict {K : Nat} (k : Nat) (c : Fin K) (l : Nat) (m : Mach K) : Mach K :=
  m.put c ⟨wbMem k l (m.on c), fun i => if i = l then none else m.line c i⟩

/-- picoRTOS_invalidate_dcache(&picoRTOS, sizeof(picoRTOS)): picoRTOS-SMP.c:569, 616 -/
def invSched (y : Lay) (c : Fin y.K) (m : Mach y.K) : Mach y.K :=
  m.put c (range y.k .inval (BitVec.ofNat 32 (y.pl * 2 ^ y.k)) (BitVec.ofNat 32 ((y.ph - y.pl) * 2 ^ y.k)) (m.on c))

/-- picoRTOS_flush_dcache(&picoRTOS, sizeof(picoRTOS)): picoRTOS-SMP.c:604, 672 -/
def flushSched (y : Lay) (c : Fin y.K) (m : Mach y.K) : Mach y.K :=
  m.put c (range y.k .writebackInv (BitVec.ofNat 32 (y.pl * 2 ^ y.k)) (BitVec.ofNat 32 ((y.ph - y.pl) * 2 ^ y.k)) (m.on c))

/-- picoRTOS_flush_dcache(task->sp, (size_t)task->stack_top - (size_t)task->sp): 578, 626 -/
def flushStack (y : Lay) (t : Fin y.T) (sp : Nat) (c : Fin y.K) (m : Mach y.K) : Mach y.K :=
  m.put c (range y.k .writebackInv (BitVec.ofNat 32 sp) (BitVec.ofNat 32 (y.hi t * 2 ^ y.k - sp)) (m.on c))

/-- picoRTOS_invalidate_dcache(task->sp, (size_t)task->stack_top - (size_t)task->sp): 605, 673 -/
def invStack (y : Lay) (t : Fin y.T) (sp : Nat) (c : Fin y.K) (m : Mach y.K) : Mach y.K :=
  m.put c (range y.k .inval (BitVec.ofNat 32 sp) (BitVec.ofNat 32 (y.hi t * 2 ^ y.k - sp)) (m.on c))

/-- the machine, the core in the scheduler if any, the task each core runs and the stack pointer each task
was left with; beside it the specification: what a machine without caches would hold (`ideal`), the
bytes a task may read on its core (`live`: at or above its stack pointer when it was resumed there,
or written by it since), and the contents memory would have had at each moment since the last
scheduler pass of each core (`since`) -/
structure Sys (y : Lay) where
  m : Mach y.K
  lock : Option (Fin y.K)
  cur : Fin y.K → Fin y.T
  sp : Fin y.T → Nat
  ideal : Nat → Byte
  live : Fin y.K → Nat → Prop
  since : Fin y.K → (Nat → Byte) → Prop

/-- every core starts with an empty cache (INVALIDATE_AND_ENABLE_CACHE), its idle task, nothing pending -/
structure Init (y : Lay) (s : Sys y) : Prop where
  empty : ∀ c l, s.m.line c l = none
  mem : s.m.mem = s.ideal
  lock : s.lock = none
  cur : ∀ c c', c ≠ c' → s.cur c ≠ s.cur c'
  sp : ∀ t, y.stack t (s.sp t)
  live : ∀ c a, s.live c a ↔ s.sp (s.cur c) ≤ a ∧ a < y.hi (s.cur c) * 2 ^ y.k
  since : ∀ c g, s.since c g ↔ g = s.ideal

/-- the byte is stored, in the machine and in the specification -/
def Sys.stored (wb : Bool) (y : Lay) (s : Sys y) (c : Fin y.K) (a : Nat) (v : Byte) : Sys y :=
  { s with
    m := s.m.store wb y.k c a v
    ideal := updB s.ideal a v
    live := fun c' b => s.live c' b ∨ (c' = c ∧ b = a ∧ y.stack (s.cur c) a)
    since := fun c' g => s.since c' g ∨ g = updB s.ideal a v }

/-- arch_spin_lock() taken, then 569 / 616 -/
def Sys.entered (y : Lay) (s : Sys y) (c : Fin y.K) : Sys y := { s with lock := some c, m := invSched y c s.m }

/-- `task->sp = sp` and the flush: 577-578 / 625-626 -/
def Sys.saved (y : Lay) (s : Sys y) (c : Fin y.K) (sp : Nat) : Sys y :=
  { s with sp := fun t => if t = s.cur c then sp else s.sp t, m := flushStack y (s.cur c) sp c s.m }

/-- the pass ends with task `t`: 604-607 / 672-675 -/
def Sys.left (y : Lay) (s : Sys y) (c : Fin y.K) (t : Fin y.T) : Sys y :=
  { s with
    lock := none
    cur := fun c' => if c' = c then t else s.cur c'
    m := invStack y t (s.sp t) c (flushSched y c s.m)
    live := fun c' a => if c' = c then s.sp t ≤ a ∧ a < y.hi t * 2 ^ y.k else s.live c' a
    since := fun c' g => if c' = c then g = s.ideal else s.since c' g }

inductive Step (wb : Bool) (y : Lay) : Sys y → Sys y → Prop where
  | fill (s : Sys y) (c : Fin y.K) (l : Nat) : Step wb y s { s with m := s.m.fill c l }
  | evict (s : Sys y) (c : Fin y.K) (l : Nat) : Step wb y s { s with m := s.m.evict y.k c l }
  /-- the task running on core `c` (or an exception entered on its stack) writes its stack -/
  | store (s : Sys y) (c : Fin y.K) (a : Nat) (v : Byte) : s.lock ≠ some c → y.stack (s.cur c) a →
      Step wb y s (s.stored wb y c a v)
  | enter (s : Sys y) (c : Fin y.K) : s.lock = none → Step wb y s (s.entered y c)
  | save (s : Sys y) (c : Fin y.K) (sp : Nat) : s.lock = some c → y.stack (s.cur c) sp → Step wb y s (s.saved y c sp)
  /-- the pass writes the scheduler structure -/
  | kstore (s : Sys y) (c : Fin y.K) (a : Nat) (v : Byte) : s.lock = some c → y.sched a →
      Step wb y s (s.stored wb y c a v)
  /-- the pass writes the stack of the calling task: `sc->ref = ...` of syscall_sleep_until (488, 498), `sc`
  being a local of picoRTOS_sleep_until (451) -/
  | late (s : Sys y) (c : Fin y.K) (a : Nat) (v : Byte) : s.lock = some c → y.stack (s.cur c) a →
      Step wb y s (s.stored wb y c a v)
  /-- the task chosen is one that no other core runs -/
  | leave (s : Sys y) (c : Fin y.K) (t : Fin y.T) : s.lock = some c → (∀ c', c' ≠ c → s.cur c' ≠ t) →
      Step wb y s (s.left y c t)

inductive Reach (wb : Bool) (y : Lay) : Sys y → Prop where
  | init (s : Sys y) : Init y s → Reach wb y s
  | step (s s' : Sys y) : Reach wb y s → Step wb y s s' → Reach wb y s'

/-! ## Effect of the four calls -/

theorem num_lt {k a h : Nat} (ha : num k a < h) : a < h * 2 ^ k := by
  rcases Nat.lt_or_ge a (h * 2 ^ k) with x | x
  · exact x
  · exact absurd ((Nat.le_div_iff_mul_le (Nat.two_pow_pos k)).2 x) (by show ¬ h ≤ num k a; omega)

theorem le_num {k a l : Nat} : l ≤ num k a ↔ l * 2 ^ k ≤ a := Nat.le_div_iff_mul_le (Nat.two_pow_pos k)

/-- from `a` to the end of line `h - 1`: exactly the lines from that of `a` to `h` are visited -/
theorem upto (k : Nat) (hk : k < 32) (op : CacheOp) (a h : Nat) (h1 : 1 ≤ num k a) (h2 : num k a < h)
    (h3 : h * 2 ^ k ≤ 2 ^ 32) (s : Cache.St) :
    (∀ i, (range k op (BitVec.ofNat 32 a) (BitVec.ofNat 32 (h * 2 ^ k - a)) s).line i =
      if num k a ≤ i ∧ i < h then opLine op (s.line i) else s.line i) ∧
    (∀ b, (range k op (BitVec.ofNat 32 a) (BitVec.ofNat 32 (h * 2 ^ k - a)) s).mem b =
      if num k a ≤ num k b ∧ num k b < h then opMem op (s.line (num k b)) b (s.mem b) else s.mem b) := by
  have hp := Nat.two_pow_pos k
  have hah : a < h * 2 ^ k := num_lt h2
  have ha1 : 1 * 2 ^ k ≤ a := le_num.1 h1
  have e1 : (BitVec.ofNat 32 a).toNat = a := by rw [BitVec.toNat_ofNat]; exact Nat.mod_eq_of_lt (by omega)
  have e2 : (BitVec.ofNat 32 (h * 2 ^ k - a)).toNat = h * 2 ^ k - a := by
    rw [BitVec.toNat_ofNat]; exact Nat.mod_eq_of_lt (by omega)
  have hf : first k (BitVec.ofNat 32 a) = num k a := by rw [first, e1]
  have hc : first k (BitVec.ofNat 32 a) + count k (BitVec.ofNat 32 (h * 2 ^ k - a)) = h := by
    rw [hf, count, e2]
    have hd : 2 ^ k * (a / 2 ^ k) + a % 2 ^ k = a := Nat.div_add_mod _ _
    have hm : a % 2 ^ k < 2 ^ k := Nat.mod_lt _ hp
    have hsum : h * 2 ^ k - a + (2 ^ k - 1) = (2 ^ k - 1 - a % 2 ^ k) + (h - num k a) * 2 ^ k := by
      rw [Nat.sub_mul]
      have hle : num k a * 2 ^ k ≤ h * 2 ^ k := Nat.mul_le_mul_right _ (by omega)
      have : num k a * 2 ^ k = 2 ^ k * (a / 2 ^ k) := Nat.mul_comm _ _
      omega
    rw [hsum, Nat.add_mul_div_right _ _ hp, Nat.div_eq_of_lt (by omega)]
    omega
  have hr := range_eq k hk op (BitVec.ofNat 32 a) (BitVec.ofNat 32 (h * 2 ^ k - a)) s (by rw [e2]; omega)
    (by rw [hc]; exact h3)
  obtain ⟨el, em⟩ := lineLoop_eff k op (first k (BitVec.ofNat 32 a)) (count k (BitVec.ofNat 32 (h * 2 ^ k - a))) s
  rw [hc, hf] at el em
  rw [hr, hf]
  exact ⟨el, em⟩

variable {y : Lay}

/-- the range of the structure, written as `upto` has it -/
theorem sched_upto (hw : y.WF) (op : CacheOp) (s : Cache.St) :
    (∀ i, (range y.k op (BitVec.ofNat 32 (y.pl * 2 ^ y.k)) (BitVec.ofNat 32 ((y.ph - y.pl) * 2 ^ y.k)) s).line i =
      if y.pl ≤ i ∧ i < y.ph then opLine op (s.line i) else s.line i) ∧
    (∀ b, (range y.k op (BitVec.ofNat 32 (y.pl * 2 ^ y.k)) (BitVec.ofNat 32 ((y.ph - y.pl) * 2 ^ y.k)) s).mem b =
      if y.pl ≤ num y.k b ∧ num y.k b < y.ph then opMem op (s.line (num y.k b)) b (s.mem b) else s.mem b) := by
  have h := upto y.k hw.k32 op (y.pl * 2 ^ y.k) y.ph (by rw [num_mul]; exact hw.plow) (by rw [num_mul]; exact hw.pne) hw.phigh s
  rw [← Nat.sub_mul, num_mul] at h
  exact h

theorem stack_upto (hw : y.WF) (op : CacheOp) (t : Fin y.T) (sp : Nat) (hs : y.stack t sp) (s : Cache.St) :
    (∀ i, (range y.k op (BitVec.ofNat 32 sp) (BitVec.ofNat 32 (y.hi t * 2 ^ y.k - sp)) s).line i =
      if num y.k sp ≤ i ∧ i < y.hi t then opLine op (s.line i) else s.line i) ∧
    (∀ b, (range y.k op (BitVec.ofNat 32 sp) (BitVec.ofNat 32 (y.hi t * 2 ^ y.k - sp)) s).mem b =
      if num y.k sp ≤ num y.k b ∧ num y.k b < y.hi t then opMem op (s.line (num y.k b)) b (s.mem b) else s.mem b) :=
  upto y.k hw.k32 op sp (y.hi t) (Nat.le_trans (hw.low t) hs.1) hs.2 (hw.high t) s

end Pico.Noncoh
