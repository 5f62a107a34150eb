/-
C63: critical sections.  picoRTOS_suspend and picoRTOS_resume (scheduler/picoRTOS.c:415-428, picoRTOS-lite.c:173-183) are
arch_suspend and arch_resume of the port; picoRTOS_start calls arch_init, then arch_start_first_task (picoRTOS.c:407-409).
What each does to the interrupt enable of the processor is modelled here, register by register, as the manuals of the
processors define the instructions used.
-/
namespace Pico.Mask

/-! ## Specification -/

/-- The part of a processor that decides whether an interrupt (the tick included) is taken. -/
structure Cpu (S : Type) where
  takes : S → Bool
  suspend : S → S
  resume : S → S
  init : S → S

/-- what can happen: an instruction of the task that leaves the interrupt enable alone, or an interrupt, which is taken only
if the processor takes interrupts, and leaves the enable as it found it when it returns -/
inductive Ev where
  | code
  | irq
  deriving DecidableEq

/-- a history from `s` to `s'` -/
inductive Hist {S : Type} (c : Cpu S) : S → List Ev → S → Prop where
  | nil (s : S) : Hist c s [] s
  | code {s t u : S} {l : List Ev} : c.takes t = c.takes s → Hist c t l u → Hist c s (.code :: l) u
  | irq {s t u : S} {l : List Ev} : c.takes s = true → c.takes t = c.takes s → Hist c t l u → Hist c s (.irq :: l) u

/-- after `suspend`, no interrupt whatever the task does until it calls something that changes the enable -/
def Cpu.Critical {S : Type} (c : Cpu S) : Prop := ∀ s l t, Hist c (c.suspend s) l t → Ev.irq ∉ l

/-- after `resume`, interrupts are taken again -/
def Cpu.Resumes {S : Type} (c : Cpu S) (normal : S → Prop) : Prop := ∀ s, normal s → c.takes (c.resume s) = true

/-- no interrupt between picoRTOS_start's arch_init and the first task -/
def Cpu.Boots {S : Type} (c : Cpu S) (reset : S → Prop) : Prop := ∀ s, reset s → ∀ l t, Hist c (c.init s) l t → Ev.irq ∉ l

theorem hist_masked {S : Type} (c : Cpu S) : ∀ s l t, Hist c s l t → c.takes s = false → Ev.irq ∉ l := by
  intro s l t h
  induction h with
  | nil => intro _ h; cases h
  | code h1 _ ih =>
    intro h2 h
    rw [h2] at h1
    rcases List.mem_cons.1 h with h | h
    · cases h
    · exact ih h1 h
  | irq h1 _ _ _ => intro h2; rw [h1] at h2; cases h2

theorem critical_of {S : Type} (c : Cpu S) (h : ∀ s, c.takes (c.suspend s) = false) : c.Critical :=
  fun s l t hh => hist_masked c _ l t hh (h s)
theorem boots_of {S : Type} (c : Cpu S) (reset : S → Prop) (h : ∀ s, reset s → c.takes (c.init s) = false) : c.Boots reset :=
  fun s hs l t hh => hist_masked c _ l t hh (h s hs)

/-- if interrupts are taken after `suspend`, there is a history with one in the critical section -/
theorem not_critical {S : Type} (c : Cpu S) (s : S) (h : c.takes (c.suspend s) = true) : ¬ c.Critical := fun hc =>
  hc s [.irq] _ (.irq h rfl (.nil _)) (List.mem_cons_self ..)
theorem not_boots {S : Type} (c : Cpu S) (reset : S → Prop) (s : S) (hr : reset s) (h : c.takes (c.init s) = true) :
    ¬ c.Boots reset := fun hc => hc s hr [.irq] _ (.irq h rfl (.nil _)) (List.mem_cons_self ..)

/-- **Critical sections do not nest on any port**: after the `resume` of an inner one, interrupts are taken although the
outer one is not over. -/
theorem no_nesting {S : Type} (c : Cpu S) (normal : S → Prop) (hn : ∀ s, normal s → normal (c.suspend s)) (hr : c.Resumes normal) :
    ∀ s, normal s → c.takes (c.resume (c.suspend (c.suspend s))) = true := fun s h => hr _ (hn _ (hn _ h))

/-! ## Ports -/

/-- 8051: EA is bit 7 of IE; `clr ea`, `setb ea` (8051/picoRTOS_port.c:27-44); the timer code of arch_init does not touch it -/
def mcs51 : Cpu (BitVec 8) where
  takes := fun ie => ie.getLsbD 7
  suspend := fun ie => ie &&& ~~~0x80
  resume := fun ie => ie ||| 0x80
  init := fun ie => ie &&& ~~~0x80

/-- AVR: I is bit 7 of SREG; `cli`, `sei` (avr/picoRTOS_port.c:22-43) -/
def avr : Cpu (BitVec 8) where
  takes := fun sreg => sreg.getLsbD 7
  suspend := fun sreg => sreg &&& ~~~0x80
  resume := fun sreg => sreg ||| 0x80
  init := fun sreg => sreg &&& ~~~0x80

/-- STM8: no interrupt is taken if I1 (bit 5 of CC) and I0 (bit 3) are both set; `sim` sets both, `rim` sets I1 and clears
I0.  arch_init uses `rim` (stm8/picoRTOS_port.c:27-46). -/
def stm8 : Cpu (BitVec 8) where
  takes := fun cc => !(cc.getLsbD 5 && cc.getLsbD 3)
  suspend := fun cc => cc ||| 0x28
  resume := fun cc => (cc ||| 0x20) &&& ~~~0x08
  init := fun cc => (cc ||| 0x20) &&& ~~~0x08

/-- HCS08: interrupts are taken if I (bit 3 of CCR) is clear; `cli` clears it, `sei` sets it (hcs08/picoRTOS_port.c:27-44) -/
def hcs08 : Cpu (BitVec 8) where
  takes := fun ccr => !ccr.getLsbD 3
  suspend := fun ccr => ccr &&& ~~~0x08
  resume := fun ccr => ccr ||| 0x08
  init := fun ccr => ccr &&& ~~~0x08

/-- MIPS: interrupts are taken if IE (bit 0 of Status) is set, EXL and ERL (bits 1 and 2) clear; `di`, `ei` act on IE
(mips/m51xx/picoRTOS_port.c:36-57) -/
def mips : Cpu (BitVec 32) where
  takes := fun st => st.getLsbD 0 && !st.getLsbD 1 && !st.getLsbD 2
  suspend := fun st => st &&& ~~~1
  resume := fun st => st ||| 1
  init := fun st => st &&& ~~~1

/-- e200: EE is bit 16 of MSR (mask 0x8000); `wrteei` (powerpc/e200z4/picoRTOS_port.c:30-52, e200z7/picoRTOS_port.c:30-49) -/
def ppc : Cpu (BitVec 32) where
  takes := fun msr => msr.getLsbD 15
  suspend := fun msr => msr &&& ~~~0x8000
  resume := fun msr => msr ||| 0x8000
  init := fun msr => msr &&& ~~~0x8000

/-- C28x: INTM is bit 0 of ST1, set to mask; `setc INTM`, `clrc INTM` (c2000/c28x/picoRTOS_port.c:45-71) -/
def c28x : Cpu (BitVec 16) where
  takes := fun st1 => !st1.getLsbD 0
  suspend := fun st1 => st1 ||| 1
  resume := fun st1 => st1 &&& ~~~1
  init := fun st1 => st1 ||| 1

/-- RISC-V: MIE is bit 3 of mstatus; `csrci`, `csrsi`; arch_init does not touch it (riscv/rv32imac/picoRTOS_port.c:24-40,
riscv/rv32ec/picoRTOS_port.c:15-30) -/
def riscv : Cpu (BitVec 32) where
  takes := fun ms => ms.getLsbD 3
  suspend := fun ms => ms &&& ~~~8
  resume := fun ms => ms ||| 8
  init := fun ms => ms

/-- Cortex-M: PRIMASK, FAULTMASK and the enable of SysTick (bit 0 of SYST_CSR) -/
structure Arm where
  primask : Bool
  faultmask : Bool
  csr : BitVec 32

/-- armv7-m: `cpsid if`, `cpsie if` (arm/armv7-m/picoRTOS_port.c:36-61); armv6-m has `cpsid i` (and no FAULTMASK:
arm/armv6-m/picoRTOS_port.c:33-58), `f = false` here.  arch_init also stops SysTick (bits 1 and 2 set, bit 0 clear). -/
def arm (f : Bool) : Cpu Arm where
  takes := fun s => !s.primask && !s.faultmask
  suspend := fun s => { s with primask := true, faultmask := f || s.faultmask }
  resume := fun s => { s with primask := false, faultmask := !f && s.faultmask }
  init := fun s => { primask := true, faultmask := f || s.faultmask, csr := 6 }

/-- armv7e-m: also stops SysTick for the duration of the critical section (arm/armv7e-m/picoRTOS_port.c:36-61) -/
def arm7e : Cpu Arm where
  takes := fun s => !s.primask && !s.faultmask
  suspend := fun s => { primask := true, faultmask := true, csr := s.csr &&& ~~~1 }
  resume := fun s => { primask := false, faultmask := false, csr := s.csr ||| 1 }
  init := fun _ => { primask := true, faultmask := true, csr := 6 }

/-! ## Bits -/

theorem and_not_bit {w : Nat} (v m : BitVec w) (i : Nat) (h : m.getLsbD i = true) : (v &&& ~~~m).getLsbD i = false := by
  rw [BitVec.getLsbD_and, BitVec.getLsbD_not, h]; simp
theorem and_not_other {w : Nat} (v m : BitVec w) (i : Nat) (hi : i < w) (h : m.getLsbD i = false) :
    (v &&& ~~~m).getLsbD i = v.getLsbD i := by
  rw [BitVec.getLsbD_and, BitVec.getLsbD_not, h]; simp [hi]
theorem or_bit {w : Nat} (v m : BitVec w) (i : Nat) (h : m.getLsbD i = true) : (v ||| m).getLsbD i = true := by
  rw [BitVec.getLsbD_or, h]; simp
theorem or_other {w : Nat} (v m : BitVec w) (i : Nat) (h : m.getLsbD i = false) : (v ||| m).getLsbD i = v.getLsbD i := by
  rw [BitVec.getLsbD_or, h]; simp

/-! ## C63 -/

/-- **8051** -/
theorem mcs51_ok : mcs51.Critical ∧ mcs51.Resumes (fun _ => True) ∧ mcs51.Boots (fun _ => True) :=
  ⟨critical_of _ fun s => and_not_bit s 0x80 7 (by decide), fun s _ => or_bit s 0x80 7 (by decide),
   boots_of _ _ fun s _ => and_not_bit s 0x80 7 (by decide)⟩

/-- **AVR** -/
theorem avr_ok : avr.Critical ∧ avr.Resumes (fun _ => True) ∧ avr.Boots (fun _ => True) :=
  ⟨critical_of _ fun s => and_not_bit s 0x80 7 (by decide), fun s _ => or_bit s 0x80 7 (by decide),
   boots_of _ _ fun s _ => and_not_bit s 0x80 7 (by decide)⟩

/-- **STM8**: critical sections are right.  Partial: the start is not, see `stm8_boot_wrong`. -/
theorem stm8_ok_partial : stm8.Critical ∧ stm8.Resumes (fun _ => True) := by
  refine ⟨critical_of _ fun s => ?_, fun s _ => ?_⟩
  · show (!((s ||| 0x28).getLsbD 5 && (s ||| 0x28).getLsbD 3)) = false
    rw [or_bit s 0x28 5 (by decide), or_bit s 0x28 3 (by decide)]; rfl
  · show (!(((s ||| 0x20) &&& ~~~0x08).getLsbD 5 && ((s ||| 0x20) &&& ~~~0x08).getLsbD 3)) = true
    rw [and_not_bit _ 0x08 3 (by decide)]; simp

/-- **On STM8 arch_init enables interrupts** - whatever the state it is called in - although it is meant to disable them: an
interrupt can be taken before the first task, in arch_timer_init or later, when there is no current task and the kernel's
stack is not set. -/
theorem stm8_boot_wrong : (∀ s, stm8.takes (stm8.init s) = true) ∧ ¬ stm8.Boots (fun s => stm8.takes s = false) := by
  have h : ∀ s, stm8.takes (stm8.init s) = true := fun s => stm8_ok_partial.2 s trivial
  exact ⟨h, not_boots _ _ 0x28 (by decide) (h _)⟩

/-- **HCS08 has it backwards**: interrupts are taken in every critical section and at the start, and none is taken after
one - the tick stops until the task gives up the processor (or, a trap restoring its status, for as long as it runs). -/
theorem hcs08_wrong : (∀ s, hcs08.takes (hcs08.suspend s) = true) ∧ (∀ s, hcs08.takes (hcs08.resume s) = false) ∧
    (∀ s, hcs08.takes (hcs08.init s) = true) := by
  refine ⟨fun s => ?_, fun s => ?_, fun s => ?_⟩
  · show (!(s &&& ~~~0x08).getLsbD 3) = true
    rw [and_not_bit s 0x08 3 (by decide)]; rfl
  · show (!(s ||| 0x08).getLsbD 3) = false
    rw [or_bit s 0x08 3 (by decide)]; rfl
  · show (!(s &&& ~~~0x08).getLsbD 3) = true
    rw [and_not_bit s 0x08 3 (by decide)]; rfl

theorem hcs08_not_critical : ¬ hcs08.Critical ∧ ¬ hcs08.Resumes (fun _ => True) ∧ ¬ hcs08.Boots (fun _ => True) :=
  ⟨not_critical _ 0 (hcs08_wrong.1 0),
   fun h => Bool.noConfusion ((hcs08_wrong.2.1 0).symm.trans (h 0 trivial)),
   not_boots _ _ 0 trivial (hcs08_wrong.2.2 0)⟩

/-- after a critical section on HCS08 the task is never interrupted again, whatever it does short of changing the enable -/
theorem hcs08_stuck (s : BitVec 8) (l : List Ev) (t : BitVec 8) (h : Hist hcs08 (hcs08.resume s) l t) : Ev.irq ∉ l :=
  hist_masked _ _ l t h (hcs08_wrong.2.1 s)

/-- **MIPS** -/
theorem mips_ok : mips.Critical ∧ mips.Resumes (fun s => s.getLsbD 1 = false ∧ s.getLsbD 2 = false) ∧
    mips.Boots (fun _ => True) := by
  have h : ∀ s : BitVec 32, mips.takes (s &&& ~~~1) = false := fun s => by
    show ((s &&& ~~~1).getLsbD 0 && !(s &&& ~~~1).getLsbD 1 && !(s &&& ~~~1).getLsbD 2) = false
    rw [and_not_bit s 1 0 (by decide)]; rfl
  refine ⟨critical_of _ h, fun s hs => ?_, boots_of _ _ fun s _ => h s⟩
  show ((s ||| 1).getLsbD 0 && !(s ||| 1).getLsbD 1 && !(s ||| 1).getLsbD 2) = true
  rw [or_bit s 1 0 (by decide), or_other s 1 1 (by decide), or_other s 1 2 (by decide), hs.1, hs.2]; rfl

/-- **PowerPC** -/
theorem ppc_ok : ppc.Critical ∧ ppc.Resumes (fun _ => True) ∧ ppc.Boots (fun _ => True) :=
  ⟨critical_of _ fun s => and_not_bit s 0x8000 15 (by decide), fun s _ => or_bit s 0x8000 15 (by decide),
   boots_of _ _ fun s _ => and_not_bit s 0x8000 15 (by decide)⟩

/-- **C28x** -/
theorem c28x_ok : c28x.Critical ∧ c28x.Resumes (fun _ => True) ∧ c28x.Boots (fun _ => True) := by
  have h : ∀ s : BitVec 16, c28x.takes (s ||| 1) = false := fun s => by
    show (!(s ||| 1).getLsbD 0) = false
    rw [or_bit s 1 0 (by decide)]; rfl
  refine ⟨critical_of _ h, fun s _ => ?_, boots_of _ _ fun s _ => h s⟩
  show (!(s &&& ~~~1).getLsbD 0) = true
  rw [and_not_bit s 1 0 (by decide)]; rfl

/-- **RISC-V**: the start is right if picoRTOS_start is called with interrupts disabled, as they are after reset. -/
theorem riscv_ok : riscv.Critical ∧ riscv.Resumes (fun _ => True) ∧ riscv.Boots (fun s => s.getLsbD 3 = false) :=
  ⟨critical_of _ fun s => and_not_bit s 8 3 (by decide), fun s _ => or_bit s 8 3 (by decide),
   boots_of _ _ fun _ h => h⟩

/-- **Cortex-M**: armv6-m (`f = false`) if nobody has set FAULTMASK, which it does not have; armv7-m (`f = true`) -/
theorem arm_ok (f : Bool) : (arm f).Critical ∧ (arm f).Resumes (fun s => f = true ∨ s.faultmask = false) ∧
    (arm f).Boots (fun _ => True) := by
  refine ⟨critical_of _ fun s => rfl, fun s hs => ?_, boots_of _ _ fun s _ => rfl⟩
  show (!(false) && !(!f && s.faultmask)) = true
  rcases hs with h | h <;> simp [h]

/-- **armv7e-m** -/
theorem arm7e_ok : arm7e.Critical ∧ arm7e.Resumes (fun _ => True) ∧ arm7e.Boots (fun _ => True) :=
  ⟨critical_of _ fun _ => rfl, fun _ _ => rfl, boots_of _ _ fun _ _ => rfl⟩

/-- **On armv7e-m time stops in a critical section**: SysTick does not count between suspend and resume, so every
critical section delays all later ticks (and `picoRTOS_get_tick`) by its length; on the other Cortex-M it counts. -/
theorem arm7e_time_stops (s : Arm) : (arm7e.suspend s).csr.getLsbD 0 = false ∧ (arm7e.resume s).csr.getLsbD 0 = true ∧
    ∀ f, ((arm f).suspend s).csr = s.csr :=
  ⟨and_not_bit s.csr 1 0 (by decide), or_bit s.csr 1 0 (by decide), fun _ => rfl⟩

/-- a history with an interrupt before the critical section and code in it -/
example : Hist avr 0x80 [.irq, .code] 0x83 := .irq (by decide) (t := 0x81) (by decide) (.code (t := 0x83) (by decide) (.nil _))

/-! ## Windows

arch_suspend sets a flag that the thread generating the ticks looks at before it switches tasks (win32/picoRTOS_port.c:20-27,
35-43, 67-78).  The two are separate threads: each step below is one statement of one of them. -/

structure Win where
  suspended : Bool
  /-- the tick thread: `none` before the test of `suspended`, `some` in arch_TICK -/
  inTick : Bool
  /-- number of task switches made so far -/
  switches : Nat

inductive WStep : Win → Win → Prop where
  /-- `if (!suspended)`: line 75 -/
  | test {w : Win} : w.inTick = false → w.suspended = false → WStep w { w with inTick := true }
  /-- `arch_TICK()`: lines 20-27 -/
  | tick {w : Win} : w.inTick = true → WStep w { w with inTick := false, switches := w.switches + 1 }

/-- only the tick thread moves: the task is in its critical section -/
inductive WHist : Win → Win → Prop where
  | nil (w : Win) : WHist w w
  | step {w x y : Win} : WStep w x → WHist x y → WHist w y

/-- **If the tick thread was not in arch_TICK when the task called picoRTOS_suspend, no switch happens in the critical
section.**  Partial: see `win32_wrong`. -/
theorem win32_partial (w x : Win) (h0 : w.inTick = false) (h : WHist { w with suspended := true } x) : x.switches = w.switches := by
  have : ∀ a b, WHist a b → a.suspended = true → a.inTick = false → b.switches = a.switches := by
    intro a b hh
    induction hh with
    | nil => intro _ _; rfl
    | step hs _ ih =>
      intro h1 h2
      cases hs with
      | test _ h4 => rw [h1] at h4; cases h4
      | tick h3 => rw [h2] at h3; cases h3
  exact this { w with suspended := true } x h rfl h0

/-- **Critical sections are not critical on Windows**: the tick thread may have passed its test already. -/
theorem win32_wrong : ∃ w x : Win, w.suspended = false ∧ (∃ v : Win, v.inTick = false ∧ v.suspended = false ∧ WStep v w) ∧
    WHist { w with suspended := true } x ∧ x.switches = w.switches + 1 :=
  ⟨⟨false, true, 0⟩, ⟨true, false, 1⟩, rfl, ⟨⟨false, false, 0⟩, rfl, rfl, .test rfl rfl⟩,
   .step (.tick rfl) (.nil _), rfl⟩

end Pico.Mask
