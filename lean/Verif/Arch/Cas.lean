/-
C53: the atomic operations `arch_compare_and_swap` / `arch_test_and_set` of the ports, instruction by instruction, against the contract of
arch/include/picoRTOS_port.h:188-213, for every word, every interleaving with other writers and every spurious failure of a
store-conditional.
-/
namespace Pico.Arch

/-! ### Specification (the contract of picoRTOS_port.h:188-213, nothing of the ports) -/

/-- What a call did to the shared word: for each store it performed, the content of the word just before the store and the value stored.
`CasOk old val r own`: the value returned is `old` exactly when the call swapped, i.e. replaced the content `old` by `val` in one store;
otherwise it left the content of the word unchanged (a store of the value already there is allowed: MIPS and RISC-V do one to
release the reservation). -/
def CasOk {w : Nat} (old val r : BitVec w) (own : List (BitVec w × BitVec w)) : Prop :=
  (r = old → own = [(old, val)]) ∧ (r ≠ old → ∀ p ∈ own, p.2 = p.1)

/-! ### A small machine: one CPU running a straight-line routine on one shared word -/

/-- Registers: the second and third argument, the result, a scratch register and (8051, pthread) a local variable. The first argument
(the address of the word) is not represented: every memory access is to that word. -/
inductive Reg | a1 | a2 | v | t
  deriving DecidableEq

/-- Instructions used by the routines. `sc d s ok fail` = store conditional with its status register convention (ARM, RISC-V: 0 on
success, 1 on failure; MIPS: 1 on success, 0 on failure); `scf` = store conditional reporting in the condition flag (PowerPC `sthcx.`);
`di`/`ei` = mask / unmask interrupts; `tset` = C28x TSET *AR4,#0 (test bit 0 into the flag, set it). Barriers and delay-slot `nop`s are `nop`. -/
inductive Ins (w : Nat)
  | nop
  | ll (d : Reg)
  | sc (d s : Reg) (ok fail : BitVec w)
  | scf (s : Reg)
  | clrex
  | cmp (a b : Reg)
  | cmpi (a : Reg) (i : BitVec w)
  | bne (to : Nat)
  | bneR (a b : Reg) (to : Nat)
  | beqI (a : Reg) (i : BitVec w) (to : Nat)
  | mov (d s : Reg)
  | movi (d : Reg) (i : BitVec w)
  | ld (d : Reg)
  | st (s : Reg)
  | di
  | ei
  | tset
  | jmp (to : Nat)
  | ret (r : Reg)

structure Cpu (w : Nat) where
  reg : Reg → BitVec w
  flag : Bool
  pc : Nat
  mem : BitVec w
  resv : Bool
  ie : Bool
  own : List (BitVec w × BitVec w)
  out : Option (BitVec w)

/-- What happens just before an instruction: the others (tasks scheduled in between, other cores, interrupt handlers) may have stored any
value in the word (the last one counts), and the store conditional may fail for no reason visible to the program. -/
structure Env (w : Nat) where
  wr : Option (BitVec w)
  spurious : Bool

def setR {w : Nat} (f : Reg → BitVec w) (d : Reg) (x : BitVec w) : Reg → BitVec w := fun r => if r = d then x else f r

/-- Effect of the others. Single-core ports: nobody else runs while interrupts are masked (`single = true`). A store by
somebody else clears the reservation (local/global exclusive monitor, LLbit). -/
def interfere {w : Nat} (single : Bool) (e : Env w) (c : Cpu w) : Cpu w :=
  if single && !c.ie then c else { c with mem := e.wr.getD c.mem, resv := c.resv && e.wr.isNone }

def insStep {w : Nat} (i : Ins w) (spurious : Bool) (c : Cpu w) : Cpu w :=
  match i with
  | .nop => { c with pc := c.pc + 1 }
  | .ll d => { c with reg := setR c.reg d c.mem, resv := true, pc := c.pc + 1 }
  | .sc d s ok fail =>
    if c.resv && !spurious then
      { c with mem := c.reg s, own := c.own ++ [(c.mem, c.reg s)], reg := setR c.reg d ok, resv := false, pc := c.pc + 1 }
    else { c with reg := setR c.reg d fail, resv := false, pc := c.pc + 1 }
  | .scf s =>
    if c.resv && !spurious then
      { c with mem := c.reg s, own := c.own ++ [(c.mem, c.reg s)], flag := true, resv := false, pc := c.pc + 1 }
    else { c with flag := false, resv := false, pc := c.pc + 1 }
  | .clrex => { c with resv := false, pc := c.pc + 1 }
  | .cmp a b => { c with flag := c.reg a == c.reg b, pc := c.pc + 1 }
  | .cmpi a i => { c with flag := c.reg a == i, pc := c.pc + 1 }
  | .bne to => { c with pc := if c.flag then c.pc + 1 else to }
  | .bneR a b to => { c with pc := if c.reg a = c.reg b then c.pc + 1 else to }
  | .beqI a i to => { c with pc := if c.reg a = i then to else c.pc + 1 }
  | .mov d s => { c with reg := setR c.reg d (c.reg s), pc := c.pc + 1 }
  | .movi d i => { c with reg := setR c.reg d i, pc := c.pc + 1 }
  | .ld d => { c with reg := setR c.reg d c.mem, pc := c.pc + 1 }
  | .st s => { c with mem := c.reg s, own := c.own ++ [(c.mem, c.reg s)], pc := c.pc + 1 }
  | .di => { c with ie := false, pc := c.pc + 1 }
  | .ei => { c with ie := true, pc := c.pc + 1 }
  | .tset => { c with flag := c.mem.getLsbD 0, mem := c.mem ||| 1#w, own := c.own ++ [(c.mem, c.mem ||| 1#w)], pc := c.pc + 1 }
  | .jmp to => { c with pc := to }
  | .ret r => { c with out := some (c.reg r) }

/-- `n` instructions of the routine `P`, the others acting before each of them as `env` says; nothing happens after the return. -/
def run {w : Nat} (single : Bool) (P : List (Ins w)) (env : Nat → Env w) : Nat → Cpu w → Cpu w
  | 0, c => c
  | n + 1, c =>
    match c.out with
    | some _ => c
    | none =>
      let c := interfere single (env 0) c
      match P[c.pc]? with
      | none => c
      | some i => run single P (fun k => env (k + 1)) n (insStep i (env 0).spurious c)

/-- The state at the call: arguments in place, everything else (content of the word, reservation left over, interrupt mask, scratch registers)
arbitrary. -/
def Called {w : Nat} (old val : BitVec w) (c : Cpu w) : Prop :=
  c.reg .a1 = old ∧ c.reg .a2 = val ∧ c.pc = 0 ∧ c.own = [] ∧ c.out = none

/-! ### The ports -/

/-- arch/arm/armv7-m/picoRTOS_portasm.S:98-114 and arch/arm/armv7e-m/picoRTOS_portasm.S:107-123 (the same text): r1 = `a1`, r2 = `a2`,
r3 = `t`, r0 (result) = `v`. -/
def casArmv7 {w : Nat} : List (Ins w) :=
  [.nop, .ll .t, .cmp .t .a1, .bne 10, .sc .t .a2 0#w 1#w, .cmpi .t 0#w, .bne 11, .mov .v .a1, .nop, .ret .v,
   .clrex, .mov .v .a2, .nop, .ret .v]

/-- arch/powerpc/e200z4/picoRTOS_portasm.S:93-109 and arch/powerpc/e200z7/picoRTOS_portasm.S:133-148 (the same text, 16-bit words):
r4 = `a1`, r5 = `a2`, r7 = `t`, r3 (result) = `v`. -/
def casPpc {w : Nat} : List (Ins w) :=
  [.nop, .ll .t, .cmp .t .a1, .bne 9, .scf .a2, .bne 11, .nop, .mov .v .a1, .ret .v,
   .scf .t, .nop, .mov .v .a2, .ret .v]

/-- arch/mips/m51xx/picoRTOS_portasm.S:354-367: `sc a2` overwrites a2 with the status (1 stored, 0 not stored). The two `jr ra` with the move in
the delay slot are written move first, return after. -/
def casMips {w : Nat} : List (Ins w) :=
  [.ll .t, .bneR .t .a1 8, .nop, .sc .a2 .a2 1#w 0#w, .beqI .a2 0#w 9, .nop, .mov .v .a1, .ret .v,
   .sc .t .t 1#w 0#w, .mov .v .a2, .ret .v]

/-- arch/riscv/rv32imac/picoRTOS_portasm.S:187-199: `sc.w a0, …` writes 0 on success, and `beq a0, zero` then jumps to the failure exit. -/
def casRv32imac {w : Nat} : List (Ins w) :=
  [.ll .t, .bneR .t .a1 6, .sc .v .a2 0#w 1#w, .beqI .v 0#w 7, .mov .v .a1, .ret .v,
   .sc .t .t 0#w 1#w, .mov .v .a2, .ret .v]

/-- arch/avr/picoRTOS_port.c:63-76 (cli … sei), arch/stm8/picoRTOS_port.c:78-91 (sim … rim), arch/arm/armv6-m/picoRTOS_port.c:77-91 (cpsid …
cpsie), arch/riscv/rv32ec/picoRTOS_port.c:49-62, arch/pthread/linux/picoRTOS_port.c:200-213, arch/win32/picoRTOS_port.c:116-129
(arch_suspend … arch_resume): mask, `if (*var == old) { *var = val; val = old; }`, unmask, `return val`. -/
def casMasked {w : Nat} : List (Ins w) :=
  [.di, .ld .t, .bneR .t .a1 5, .st .a2, .mov .a2 .a1, .ei, .ret .a2]

/-- arch/8051/picoRTOS_portasm.S:280-298 (clr ea … setb ea); the address computations are `nop`s. -/
def cas8051 {w : Nat} : List (Ins w) :=
  [.di, .nop, .ld .t, .bneR .t .a1 7, .st .a2, .mov .v .a1, .jmp 8, .mov .v .a2, .ei, .ret .v]

/-- arch/hcs08/picoRTOS_port.c:64-77: the same C text as avr, but on the HCS08 `CLI` clears the I bit (interrupts enabled) and `SEI` sets it. -/
def casHcs08 {w : Nat} : List (Ins w) :=
  [.ei, .ld .t, .bneR .t .a1 5, .st .a2, .mov .a2 .a1, .di, .ret .a2]

/-- arch/pthread/linux/picoRTOS_port.c:185-198, arch/win32/picoRTOS_port.c:101-114 (arch_test_and_set): `a1` holds 0 and `a2` holds 1 (constants). -/
def tasMasked {w : Nat} : List (Ins w) :=
  [.movi .v 1#w, .di, .ld .t, .bneR .t .a1 6, .st .a2, .movi .v 0#w, .ei, .ret .v]

/-- arch/c2000/c28x/picoRTOS_portasm.asm:182-188. -/
def tasC28x {w : Nat} : List (Ins w) :=
  [.movi .v 1#w, .tset, .bne 4, .ret .v, .movi .v 0#w, .ret .v]

/-! ### Theorems -/

/-- The result and the stores of a call of `P` that runs alone or with others, as `env` says (32 instructions: more than the longest routine). -/
def call {w : Nat} (single : Bool) (P : List (Ins w)) (env : Nat → Env w) (c : Cpu w) : Cpu w := run single P env 32 c

theorem one_beq_zero {w : Nat} (hw : 0 < w) : (1#w == 0#w) = false := by simp; omega

theorem one_ne_zero' {w : Nat} (hw : 0 < w) : ¬ (1#w = 0#w) := by
  intro h; simpa [h] using one_beq_zero hw

/-- `P` implements the contract: whatever the word contains, whatever the others store before each instruction and whichever store conditionals fail,
the call returns, and what it returned and did is a correct compare-and-swap. -/
def Correct {w : Nat} (single : Bool) (P : List (Ins w)) : Prop :=
  ∀ old val : BitVec w, old ≠ val → ∀ (env : Nat → Env w) (c : Cpu w), Called old val c →
    ∃ r, (call single P env c).out = some r ∧ CasOk old val r (call single P env c).own

/-- Nobody stores anything and no store conditional fails. -/
def Quiet {w : Nat} (env : Nat → Env w) : Prop := ∀ k, (env k).wr = none ∧ (env k).spurious = false

/-- `P` does not fail without a reason: undisturbed, on a word that contains `old`, it swaps and says so. -/
def Effective {w : Nat} (single : Bool) (P : List (Ins w)) : Prop :=
  ∀ old val : BitVec w, ∀ (env : Nat → Env w) (c : Cpu w), Called old val c → Quiet env → c.mem = old →
    (call single P env c).out = some old ∧ (call single P env c).mem = val ∧ (call single P env c).own = [(old, val)]

theorem cas_armv7 {w : Nat} (hw : 0 < w) : Correct false (casArmv7 (w := w)) := by
  intro old val hne env c hc
  obtain ⟨h1, h2, h3, h4, h5⟩ := hc
  have h10 := one_beq_zero hw
  by_cases hm : (env 1).wr.getD ((env 0).wr.getD c.mem) = old
  · cases h1' : (env 2).wr <;> cases h2' : (env 3).wr <;> cases h3' : (env 4).wr <;> cases h4' : (env 4).spurious <;>
    simp [call, run, interfere, insStep, setR, casArmv7, CasOk, *]
    all_goals exact Ne.symm hne
  · simp [call, run, interfere, insStep, setR, casArmv7, CasOk, *]
    exact Ne.symm hne

theorem cas_armv7_effective {w : Nat} : Effective false (casArmv7 (w := w)) := by
  intro old val env c hc hq hm
  obtain ⟨h1, h2, h3, h4, h5⟩ := hc
  have hw : ∀ k, (env k).wr = none := fun k => (hq k).1
  have hs : ∀ k, (env k).spurious = false := fun k => (hq k).2
  simp [call, run, interfere, insStep, setR, casArmv7, *]

theorem cas_ppc {w : Nat} : Correct false (casPpc (w := w)) := by
  intro old val hne env c hc
  obtain ⟨h1, h2, h3, h4, h5⟩ := hc
  by_cases hm : (env 1).wr.getD ((env 0).wr.getD c.mem) = old
  · cases h1' : (env 2).wr <;> cases h2' : (env 3).wr <;> cases h3' : (env 4).wr <;> cases h4' : (env 4).spurious <;>
    simp [call, run, interfere, insStep, setR, casPpc, CasOk, *]
    all_goals exact Ne.symm hne
  · cases h1' : (env 2).wr <;> cases h2' : (env 3).wr <;> cases h3' : (env 4).wr <;> cases h4' : (env 4).spurious <;>
    simp [call, run, interfere, insStep, setR, casPpc, CasOk, *]
    all_goals exact Ne.symm hne

theorem cas_ppc_effective {w : Nat} : Effective false (casPpc (w := w)) := by
  intro old val env c hc hq hm
  obtain ⟨h1, h2, h3, h4, h5⟩ := hc
  have hw : ∀ k, (env k).wr = none := fun k => (hq k).1
  have hs : ∀ k, (env k).spurious = false := fun k => (hq k).2
  simp [call, run, interfere, insStep, setR, casPpc, *]

/-- MIPS: right for every `old ≠ 0` (partial: `picoRTOS_futex` uses `old = 0`, see `tas_mips_wrong`). -/
theorem cas_mips_partial {w : Nat} (hw : 0 < w) : ∀ old val : BitVec w, old ≠ val → old ≠ 0#w → ∀ (env : Nat → Env w) (c : Cpu w),
    Called old val c → ∃ r, (call false casMips env c).out = some r ∧ CasOk old val r (call false casMips env c).own := by
  intro old val hne h0 env c hc
  obtain ⟨h1, h2, h3, h4, h5⟩ := hc
  have h10 := one_ne_zero' hw
  by_cases hm : (env 0).wr.getD c.mem = old
  · cases h1' : (env 1).wr <;> cases h2' : (env 2).wr <;> cases h3' : (env 3).wr <;> cases h4' : (env 3).spurious <;>
    simp [call, run, interfere, insStep, setR, casMips, CasOk, *]
    all_goals exact Ne.symm h0
  · cases h1' : (env 1).wr <;> cases h2' : (env 2).wr <;> cases h3' : (env 2).spurious <;>
    simp [call, run, interfere, insStep, setR, casMips, CasOk, *]
    all_goals exact Ne.symm hne

theorem cas_mips_effective {w : Nat} (hw : 0 < w) : Effective false (casMips (w := w)) := by
  intro old val env c hc hq hm
  obtain ⟨h1, h2, h3, h4, h5⟩ := hc
  have hw' : ∀ k, (env k).wr = none := fun k => (hq k).1
  have hs : ∀ k, (env k).spurious = false := fun k => (hq k).2
  have h10 := one_ne_zero' hw
  simp [call, run, interfere, insStep, setR, casMips, *]

/-- MIPS `arch_test_and_set` (arch/mips/m51xx/picoRTOS_port.c:76-79: compare-and-swap of 0 by 1): exactly when the store conditional fails after
the word was read as 0, the call reports success although it stored nothing. -/
theorem tas_mips_wrong {w : Nat} (env : Nat → Env w) (c : Cpu w) (hc : Called 0#w 1#w c)
    (hfree : (env 0).wr.getD c.mem = 0#w) (hfail : (env 1).wr ≠ none ∨ (env 2).wr ≠ none ∨ (env 3).wr ≠ none ∨ (env 3).spurious = true) :
    (call false casMips env c).out = some 0#w ∧ (call false casMips env c).own = [] := by
  obtain ⟨h1, h2, h3, h4, h5⟩ := hc
  rcases h1' : (env 1).wr with _ | x <;> rcases h2' : (env 2).wr with _ | y <;> rcases h3' : (env 3).wr with _ | z <;> cases h4' : (env 3).spurious <;>
    simp [call, run, interfere, insStep, setR, casMips, *] at hfail ⊢

/-- RISC-V rv32imac: whenever the word contained `old` when it was read, the answer is inverted: a call that swapped returns `val` (failure), a call that
did not swap returns `old` (success). -/
theorem cas_rv32imac_inverted {w : Nat} (hw : 0 < w) (old val : BitVec w) (env : Nat → Env w) (c : Cpu w) (hc : Called old val c)
    (hread : (env 0).wr.getD c.mem = old) :
    ((call false casRv32imac env c).own = [(old, val)] ∧ (call false casRv32imac env c).out = some val) ∨
    ((call false casRv32imac env c).own = [] ∧ (call false casRv32imac env c).out = some old) := by
  obtain ⟨h1, h2, h3, h4, h5⟩ := hc
  have h10 := one_ne_zero' hw
  cases h1' : (env 1).wr <;> cases h2' : (env 2).wr <;> cases h3' : (env 2).spurious <;>
    simp [call, run, interfere, insStep, setR, casRv32imac, *]

/-- RISC-V rv32imac, undisturbed: test-and-set takes a free word and reports that it did not; from then on every call fails: no task ever gets a
futex. -/
theorem tas_rv32imac_wrong {w : Nat} (env : Nat → Env w) (c : Cpu w) (hc : Called 0#w 1#w c) (hq : Quiet env)
    (hfree : c.mem = 0#w) :
    (call false casRv32imac env c).out = some 1#w ∧ (call false casRv32imac env c).mem = 1#w := by
  obtain ⟨h1, h2, h3, h4, h5⟩ := hc
  have hw' : ∀ k, (env k).wr = none := fun k => (hq k).1
  have hs : ∀ k, (env k).spurious = false := fun k => (hq k).2
  simp [call, run, interfere, insStep, setR, casRv32imac, *]

/-- Ports that mask interrupts (one core): correct whatever the others do when they can, and whatever the interrupt mask was at the call. -/
theorem cas_masked {w : Nat} : Correct true (casMasked (w := w)) := by
  intro old val hne env c hc
  obtain ⟨h1, h2, h3, h4, h5⟩ := hc
  cases hie : c.ie
  · by_cases hm : c.mem = old <;> simp [call, run, interfere, insStep, setR, casMasked, CasOk, *]
    exact Ne.symm hne
  · by_cases hm : (env 0).wr.getD c.mem = old <;> simp [call, run, interfere, insStep, setR, casMasked, CasOk, *]
    exact Ne.symm hne

theorem cas_masked_effective {w : Nat} : Effective true (casMasked (w := w)) := by
  intro old val env c hc hq hm
  obtain ⟨h1, h2, h3, h4, h5⟩ := hc
  have hw' : ∀ k, (env k).wr = none := fun k => (hq k).1
  have hs : ∀ k, (env k).spurious = false := fun k => (hq k).2
  cases hie : c.ie <;> simp [call, run, interfere, insStep, setR, casMasked, *]

theorem cas_8051 {w : Nat} : Correct true (cas8051 (w := w)) := by
  intro old val hne env c hc
  obtain ⟨h1, h2, h3, h4, h5⟩ := hc
  cases hie : c.ie
  · by_cases hm : c.mem = old <;> simp [call, run, interfere, insStep, setR, cas8051, CasOk, *]
    exact Ne.symm hne
  · by_cases hm : (env 0).wr.getD c.mem = old <;> simp [call, run, interfere, insStep, setR, cas8051, CasOk, *]
    exact Ne.symm hne

theorem cas_8051_effective {w : Nat} : Effective true (cas8051 (w := w)) := by
  intro old val env c hc hq hm
  obtain ⟨h1, h2, h3, h4, h5⟩ := hc
  have hw' : ∀ k, (env k).wr = none := fun k => (hq k).1
  have hs : ∀ k, (env k).spurious = false := fun k => (hq k).2
  cases hie : c.ie <;> simp [call, run, interfere, insStep, setR, cas8051, *]

/-- The masking ports always return with interrupts enabled: inside a `picoRTOS_suspend()` … `picoRTOS_resume()` section, the first atomic operation
(any futex or mutex call) ends the section. -/
theorem cas_masked_enables {w : Nat} (env : Nat → Env w) (c : Cpu w) (hp : c.pc = 0) (ho : c.out = none) :
    (call true casMasked env c).ie = true ∧ (call true cas8051 env c).ie = true := by
  constructor
  · cases hie : c.ie
    · by_cases hm : c.mem = c.reg .a1 <;> simp [call, run, interfere, insStep, setR, casMasked, *]
    · by_cases hm : (env 0).wr.getD c.mem = c.reg .a1 <;> simp [call, run, interfere, insStep, setR, casMasked, *]
  · cases hie : c.ie
    · by_cases hm : c.mem = c.reg .a1 <;> simp [call, run, interfere, insStep, setR, cas8051, *]
    · by_cases hm : (env 0).wr.getD c.mem = c.reg .a1 <;> simp [call, run, interfere, insStep, setR, cas8051, *]

/-- The load/store-conditional ports leave the interrupt mask alone. -/
theorem cas_llsc_keeps_mask {w : Nat} (old val : BitVec w) (env : Nat → Env w) (c : Cpu w) (hc : Called old val c) :
    (call false casArmv7 env c).ie = c.ie ∧ (call false casPpc env c).ie = c.ie := by
  obtain ⟨h1, h2, h3, h4, h5⟩ := hc
  constructor
  · by_cases hm : (env 1).wr.getD ((env 0).wr.getD c.mem) = old
    · cases h1' : (env 2).wr <;> cases h2' : (env 3).wr <;> cases h3' : (env 4).wr <;> cases h4' : (env 4).spurious <;>
      by_cases h10 : 1#w = 0#w <;> simp [call, run, interfere, insStep, setR, casArmv7, *]
    · simp [call, run, interfere, insStep, setR, casArmv7, *]
  · by_cases hm : (env 1).wr.getD ((env 0).wr.getD c.mem) = old
    · cases h1' : (env 2).wr <;> cases h2' : (env 3).wr <;> cases h3' : (env 4).wr <;> cases h4' : (env 4).spurious <;>
      simp [call, run, interfere, insStep, setR, casPpc, *]
    · cases h1' : (env 2).wr <;> cases h2' : (env 3).wr <;> cases h3' : (env 4).wr <;> cases h4' : (env 4).spurious <;>
      simp [call, run, interfere, insStep, setR, casPpc, *]

/-- HCS08: interrupts are enabled during the read-compare-write and masked at the return. -/
theorem cas_hcs08_masks {w : Nat} (old val : BitVec w) (env : Nat → Env w) (c : Cpu w) (hc : Called old val c) :
    (call true casHcs08 env c).ie = false := by
  obtain ⟨h1, h2, h3, h4, h5⟩ := hc
  cases hie : c.ie
  · by_cases hm : (env 1).wr.getD c.mem = old <;> simp [call, run, interfere, insStep, setR, casHcs08, *]
  · by_cases hm : (env 1).wr.getD ((env 0).wr.getD c.mem) = old <;> simp [call, run, interfere, insStep, setR, casHcs08, *]

/-- HCS08: another task that takes the lock (stores 1) between the read and the write is overwritten, and both are told they have it. -/
theorem cas_hcs08_wrong : ¬ Correct true (casHcs08 (w := 8)) := by
  intro h
  obtain ⟨r, hr, hok⟩ := h 0#8 1#8 (by decide) (fun k => ⟨if k = 2 then some 1#8 else none, false⟩)
    ⟨fun x => if x = .a2 then 1#8 else 0#8, false, 0, 0#8, false, true, [], none⟩ (by simp [Called])
  simp [call, run, interfere, insStep, setR, casHcs08] at hr hok
  subst hr
  simp [CasOk] at hok

/-- The test-and-set of the pthread and win32 ports. -/
theorem tas_masked {w : Nat} (hw : 0 < w) : ∀ (env : Nat → Env w) (c : Cpu w), Called 0#w 1#w c →
    ∃ r, (call true tasMasked env c).out = some r ∧ (r = 0#w ∨ r = 1#w) ∧ CasOk 0#w 1#w r (call true tasMasked env c).own := by
  intro env c hc
  obtain ⟨h1, h2, h3, h4, h5⟩ := hc
  have h10 := one_ne_zero' hw
  cases hie : c.ie
  · by_cases hm : c.mem = 0#w <;> simp [call, run, interfere, insStep, setR, tasMasked, CasOk, *]
  · by_cases hm : (env 1).wr.getD ((env 0).wr.getD c.mem) = 0#w <;> simp [call, run, interfere, insStep, setR, tasMasked, CasOk, *]

/-- The C28x test-and-set, on a word that only ever holds 0 or 1 (what a futex holds). -/
theorem tas_c28x {w : Nat} (hw : 0 < w) : ∀ (env : Nat → Env w) (c : Cpu w), Called 0#w 1#w c → (c.mem = 0#w ∨ c.mem = 1#w) →
    (∀ k x, (env k).wr = some x → x = 0#w ∨ x = 1#w) →
    ∃ r, (call true tasC28x env c).out = some r ∧ (r = 0#w ∨ r = 1#w) ∧ CasOk 0#w 1#w r (call true tasC28x env c).own := by
  intro env c hc hm he
  obtain ⟨h1, h2, h3, h4, h5⟩ := hc
  have h10 := one_ne_zero' hw
  have key : ∀ m : BitVec w, (m = 0#w ∨ m = 1#w) → ∀ e : Env w, (∀ x, e.wr = some x → x = 0#w ∨ x = 1#w) → (e.wr.getD m = 0#w ∨ e.wr.getD m = 1#w) := by
    intro m hm e he
    cases h : e.wr with
    | none => simpa using hm
    | some x => simpa using he x h
  cases hie : c.ie
  · rcases hm with hm | hm <;> simp [call, run, interfere, insStep, setR, tasC28x, CasOk, *]
  · have h0 := key _ hm (env 0) (he 0)
    have h1 := key _ h0 (env 1) (he 1)
    rcases h1 with h1 | h1 <;> simp [call, run, interfere, insStep, setR, tasC28x, CasOk, *]

/-! ### Witnesses -/

/-- The hypotheses of the theorems above are met, and both answers occur: an ARM compare-and-swap of 5 by 9 that succeeds, one that is beaten by
somebody storing 5 → 7 → 5 between the load and the store conditional (no ABA: it fails), one that finds another value. -/
def cpu8 (mem old val : BitVec 8) : Cpu 8 := ⟨fun r => match r with | .a1 => old | .a2 => val | _ => 0xAA#8, false, 0, mem, true, true, [], none⟩
example : Called 5#8 9#8 (cpu8 5#8 5#8 9#8) ∧ (call false casArmv7 (fun _ => ⟨none, false⟩) (cpu8 5#8 5#8 9#8)).out = some 5#8 ∧
    (call false casArmv7 (fun k => ⟨if k = 2 then some 7#8 else if k = 3 then some 5#8 else none, false⟩) (cpu8 5#8 5#8 9#8)).out = some 9#8 ∧
    (call false casArmv7 (fun _ => ⟨none, false⟩) (cpu8 6#8 5#8 9#8)).out = some 9#8 := by
  refine ⟨by simp [Called, cpu8], ?_, ?_, ?_⟩ <;> decide

/-- MIPS: the holder of a futex is not alone. The task reads the word as 0, is preempted, another task stores 1 (it holds the futex), the
first task's store conditional fails and test-and-set returns 0: it holds the futex as well. -/
theorem tas_mips_two_owners : ∃ (env : Nat → Env 32) (c : Cpu 32), Called 0#32 1#32 c ∧ (env 2).wr = some 1#32 ∧
    (call false casMips env c).out = some 0#32 ∧ (call false casMips env c).mem = 1#32 ∧ (call false casMips env c).own = [] := by
  refine ⟨fun k => ⟨if k = 2 then some 1#32 else none, false⟩, ⟨fun r => if r = .a2 then 1#32 else 0#32, false, 0, 0#32, false, true, [], none⟩, ?_, ?_, ?_, ?_, ?_⟩
  · simp [Called]
  · simp
  all_goals decide

/-- Hence neither the MIPS nor the rv32imac routine meets the contract. -/
theorem cas_mips_not_correct : ¬ Correct false (casMips (w := 32)) := by
  intro h
  obtain ⟨env, c, hc, _, ho, _, hw⟩ := tas_mips_two_owners
  obtain ⟨r, hr, hok⟩ := h _ _ (by decide) env c hc
  rw [ho] at hr
  cases hr
  rw [hw] at hok
  simp [CasOk] at hok

theorem cas_rv32imac_not_correct : ¬ Correct false (casRv32imac (w := 32)) := by
  intro h
  have hc : Called 0#32 1#32 ⟨fun r => if r = .a2 then 1#32 else 0#32, false, 0, 0#32, false, true, [], none⟩ := by simp [Called]
  obtain ⟨r, hr, hok⟩ := h _ _ (by decide) (fun _ => ⟨none, false⟩) _ hc
  simp [call, run, interfere, insStep, setR, casRv32imac] at hr hok
  subst hr
  simp [CasOk] at hok

end Pico.Arch
