/-
Enabling and disabling interrupts: arch_enable_interrupt / arch_disable_interrupt of the ports that
implement them, and arch_smp_enable_interrupt / arch_smp_disable_interrupt.

The first part is the specification, which knows nothing of any port.  Each port is then a state (the
registers of its interrupt controller), a `delivers` predicate describing the HARDWARE (taken from the
architecture manuals: which register contents let an interrupt through), and the C functions.

Common simplifications: the debug assertion `arch_assert(irq < DEVICE_INTERRUPT_VECTOR_COUNT, return)`
(arch/include/picoRTOS_port.h) is the hypothesis that the interrupt number is one of the machine's; registers of
unimplemented interrupts exist (reads and writes of the word that holds an interrupt concern no
other word).  Pending flags, priorities among enabled interrupts and the CPU's own mask are not
modelled: "delivers" means the controller forwards the interrupt to the core.
-/
namespace Pico.Intc

/-! ## Specification -/

/-- an interrupt controller, as the user of the API sees it -/
structure Ctl (S : Type) where
  /-- in that state, does the controller forward interrupt `irq` to the calling core? -/
  delivers : S → Nat → Bool
  /-- picoRTOS_enable_interrupt -/
  enable : Nat → S → S
  /-- picoRTOS_disable_interrupt -/
  disable : Nat → S → S

/-- Enabling interrupt `i` makes `i` deliverable and changes nothing for the other interrupts. `I` is the
set of interrupt numbers of the machine. -/
def Ctl.EnableOk {S : Type} (c : Ctl S) (I : Nat → Prop) : Prop :=
  ∀ s i, I i →
    c.delivers (c.enable i s) i = true ∧
    ∀ j, I j → j ≠ i → c.delivers (c.enable i s) j = c.delivers s j

/-- Disabling interrupt `i` makes `i` undeliverable and changes nothing for the other interrupts. -/
def Ctl.DisableOk {S : Type} (c : Ctl S) (I : Nat → Prop) : Prop :=
  ∀ s i, I i →
    c.delivers (c.disable i s) i = false ∧
    ∀ j, I j → j ≠ i → c.delivers (c.disable i s) j = c.delivers s j

/-- the same on a multiprocessor: `delivers s core irq`, and sets of cores -/
structure SmpCtl (S : Type) where
  delivers : S → Nat → Nat → Bool
  /-- picoRTOS_SMP_enable_interrupt irq mask (bit c of the mask stands for core c) -/
  enable : Nat → Nat → S → S
  /-- picoRTOS_SMP_disable_interrupt irq mask -/
  disable : Nat → Nat → S → S

/-- "Enables an interrupt on the selected cores": it is delivered to each of them, the other cores
and the other interrupts are as before. -/
def SmpCtl.EnableOk {S : Type} (c : SmpCtl S) (n cores : Nat) : Prop :=
  ∀ s i m, i < n → m ≠ 0 → m < 2 ^ cores →
    (∀ k, k < cores → c.delivers (c.enable i m s) k i = (m.testBit k || c.delivers s k i)) ∧
    ∀ j k, j ≠ i → c.delivers (c.enable i m s) k j = c.delivers s k j

/-- "Disables an interrupt on the selected cores" -/
def SmpCtl.DisableOk {S : Type} (c : SmpCtl S) (n cores : Nat) : Prop :=
  ∀ s i m, i < n → m ≠ 0 → m < 2 ^ cores →
    (∀ k, k < cores → c.delivers (c.disable i m s) k i = (!m.testBit k && c.delivers s k i)) ∧
    ∀ j k, j ≠ i → c.delivers (c.disable i m s) k j = c.delivers s k j

/-! ## Words of enable bits -/

/-- function update -/
def upd {A B : Type} [DecidableEq A] (f : A → B) (a : A) (b : B) : A → B := fun x => if x = a then b else f x

theorem upd_same {A B : Type} [DecidableEq A] (f : A → B) (a : A) (b : B) : upd f a b a = b := if_pos rfl

theorem upd_ne {A B : Type} [DecidableEq A] (f : A → B) {a x : A} (b : B) (h : x ≠ a) : upd f a b x = f x :=
  if_neg h

theorem bit_set {w : Nat} (v : BitVec w) (b c : Nat) (hc : c < w) :
    (v ||| (1#w <<< b)).getLsbD c = (decide (c = b) || v.getLsbD c) := by
  rw [BitVec.getLsbD_or, BitVec.getLsbD_shiftLeft]
  rcases Nat.lt_trichotomy c b with h | h | h
  · have : decide (c = b) = false := by simp; omega
    simp [h, this]
  · subst h; simp [hc]; omega
  · have h1 : decide (c = b) = false := by simp; omega
    have h2 : (1#w).getLsbD (c - b) = false := by
      rw [BitVec.getLsbD_one]; simp; omega
    simp [h1, h2]

theorem bit_clear {w : Nat} (v : BitVec w) (b c : Nat) (hc : c < w) :
    (v &&& ~~~(1#w <<< b)).getLsbD c = (!decide (c = b) && v.getLsbD c) := by
  have h := bit_set (0#w) b c hc
  rw [BitVec.zero_or] at h
  rw [BitVec.getLsbD_and, BitVec.getLsbD_not, h]
  simp [hc, Bool.and_comm]

theorem word_ne {i j : Nat} (h : j ≠ i) (hw : j / 32 = i / 32) : j % 32 ≠ i % 32 := by omega

/-! ## Cortex-M: NVIC -/
namespace Nvic

/-- NVIC enable state: bit `i % 32` of word `i / 32` is set when interrupt `i` is enabled -/
abbrev S := Nat → BitVec 32

/-- Reading NVIC_ISERn returns the enable bits (ARMv7-M ARM B3.4.4, ARMv6-M ARM B3.4.3). -/
def read (s : S) (w : Nat) : BitVec 32 := s w

/-- Writing NVIC_ISERn: bits written 1 enable the interrupt, bits written 0 have no effect (same
sections; disabling is the business of NVIC_ICERn, which the ports never write). -/
def writeISER (s : S) (w : Nat) (v : BitVec 32) : S := upd s w (s w ||| v)

def delivers (s : S) (i : Nat) : Bool := (s (i / 32)).getLsbD (i % 32)

/-- arch/arm/armv7-m/picoRTOS_port.c:100-104 and arch/arm/armv7e-m/picoRTOS_port.c:100-104
`NVIC_ISER[irq >> 5] |= (1ul << (0x1fu & irq))`; arch/arm/armv6-m/picoRTOS_port.c:113-117
`*NVIC_ISER |= (1ul << irq)` is the same for irq < 32. -/
def enable (i : Nat) (s : S) : S :=
  writeISER s (i >>> 5) (read s (i >>> 5) ||| (1#32 <<< (0x1f &&& i)))

/-- arch/arm/armv7-m/picoRTOS_port.c:106-110 and arch/arm/armv7e-m/picoRTOS_port.c:106-110
`NVIC_ISER[irq >> 5] &= ~(1ul << (0x1fu & irq))`; arch/arm/armv6-m/picoRTOS_port.c:119-123 likewise -/
def disable (i : Nat) (s : S) : S :=
  writeISER s (i >>> 5) (read s (i >>> 5) &&& ~~~(1#32 <<< (0x1f &&& i)))

def ctl : Ctl S := ⟨delivers, enable, disable⟩

/-- arch/arm/armv6-m/picoRTOS_port.c:113-117, with its single register and unmasked shift -/
def enable6 (i : Nat) (s : S) : S := writeISER s 0 (read s 0 ||| (1#32 <<< i))
/-- arch/arm/armv6-m/picoRTOS_port.c:119-123 -/
def disable6 (i : Nat) (s : S) : S := writeISER s 0 (read s 0 &&& ~~~(1#32 <<< i))

def ctl6 : Ctl S := ⟨delivers, enable6, disable6⟩

end Nvic

/-! ## RISC-V rv32ec: WCH PFIC (ch32v003) -/
namespace Pfic

/-- `en` : enable bits; bit `k % 32` of word `k / 32` belongs to hardware interrupt `k`, and the API's
interrupt `i` is hardware interrupt `i + 16` -/
structure S where
  en : Nat → BitVec 32
  /-- what a read of PFIC_IENRx returns: the reference manual does not promise the enable bits, so all
  that is assumed is that no bit of a disabled interrupt reads as 1 (theorems range over every such
  function) -/
  rd : BitVec 32 → BitVec 32
  rd_sub : ∀ v b, (rd v).getLsbD b = true → v.getLsbD b = true

/-- PFIC_IENRx: writing 1 enables, writing 0 has no effect (PFIC_IRERx disables; the port never writes it) -/
def writeIENR (s : S) (w : Nat) (v : BitVec 32) : S := { s with en := upd s.en w (s.en w ||| v) }

def delivers (s : S) (i : Nat) : Bool := (s.en ((i + 16) / 32)).getLsbD ((i + 16) % 32)

/-- arch/riscv/rv32ec/mach-ch32v003/intc-pfic.c:58-69 -/
def enable (i : Nat) (s : S) : S :=
  if i < 16 then writeIENR s 0 (s.rd (s.en 0) ||| (1#32 <<< (i + 16)))
  else writeIENR s 1 (s.rd (s.en 1) ||| (1#32 <<< (i - 16)))

/-- arch/riscv/rv32ec/mach-ch32v003/intc-pfic.c:71-82 -/
def disable (i : Nat) (s : S) : S :=
  if i < 16 then writeIENR s 0 (s.rd (s.en 0) &&& ~~~(1#32 <<< (i + 16)))
  else writeIENR s 1 (s.rd (s.en 1) &&& ~~~(1#32 <<< (i - 16)))

def ctl : Ctl S := ⟨delivers, enable, disable⟩

end Pfic

/-! ## RISC-V rv32imac: ECLIC (gd32vf103) -/
namespace Eclic

/-- byte registers at `ADDR_ECLIC + offset` -/
abbrev S := Nat → BitVec 8

/-- clicintie[i] bit 0, at offset 0x1001 + 4 i (Nuclei ECLIC) -/
def delivers (s : S) (i : Nat) : Bool := (s (0x1001 + 4 * i)).getLsbD 0

/-- arch/riscv/rv32imac/mach-gd32vf103/intc-eclic.c:29-34 (macros lines 8-14) -/
def enable (i : Nat) (s : S) : S := upd (upd s (0x1001 + 4 * i) 1#8) (0x1002 + 4 * i) 1#8
/-- arch/riscv/rv32imac/mach-gd32vf103/intc-eclic.c:36-40 -/
def disable (i : Nat) (s : S) : S := upd s (0x1001 + 4 * i) 0#8

def ctl : Ctl S := ⟨delivers, enable, disable⟩

end Eclic

/-! ## MIPS: pic32mz -/
namespace Pic32

/-- IEC and IPC registers (IFS, the pending flags, do not matter to delivery).  Word `w` is the register
at `base + 16 w`: the C code indexes words of 4 bytes with `w << 2`. -/
structure S where
  ifs : Nat → BitVec 32
  iec : Nat → BitVec 32
  ipc : Nat → BitVec 32

/-- priority of interrupt `i`: three bits at 2 + 8 (i % 4) of IPC(i / 4) (PIC32MZ family reference
manual, section 8) -/
def prio (s : S) (i : Nat) : BitVec 32 := (s.ipc (i / 4) >>> (2 + 8 * (i % 4))) &&& 7#32

/-- delivered when enabled, with a priority other than 0 -/
def delivers (s : S) (i : Nat) : Bool := (s.iec (i / 32)).getLsbD (i % 32) && prio s i != 0#32

/-- arch/mips/m51xx/mach-pic32mz/intc.c:38-55 -/
def enable (i : Nat) (s : S) : S :=
  { ifs := upd s.ifs (i >>> 5) (s.ifs (i >>> 5) &&& ~~~(1#32 <<< (0x1f &&& i)))
    ipc := upd s.ipc (i >>> 6) (s.ipc (i >>> 6) ||| (5#32 <<< ((0x1 &&& i) <<< 4)))
    iec := upd s.iec (i >>> 5) (s.iec (i >>> 5) ||| (1#32 <<< (0x1f &&& i))) }

/-- arch/mips/m51xx/mach-pic32mz/intc.c:57-68 -/
def disable (i : Nat) (s : S) : S :=
  { s with iec := upd s.iec (i >>> 5) (s.iec (i >>> 5) &&& ~~~(1#32 <<< (0x1f &&& i))) }

def ctl : Ctl S := ⟨delivers, enable, disable⟩

end Pic32

/-! ## TI C28x: PIE -/
namespace Pie

/-- memory, by word address counted from PIEIxRn (= ADDR_PIECTRL + 2); PIEIERx of group `g` (1..12 in the
manual, 0..11 here) is word `2 g`, PIEIFRx is word `2 g + 1` (C28x addresses 16-bit words) -/
abbrev S := Nat → BitVec 16

/-- interrupt `i` (vector number): group `(i - 32) / 8`, bit `(i - 32) % 8` for INTx.1-8 (32..127),
group `(i - 128) / 8`, bit `8 + (i - 128) % 8` for INTx.9-16 (128..223) -/
def delivers (s : S) (i : Nat) : Bool :=
  if i < 128 then (s (2 * ((i - 32) / 8))).getLsbD ((i - 32) % 8)
  else (s (2 * ((i - 128) / 8))).getLsbD (8 + (i - 128) % 8)

/-- index and bit computed by arch/c2000/c28x/picoRTOS_port.c:135-147; `irq -= 128` is computed in
picoRTOS_irq_t, which is a 16-bit unsigned int (arch/c2000/c28x/picoRTOS_types.h:11) -/
def loc (i : Nat) : Nat × Nat :=
  if i < 128 then
    let k := (i + 65536 - 128) % 65536
    (k >>> 3, 0x7 &&& k)
  else ((0x7f &&& i) >>> 3, (0x7 &&& i) + 8)

/-- arch/c2000/c28x/picoRTOS_port.c:150, 155-161 -/
def enable (i : Nat) (s : S) : S :=
  upd s (2 * (loc i).1) (s (2 * (loc i).1) ||| (1#16 <<< (loc i).2))
/-- arch/c2000/c28x/picoRTOS_port.c:151, 163-169 -/
def disable (i : Nat) (s : S) : S :=
  upd s (2 * (loc i).1) (s (2 * (loc i).1) &&& ~~~(1#16 <<< (loc i).2))

def ctl : Ctl S := ⟨delivers, enable, disable⟩

end Pie

/-! ## PowerPC e200z4: INTC of mpc574x -/
namespace Siul2

/-- INTC_PSRn: bits 15, 14, 13 select cores 0, 1, 2; bits 3-0 the priority -/
abbrev S := Nat → BitVec 16

/-- forwarded to core `c` when that core is selected and the priority is above that of the core (0) -/
def delivers (s : S) (c i : Nat) : Bool := (s i).getLsbD (15 - c) && (s i &&& 0xf#16) != 0#16

/-- arch/powerpc/e200z4/mach-mpc574x/intc-siul2.c:63-71, on core `c` -/
def enable (c i : Nat) (s : S) : S := upd s i ((0x8000#16 >>> c) ||| 1#16)
/-- arch/powerpc/e200z4/mach-mpc574x/intc-siul2.c:74-82, on core `c` -/
def disable (c i : Nat) (s : S) : S := upd s i (s i &&& ~~~(0x8000#16 >>> c))

/-- the controller as seen by core `c` -/
def ctl (c : Nat) : Ctl S := ⟨fun s i => delivers s c i, enable c, disable c⟩

/-- prc_sel_from_mask, arch/powerpc/e200z4/mach-mpc574x/intc-siul2.c:108-119 -/
def sel (m : Nat) : BitVec 16 :=
  (if 0x1 &&& m ≠ 0 then 0x8000#16 else 0#16) |||
  (if 0x2 &&& m ≠ 0 then 0x4000#16 else 0#16) |||
  (if 0x4 &&& m ≠ 0 then 0x2000#16 else 0#16)

/-- arch/powerpc/e200z4/mach-mpc574x/intc-siul2.c:121-129 -/
def smpEnable (i m : Nat) (s : S) : S := upd s i (sel m ||| 1#16)
/-- arch/powerpc/e200z4/mach-mpc574x/intc-siul2.c:131-139 -/
def smpDisable (i m : Nat) (s : S) : S := upd s i (s i &&& ~~~(sel m))

def smp : SmpCtl S := ⟨delivers, smpEnable, smpDisable⟩

end Siul2

/-! ## PowerPC e200z7: INTC of mpc577x -/
namespace Siu

/-- INTC_PSRn: bits 7-6 select the core(s) (0: core 0, 1: both, 3: core 1), bits 3-0 the priority -/
abbrev S := Nat → BitVec 8

def delivers (s : S) (c i : Nat) : Bool :=
  (s i >>> 6 == 1#8 || (s i >>> 6 == 0#8 && c == 0) || (s i >>> 6 == 3#8 && c == 1)) &&
  (s i &&& 0xf#8) != 0#8

/-- arch/powerpc/e200z7/mach-mpc577x/intc-siu.c:62-73, on core `c` -/
def enable (c i : Nat) (s : S) : S := upd s i ((if c ≠ 0 then 0xc0#8 else 0#8) ||| 1#8)
/-- arch/powerpc/e200z7/mach-mpc577x/intc-siu.c:75-81 -/
def disable (i : Nat) (s : S) : S := upd s i (s i &&& ~~~0xf#8)

def ctl (c : Nat) : Ctl S := ⟨fun s i => delivers s c i, enable c, disable⟩

/-- arch/powerpc/e200z7/mach-mpc577x/intc-siu.c:113-154: the new PSR.  The reserved selection 2 (line 146)
breaks in debug builds; it is left alone here. -/
def enPsr (p : BitVec 8) (m : Nat) : BitVec 8 :=
  (if p &&& 0xf#8 = 0#8 then
     (if m = 1 then 0#8 else if m = 2 then 0xc0#8 else 0x40#8)
   else if p >>> 6 = 0#8 then (if m &&& 2 ≠ 0 then 0x40#8 else p)
   else if p >>> 6 = 1#8 then p
   else if p >>> 6 = 3#8 then (if m &&& 1 ≠ 0 then 0x40#8 else p)
   else p) ||| 1#8

/-- arch/powerpc/e200z7/mach-mpc577x/intc-siu.c:156-193: the new PSR -/
def disPsr (p : BitVec 8) (m : Nat) : BitVec 8 :=
  if p >>> 6 = 0#8 then p ||| (if m &&& 1 ≠ 0 then 0#8 else 1#8)
  else if p >>> 6 = 1#8 then
    (if m &&& 3 = 1 then 0xc0#8 else if m &&& 3 = 2 then 0#8 else p) |||
      (if m &&& 3 = 3 then 0#8 else 1#8)
  else if p >>> 6 = 3#8 then p ||| (if m &&& 2 ≠ 0 then 0#8 else 1#8)
  else p ||| 1#8

def smpEnable (i m : Nat) (s : S) : S := upd s i (enPsr (s i) m)
def smpDisable (i m : Nat) (s : S) : S := upd s i (disPsr (s i) m)

def smp : SmpCtl S := ⟨delivers, smpEnable, smpDisable⟩

end Siu

/-! ## 8051 derivatives -/
namespace Mcs51

/-- the interrupt enable registers: 0 = IE, 1 = EIE / IE_EX / IE2, 2 = EIE1 -/
abbrev S := Nat → BitVec 8

/-- a machine: for each interrupt number the register and the bit -/
abbrev Table := List (Option (Nat × Nat))

/-- arch/8051/mach-n76e003/interrupt.c:40-62 and 69-91 (numbers: picoRTOS_device.h:151-168) -/
def n76e003 : Table :=
  [some (0,0), some (0,1), some (0,2), some (0,3), some (0,4),  -- IE_0 TF_0 IE_1 TF_1 RI_TI_0
   some (1,7), some (1,0), some (1,1), some (0,5), some (1,6),  -- TF_2 SI PIF BOD SPI
   some (1,4), some (0,6), some (1,2), some (1,3), some (1,5),  -- WDTF ADCF CAPF PWMF FBF
   some (2,0), some (2,1), some (2,2)]                          -- RI_TI_1 TF_3 WKTF

/-- arch/8051/mach-ch552/interrupt.c:40-58 and 65-83 (numbers: picoRTOS_device.h:105-118) -/
def ch552 : Table :=
  [some (0,0), some (0,1), some (0,2), some (0,3), some (0,4), some (0,5),
   some (1,0), some (1,1), some (1,2), some (1,3), some (1,4), some (1,5), some (1,6), some (1,7)]

/-- arch/8051/mach-stc12c5axx/interrupt.c:28-42 and 49-63; IRQ_CF_CCF0_CCF1 (7) has no enable here -/
def stc12c5axx : Table :=
  [some (0,0), some (0,1), some (0,2), some (0,3), some (0,4), some (0,5), some (0,6), none,
   some (1,0), some (1,1)]

/-- arch/8051/mach-cy7c6801xa/interrupt.c:31-48 and 55-72; IRQ_RESUME (6) has no enable here -/
def cy7c6801xa : Table :=
  [some (0,0), some (0,1), some (0,2), some (0,3), some (0,4), some (0,5), none, some (0,6),
   some (1,0), some (1,1), some (1,2), some (1,3), some (1,4)]

/-- `REG |= BIT` of the `switch` of arch_enable_interrupt (any of the files above) -/
def enable (t : Table) (i : Nat) (s : S) : S :=
  match t[i]? with
  | some (some (r, b)) => upd s r (s r ||| (1#8 <<< b))
  | _ => s

/-- `REG &= ~BIT` of the `switch` of arch_disable_interrupt -/
def disable (t : Table) (i : Nat) (s : S) : S :=
  match t[i]? with
  | some (some (r, b)) => upd s r (s r &&& ~~~(1#8 <<< b))
  | _ => s

/-- the hardware: an interrupt is forwarded when its enable bit is set; `hw` gives that bit, from the
data sheet -/
def delivers (hw : Nat → Option (Nat × Nat)) (s : S) (i : Nat) : Bool :=
  match hw i with
  | some (r, b) => (s r).getLsbD b
  | none => false

/-- N76E003 data sheet: IE = EA EADC EBOD ES ET1 EX1 ET0 EX0, EIE = ET2 ESPI EFB EWDT EPWM ECAP EPI EI2C,
EIE1 = - - - - - EWKT ET3 ES_1 -/
def hwN76e003 : Nat → Option (Nat × Nat)
  | 0 => some (0,0) | 1 => some (0,1) | 2 => some (0,2) | 3 => some (0,3) | 4 => some (0,4)
  | 5 => some (1,7) | 6 => some (1,0) | 7 => some (1,1) | 8 => some (0,5) | 9 => some (1,6)
  | 10 => some (1,4) | 11 => some (0,6) | 12 => some (1,2) | 13 => some (1,3) | 14 => some (1,5)
  | 15 => some (2,0) | 16 => some (2,1) | 17 => some (2,2) | _ => none

/-- CH552 data sheet: IE = EA E_DIS ET2 ES ET1 EX1 ET0 EX0, IE_EX = WDOG GPIO PWMX UART1 ADC USB TKEY SPI0 -/
def hwCh552 (i : Nat) : Option (Nat × Nat) :=
  if i < 6 then some (0, i) else if i < 14 then some (1, i - 6) else none

/-- STC12C5Axx data sheet: IE = EA ELVD EADC ES ET1 EX1 ET0 EX0, IE2 = ... ESPI ES2; the PCA (7) is enabled
in CMOD (register 3 here) -/
def hwStc12 (i : Nat) : Option (Nat × Nat) :=
  if i < 7 then some (0, i) else if i = 7 then some (3, 0) else if i < 10 then some (1, i - 8)
  else none

/-- EZ-USB FX2 manual: IE = EA ES1 ET2 ES0 ET1 EX1 ET0 EX0, EIE = 1 1 1 EX6 EX5 EX4 EI2C EUSB; resume (6) is
enabled by EICON bit 5 (register 3 here) -/
def hwCy7c (i : Nat) : Option (Nat × Nat) :=
  if i < 6 then some (0, i) else if i = 6 then some (3, 5) else if i = 7 then some (0, 6)
  else if i < 13 then some (1, i - 8) else none

def ctl (hw : Nat → Option (Nat × Nat)) (t : Table) : Ctl S := ⟨delivers hw, enable t, disable t⟩

end Mcs51

end Pico.Intc
