/-
C98: what the startup code of the 32-bit machines does with the memory before main() runs.

The macros COPY_TO_RAM, ZERO_RAM and INIT_E2EECC of arch/{arm,riscv,mips}/include/macros.S and
arch/powerpc/{e200z4,e200z7}/include/macros.S as lists of instructions, one entry per instruction, with branch targets as
indices, and the lists of areas the startup.S files hand to them.  The memory is a memory of bytes; word accesses are big-endian
on PowerPC and little-endian elsewhere, and an access to an address that is no multiple of four faults (on ARM's ldm/stm and on
MIPS it does; on the others it may).  MIPS branches have a delay slot: the instruction behind the branch is executed before the
branch is taken, so the machine keeps the address of the next instruction and the one behind it.
Not modelled: caches and write buffers (they are off or invalidated later), the instructions between the macros (stack pointer,
vector base, control registers), which touch none of the areas.
-/
namespace Pico.Startup

abbrev W := BitVec 32
abbrev B := BitVec 8
abbrev Mem := W → B

/-- big-endian (PowerPC) or little-endian -/
inductive Endian | big | little
  deriving DecidableEq

/-- a word of four bytes -/
def load (o : Endian) (m : Mem) (a : W) : W :=
  match o with
  | .little => (m (a + 3#32) ++ m (a + 2#32) ++ m (a + 1#32) ++ m a : W)
  | .big => (m a ++ m (a + 1#32) ++ m (a + 2#32) ++ m (a + 3#32) : W)

/-- byte number i of a word in memory order -/
def byteOf (o : Endian) (v : W) (i : Nat) : B :=
  match o with
  | .little => (v >>> (8 * i)).setWidth 8
  | .big => (v >>> (24 - 8 * i)).setWidth 8

def store (o : Endian) (m : Mem) (a v : W) : Mem := fun x =>
  if x = a then byteOf o v 0
  else if x = a + 1#32 then byteOf o v 1
  else if x = a + 2#32 then byteOf o v 2
  else if x = a + 3#32 then byteOf o v 3
  else m x

def aligned (a : W) : Prop := a.toNat % 4 = 0

instance (a : W) : Decidable (aligned a) := inferInstanceAs (Decidable (_ = _))

/-- the registers the macros name.  COPY_TO_RAM: d is r0 (ARM, PowerPC), a0 (RISC-V), at (MIPS); p is r1, t0, t0, r3; q is
r2, t1, t1, r4; e is r3, t2, t2, r5.  ZERO_RAM: d is r0 (on RISC-V and MIPS the register zero), q is r1, t0, t0, r3;
e is r2, t1, t1, r4.  INIT_E2EECC: q is r3, e is r4. -/
inductive R | d | p | q | e
  deriving DecidableEq

structure St where
  d : W
  p : W
  q : W
  e : W
  /-- the two condition flags the macros use: signed less-than and equal, as the last compare left them -/
  lt : Bool
  eq : Bool
  /-- the registers no macro writes, for e_stmw -/
  rest : Nat → W
  /-- the instruction to execute and the one behind it -/
  pc : Nat
  npc : Nat
  mem : Mem

def St.get (s : St) : R → W
  | .d => s.d | .p => s.p | .q => s.q | .e => s.e

def St.set (s : St) (r : R) (v : W) : St :=
  match r with
  | .d => { s with d := v } | .p => { s with p := v } | .q => { s with q := v } | .e => { s with e := v }

inductive I
  /-- la / ldr =, li, movs -/
  | li (r : R) (k : W)
  /-- e_lis: the upper half -/
  | lis (r : R) (k : W)
  /-- e_or2i -/
  | or2i (r : R) (k : W)
  | lw (r a : R)
  | sw (r a : R)
  /-- sw zero -/
  | sw0 (a : R)
  /-- ldm a!, {r} and stm a!, {r} -/
  | ldm (a r : R)
  | stm (a r : R)
  | addi (r : R) (k : W)
  | cmp (a b : R)
  | nop
  /-- taken at once -/
  | b (t : Nat)
  | bneF (t : Nat)
  | bleF (t : Nat)
  | bne (a b : R) (t : Nat)
  /-- taken behind the delay slot -/
  | bD (t : Nat)
  | bneD (a b : R) (t : Nat)
  /-- e_stmw r0, 0 (r3): the registers r0 to r31 to the 32 words at r3 -/
  | stmw

def next (s : St) : St := { s with pc := s.npc, npc := s.npc + 1 }
def jump (s : St) (t : Nat) : St := { s with pc := t, npc := t + 1 }
def jumpD (s : St) (t : Nat) : St := { s with pc := s.npc, npc := t }
def sel (c : Bool) (a b : St) : St := if c then a else b
def guard' (c : Bool) (s : St) : Option St := if c then some s else none

/-- register number i of the PowerPC in INIT_E2EECC -/
def gpr (s : St) (i : Nat) : W := if i = 3 then s.q else if i = 4 then s.e else s.rest i

/-- the words of e_stmw, the first n of them -/
def storeAll (o : Endian) (m : Mem) (a : W) (f : Nat → W) : Nat → Mem
  | 0 => m
  | n + 1 => store o (storeAll o m a f n) (a + BitVec.ofNat 32 (4 * n)) (f n)

def exec (o : Endian) (s : St) : I → Option St
  | .li r k => some (next (s.set r k))
  | .lis r k => some (next (s.set r (k <<< 16)))
  | .or2i r k => some (next (s.set r (s.get r ||| k)))
  | .lw r a => guard' (decide (aligned (s.get a))) (next (s.set r (load o s.mem (s.get a))))
  | .sw r a => guard' (decide (aligned (s.get a))) (next { s with mem := store o s.mem (s.get a) (s.get r) })
  | .sw0 a => guard' (decide (aligned (s.get a))) (next { s with mem := store o s.mem (s.get a) 0#32 })
  | .ldm a r => guard' (decide (aligned (s.get a))) (next ((s.set r (load o s.mem (s.get a))).set a (s.get a + 4#32)))
  | .stm a r => guard' (decide (aligned (s.get a))) (next ({ s with mem := store o s.mem (s.get a) (s.get r) }.set a (s.get a + 4#32)))
  | .addi r k => some (next (s.set r (s.get r + k)))
  | .cmp a b => some (next { s with lt := decide ((s.get a).toInt < (s.get b).toInt), eq := decide (s.get a = s.get b) })
  | .nop => some (next s)
  | .b t => some (jump s t)
  | .bneF t => some (sel s.eq (next s) (jump s t))
  | .bleF t => some (sel (s.lt || s.eq) (jump s t) (next s))
  | .bne a b t => some (sel (decide (s.get a = s.get b)) (next s) (jump s t))
  | .bD t => some (jumpD s t)
  | .bneD a b t => some (sel (decide (s.get a = s.get b)) (next s) (jumpD s t))
  | .stmw => guard' (decide (aligned s.q)) (next { s with mem := storeAll o s.mem s.q (gpr s) 32 })

def step (o : Endian) (code : List I) (s : St) : Option St := (code[s.pc]?).bind (exec o s)

inductive Steps (o : Endian) (code : List I) : St → St → Prop
  | refl (s : St) : Steps o code s s
  | next (s s1 s2 : St) : step o code s = some s1 → Steps o code s1 s2 → Steps o code s s2

inductive Isa | arm | riscv | mips | ppc
  deriving DecidableEq

def endian : Isa → Endian
  | .ppc => .big
  | _ => .little

/-- the upper and the lower half of a symbol, `@h` and `@l` -/
def hi (v : W) : W := v >>> 16
def lo (v : W) : W := v &&& 0xffff#32

/-- COPY_TO_RAM base, start, end: arch/arm/include/macros.S:13-24, arch/riscv/include/macros.S:9-21,
arch/mips/include/macros.S:12-26, arch/powerpc/e200z4/include/macros.S:12-31 (e200z7: the same lines) -/
def copyToRam (i : Isa) (base start stop : W) : List I :=
  match i with
  | .arm =>
    [ .li .p base, .li .q start, .li .e stop, .b 6,
      .ldm .p .d,             -- 4  1:
      .stm .q .d,             -- 5
      .cmp .q .e,             -- 6  2:
      .bneF 4 ]               -- 7
  | .riscv =>
    [ .li .p base, .li .q start, .li .e stop, .b 8,
      .lw .d .p,              -- 4  1:
      .sw .d .q,              -- 5
      .addi .p 4#32,          -- 6
      .addi .q 4#32,          -- 7
      .bne .q .e 4 ]          -- 8  2:
  | .mips =>
    [ .li .p base, .li .q start, .li .e stop, .bD 9, .nop,
      .lw .d .p,              -- 5  1:
      .sw .d .q,              -- 6
      .addi .p 4#32,          -- 7
      .addi .q 4#32,          -- 8
      .bneD .q .e 5,          -- 9  2:
      .nop ]                  -- 10
  | .ppc =>
    [ .lis .p (hi base), .or2i .p (lo base), .lis .q (hi start), .or2i .q (lo start), .lis .e (hi stop), .or2i .e (lo stop), .b 11,
      .lw .d .p,              -- 7  1:
      .sw .d .q,              -- 8
      .addi .p 4#32,          -- 9
      .addi .q 4#32,          -- 10
      .cmp .q .e,             -- 11 2:
      .bneF 7 ]               -- 12

/-- ZERO_RAM start, end: arch/arm/include/macros.S:42-52, arch/riscv/include/macros.S:24-33, arch/mips/include/macros.S:29-40,
arch/powerpc/e200z4/include/macros.S:34-45 -/
def zeroRam (i : Isa) (start stop : W) : List I :=
  match i with
  | .arm =>
    [ .li .q start, .li .e stop, .li .d 0#32, .b 5,
      .stm .q .d,             -- 4  1:
      .cmp .q .e,             -- 5  2:
      .bneF 4 ]               -- 6
  | .riscv =>
    [ .li .q start, .li .e stop, .b 5,
      .sw0 .q,                -- 3  1:
      .addi .q 4#32,          -- 4
      .bne .q .e 3 ]          -- 5  2:
  | .mips =>
    [ .li .q start, .li .e stop, .bD 6, .nop,
      .sw0 .q,                -- 4  1:
      .addi .q 4#32,          -- 5
      .bneD .q .e 4,          -- 6  2:
      .nop ]                  -- 7
  | .ppc =>
    [ .li .d 0#32, .lis .q (hi start), .or2i .q (lo start), .lis .e (hi stop), .or2i .e (lo stop), .b 8,
      .sw .d .q,              -- 6  1:
      .addi .q 4#32,          -- 7
      .cmp .q .e,             -- 8  2:
      .bneF 6 ]               -- 9

/-- INIT_E2EECC start, end: arch/powerpc/e200z4/include/macros.S:99-109, arch/powerpc/e200z7/include/macros.S:126-136 -/
def initEcc (start stop : W) : List I :=
  [ .lis .q (hi start), .or2i .q (lo start), .lis .e (hi stop), .or2i .e (lo stop), .b 7,
    .stmw,                    -- 5  1:
    .addi .q 128#32,          -- 6
    .cmp .q .e,               -- 7  2:
    .bleF 5 ]                 -- 8

/-- one use of a macro in a startup.S -/
inductive Use
  | copy (base start stop : W)
  | zero (start stop : W)
  | ecc (start stop : W)

def Use.code (i : Isa) : Use → List I
  | .copy a b c => copyToRam i a b c
  | .zero a b => zeroRam i a b
  | .ecc a b => initEcc a b

/-- about to execute a macro -/
def Begin (m : Mem) (s : St) : Prop := s.pc = 0 ∧ s.npc = 1 ∧ s.mem = m

/-- falling out of its end -/
def End (code : List I) (s : St) : Prop := s.pc = code.length ∧ s.npc = code.length + 1

/-- the uses one after the other, with any content of the registers before each of them (the instructions in between set some) -/
inductive Boot (i : Isa) : List Use → Mem → Mem → Prop
  | done (m : Mem) : Boot i [] m m
  | use (u : Use) (us : List Use) (m m' : Mem) (s s' : St) : Begin m s → Steps (endian i) (u.code i) s s' → End (u.code i) s' →
      Boot i us s'.mem m' → Boot i (u :: us) m m'

/-- whatever the registers are, every use comes to its end -/
def Ends (i : Isa) : List Use → Mem → Prop
  | [], _ => True
  | u :: us, m => ∀ s, Begin m s → ∃ s', Steps (endian i) (u.code i) s s' ∧ End (u.code i) s' ∧ Ends i us s'.mem

/-- a section the linker places: where it is loaded, where it runs and where it ends -/
structure Area where
  load : W
  start : W
  stop : W

/-- the sections of the linker scripts (samples/ldscripts): text and vectors (when they are relocated), data, sdata, bss, sbss,
and the RAM; a script without a section has it empty -/
structure Layout where
  relocate : Bool
  text : Area
  vectors : Area
  data : Area
  sdata : Area
  bss : Area
  sbss : Area
  ramStart : W
  ramEnd : W

def Area.copy (a : Area) : Use := .copy a.load a.start a.stop
def Area.zero (a : Area) : Use := .zero a.start a.stop

inductive Mach | arm | gd32vf103 | ch32v003 | pic32mz | mpc57xx
  deriving DecidableEq

def Mach.isa : Mach → Isa
  | .arm => .arm
  | .gd32vf103 | .ch32v003 => .riscv
  | .pic32mz => .mips
  | .mpc57xx => .ppc

/-- the startup.S files: arch/arm/armv7e-m/mach-atsame5x/startup.S:14-29 (the nine ARM files agree in these lines),
arch/riscv/rv32imac/mach-gd32vf103/startup.S:43-59, arch/riscv/rv32ec/mach-ch32v003/startup.S:21-34,
arch/mips/m51xx/mach-pic32mz/startup.S:19-39, arch/powerpc/e200z4/mach-mpc574x/startup.S:38-62
(arch/powerpc/e200z7/mach-mpc577x/startup.S:27-52) -/
def startup (k : Mach) (l : Layout) : List Use :=
  match k with
  | .arm | .gd32vf103 => (if l.relocate then [l.text.copy, l.vectors.copy] else []) ++ [l.data.copy, l.bss.zero]
  | .ch32v003 => (if l.relocate then [l.text.copy] else []) ++ [l.data.copy, l.bss.zero]
  | .pic32mz => (if l.relocate then [l.text.copy] else []) ++ [l.data.copy, l.sdata.copy, l.bss.zero, l.sbss.zero, l.vectors.copy]
  | .mpc57xx => .ecc l.ramStart l.ramEnd :: ((if l.relocate then [l.text.copy] else []) ++ [l.data.copy, l.sdata.copy, l.bss.zero])

/-! ## the specification -/

/-- the address is in the `n` bytes from `a` on -/
def Within (a : W) (n : Nat) (x : W) : Prop := (x - a).toNat < n

instance (a : W) (n : Nat) (x : W) : Decidable (Within a n x) := inferInstanceAs (Decidable (_ < _))

def Area.size (a : Area) : Nat := (a.stop - a.start).toNat

/-- the bytes of the section while the program runs, and the bytes of its image -/
def Area.ram (a : Area) (x : W) : Prop := Within a.start a.size x
def Area.image (a : Area) (x : W) : Prop := Within a.load a.size x

/-- start, end and image are at multiples of four (the scripts align them) -/
def Area.even (a : Area) : Prop := aligned a.load ∧ aligned a.start ∧ aligned a.stop

/-- every byte of the section has the value of its image -/
def Loaded (a : Area) (m m' : Mem) : Prop := ∀ x, a.ram x → m' x = m (a.load + (x - a.start))

/-- every byte of the section is zero -/
def Zeroed (a : Area) (m' : Mem) : Prop := ∀ x, a.ram x → m' x = 0#8

def Disjoint (p q : W → Prop) : Prop := ∀ x, p x → q x → False

/-- the sections that must have the contents of their images when main() is called: the initialised data, the text when it
does not run from where it is loaded, and its vectors; the table of the PIC32's interrupt controller always -/
def mustLoad (k : Mach) (l : Layout) : List Area :=
  (if l.relocate then [l.text] else []) ++ (if l.relocate || k = .pic32mz then [l.vectors] else []) ++ [l.data, l.sdata]

/-- the sections that must be zero -/
def mustClear (l : Layout) : List Area := [l.bss, l.sbss]

/-- the RAM of the PowerPCs is a number of blocks of 128 bytes in the lower half of the addresses; `ramEnd` is its last word
(samples/ldscripts/mpc5748g_flash_xip.ld, mpc5775e-evb_flash_xip.ld) -/
def Layout.ram (l : Layout) (x : W) : Prop := Within l.ramStart ((l.ramEnd - l.ramStart).toNat + 4) x

/-- what the linker gives: nothing is placed over something else -/
structure Placed (k : Mach) (l : Layout) : Prop where
  even : ∀ a ∈ mustLoad k l ++ mustClear l, a.even
  apart : (mustLoad k l ++ mustClear l).Pairwise (fun a b => Disjoint a.ram b.ram)
  images : ∀ a ∈ mustLoad k l ++ mustClear l, ∀ b ∈ mustLoad k l, Disjoint a.ram b.image
  /-- the PowerPC's images are not in the RAM, which is whole blocks -/
  flash : k = .mpc57xx → ∀ b ∈ mustLoad k l, Disjoint l.ram b.image
  blocks : k = .mpc57xx → aligned l.ramStart ∧ ∃ n, 0 < n ∧ l.ramStart.toNat + 128 * n < 2 ^ 31 ∧ l.ramEnd.toNat = l.ramStart.toNat + 128 * n - 4
  /-- the ARM scripts know no sdata; the RISC-V ones put it into data; only those of the PIC32 and the PowerPC have one, and
  neither the ch32v003's nor the PowerPC's has vectors outside the text -/
  small : k ≠ .pic32mz → k ≠ .mpc57xx → l.sdata.start = l.sdata.stop
  inText : k = .ch32v003 ∨ k = .mpc57xx → l.vectors.start = l.vectors.stop

end Pico.Startup
