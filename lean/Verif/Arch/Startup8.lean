/-
C98: the startup code of the 8-bit machines (arch/8051, arch/stm8, arch/hcs08), which zeroes the data without initialiser and
copies the initialisers before main() runs.

The macros COPY_TO_RAM and ZERO_RAM of arch/{8051,stm8,hcs08}/include/macros.S, one entry per instruction, with branch targets
as indices.  An instruction is what it does to the state.  The 8051 has two memories: `movc` reads `rom`, `movx` writes `ram`;
on the others both are the same memory, `ram`.  Addresses are 16 bits wide.  (The STM8 computes indexed addresses with 24 bits;
the model agrees with it as long as the sections do not go over the end of the 64 kB.)
Not modelled: the internal RAM of the 8051 and the direct page of the HCS08, which the startup does not touch.
-/
namespace Pico.Startup8

abbrev A := BitVec 16
abbrev B := BitVec 8

structure St where
  /-- r2 to r7 (8051) -/
  r2 : B
  r3 : B
  r4 : B
  r5 : B
  r6 : B
  r7 : B
  /-- the accumulator -/
  a : B
  /-- the data pointer (8051) -/
  dpl : B
  dph : B
  /-- carry (8051) -/
  c : Bool
  /-- x (STM8), h:x (HCS08) -/
  x : A
  /-- zero flag (STM8, HCS08) -/
  z : Bool
  pc : Nat
  rom : A → B
  ram : A → B

abbrev I := St → St

def next (s : St) : St := { s with pc := s.pc + 1 }
def jump (s : St) (t : Nat) : St := { s with pc := t }
def sel (c : Bool) (a b : St) : St := if c then a else b
def put (f : A → B) (k : A) (v : B) : A → B := fun i => if i = k then v else f i

def hiB (v : A) : B := (v >>> 8).setWidth 8
def loB (v : A) : B := v.setWidth 8
def join (h l : B) : A := (h ++ l : BitVec 16)

def step (code : List I) (s : St) : Option St := (code[s.pc]?).map (fun i => i s)

inductive Steps (code : List I) : St → St → Prop
  | refl (s : St) : Steps code s s
  | next (s s1 s2 : St) : step code s = some s1 → Steps code s1 s2 → Steps code s s2

/-! ## 8051 -/

def movR2 (k : B) : I := fun s => next { s with r2 := k }
def movR3 (k : B) : I := fun s => next { s with r3 := k }
def movR4 (k : B) : I := fun s => next { s with r4 := k }
def movR5 (k : B) : I := fun s => next { s with r5 := k }
def movR6 (k : B) : I := fun s => next { s with r6 := k }
def movR7 (k : B) : I := fun s => next { s with r7 := k }
/-- cjne also sets the carry when the register is less than the constant: never for 0 -/
def cjneR6 (t : Nat) : I := fun s => sel (decide (s.r6 = 0#8)) (next { s with c := false }) (jump { s with c := false } t)
def cjneR7 (t : Nat) : I := fun s => sel (decide (s.r7 = 0#8)) (next { s with c := false }) (jump { s with c := false } t)
def sjmp (t : Nat) : I := fun s => jump s t
def movDplR2 : I := fun s => next { s with dpl := s.r2 }
def movDphR3 : I := fun s => next { s with dph := s.r3 }
def movDplR4 : I := fun s => next { s with dpl := s.r4 }
def movDphR5 : I := fun s => next { s with dph := s.r5 }
def movR2Dpl : I := fun s => next { s with r2 := s.dpl }
def movR3Dph : I := fun s => next { s with r3 := s.dph }
def movR4Dpl : I := fun s => next { s with r4 := s.dpl }
def movR5Dph : I := fun s => next { s with r5 := s.dph }
def movA (k : B) : I := fun s => next { s with a := k }
def movAR6 : I := fun s => next { s with a := s.r6 }
def movAR7 : I := fun s => next { s with a := s.r7 }
def movR6A : I := fun s => next { s with r6 := s.a }
def movR7A : I := fun s => next { s with r7 := s.a }
/-- movc a, @a+dptr -/
def movc : I := fun s => next { s with a := s.rom (join s.dph s.dpl + s.a.setWidth 16) }
/-- movx @dptr, a -/
def movx : I := fun s => next { s with ram := put s.ram (join s.dph s.dpl) s.a }
def incDptr : I := fun s => next { s with dph := hiB (join s.dph s.dpl + 1#16), dpl := loB (join s.dph s.dpl + 1#16) }
def movDptr (k : A) : I := fun s => next { s with dph := hiB k, dpl := loB k }
def clrC : I := fun s => next { s with c := false }
def subb (k : B) : I := fun s =>
  next { s with a := s.a - k - (if s.c then 1#8 else 0#8), c := decide (s.a.toNat < k.toNat + (if s.c then 1 else 0)) }

/-- arch/8051/include/macros.S:10-48 -/
def copy51 (base start len : A) : List I :=
  [ movR2 (loB base), movR3 (hiB base), movR4 (loB start), movR5 (hiB start), movR6 (loB len), movR7 (hiB len),
    cjneR6 9,                                                   -- 6  loop:
    cjneR7 9,                                                   -- 7
    sjmp 30,                                                    -- 8
    movDplR2, movDphR3, movA 0#8, movc, incDptr, movR2Dpl, movR3Dph, -- 9  next:
    movDplR4, movDphR5, movx, incDptr, movR4Dpl, movR5Dph,      -- 16
    clrC, movAR6, subb 1#8, movR6A, movAR7, subb 0#8, movR7A,   -- 22
    sjmp 6 ]                                                    -- 29

/-- arch/8051/include/macros.S:50-73 -/
def zero51 (start len : A) : List I :=
  [ movDptr start, movR6 (loB len), movR7 (hiB len),
    cjneR6 6,                                                   -- 3  loop:
    cjneR7 6,                                                   -- 4
    sjmp 17,                                                    -- 5
    movA 0#8, movx, incDptr,                                    -- 6  next:
    clrC, movAR6, subb 1#8, movR6A, movAR7, subb 0#8, movR7A,   -- 9
    sjmp 3 ]                                                    -- 16

/-! ## STM8 -/

/-- ldw x, #k sets the zero flag -/
def ldwX (k : A) : I := fun s => next { s with x := k, z := decide (k = 0#16) }
def jreq (t : Nat) : I := fun s => sel s.z (jump s t) (next s)
def jrne (t : Nat) : I := fun s => sel s.z (next s) (jump s t)
/-- ld a, (k, x) -/
def ldA (k : A) : I := fun s => next { s with a := s.ram (k + s.x), z := decide (s.ram (k + s.x) = 0#8) }
/-- ld (k, x), a -/
def ldM (k : A) : I := fun s => next { s with ram := put s.ram (k + s.x) s.a, z := decide (s.a = 0#8) }
/-- clr (k, x) -/
def clrM (k : A) : I := fun s => next { s with ram := put s.ram (k + s.x) 0#8, z := true }
def decw : I := fun s => next { s with x := s.x - 1#16, z := decide (s.x - 1#16 = 0#16) }

/-- arch/stm8/include/macros.S:11-20 -/
def copyStm8 (base start len : A) : List I :=
  [ ldwX len, jreq 6,
    ldA (base - 1#16),        -- 2  loop:
    ldM (start - 1#16),       -- 3
    decw,                     -- 4
    jrne 2 ]                  -- 5

/-- arch/stm8/include/macros.S:27-35 -/
def zeroStm8 (start len : A) : List I :=
  [ ldwX len, jreq 5,
    clrM (start - 1#16),      -- 2  loop:
    decw,                     -- 3
    jrne 2 ]                  -- 4

/-! ## HCS08 -/

/-- ldhx #k -/
def ldhx (k : A) : I := fun s => next { s with x := k, z := decide (k = 0#16) }
def clra : I := fun s => next { s with a := 0#8, z := true }
/-- cphx #k -/
def cphx (k : A) : I := fun s => next { s with z := decide (s.x = k) }
def beq (t : Nat) : I := fun s => sel s.z (jump s t) (next s)
/-- lda k,x -/
def lda (k : A) : I := fun s => next { s with a := s.ram (k + s.x), z := decide (s.ram (k + s.x) = 0#8) }
/-- sta k,x -/
def sta (k : A) : I := fun s => next { s with ram := put s.ram (k + s.x) s.a, z := decide (s.a = 0#8) }
/-- aix #1: no flags -/
def aix : I := fun s => next { s with x := s.x + 1#16 }
def bra (t : Nat) : I := fun s => jump s t

/-- arch/hcs08/include/macros.S:11-21 -/
def copyHcs08 (base start len : A) : List I :=
  [ ldhx 0#16,
    cphx len,                 -- 1  loop:
    beq 7,                    -- 2
    lda base,                 -- 3
    sta start,                -- 4
    aix,                      -- 5
    bra 1 ]                   -- 6

/-- arch/hcs08/include/macros.S:28-38 -/
def zeroHcs08 (start len : A) : List I :=
  [ ldhx 0#16, clra,
    cphx len,                 -- 2  loop:
    beq 7,                    -- 3
    sta start,                -- 4
    aix,                      -- 5
    bra 2 ]                   -- 6

/-! ## startup -/

inductive Mach | i8051 | stm8 | hcs08
  deriving DecidableEq

/-- the sections: the data without initialiser (s_XSEG/l_XSEG, s_DATA/l_DATA), the data with one (s_XISEG/l_XISEG,
s_INITIALIZED/l_INITIALIZER) and the initialisers (s_XINIT, s_INITIALIZER) -/
structure Layout where
  zero : A
  zeroLen : A
  data : A
  init : A
  len : A

def copy : Mach → A → A → A → List I
  | .i8051 => copy51
  | .stm8 => copyStm8
  | .hcs08 => copyHcs08

def zero : Mach → A → A → List I
  | .i8051 => zero51
  | .stm8 => zeroStm8
  | .hcs08 => zeroHcs08

/-- the two macros of each startup: arch/8051/mach-ch552/startup.S:46-47 (the five files of the 8051s agree),
arch/stm8/mach-stm8s/startup.S:56-57, arch/hcs08/mach-mc9s08ptxx/startup.S:22-23 -/
def startup (k : Mach) (l : Layout) : List (List I) := [zero k l.zero l.zeroLen, copy k l.init l.data l.len]

def Begin (rom ram : A → B) (s : St) : Prop := s.pc = 0 ∧ s.rom = rom ∧ s.ram = ram

/-- one macro after the other, with any registers before each -/
inductive Boot : List (List I) → (A → B) → (A → B) → (A → B) → Prop
  | done (rom ram : A → B) : Boot [] rom ram ram
  | use (c : List I) (cs : List (List I)) (rom ram ram' : A → B) (s s' : St) : Begin rom ram s → Steps c s s' → s'.pc = c.length →
      Boot cs s'.rom s'.ram ram' → Boot (c :: cs) rom ram ram'

def Ends : List (List I) → (A → B) → (A → B) → Prop
  | [], _, _ => True
  | c :: cs, rom, ram => ∀ s, Begin rom ram s → ∃ s', Steps c s s' ∧ s'.pc = c.length ∧ Ends cs s'.rom s'.ram

/-! ## the specification -/

/-- the address is one of the `n` from `a` on -/
def Within (a n : A) (x : A) : Prop := (x - a).toNat < n.toNat

instance (a n x : A) : Decidable (Within a n x) := inferInstanceAs (Decidable (_ < _))

/-- where the initialisers are read -/
def source : Mach → (A → B) → (A → B) → (A → B)
  | .i8051, rom, _ => rom
  | _, _, ram => ram

/-- the linker puts nothing over something else -/
structure Placed (k : Mach) (l : Layout) : Prop where
  apart : ∀ x, Within l.zero l.zeroLen x → Within l.data l.len x → False
  zeroInit : k ≠ .i8051 → ∀ x, Within l.zero l.zeroLen x → Within l.init l.len x → False
  dataInit : k ≠ .i8051 → ∀ x, Within l.data l.len x → Within l.init l.len x → False

end Pico.Startup8
