/-
C97: the software multiplication, division and remainder of the ch32v003 (RV32EC has none in hardware),
arch/riscv/rv32ec/mach-ch32v003/gcc/muldi3.S and div.S, assembled for RV32 (`__riscv_xlen == 32`: __muldi3 is __mulsi3,
__udivdi3 is __udivsi3 and so on, lines 32-37 of div.S).

The two files as lists of instructions, one entry per instruction, jump targets as indices.  The registers are those the
routines name; they can touch no other register and no memory.
-/
namespace Pico.Soft

abbrev W := BitVec 32

inductive R
  | a0 | a1 | a2 | a3 | t0 | ra
  deriving DecidableEq

structure St where
  a0 : W
  a1 : W
  a2 : W
  a3 : W
  t0 : W
  ra : W
  pc : W

def St.get (s : St) : R → W
  | .a0 => s.a0 | .a1 => s.a1 | .a2 => s.a2 | .a3 => s.a3 | .t0 => s.t0 | .ra => s.ra

def St.set (s : St) (r : R) (v : W) : St :=
  match r with
  | .a0 => { s with a0 := v } | .a1 => { s with a1 := v } | .a2 => { s with a2 := v } | .a3 => { s with a3 := v }
  | .t0 => { s with t0 := v } | .ra => { s with ra := v }

/-- the instructions of the two files; `next` goes on behind, the last argument of a branch is the index it goes to -/
inductive I
  | mv (d s : R)
  | li (d : R) (k : W)
  | andi (d s : R) (k : W)
  | add (d a b : R)
  | sub (d a b : R)
  | or (d a b : R)
  | slli (d s : R) (k : Nat)
  | srli (d s : R) (k : Nat)
  | neg (d s : R)
  | beqz (a : R) (t : W)
  | bnez (a : R) (t : W)
  /-- signed: less than, less or equal, greater, greater or equal zero -/
  | bltz (a : R) (t : W)
  | blez (a : R) (t : W)
  | bgtz (a : R) (t : W)
  | bgez (a : R) (t : W)
  /-- unsigned -/
  | bgeu (a b : R) (t : W)
  | bltu (a b : R) (t : W)
  | bgtu (a b : R) (t : W)
  | j (t : W)
  /-- jump, with the address behind in ra -/
  | jal (t : W)
  | jr (a : R)

def goto (s : St) (t : W) : St := { s with pc := t }
def next (s : St) : St := goto s (s.pc + 1#32)
def branch (c : Bool) (s : St) (t : W) : St := if c then goto s t else next s

def exec (s : St) : I → St
  | .mv d r => next (s.set d (s.get r))
  | .li d k => next (s.set d k)
  | .andi d r k => next (s.set d (s.get r &&& k))
  | .add d a b => next (s.set d (s.get a + s.get b))
  | .sub d a b => next (s.set d (s.get a - s.get b))
  | .or d a b => next (s.set d (s.get a ||| s.get b))
  | .slli d r k => next (s.set d (s.get r <<< k))
  | .srli d r k => next (s.set d (s.get r >>> k))
  | .neg d r => next (s.set d (0#32 - s.get r))
  | .beqz a t => branch (decide (s.get a = 0#32)) s t
  | .bnez a t => branch (decide (s.get a ≠ 0#32)) s t
  | .bltz a t => branch (decide ((s.get a).toInt < 0)) s t
  | .blez a t => branch (decide ((s.get a).toInt ≤ 0)) s t
  | .bgtz a t => branch (decide (0 < (s.get a).toInt)) s t
  | .bgez a t => branch (decide (0 ≤ (s.get a).toInt)) s t
  | .bgeu a b t => branch (decide ((s.get b).toNat ≤ (s.get a).toNat)) s t
  | .bltu a b t => branch (decide ((s.get a).toNat < (s.get b).toNat)) s t
  | .bgtu a b t => branch (decide ((s.get b).toNat < (s.get a).toNat)) s t
  | .j t => goto s t
  | .jal t => goto (s.set .ra (s.pc + 1#32)) t
  | .jr a => goto s (s.get a)

/-- one instruction of a program -/
def step (code : List I) (s : St) : Option St := (code[s.pc.toNat]?).map (exec s)

/-- any number of instructions -/
inductive Steps (code : List I) : St → St → Prop
  | refl (s : St) : Steps code s s
  | next (s s1 s2 : St) : step code s = some s1 → Steps code s1 s2 → Steps code s s2

/-- gcc/muldi3.S:36-48 -/
def mul : List I :=
  [ .mv .a2 .a0,          -- 0
    .li .a0 0#32,         -- 1
    .andi .a3 .a1 1#32,   -- 2  .L1
    .beqz .a3 5#32,       -- 3
    .add .a0 .a0 .a2,     -- 4
    .srli .a1 .a1 1,      -- 5  .L2
    .slli .a2 .a2 1,      -- 6
    .bnez .a1 2#32,       -- 7
    .jr .ra ]             -- 8

/-- gcc/div.S:75-149 -/
def div : List I :=
  [ .bltz .a0 24#32,      -- 0  __divdi3
    .bltz .a1 28#32,      -- 1
    .mv .a2 .a1,          -- 2  __udivdi3
    .mv .a1 .a0,          -- 3
    .li .a0 0xffffffff#32,-- 4
    .beqz .a2 19#32,      -- 5
    .li .a3 1#32,         -- 6
    .bgeu .a2 .a1 12#32,  -- 7
    .blez .a2 12#32,      -- 8  .L1
    .slli .a2 .a2 1,      -- 9
    .slli .a3 .a3 1,      -- 10
    .bgtu .a1 .a2 8#32,   -- 11
    .li .a0 0#32,         -- 12 .L2
    .bltu .a1 .a2 16#32,  -- 13 .L3
    .sub .a1 .a1 .a2,     -- 14
    .or .a0 .a0 .a3,      -- 15
    .srli .a3 .a3 1,      -- 16 .L4
    .srli .a2 .a2 1,      -- 17
    .bnez .a3 13#32,      -- 18
    .jr .ra,              -- 19 .L5
    .mv .t0 .ra,          -- 20 __umoddi3
    .jal 2#32,            -- 21
    .mv .a0 .a1,          -- 22
    .jr .t0,              -- 23
    .neg .a0 .a0,         -- 24 .L10
    .bgtz .a1 29#32,      -- 25
    .neg .a1 .a1,         -- 26
    .j 2#32,              -- 27
    .neg .a1 .a1,         -- 28 .L11
    .mv .t0 .ra,          -- 29 .L12
    .jal 2#32,            -- 30
    .neg .a0 .a0,         -- 31
    .jr .t0,              -- 32
    .mv .t0 .ra,          -- 33 __moddi3
    .bltz .a1 39#32,      -- 34
    .bltz .a0 41#32,      -- 35
    .jal 2#32,            -- 36 .L30
    .mv .a0 .a1,          -- 37
    .jr .t0,              -- 38
    .neg .a1 .a1,         -- 39 .L31
    .bgez .a0 36#32,      -- 40
    .neg .a0 .a0,         -- 41 .L32
    .jal 2#32,            -- 42
    .neg .a0 .a1,         -- 43
    .jr .t0 ]             -- 44

/-- a call of the routine at `entry` with two arguments returns a value: from every content of the other registers, and for
every return address, the routine ends there with the value in a0 -/
def Returns (code : List I) (entry : W) (x y v : W) : Prop :=
  ∀ s : St, s.pc = entry → s.a0 = x → s.a1 = y → ∃ s', Steps code s s' ∧ s'.pc = s.ra ∧ s'.a0 = v

end Pico.Soft
