import Verif.Arch.ArmBoot
import Verif.Arch.MipsBoot
import Verif.Arch.PpcBoot
import Verif.Arch.RiscVBoot
import Verif.Arch.AvrBoot
import Verif.Arch.Stm8Props
import Verif.Arch.Hcs08Props
/-
C62: picoRTOS_register_interrupt on every port that has interrupts, with the table that the dispatcher of the port
(C57) reads.  `arch_assert(x, return)` refuses an interrupt out of range in all builds (arch/include/picoRTOS_port.h:83-107;
in a debug build the processor stops first); `arch_assert_void` (c28x) does not in a release build.
-/
namespace Pico.IsrTab

/-! ## Specification -/

/-- A table of interrupts in a memory of `A → B`: how an entry is registered, how the dispatcher finds it again, which
interrupts there are and which memory the port reserves for the table. -/
structure Table (A B I V : Type) where
  reg : I → V → (A → B) → (A → B)
  look : (A → B) → I → V
  ok : I → Prop
  mine : A → Prop

/-- any number of registrations, the first of the list first -/
def Table.regs {A B I V : Type} (t : Table A B I V) : List (I × V) → (A → B) → (A → B)
  | [], m => m
  | (i, v) :: l, m => t.regs l (t.reg i v m)

/-- the last thing registered for `i`, or `v` if there is none -/
def lastFor {I V : Type} [DecidableEq I] (i : I) (v : V) : List (I × V) → V
  | [] => v
  | (j, w) :: l => lastFor i (if j = i then w else v) l

/-- What C62 claims: after any history of registrations (of any interrupts, existing or not) the dispatcher finds for
each interrupt the last function and argument registered for it, and no memory but the table has been written. -/
def Table.Right {A B I V : Type} [DecidableEq I] (t : Table A B I V) : Prop :=
  ∀ (l : List (I × V)) (m : A → B),
    (∀ i, t.ok i → t.look (t.regs l m) i = lastFor i (t.look m i) l) ∧ ∀ a, ¬ t.mine a → t.regs l m a = m a

/-- one registration -/
structure Table.Step {A B I V : Type} (t : Table A B I V) : Prop where
  refused : ∀ i v m, ¬ t.ok i → t.reg i v m = m
  own : ∀ i v m, t.ok i → t.look (t.reg i v m) i = v
  other : ∀ i j v m, t.ok i → t.ok j → j ≠ i → t.look (t.reg j v m) i = t.look m i
  inside : ∀ i v m a, t.ok i → ¬ t.mine a → t.reg i v m a = m a

theorem Table.Step.right {A B I V : Type} [DecidableEq I] {t : Table A B I V} (h : t.Step) : t.Right := by
  intro l
  induction l with
  | nil => exact fun m => ⟨fun _ _ => rfl, fun _ _ => rfl⟩
  | cons p l ih =>
    intro m
    obtain ⟨j, w⟩ := p
    refine ⟨fun i hi => ?_, fun a ha => ?_⟩
    · show t.look (t.regs l (t.reg j w m)) i = lastFor i (if j = i then w else t.look m i) l
      rw [(ih _).1 i hi]
      congr 1
      by_cases hji : j = i
      · subst hji; rw [if_pos rfl, h.own _ _ _ hi]
      · rw [if_neg hji]
        by_cases hj : t.ok j
        · exact h.other _ _ _ _ hi hj hji
        · rw [h.refused _ _ _ hj]
    · show t.regs l (t.reg j w m) a = m a
      rw [(ih _).2 a ha]
      by_cases hj : t.ok j
      · exact h.inside _ _ _ _ hj ha
      · rw [h.refused _ _ _ hj]

/-! ## 32-bit ports -/

open Pico.Ctx (W) in
/-- `ISR_TABLE[irq].fn = fn; ISR_TABLE[irq].priv = priv` unless irq is out of range: arm/armv6-m/picoRTOS_port.c:106-111,
arm/armv7-m/picoRTOS_port.c:93-98, arm/armv7e-m/picoRTOS_port.c:93-98, mips/m51xx/mach-pic32mz/intc.c:30-36,
riscv/rv32imac/mach-gd32vf103/intc-eclic.c:22-27, riscv/rv32ec/mach-ch32v003/intc-pfic.c:51-56.  picoRTOS_irq_t is
unsigned long. -/
def register32 (count : Nat) (table irq : W) (v : W × W) (m : W → W) : W → W :=
  if irq.toNat < count then
    Pico.Ctx.upd (Pico.Ctx.upd m (table + 8 * irq) v.1) (table + 8 * irq + 4) v.2
  else m

open Pico.Ctx (W) in
/-- The table reserved by `.rept DEVICE_INTERRUPT_VECTOR_COUNT; .long 0; .long 0` (the picoRTOS_portasm.S of these
ports), as its dispatcher sees it. -/
def table32 (count : Nat) (table : W) (look : W → (W → W) → W → W × W) : Table W W W (W × W) where
  reg := register32 count table
  look := look table
  ok := fun irq => irq.toNat < count
  mine := fun a => (a - table).toNat < 8 * count

section
open Pico.Ctx (W)

theorem ne32 (t i j : W) (n : Nat) (hi : i.toNat < n) (hj : j.toNat < n) (hn : 8 * n ≤ 2 ^ 32) (a b : W)
    (ha : a = 0 ∨ a = 4) (hb : b = 0 ∨ b = 4) (h : i ≠ j ∨ a ≠ b) : t + 8 * i + a ≠ t + 8 * j + b := by
  intro he
  have e : 8 * i + a = 8 * j + b := by grind
  have e' := congrArg BitVec.toNat e
  rw [BitVec.toNat_add, BitVec.toNat_add, BitVec.toNat_mul, BitVec.toNat_mul, show (8 : W).toNat = 8 from rfl] at e'
  have f : i.toNat ≠ j.toNat ∨ a.toNat ≠ b.toNat := by
    rcases h with h | h
    · exact Or.inl fun hh => h (BitVec.eq_of_toNat_eq hh)
    · exact Or.inr fun hh => h (BitVec.eq_of_toNat_eq hh)
  have fa : a.toNat = 0 ∨ a.toNat = 4 := by rcases ha with h | h <;> subst h <;> decide
  have fb : b.toNat = 0 ∨ b.toNat = 4 := by rcases hb with h | h <;> subst h <;> decide
  omega

/-- what the dispatchers of these ports read (C57) -/
def look32 (table : W) (m : W → W) (irq : W) : W × W := (m (table + 8 * irq), m (table + 8 * irq + 4))

theorem register32_step (count : Nat) (hc : 8 * count ≤ 2 ^ 32) (table : W) : (table32 count table look32).Step := by
  have key : ∀ i j : W, i.toNat < count → j.toNat < count → ∀ a b : W, (a = 0 ∨ a = 4) → (b = 0 ∨ b = 4) →
      (i ≠ j ∨ a ≠ b) → table + 8 * i + a ≠ table + 8 * j + b := fun i j hi hj a b ha hb h =>
    ne32 table i j count hi hj hc a b ha hb h
  have z : ∀ i : W, table + 8 * i = table + 8 * i + 0 := fun i => by grind
  refine ⟨fun i v m h => if_neg h, fun i v m h => ?_, fun i j v m hi hj h => ?_, fun i v m a h ha => ?_⟩
  · show look32 table (register32 count table i v m) i = v
    have h' : i.toNat < count := h
    simp only [look32, register32, if_pos h']
    have n := key i i h' h' 0 4 (Or.inl rfl) (Or.inr rfl) (Or.inr (by decide))
    rw [← z] at n
    rw [Pico.Ctx.upd_same, Pico.Ctx.upd_ne _ _ n, Pico.Ctx.upd_same]
  · show look32 table (register32 count table j v m) i = look32 table m i
    have hi' : i.toNat < count := hi
    have hj' : j.toNat < count := hj
    simp only [look32, register32, if_pos hj']
    have n : ∀ a b : W, (a = 0 ∨ a = 4) → (b = 0 ∨ b = 4) → table + 8 * i + a ≠ table + 8 * j + b :=
      fun a b ha hb => key i j hi' hj' a b ha hb (Or.inl (Ne.symm h))
    have n1 := n 0 4 (Or.inl rfl) (Or.inr rfl)
    have n2 := n 0 0 (Or.inl rfl) (Or.inl rfl)
    have n3 := n 4 4 (Or.inr rfl) (Or.inr rfl)
    have n4 := n 4 0 (Or.inr rfl) (Or.inl rfl)
    rw [← z] at n1 n2 n4
    rw [← z] at n2
    rw [Pico.Ctx.upd_ne _ _ n1, Pico.Ctx.upd_ne _ _ n2, Pico.Ctx.upd_ne _ _ n3, Pico.Ctx.upd_ne _ _ n4]
  · show register32 count table i v m a = m a
    have h' : i.toNat < count := h
    have ha' : ¬ (a - table).toNat < 8 * count := ha
    have hout : ∀ b : W, b = 0 ∨ b = 4 → a ≠ table + 8 * i + b := by
      intro b hb he
      apply ha'
      rw [he, show table + 8 * i + b - table = 8 * i + b by grind, BitVec.toNat_add, BitVec.toNat_mul,
        show (8 : W).toNat = 8 from rfl]
      have : b.toNat = 0 ∨ b.toNat = 4 := by rcases hb with h | h <;> subst h <;> decide
      omega
    have n0 := hout 0 (Or.inl rfl)
    rw [← z] at n0
    simp only [register32, if_pos h']
    rw [Pico.Ctx.upd_ne _ _ (hout 4 (Or.inr rfl)), Pico.Ctx.upd_ne _ _ n0]

/-- **C62 on Cortex-M** -/
theorem arm_table (count : Nat) (hc : 8 * count ≤ 2 ^ 32) (table : W) :
    (table32 count table Pico.Ctx.Arm.registered).Right := (register32_step count hc table).right
/-- **C62 on MIPS** -/
theorem mips_table (count : Nat) (hc : 8 * count ≤ 2 ^ 32) (table : W) :
    (table32 count table Pico.Ctx.Mips.registered).Right := (register32_step count hc table).right
/-- **C62 on RISC-V** (what is registered; the dispatcher looks elsewhere, see C57) -/
theorem riscv_table (count : Nat) (hc : 8 * count ≤ 2 ^ 32) (table : W) :
    (table32 count table Pico.Ctx.RiscV.registered).Right := (register32_step count hc table).right

/-- powerpc/e200z4/mach-mpc574x/intc-siul2.c:55-61, powerpc/e200z7/mach-mpc577x/intc-siu.c:51-57: two tables -/
def registerPpc (count : Nat) (vec privs irq : W) (v : W × W) (m : W → W) : W → W :=
  if irq.toNat < count then
    Pico.Ctx.upd (Pico.Ctx.upd m (vec + 4 * irq) v.1) (privs + 4 * irq) v.2
  else m

/-- `.long 0` times DEVICE_INTERRUPT_VECTOR_COUNT for the arguments (picoRTOS_portasm.S:166-172), a section of the
linker script for the functions (samples/ldscripts/ppc-eabivle_ram_sections.ld:114-116); the dispatcher: `ppc_isr` (C57) -/
def tablePpc (count : Nat) (vec privs : W) : Table W W W (W × W) where
  reg := registerPpc count vec privs
  look := fun m irq => (m (vec + 4 * irq), m (privs + 4 * irq))
  ok := fun irq => irq.toNat < count
  mine := fun a => (a - vec).toNat < 4 * count ∨ (a - privs).toNat < 4 * count

theorem in4 (t i : W) (n : Nat) (hi : i.toNat < n) (hn : 4 * n ≤ 2 ^ 32) : (t + 4 * i - t).toNat < 4 * n := by
  rw [show t + 4 * i - t = 4 * i by grind, BitVec.toNat_mul, show (4 : W).toNat = 4 from rfl]
  omega

theorem ne4 (t i j : W) (n : Nat) (hi : i.toNat < n) (hj : j.toNat < n) (hn : 4 * n ≤ 2 ^ 32) (h : i ≠ j) :
    t + 4 * i ≠ t + 4 * j := by
  intro he
  have e : 4 * i = 4 * j := by grind
  have e' := congrArg BitVec.toNat e
  rw [BitVec.toNat_mul, BitVec.toNat_mul, show (4 : W).toNat = 4 from rfl] at e'
  have : i.toNat ≠ j.toNat := fun hh => h (BitVec.eq_of_toNat_eq hh)
  omega

/-- **C62 on PowerPC**: if the two tables do not overlap. -/
theorem ppc_table (count : Nat) (hc : 4 * count ≤ 2 ^ 32) (vec privs : W)
    (hd : ∀ a : W, ¬ ((a - vec).toNat < 4 * count ∧ (a - privs).toNat < 4 * count)) : (tablePpc count vec privs).Right := by
  have vp : ∀ i j : W, i.toNat < count → j.toNat < count → vec + 4 * i ≠ privs + 4 * j := by
    intro i j hi hj h
    refine hd (vec + 4 * i) ⟨in4 _ _ _ hi hc, ?_⟩
    rw [h]; exact in4 _ _ _ hj hc
  apply Table.Step.right
  refine ⟨fun i v m h => if_neg h, fun i v m h => ?_, fun i j v m hi hj h => ?_, fun i v m a h ha => ?_⟩
  · have h' : i.toNat < count := h
    show (registerPpc count vec privs i v m (vec + 4 * i), registerPpc count vec privs i v m (privs + 4 * i)) = v
    simp only [registerPpc, if_pos h']
    rw [Pico.Ctx.upd_same, Pico.Ctx.upd_ne _ _ (vp i i h' h'), Pico.Ctx.upd_same]
  · have hi' : i.toNat < count := hi
    have hj' : j.toNat < count := hj
    show (registerPpc count vec privs j v m (vec + 4 * i), registerPpc count vec privs j v m (privs + 4 * i)) = _
    simp only [registerPpc, if_pos hj']
    rw [Pico.Ctx.upd_ne _ _ (vp i j hi' hj'), Pico.Ctx.upd_ne _ _ (ne4 vec i j count hi' hj' hc (Ne.symm h)),
      Pico.Ctx.upd_ne _ _ (ne4 privs i j count hi' hj' hc (Ne.symm h)), Pico.Ctx.upd_ne _ _ (Ne.symm (vp j i hj' hi'))]
    rfl
  · have h' : i.toNat < count := h
    show registerPpc count vec privs i v m a = m a
    simp only [registerPpc, if_pos h']
    have n1 : a ≠ privs + 4 * i := fun he => ha (Or.inr (by rw [he]; exact in4 _ _ _ h' hc))
    have n2 : a ≠ vec + 4 * i := fun he => ha (Or.inl (by rw [he]; exact in4 _ _ _ h' hc))
    rw [Pico.Ctx.upd_ne _ _ n1, Pico.Ctx.upd_ne _ _ n2]

end

/-! ## 8-bit and 16-bit ports -/

/-- store the cells `l` at `b`, `b + 1`, ... -/
def put {n : Nat} {B : Type} (m : BitVec n → B) (b : BitVec n) (l : List B) : BitVec n → B :=
  fun x => (l[(x - b).toNat]?).getD (m x)

theorem put_at {n : Nat} {B : Type} (m : BitVec n → B) (b : BitVec n) (l : List B) (k : Nat) (h : k < l.length)
    (hl : l.length ≤ 2 ^ n) : put m b l (b + BitVec.ofNat n k) = l[k] := by
  have : (b + BitVec.ofNat n k - b).toNat = k := by
    rw [show b + BitVec.ofNat n k - b = BitVec.ofNat n k by rw [BitVec.add_comm, BitVec.add_sub_cancel], BitVec.toNat_ofNat]
    exact Nat.mod_eq_of_lt (by omega)
  unfold put
  rw [this, List.getElem?_eq_getElem h]; rfl

theorem put_out {n : Nat} {B : Type} (m : BitVec n → B) (b : BitVec n) (l : List B) (x : BitVec n)
    (h : ¬ (x - b).toNat < l.length) : put m b l x = m x := by
  unfold put
  rw [List.getElem?_eq_none (by omega)]; rfl

/-- entries of `w` cells of a table of `n` entries do not overlap -/
theorem entry_apart {n : Nat} (t : BitVec n) (w c i j k : Nat) (hi : i < c) (hj : j < c) (hk : k < w) (hc : w * c ≤ 2 ^ n)
    (h : i ≠ j) : ¬ (t + BitVec.ofNat n (w * i) + BitVec.ofNat n k - (t + BitVec.ofNat n (w * j))).toNat < w := by
  rw [show t + BitVec.ofNat n (w * i) + BitVec.ofNat n k - (t + BitVec.ofNat n (w * j)) =
    BitVec.ofNat n (w * i) + BitVec.ofNat n k - BitVec.ofNat n (w * j) from
      (show ∀ t a k b : BitVec n, t + a + k - (t + b) = a + k - b by intros; grind) _ _ _ _]
  have e1 : w * i + w ≤ w * c := by rw [← Nat.mul_succ]; exact Nat.mul_le_mul_left _ hi
  have e2 : w * j + w ≤ w * c := by rw [← Nat.mul_succ]; exact Nat.mul_le_mul_left _ hj
  have e3 : w * i + w ≤ w * j ∨ w * j + w ≤ w * i := by
    rcases Nat.lt_or_gt_of_ne h with h | h
    · exact Or.inl (by rw [← Nat.mul_succ]; exact Nat.mul_le_mul_left _ h)
    · exact Or.inr (by rw [← Nat.mul_succ]; exact Nat.mul_le_mul_left _ h)
  have lk : k < 2 ^ n := by omega
  have li : w * i < 2 ^ n := by omega
  have lj : w * j < 2 ^ n := by omega
  rw [BitVec.toNat_sub, BitVec.toNat_add, BitVec.toNat_ofNat, BitVec.toNat_ofNat, BitVec.toNat_ofNat,
    Nat.mod_eq_of_lt lk, Nat.mod_eq_of_lt li, Nat.mod_eq_of_lt lj, Nat.mod_eq_of_lt (show w * i + k < 2 ^ n by omega)]
  generalize w * i = a at *
  generalize w * j = b at *
  rcases e3 with e | e
  · rw [Nat.mod_eq_of_lt (by omega)]; omega
  · rw [show 2 ^ n - b + (a + k) = (a + k - b) + 2 ^ n by omega, Nat.add_mod_right, Nat.mod_eq_of_lt (by omega)]; omega

theorem entry_in {n : Nat} (t : BitVec n) (w c i : Nat) (x : BitVec n) (hi : i < c) (hc : w * c ≤ 2 ^ n)
    (hx : (x - (t + BitVec.ofNat n (w * i))).toNat < w) : (x - t).toNat < w * c := by
  have e1 : w * i + w ≤ w * c := by rw [← Nat.mul_succ]; exact Nat.mul_le_mul_left _ hi
  rw [(show ∀ x t a : BitVec n, x - (t + a) = x - t - a by intros; grind) x t _,
    BitVec.toNat_sub, BitVec.toNat_ofNat, Nat.mod_eq_of_lt (show w * i < 2 ^ n by omega)] at hx
  have := (x - t).isLt
  generalize (x - t).toNat = y at *
  generalize w * i = a at *
  generalize w * c = b at *
  by_cases h : a ≤ y
  · rw [show 2 ^ n - a + y = (y - a) + 2 ^ n by omega, Nat.add_mod_right, Nat.mod_eq_of_lt (by omega)] at hx
    omega
  · omega

/-- A table of `c` entries of `w` cells each; `idx` gives the index of an interrupt (`none` if refused), `cells` the
contents of an entry, `get` reads it back, `size` is what the assembler reserved. -/
structure Lay (n : Nat) (B I V : Type) where
  w : Nat
  size : Nat
  idx : I → Option Nat
  cells : V → List B
  get : List B → V

/-- register: `ISR_TABLE[index].fn = fn; ISR_TABLE[index].priv = priv` -/
def Lay.reg {n : Nat} {B I V : Type} (L : Lay n B I V) (t : BitVec n) (i : I) (v : V) (m : BitVec n → B) : BitVec n → B :=
  match L.idx i with
  | none => m
  | some k => put m (t + BitVec.ofNat n (L.w * k)) (L.cells v)

/-- as a `Table`, with the dispatcher's `look` -/
def Lay.table {n : Nat} {B I V : Type} (L : Lay n B I V) (t : BitVec n) (look : (BitVec n → B) → I → V) :
    Table (BitVec n) B I V where
  reg := L.reg t
  look := look
  ok := fun i => L.idx i ≠ none
  mine := fun a => (a - t).toNat < L.size

theorem Lay.right {n : Nat} {B I V : Type} [DecidableEq I] (L : Lay n B I V) (t : BitVec n) (look : (BitVec n → B) → I → V)
    (c : Nat) (hw : L.w * c ≤ 2 ^ n) (hs : L.w * c ≤ L.size)
    (hidx : ∀ i k, L.idx i = some k → k < c) (hinj : ∀ i j k, L.idx i = some k → L.idx j = some k → i = j)
    (hlen : ∀ v, (L.cells v).length = L.w) (hget : ∀ v, L.get (L.cells v) = v)
    (hlook : ∀ m i k, L.idx i = some k →
      look m i = L.get ((List.range L.w).map fun o => m (t + BitVec.ofNat n (L.w * k) + BitVec.ofNat n o))) :
    (L.table t look).Right := by
  apply Table.Step.right
  have hwc : ∀ k, k < c → L.w ≤ 2 ^ n := fun k hk =>
    Nat.le_trans (Nat.le_mul_of_pos_right L.w (Nat.lt_of_le_of_lt (Nat.zero_le k) hk)) hw
  refine ⟨fun i v m h => ?_, fun i v m h => ?_, fun i j v m hi hj h => ?_, fun i v m a h ha => ?_⟩
  · have h' : L.idx i = none := Classical.not_not.1 h
    show L.reg t i v m = m
    unfold Lay.reg; rw [h']
  · show look (L.reg t i v m) i = v
    obtain ⟨k, hk⟩ := Option.ne_none_iff_exists'.1 h
    unfold Lay.reg
    rw [hk, hlook _ _ _ hk]
    refine Eq.trans (congrArg L.get ?_) (hget v)
    apply List.ext_getElem
    · simp [hlen]
    · intro o h1 h2
      simp only [List.getElem_map, List.getElem_range]
      exact put_at _ _ _ _ h2 (by rw [hlen]; exact hwc k (hidx _ _ hk))
  · show look (L.reg t j v m) i = look m i
    obtain ⟨k, hk⟩ := Option.ne_none_iff_exists'.1 hi
    obtain ⟨l, hl⟩ := Option.ne_none_iff_exists'.1 hj
    unfold Lay.reg
    rw [hl, hlook _ _ _ hk, hlook _ _ _ hk]
    refine congrArg L.get ?_
    apply List.map_congr_left
    intro o ho
    rw [List.mem_range] at ho
    refine put_out _ _ _ _ ?_
    rw [hlen]
    exact entry_apart t L.w c k l o (hidx _ _ hk) (hidx _ _ hl) ho hw fun hkl => h (hinj _ _ _ hl (hkl ▸ hk))
  · show L.reg t i v m a = m a
    obtain ⟨k, hk⟩ := Option.ne_none_iff_exists'.1 h
    unfold Lay.reg
    rw [hk]
    refine put_out _ _ _ _ fun hx => ha ?_
    rw [hlen] at hx
    exact Nat.lt_of_lt_of_le (entry_in t L.w c k a (hidx _ _ hk) hw hx) hs

section
open Pico.Ctx8 (Byte Addr hi lo cat)

/-- two big-endian 16-bit words -/
def getBE : List Byte → Addr × Addr
  | [a, b, c, d] => (cat a b, cat c d)
  | _ => (0, 0)

/-- stm8/picoRTOS_port.c:107-113, hcs08/picoRTOS_port.c:93-99; picoRTOS_irq_t is uint8_t; the assembler reserves 4
bytes per interrupt (stm8/picoRTOS_portasm.S:136-141, hcs08/picoRTOS_portasm.S:161-166). -/
def layBE (count : Nat) : Lay 16 Byte Byte (Addr × Addr) where
  w := 4
  size := 4 * count
  idx := fun irq => if irq.toNat < count then some irq.toNat else none
  cells := fun v => [hi v.1, lo v.1, hi v.2, lo v.2]
  get := getBE

theorem layBE_idx (count : Nat) (i : Byte) (k : Nat) (h : (layBE count).idx i = some k) : i.toNat = k ∧ k < count := by
  have h' : (if i.toNat < count then some i.toNat else none) = some k := h
  by_cases hc : i.toNat < count
  · rw [if_pos hc, Option.some.injEq] at h'; omega
  · rw [if_neg hc] at h'; cases h'

theorem layBE_right (count : Nat) (hc : count ≤ 2 ^ 14) (t : Addr) (look : (Addr → Byte) → Byte → Addr × Addr)
    (hlook : ∀ m i, look m i = let e := t + BitVec.ofNat 16 (4 * i.toNat)
      (cat (m e) (m (e + 1)), cat (m (e + 2)) (m (e + 3)))) : ((layBE count).table t look).Right := by
  refine (layBE count).right t look count (by show 4 * count ≤ 65536; omega) (Nat.le_refl _)
    (fun i k h => (layBE_idx count i k h).2) (fun i j k h h' => BitVec.eq_of_toNat_eq
      ((layBE_idx count i k h).1.trans (layBE_idx count j k h').1.symm)) (fun _ => rfl) (fun v => ?_) (fun m i k h => ?_)
  · show (cat (hi v.1) (lo v.1), cat (hi v.2) (lo v.2)) = v
    rw [Pico.Ctx8.cat_hi_lo, Pico.Ctx8.cat_hi_lo]
  · obtain ⟨h1, -⟩ := layBE_idx count i k h
    subst h1
    rw [hlook]
    generalize he : t + BitVec.ofNat 16 (4 * i.toNat) = e
    show _ = getBE ((List.range 4).map fun o => m (t + BitVec.ofNat 16 (4 * i.toNat) + BitVec.ofNat 16 o))
    rw [he]
    show _ = (cat (m (e + 0#16)) (m (e + 1#16)), cat (m (e + 2#16)) (m (e + 3#16)))
    rw [BitVec.add_zero]
    rfl

/-- **C62 on STM8** -/
theorem stm8_table (count : Nat) (hc : count ≤ 2 ^ 14) (t : Addr) :
    ((layBE count).table t (Pico.Ctx8.Stm8.registered t)).Right := layBE_right count hc t _ fun _ _ => rfl
/-- **C62 on HCS08** -/
theorem hcs08_table (c : Pico.Ctx8.Hcs08.Cfg) (count : Nat) (hc : count ≤ 2 ^ 14) :
    ((layBE count).table c.table (Pico.Ctx8.Hcs08.registered c)).Right := layBE_right count hc c.table _ fun _ _ => rfl

/-- two little-endian 16-bit words -/
def getLE : List Byte → Addr × Addr
  | [a, b, c, d] => (cat b a, cat d c)
  | _ => (0, 0)

/-- avr/picoRTOS_port.c:92-99: interrupts are numbered from 1; `size` is what the assembler reserves. -/
def layAvr (count size : Nat) : Lay 16 Byte Byte (Addr × Addr) where
  w := 4
  size := size
  idx := fun irq => if 0 < irq.toNat ∧ irq.toNat < count + 1 then some (irq.toNat - 1) else none
  cells := fun v => [lo v.1, hi v.1, lo v.2, hi v.2]
  get := getLE

/-- `.comm ISR_TABLE, DEVICE_INTERRUPT_VECTOR_COUNT, 4` (avr/picoRTOS_portasm.S:180): that many bytes (the last number
is the alignment). -/
def avrReserved (count : Nat) : Nat := count

theorem layAvr_idx (count size : Nat) (i : Byte) (k : Nat) (h : (layAvr count size).idx i = some k) :
    i.toNat = k + 1 ∧ k < count := by
  have h' : (if 0 < i.toNat ∧ i.toNat < count + 1 then some (i.toNat - 1) else none) = some k := h
  by_cases hc : 0 < i.toNat ∧ i.toNat < count + 1
  · rw [if_pos hc, Option.some.injEq] at h'; omega
  · rw [if_neg hc] at h'; cases h'

/-- On AVR the claim holds of a table of four bytes per interrupt.  Partial: that is not what the assembler reserves, see
`avr_table_overrun`. -/
theorem avr_table_partial (count : Nat) (hc : count ≤ 2 ^ 14) (t : Addr) :
    ((layAvr count (4 * count)).table t fun m i => Pico.Ctx8.Avr.registered t m i.toNat).Right := by
  refine (layAvr count (4 * count)).right t _ count (by show 4 * count ≤ 65536; omega) (Nat.le_refl _)
    (fun i k h => (layAvr_idx _ _ i k h).2) (fun i j k h h' => BitVec.eq_of_toNat_eq
      ((layAvr_idx _ _ i k h).1.trans (layAvr_idx _ _ j k h').1.symm)) (fun _ => rfl) (fun v => ?_) (fun m i k h => ?_)
  · show (cat (hi v.1) (lo v.1), cat (hi v.2) (lo v.2)) = v
    rw [Pico.Ctx8.cat_hi_lo, Pico.Ctx8.cat_hi_lo]
  · obtain ⟨h1, -⟩ := layAvr_idx _ _ i k h
    unfold Pico.Ctx8.Avr.registered
    rw [h1, Nat.add_sub_cancel]
    have he : t + 4 * BitVec.ofNat 16 k = t + BitVec.ofNat 16 (4 * k) := by
      congr 1
      apply BitVec.eq_of_toNat_eq
      rw [BitVec.toNat_mul, BitVec.toNat_ofNat, BitVec.toNat_ofNat, show (4 : Addr).toNat = 4 from rfl]
      omega
    rw [he]
    generalize he' : t + BitVec.ofNat 16 (4 * k) = e
    show _ = getLE ((List.range 4).map fun o => m (t + BitVec.ofNat 16 (4 * k) + BitVec.ofNat 16 o))
    rw [he']
    show _ = (cat (m (e + 1#16)) (m (e + 0#16)), cat (m (e + 3#16)) (m (e + 2#16)))
    rw [BitVec.add_zero]
    rfl

/-- **On AVR registering an interrupt writes outside the memory reserved for the table** as soon as four times its
number exceeds the number of interrupts: the last byte of the argument lands past the end of the table, wherever the
table is and whatever the memory holds. -/
theorem avr_table_overrun (count : Nat) (hc : count < 2 ^ 14) (t : Addr) (irq : Byte) (h0 : 0 < irq.toNat) (h1 : irq.toNat ≤ count)
    (h4 : count < 4 * irq.toNat) (v : Addr × Addr) (m : Addr → Byte) :
    let a := t + BitVec.ofNat 16 (4 * irq.toNat - 1)
    ¬ (a - t).toNat < avrReserved count ∧ (layAvr count (avrReserved count)).reg t irq v m a = hi v.2 := by
  simp only []
  have hi4 := irq.isLt
  refine ⟨?_, ?_⟩
  · rw [show ∀ x y : Addr, x + y - x = y by intros; grind, BitVec.toNat_ofNat]
    unfold avrReserved
    omega
  · have hk : (layAvr count (avrReserved count)).idx irq = some (irq.toNat - 1) := by
      show (if 0 < irq.toNat ∧ irq.toNat < count + 1 then some (irq.toNat - 1) else none) = _
      rw [if_pos ⟨h0, by omega⟩]
    unfold Lay.reg
    rw [hk]
    show put m (t + BitVec.ofNat 16 (4 * (irq.toNat - 1))) [lo v.1, hi v.1, lo v.2, hi v.2] _ = _
    have e : t + BitVec.ofNat 16 (4 * irq.toNat - 1) = t + BitVec.ofNat 16 (4 * (irq.toNat - 1)) + BitVec.ofNat 16 3 := by
      rw [BitVec.add_assoc]
      congr 1
      apply BitVec.eq_of_toNat_eq
      rw [BitVec.toNat_add, BitVec.toNat_ofNat, BitVec.toNat_ofNat, BitVec.toNat_ofNat]
      omega
    rw [e]
    exact put_at m _ [lo v.1, hi v.1, lo v.2, hi v.2] 3 (Nat.lt_succ_self 3) (show 4 ≤ 2 ^ 16 by decide)

/-- **... so C62 is false of AVR** for every device: with two interrupts or more, the last one's argument is out. -/
theorem avr_table_wrong (count : Nat) (h2 : 1 ≤ count) (hc : count < 256) (t : Addr) :
    ¬ ((layAvr count (avrReserved count)).table t fun m i => Pico.Ctx8.Avr.registered t m i.toNat).Right := by
  intro h
  have hn : (BitVec.ofNat 8 count : Byte).toNat = count := by rw [BitVec.toNat_ofNat]; omega
  obtain ⟨g1, g2⟩ := avr_table_overrun count (by omega) t (BitVec.ofNat 8 count) (by omega) (by omega) (by omega) (0, 0xffff)
    (fun _ => 0)
  have := (h [(BitVec.ofNat 8 count, (0, 0xffff))] (fun _ => 0)).2 _ g1
  have e : (layAvr count (avrReserved count)).reg t (BitVec.ofNat 8 count) (0, 0xffff) (fun _ => 0)
      (t + BitVec.ofNat 16 (4 * (BitVec.ofNat 8 count : Byte).toNat - 1)) = 0 := this
  rw [g2] at e
  exact absurd e (by decide)

/-- the tick interrupt of the atmega328p (IRQ_TIMER0_COMPA 14 of 25) is one of them: arch_timer_init itself
(avr/timer-tc0.c:69) writes past the table -/
example (t : Addr) (m : Addr → Byte) (fn : Addr) :
    ¬ (t + BitVec.ofNat 16 55 - t).toNat < avrReserved 25 ∧
    (layAvr 25 (avrReserved 25)).reg t 14 (fn, 0) m (t + BitVec.ofNat 16 55) = hi 0 :=
  avr_table_overrun 25 (by decide) t 14 (by decide) (by decide) (by decide) (fn, 0) m

end

/-! ## 8051 -/
section
open Pico.Ctx8 (Byte Addr hi lo cat)

/-- a generic pointer of SDCC: 16-bit address and memory space -/
abbrev Gptr := Addr × Byte

def get51 : List Byte → Addr × Gptr
  | [a, b, c, d, e] => (cat b a, (cat d c, e))
  | _ => (0, (0, 0))

/-- 8051/picoRTOS_port.c:74-80; 5 bytes per interrupt (8051/picoRTOS_portasm.S:314-320) -/
def lay51 (count : Nat) : Lay 16 Byte Byte (Addr × Gptr) where
  w := 5
  size := 5 * count
  idx := fun irq => if irq.toNat < count then some irq.toNat else none
  cells := fun v => [lo v.1, hi v.1, lo v.2.1, hi v.2.1, v.2.2]
  get := get51

/-- What Default_Handler reads for vector `vn`: 8051/picoRTOS_portasm.S:148-174 (`mul ab` leaves the low byte of the
product in A, which is what is added to the address). -/
def look51 (t : Addr) (m : Addr → Byte) (vn : Byte) : Addr × Addr :=
  let e := t + (BitVec.ofNat 16 ((vn.toNat * 5) % 256))
  (cat (m (e + 1)) (m e), cat (m (e + 3)) (m (e + 2)))

theorem lay51_idx (count : Nat) (i : Byte) (k : Nat) (h : (lay51 count).idx i = some k) : i.toNat = k ∧ k < count := by
  have h' : (if i.toNat < count then some i.toNat else none) = some k := h
  by_cases hc : i.toNat < count
  · rw [if_pos hc, Option.some.injEq] at h'; omega
  · rw [if_neg hc] at h'; cases h'

/-- the whole entry, memory space of the argument included -/
def entry51 (t : Addr) (m : Addr → Byte) (irq : Byte) : Addr × Gptr :=
  let e := t + BitVec.ofNat 16 (5 * irq.toNat)
  (cat (m (e + 1)) (m e), (cat (m (e + 3)) (m (e + 2)), m (e + 4)))

/-- **C62 on 8051** -/
theorem mcs51_table (count : Nat) (hc : count ≤ 51) (t : Addr) : ((lay51 count).table t (entry51 t)).Right := by
  refine (lay51 count).right t _ count (by show 5 * count ≤ 65536; omega) (Nat.le_refl _)
    (fun i k h => (lay51_idx count i k h).2) (fun i j k h h' => BitVec.eq_of_toNat_eq
      ((lay51_idx count i k h).1.trans (lay51_idx count j k h').1.symm)) (fun _ => rfl) (fun v => ?_) (fun m i k h => ?_)
  · show (cat (hi v.1) (lo v.1), (cat (hi v.2.1) (lo v.2.1), v.2.2)) = v
    rw [Pico.Ctx8.cat_hi_lo, Pico.Ctx8.cat_hi_lo]
  · obtain ⟨h1, -⟩ := lay51_idx count i k h
    subst h1
    unfold entry51
    generalize he : t + BitVec.ofNat 16 (5 * i.toNat) = e
    show _ = get51 ((List.range 5).map fun o => m (t + BitVec.ofNat 16 (5 * i.toNat) + BitVec.ofNat 16 o))
    rw [he]
    show _ = (cat (m (e + 1#16)) (m (e + 0#16)), (cat (m (e + 3#16)) (m (e + 2#16)), m (e + 4#16)))
    rw [BitVec.add_zero]
    rfl

/-- the dispatcher reads the function and the address of the argument (it supplies the memory space itself: 0, external
memory, lines 180-183) of the entry of the vector, for all the vectors there can be -/
theorem mcs51_look (t : Addr) (m : Addr → Byte) (vn : Byte) (h : vn.toNat ≤ 51) :
    look51 t m vn = ((entry51 t m vn).1, (entry51 t m vn).2.1) := by
  unfold look51 entry51
  rw [Nat.mod_eq_of_lt (by omega), Nat.mul_comm]

end

/-! ## C28x -/
section

abbrev Half := BitVec 16
abbrev Word := BitVec 32

def lo16 (x : Word) : Half := BitVec.ofNat 16 x.toNat
def hi16 (x : Word) : Half := BitVec.ofNat 16 (x.toNat / 65536)
def cat16 (h l : Half) : Word := BitVec.ofNat 32 (h.toNat * 65536 + l.toNat)

theorem cat16_hi_lo (x : Word) : cat16 (hi16 x) (lo16 x) = x := by
  apply BitVec.eq_of_toNat_eq
  have := x.isLt
  simp only [cat16, hi16, lo16, BitVec.toNat_ofNat]
  omega

def get28 : List Half → Word × Word
  | [a, b, c, d] => (cat16 b a, cat16 d c)
  | _ => (0, 0)

/-- c2000/c28x/picoRTOS_port.c:119-128: memory is made of 16-bit words; IRQ_INT1_1 = 32, IRQ_INT12_16 = 223, and
DEVICE_INTERRUPT_VECTOR_COUNT = 192 entries of 4 words are reserved (picoRTOS_portasm.asm:223-228).  In a debug build the
processor stops on an interrupt out of range, which is modelled as a refusal. -/
def lay28 : Lay 32 Half (BitVec 16) (Word × Word) where
  w := 4
  size := 4 * 192
  idx := fun irq => if 32 ≤ irq.toNat ∧ irq.toNat ≤ 223 then some (irq.toNat - 32) else none
  cells := fun v => [lo16 v.1, hi16 v.1, lo16 v.2, hi16 v.2]
  get := get28

/-- the same in a release build, where arch_assert_void does nothing (arch/include/picoRTOS_port.h:105) -/
def lay28r : Lay 32 Half (BitVec 16) (Word × Word) := { lay28 with idx := fun irq => some (irq - 32).toNat }

def entry28 (t : Word) (m : Word → Half) (irq : BitVec 16) : Word × Word :=
  let e := t + BitVec.ofNat 32 (4 * (irq.toNat - 32))
  (cat16 (m (e + 1)) (m e), cat16 (m (e + 3)) (m (e + 2)))

theorem lay28_idx (i : BitVec 16) (k : Nat) (h : lay28.idx i = some k) : i.toNat = k + 32 ∧ k < 192 := by
  have h' : (if 32 ≤ i.toNat ∧ i.toNat ≤ 223 then some (i.toNat - 32) else none) = some k := h
  by_cases hc : 32 ≤ i.toNat ∧ i.toNat ≤ 223
  · rw [if_pos hc, Option.some.injEq] at h'; omega
  · rw [if_neg hc] at h'; cases h'

/-- **C62 on C28x, debug build** -/
theorem c28x_table (t : Word) : (lay28.table t (entry28 t)).Right := by
  refine lay28.right t _ 192 (by decide) (Nat.le_refl _)
    (fun i k h => (lay28_idx i k h).2) (fun i j k h h' => BitVec.eq_of_toNat_eq
      ((lay28_idx i k h).1.trans (lay28_idx j k h').1.symm)) (fun _ => rfl) (fun v => ?_) (fun m i k h => ?_)
  · show (cat16 (hi16 v.1) (lo16 v.1), cat16 (hi16 v.2) (lo16 v.2)) = v
    rw [cat16_hi_lo, cat16_hi_lo]
  · obtain ⟨h1, -⟩ := lay28_idx i k h
    unfold entry28
    rw [h1, Nat.add_sub_cancel]
    generalize he : t + BitVec.ofNat 32 (4 * k) = e
    show _ = get28 ((List.range 4).map fun o => m (t + BitVec.ofNat 32 (4 * k) + BitVec.ofNat 32 o))
    rw [he]
    show _ = (cat16 (m (e + 1#32)) (m (e + 0#32)), cat16 (m (e + 3#32)) (m (e + 2#32)))
    rw [BitVec.add_zero]
    rfl

/-- **C62 is false of C28x in a release build**: an interrupt out of range is not refused, and what is registered for it
is written outside the table. -/
theorem c28x_release_overrun (t : Word) (irq : BitVec 16) (h : ¬ (32 ≤ irq.toNat ∧ irq.toNat ≤ 223)) (v : Word × Word)
    (m : Word → Half) : let a := t + BitVec.ofNat 32 (4 * (irq - 32).toNat)
    ¬ (a - t).toNat < lay28r.size ∧ lay28r.reg t irq v m a = lo16 v.1 := by
  simp only []
  have hb := irq.isLt
  have hs : (irq - 32).toNat = (65536 - 32 + irq.toNat) % 65536 := by
    rw [BitVec.toNat_sub]; rfl
  refine ⟨?_, ?_⟩
  · rw [show ∀ x y : Word, x + y - x = y by intros; grind, BitVec.toNat_ofNat, hs]
    show ¬ _ < 768
    omega
  · show put m (t + BitVec.ofNat 32 (4 * (irq - 32).toNat)) [lo16 v.1, hi16 v.1, lo16 v.2, hi16 v.2] _ = _
    generalize hq : t + BitVec.ofNat 32 (4 * (irq - 32).toNat) = q
    have := put_at m q [lo16 v.1, hi16 v.1, lo16 v.2, hi16 v.2] 0 (Nat.succ_pos 3) (show 4 ≤ 2 ^ 32 by decide)
    rw [show q + BitVec.ofNat 32 0 = q from BitVec.add_zero q] at this
    exact this

/-- What Default_Handler of C28x reads when the vector `vec` of the table at ADDR_PIEVECTTABLE = 0xd00 (two words each) was
fetched, which PIECTRL reports as its address, with the enable bit in bit 0: picoRTOS_portasm.asm:195-208, and
mach-f28379x/picoRTOS_device.h:15-16. -/
def look28 (t : Word) (m : Word → Half) (vec : Nat) : Word × Word :=
  let piectrl := BitVec.ofNat 32 (0xd00 + 2 * vec + 1)
  let acc := ((piectrl - 0xd00) &&& 0x1fe) <<< 1
  (cat16 (m (t + acc + 1)) (m (t + acc)), cat16 (m (t + 2 + acc + 1)) (m (t + 2 + acc)))

theorem acc28 : ∀ vec : Nat, vec < 224 →
    ((BitVec.ofNat 32 (0xd00 + 2 * vec + 1) - 0xd00) &&& 0x1fe) <<< 1 = BitVec.ofNat 32 (4 * vec) := by
  set_option maxRecDepth 20000 in decide

/-- **C57 is false of C28x: interrupt `vec` runs what was registered for interrupt `vec + 32`** (the table is indexed from
the first vector by the dispatcher, from IRQ_INT1_1 = 32 by arch_register_interrupt) ... -/
theorem c28x_isr_wrong (t : Word) (m : Word → Half) (vec : Nat) (h1 : 32 ≤ vec) (h2 : vec ≤ 223) :
    look28 t m vec = entry28 t m (BitVec.ofNat 16 (vec + 32)) := by
  have e : (BitVec.ofNat 16 (vec + 32)).toNat = vec + 32 := by rw [BitVec.toNat_ofNat]; omega
  unfold look28 entry28
  simp only []
  rw [acc28 vec (by omega), e, Nat.add_sub_cancel]
  rw [show ∀ x : Word, t + 2 + x = t + x + 2 by intros; grind, show ∀ x : Word, t + x + 2 + 1 = t + x + 3 by intros; grind]

/-- ... which for the last 32 interrupts is outside the table. -/
theorem c28x_isr_outside (t : Word) (vec : Nat) (h1 : 192 ≤ vec) (h2 : vec ≤ 223) :
    ¬ (t + ((BitVec.ofNat 32 (0xd00 + 2 * vec + 1) - 0xd00) &&& 0x1fe) <<< 1 - t).toNat < lay28.size := by
  rw [acc28 vec (by omega), show ∀ x y : Word, x + y - x = y by intros; grind, BitVec.toNat_ofNat]
  show ¬ _ < 768
  omega

/-- so after registering a function for INT1.1 (32) in an empty table, INT1.1 finds nothing -/
theorem c28x_isr_lost (t fn priv : Word) :
    let m := lay28.reg t 32 (fn, priv) (fun _ => 0)
    entry28 t m 32 = (fn, priv) ∧ look28 t m 32 = (0, 0) := by
  have h := c28x_table t
  refine ⟨(h [(32, (fn, priv))] fun _ => 0).1 32 (by show lay28.idx 32 ≠ none; decide), ?_⟩
  rw [c28x_isr_wrong t _ 32 (by decide) (by decide)]
  have g := (h [(32, (fn, priv))] fun _ => 0).1 64 (by show lay28.idx 64 ≠ none; decide)
  have e : lastFor (64 : BitVec 16) ((lay28.table t (entry28 t)).look (fun _ => 0) 64) [(32, (fn, priv))] = (0, 0) := by
    show (if (32 : BitVec 16) = 64 then (fn, priv) else (cat16 0 0, cat16 0 0)) = _
    rw [if_neg (by decide)]
    decide
  rw [e] at g
  exact g

end

/-! ### The hypotheses are met -/
/-- rp2040: 26 interrupts; two registrations for interrupt 3, one for a number out of range -/
example : let t := table32 26 0x20000000 Pico.Ctx.Arm.registered
    t.look (t.regs [(3, (0x1001, 7)), (99, (0x1, 1)), (3, (0x2001, 8))] fun _ => 0) 3 = (0x2001, 8) :=
  ((arm_table 26 (by decide) 0x20000000) _ _).1 3 (show (3 : Pico.Ctx.W).toNat < 26 by decide)

end Pico.IsrTab
