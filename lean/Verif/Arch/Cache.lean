import Verif.Misc.TaskInit
/-
Data cache maintenance: picoRTOS_flush_dcache / picoRTOS_invalidate_dcache (scheduler/picoRTOS.c:724-748,
picoRTOS-SMP.c:728-738, picoRTOS-lite.c:396-406: they call arch_flush_dcache / arch_invalidate_dcache).

Modelled: a write-back data cache with lines of `2 ^ k` bytes, a line being present or not, dirty or
not, and possibly different from memory while clean (a device or another core wrote memory).  Memory is
by byte.  Replacement (a line written back and dropped at any time) is not modelled: what is stated
holds of the state in which the call is made.
-/
namespace Pico.Cache

abbrev Byte := BitVec 8

/-- lines are numbered `address / 2 ^ k`; the contents of a line are given by byte address -/
structure St where
  mem : Nat → Byte
  line : Nat → Option (Bool × (Nat → Byte))

/-- number of the line of byte address `a` -/
def num (k a : Nat) : Nat := a / 2 ^ k

/-- what a load of byte `a` returns -/
def St.load (s : St) (k a : Nat) : Byte :=
  match s.line (num k a) with
  | some (_, d) => d a
  | none => s.mem a

/-- byte `a` was written by this core and memory has not got it yet -/
def St.dirty (s : St) (k a : Nat) : Prop := ∃ d, s.line (num k a) = some (true, d)

/-- no device changed memory under a clean line holding byte `a` -/
def St.fresh (s : St) (k a : Nat) : Prop := ∀ d, s.line (num k a) = some (false, d) → d a = s.mem a

/-- the cache instructions, on the line of the address given -/
inductive CacheOp where
  /-- write back if dirty, then drop: `dcbf` (PowerPC), `cache Hit_Writeback_Inv_D` (MIPS) -/
  | writebackInv
  /-- write back if dirty, keep: a write to DCCMVAC (ARMv7-M) -/
  | clean
  /-- drop: `dcbi`, `cache Hit_Invalidate_D`, a write to DCIMVAC -/
  | inval

/-- memory after line `l` is written back -/
def wbMem (k l : Nat) (s : St) : Nat → Byte :=
  match s.line l with
  | some (true, d) => fun a => if num k a = l then d a else s.mem a
  | _ => s.mem

def apply (k : Nat) : CacheOp → Nat → St → St
  | .writebackInv, a, s =>
    ⟨wbMem k (num k a) s, fun l => if l = num k a then none else s.line l⟩
  | .clean, a, s =>
    ⟨wbMem k (num k a) s, fun l => if l = num k a then (s.line l).map (fun p => (false, p.2)) else s.line l⟩
  | .inval, a, s => ⟨s.mem, fun l => if l = num k a then none else s.line l⟩

/-- `while (npages-- != 0) op(base + npages * ARCH_L1_DCACHE_LINESIZE)` -/
def loop (k : Nat) (op : CacheOp) (base : BitVec 32) : Nat → St → St
  | 0, s => s
  | j + 1, s => loop k op base j (apply k op (base + BitVec.ofNat 32 j * BitVec.ofNat 32 (2 ^ k)).toNat s)

/-- arch_invalidate_dcache_opt / arch_flush_dcache_opt: arch/powerpc/e200z4/picoRTOS_port.c:101-125,
arch/powerpc/e200z7/picoRTOS_port.c:98-122 (both under CONFIG_CACHE_MAINTENANCE, empty otherwise),
arch/mips/m51xx/picoRTOS_port.c:100-125, arch/arm/armv7e-m/cache_mvsa.c:13-39.  All eight have the same
text but for the instruction.  `2 ^ k` is ARCH_L1_DCACHE_LINESIZE. -/
def range (k : Nat) (op : CacheOp) (addr n : BitVec 32) (s : St) : St :=
  let mask : BitVec 32 := BitVec.ofNat 32 (2 ^ k) - 1
  let npages := (n + mask) / BitVec.ofNat 32 (2 ^ k)
  let base := addr &&& ~~~mask
  loop k op base npages.toNat s

/-! ## Specification -/

/-- `a` is one of the `n` bytes at `addr` -/
def In (addr n : BitVec 32) (a : Nat) : Prop := addr.toNat ≤ a ∧ a < addr.toNat + n.toNat

/-- `a` shares its cache line with one of the `n` bytes at `addr` -/
def Near (k : Nat) (addr n : BitVec 32) (a : Nat) : Prop := ∃ b, In addr n b ∧ num k b = num k a

/-- Flushing `n` bytes at `addr`: memory gets every byte of the range that the core had written and memory
had not, none of them is pending any more; no load gives another value than before (nothing is lost),
and the lines outside of the range are not concerned. -/
def FlushOk (k : Nat) (op : CacheOp) (addr n : BitVec 32) : Prop :=
  ∀ s : St,
    (∀ a, In addr n a → s.dirty k a → (range k op addr n s).mem a = s.load k a) ∧
    (∀ a, In addr n a → ¬ (range k op addr n s).dirty k a) ∧
    (∀ a, s.fresh k a → (range k op addr n s).load k a = s.load k a) ∧
    (∀ a, ¬ Near k addr n a → (range k op addr n s).mem a = s.mem a ∧
      (range k op addr n s).line (num k a) = s.line (num k a))

/-- Invalidating `n` bytes at `addr`: a load of any byte of the range then gives what memory holds (what a
device or another core wrote); memory is not written; lines outside of the range are not concerned. -/
def InvalidateOk (k : Nat) (op : CacheOp) (addr n : BitVec 32) : Prop :=
  ∀ s : St,
    (∀ a, In addr n a → (range k op addr n s).load k a = s.mem a) ∧
    (range k op addr n s).mem = s.mem ∧
    (∀ a, ¬ Near k addr n a → (range k op addr n s).line (num k a) = s.line (num k a))

/-! ## Arithmetic of `range` -/

/-- first line and number of lines visited -/
def first (k : Nat) (addr : BitVec 32) : Nat := num k addr.toNat
def count (k : Nat) (n : BitVec 32) : Nat := (n.toNat + (2 ^ k - 1)) / 2 ^ k

/-- the lines visited, one after the other -/
def lineLoop (k : Nat) (op : CacheOp) (l : Nat) : Nat → St → St
  | 0, s => s
  | j + 1, s => lineLoop k op l j (apply k op ((l + j) * 2 ^ k) s)

theorem num_mul (k l : Nat) : num k (l * 2 ^ k) = l := Nat.mul_div_cancel _ (Nat.two_pow_pos k)

theorem range_eq (k : Nat) (hk : k < 32) (op : CacheOp) (addr n : BitVec 32) (s : St)
    (hn : n.toNat + 2 ^ k ≤ 2 ^ 32) (ht : (first k addr + count k n) * 2 ^ k ≤ 2 ^ 32) :
    range k op addr n s = lineLoop k op (first k addr) (count k n) s := by
  have hp := Nat.two_pow_pos k
  have hkk : 2 ^ k < 2 ^ 32 := Nat.pow_lt_pow_right (by decide) hk
  have hbase : (addr &&& ~~~(BitVec.ofNat 32 (2 ^ k) - 1)).toNat = first k addr * 2 ^ k :=
    TaskInit.and_not_mask addr _ rfl hk
  have hmask : (BitVec.ofNat 32 (2 ^ k) - 1 : BitVec 32).toNat = 2 ^ k - 1 := by
    rw [BitVec.toNat_sub, BitVec.toNat_ofNat, Nat.mod_eq_of_lt hkk]
    show (2 ^ 32 - 1 + 2 ^ k) % 2 ^ 32 = 2 ^ k - 1
    omega
  have hcnt : ((n + (BitVec.ofNat 32 (2 ^ k) - 1)) / BitVec.ofNat 32 (2 ^ k)).toNat = count k n := by
    rw [BitVec.toNat_udiv, BitVec.toNat_add, hmask, BitVec.toNat_ofNat, Nat.mod_eq_of_lt hkk,
      Nat.mod_eq_of_lt (by omega)]
    rfl
  simp only [range]
  rw [hcnt]
  generalize hc : count k n = c at ht
  have aux : ∀ j s, j ≤ c →
      loop k op (addr &&& ~~~(BitVec.ofNat 32 (2 ^ k) - 1)) j s = lineLoop k op (first k addr) j s := by
    intro j
    induction j with
    | zero => intro s _; rfl
    | succ j ih =>
      intro s hj
      rw [loop, lineLoop, ih _ (by omega)]
      have h1 : (first k addr + j + 1) * 2 ^ k ≤ 2 ^ 32 :=
        Nat.le_trans (Nat.mul_le_mul_right _ (by omega)) ht
      rw [Nat.add_mul, Nat.one_mul] at h1
      have h2 : ((addr &&& ~~~(BitVec.ofNat 32 (2 ^ k) - 1)) + BitVec.ofNat 32 j * BitVec.ofNat 32 (2 ^ k)).toNat
          = (first k addr + j) * 2 ^ k := by
        rw [Nat.add_mul] at h1 ⊢
        have hj1 : j ≤ j * 2 ^ k := Nat.le_mul_of_pos_right _ hp
        have hj32 : j < 2 ^ 32 := by omega
        have hm32 : j * 2 ^ k < 2 ^ 32 := by omega
        rw [BitVec.toNat_add, hbase, BitVec.toNat_mul, BitVec.toNat_ofNat, BitVec.toNat_ofNat, Nat.mod_eq_of_lt hkk,
          Nat.mod_eq_of_lt hj32, Nat.mod_eq_of_lt hm32, Nat.mod_eq_of_lt (by omega)]
      rw [h2]
  exact aux c s (Nat.le_refl _)

/-! ## Effect of the loop -/

/-- line `l` as left by one operation -/
def opLine (op : CacheOp) (v : Option (Bool × (Nat → Byte))) : Option (Bool × (Nat → Byte)) :=
  match op with
  | .clean => v.map (fun p => (false, p.2))
  | _ => none

/-- byte `a` of memory as left by one operation on its line -/
def opMem (op : CacheOp) (v : Option (Bool × (Nat → Byte))) (a : Nat) (m : Byte) : Byte :=
  match op, v with
  | .inval, _ => m
  | _, some (true, d) => d a
  | _, _ => m

theorem apply_line (k : Nat) (op : CacheOp) (a : Nat) (s : St) (l : Nat) :
    (apply k op a s).line l = if l = num k a then opLine op (s.line l) else s.line l := by
  cases op <;> rfl

theorem apply_mem (k : Nat) (op : CacheOp) (a : Nat) (s : St) (b : Nat) :
    (apply k op a s).mem b = if num k b = num k a then opMem op (s.line (num k b)) b (s.mem b) else s.mem b := by
  cases op with
  | inval => simp only [apply, opMem, ite_self]
  | writebackInv =>
    simp only [apply, wbMem, opMem]
    by_cases h : num k b = num k a
    · rw [if_pos h, h]
      match hl : s.line (num k a) with
      | none => rfl
      | some (true, d) => simp only [h, if_true]
      | some (false, d) => rfl
    · rw [if_neg h]
      match hl : s.line (num k a) with
      | none => rfl
      | some (true, d) => simp only [h, if_false]
      | some (false, d) => rfl
  | clean =>
    simp only [apply, wbMem, opMem]
    by_cases h : num k b = num k a
    · rw [if_pos h, h]
      match hl : s.line (num k a) with
      | none => rfl
      | some (true, d) => simp only [h, if_true]
      | some (false, d) => rfl
    · rw [if_neg h]
      match hl : s.line (num k a) with
      | none => rfl
      | some (true, d) => simp only [h, if_false]
      | some (false, d) => rfl

/-- each line visited gets the operation once, the others nothing -/
theorem lineLoop_eff (k : Nat) (op : CacheOp) (l : Nat) : ∀ c s,
    (∀ i, (lineLoop k op l c s).line i = if l ≤ i ∧ i < l + c then opLine op (s.line i) else s.line i) ∧
    (∀ b, (lineLoop k op l c s).mem b =
      if l ≤ num k b ∧ num k b < l + c then opMem op (s.line (num k b)) b (s.mem b) else s.mem b) := by
  intro c
  induction c with
  | zero =>
    intro s
    refine ⟨fun i => ?_, fun b => ?_⟩
    · rw [if_neg (by omega)]; rfl
    · rw [if_neg (by omega)]; rfl
  | succ c ih =>
    intro s
    obtain ⟨ihl, ihm⟩ := ih (apply k op ((l + c) * 2 ^ k) s)
    simp only [lineLoop]
    refine ⟨fun i => ?_, fun b => ?_⟩
    · rw [ihl, apply_line, num_mul]
      by_cases h1 : i = l + c
      · rw [if_neg (by omega), if_pos h1, if_pos (by omega)]
      · rw [if_neg h1]
        by_cases h2 : l ≤ i ∧ i < l + c
        · rw [if_pos h2, if_pos (by omega)]
        · rw [if_neg h2, if_neg (by omega)]
    · rw [ihm, apply_mem, apply_line, num_mul]
      by_cases h1 : num k b = l + c
      · rw [if_neg (by omega), if_pos h1, if_pos (by omega)]
      · rw [if_neg h1, if_neg h1]
        by_cases h2 : l ≤ num k b ∧ num k b < l + c
        · rw [if_pos h2, if_pos (by omega)]
        · rw [if_neg h2, if_neg (by omega)]

/-! ## Which ranges are covered -/

/-- the lines visited are those of the range (the call covers its range) -/
def Covers (k : Nat) (addr n : BitVec 32) : Prop := addr.toNat % 2 ^ k + n.toNat ≤ count k n * 2 ^ k

instance (k : Nat) (addr n : BitVec 32) : Decidable (Covers k addr n) := inferInstanceAs (Decidable (_ ≤ _))

theorem visited_near (k : Nat) (addr n : BitVec 32) (hn : n ≠ 0#32) (a : Nat)
    (h : first k addr ≤ num k a ∧ num k a < first k addr + count k n) : Near k addr n a := by
  have hp := Nat.two_pow_pos k
  have hn0 : 0 < n.toNat := by
    rcases Nat.eq_zero_or_pos n.toNat with h0 | h0
    · exact absurd (BitVec.eq_of_toNat_eq h0) hn
    · exact h0
  generalize hA : addr.toNat = A at *
  have hdef : first k addr = A / 2 ^ k := by rw [first, hA]; rfl
  have hc : count k n * 2 ^ k ≤ n.toNat + (2 ^ k - 1) := Nat.div_mul_le_self _ _
  have h1 : 2 ^ k * (A / 2 ^ k) + A % 2 ^ k = A := Nat.div_add_mod A (2 ^ k)
  have h2 : A % 2 ^ k < 2 ^ k := Nat.mod_lt _ hp
  by_cases he : num k a = first k addr
  · exact ⟨A, ⟨by omega, by omega⟩, by rw [he, hdef]; rfl⟩
  · -- first byte of the line of `a`
    have h4 : (num k a + 1) * 2 ^ k ≤ (first k addr + count k n) * 2 ^ k :=
      Nat.mul_le_mul_right _ (by omega)
    have h5 : (first k addr + 1) * 2 ^ k ≤ num k a * 2 ^ k := Nat.mul_le_mul_right _ (by omega)
    rw [Nat.add_mul, Nat.add_mul, Nat.one_mul] at h4
    rw [Nat.add_mul, Nat.one_mul] at h5
    rw [hdef, Nat.mul_comm (A / 2 ^ k)] at h4 h5
    refine ⟨num k a * 2 ^ k, ⟨by omega, by omega⟩, num_mul k _⟩

theorem in_visited (k : Nat) (addr n : BitVec 32) (hc : Covers k addr n) (a : Nat) (h : In addr n a) :
    first k addr ≤ num k a ∧ num k a < first k addr + count k n := by
  have hp := Nat.two_pow_pos k
  unfold In at h; unfold Covers at hc
  unfold first num
  generalize addr.toNat = A at *
  refine ⟨Nat.div_le_div_right h.1, ?_⟩
  rw [Nat.div_lt_iff_lt_mul hp, Nat.add_mul]
  have h1 : 2 ^ k * (A / 2 ^ k) + A % 2 ^ k = A := Nat.div_add_mod A (2 ^ k)
  rw [Nat.mul_comm (A / 2 ^ k)]
  omega

/-- aligned start: covered -/
theorem covers_of_start (k : Nat) (addr n : BitVec 32) (h : 2 ^ k ∣ addr.toNat) : Covers k addr n := by
  have hp := Nat.two_pow_pos k
  unfold Covers
  rw [Nat.mod_eq_zero_of_dvd h]
  have h1 : 2 ^ k * ((n.toNat + (2 ^ k - 1)) / 2 ^ k) + (n.toNat + (2 ^ k - 1)) % 2 ^ k = n.toNat + (2 ^ k - 1) :=
    Nat.div_add_mod _ _
  have h2 : (n.toNat + (2 ^ k - 1)) % 2 ^ k < 2 ^ k := Nat.mod_lt _ hp
  unfold count
  rw [Nat.mul_comm _ (2 ^ k)]
  omega

/-- aligned end: covered -/
theorem covers_of_end (k : Nat) (addr n : BitVec 32) (h : 2 ^ k ∣ addr.toNat + n.toNat) : Covers k addr n := by
  have hp := Nat.two_pow_pos k
  unfold Covers count
  obtain ⟨t, ht⟩ := h
  generalize addr.toNat = A at *
  generalize n.toNat = N at *
  have h1 : 2 ^ k * (A / 2 ^ k) + A % 2 ^ k = A := Nat.div_add_mod A (2 ^ k)
  have h2 : A % 2 ^ k < 2 ^ k := Nat.mod_lt _ hp
  -- A % L + N = L * (t - A / L)
  have h3 : A % 2 ^ k + N = 2 ^ k * (t - A / 2 ^ k) := by
    rw [Nat.mul_sub]; omega
  rw [h3, Nat.mul_comm _ (2 ^ k)]
  apply Nat.mul_le_mul_left
  rw [Nat.le_div_iff_mul_le hp, Nat.mul_comm]
  omega

/-- nothing wraps when the range itself does not -/
theorem no_wrap (k : Nat) (hk : k < 32) (addr n : BitVec 32) (h : addr.toNat + n.toNat ≤ 2 ^ 32) :
    (first k addr + count k n) * 2 ^ k ≤ 2 ^ 32 := by
  have hp := Nat.two_pow_pos k
  have h32 : (2 : Nat) ^ 32 = 2 ^ k * 2 ^ (32 - k) := by rw [← Nat.pow_add]; congr 1; omega
  have h1 : first k addr * 2 ^ k ≤ addr.toNat := Nat.div_mul_le_self _ _
  have h2 : count k n * 2 ^ k ≤ n.toNat + (2 ^ k - 1) := Nat.div_mul_le_self _ _
  rw [h32, Nat.mul_comm]
  apply Nat.mul_le_mul_left
  have h3 : (first k addr + count k n) * 2 ^ k < (2 ^ (32 - k) + 1) * 2 ^ k := by
    rw [Nat.add_mul, Nat.add_mul, Nat.one_mul, Nat.mul_comm (2 ^ (32 - k)), ← h32]; omega
  have := Nat.lt_of_mul_lt_mul_right h3
  omega

/-- the last line of a range that is not covered is left as it is -/
theorem last_untouched (k : Nat) (hk : k < 32) (op : CacheOp) (addr n : BitVec 32) (hn0 : n ≠ 0#32)
    (hn : n.toNat + 2 ^ k ≤ 2 ^ 32) (ht : addr.toNat + n.toNat ≤ 2 ^ 32) (hc : ¬ Covers k addr n) (s : St) :
    In addr n (addr.toNat + n.toNat - 1) ∧
    (range k op addr n s).line (num k (addr.toNat + n.toNat - 1)) = s.line (num k (addr.toNat + n.toNat - 1)) ∧
    (range k op addr n s).mem (addr.toNat + n.toNat - 1) = s.mem (addr.toNat + n.toNat - 1) := by
  have hp := Nat.two_pow_pos k
  rw [range_eq k hk op addr n s hn (no_wrap k hk addr n ht)]
  obtain ⟨el, em⟩ := lineLoop_eff k op (first k addr) (count k n) s
  have hn0' : 0 < n.toNat := by
    rcases Nat.eq_zero_or_pos n.toNat with h0 | h0
    · exact absurd (BitVec.eq_of_toNat_eq h0) hn0
    · exact h0
  have hv : ¬ (first k addr ≤ num k (addr.toNat + n.toNat - 1) ∧
      num k (addr.toNat + n.toNat - 1) < first k addr + count k n) := by
    rintro ⟨_, h2⟩
    unfold Covers at hc
    unfold num at h2
    rw [Nat.div_lt_iff_lt_mul hp, Nat.add_mul] at h2
    have h1 : 2 ^ k * (addr.toNat / 2 ^ k) + addr.toNat % 2 ^ k = addr.toNat := Nat.div_add_mod _ _
    have h3 : first k addr * 2 ^ k = 2 ^ k * (addr.toNat / 2 ^ k) := Nat.mul_comm _ _
    omega
  refine ⟨⟨by omega, by omega⟩, ?_, ?_⟩
  · rw [el, if_neg hv]
  · rw [em, if_neg hv]

/-! ## C60 -/

theorem flush_ok (k : Nat) (hk : k < 32) (op : CacheOp) (hop : op = .writebackInv ∨ op = .clean)
    (addr n : BitVec 32) (hn0 : n ≠ 0#32) (hn : n.toNat + 2 ^ k ≤ 2 ^ 32)
    (ht : addr.toNat + n.toNat ≤ 2 ^ 32) (hc : Covers k addr n) : FlushOk k op addr n := by
  intro s
  rw [range_eq k hk op addr n s hn (no_wrap k hk addr n ht)]
  obtain ⟨el, em⟩ := lineLoop_eff k op (first k addr) (count k n) s
  refine ⟨fun a ha hd => ?_, fun a ha hd => ?_, fun a hf => ?_, fun a ha => ?_⟩
  · obtain ⟨d, hd⟩ := hd
    rw [em, if_pos (in_visited k addr n hc a ha), hd, St.load, hd]
    rcases hop with h | h <;> subst h <;> rfl
  · obtain ⟨d, hd⟩ := hd
    rw [el, if_pos (in_visited k addr n hc a ha)] at hd
    rcases hop with h | h <;> subst h
    · exact nomatch hd
    · simp only [opLine, Option.map_eq_some_iff] at hd
      obtain ⟨x, _, hx⟩ := hd
      simp at hx
  · unfold St.load
    rw [el]
    by_cases hv : first k addr ≤ num k a ∧ num k a < first k addr + count k n
    · rw [if_pos hv, em, if_pos hv]
      unfold St.fresh at hf
      rcases hop with h | h <;> subst h
      · match hl : s.line (num k a) with
        | none => rfl
        | some (true, d) => rfl
        | some (false, d) => exact (hf d hl).symm
      · match hl : s.line (num k a) with
        | none => rfl
        | some (true, d) => rfl
        | some (false, d) => rfl
    · rw [if_neg hv, em, if_neg hv]
  · have hv : ¬ (first k addr ≤ num k a ∧ num k a < first k addr + count k n) :=
      fun h => ha (visited_near k addr n hn0 a h)
    rw [em, el, if_neg hv, if_neg hv]; exact ⟨rfl, rfl⟩

theorem invalidate_ok (k : Nat) (hk : k < 32)
    (addr n : BitVec 32) (hn0 : n ≠ 0#32) (hn : n.toNat + 2 ^ k ≤ 2 ^ 32)
    (ht : addr.toNat + n.toNat ≤ 2 ^ 32) (hc : Covers k addr n) :
    InvalidateOk k .inval addr n := by
  intro s
  rw [range_eq k hk .inval addr n s hn (no_wrap k hk addr n ht)]
  obtain ⟨el, em⟩ := lineLoop_eff k .inval (first k addr) (count k n) s
  have hm : (lineLoop k .inval (first k addr) (count k n) s).mem = s.mem := by
    funext b; rw [em]; split <;> rfl
  refine ⟨fun a ha => ?_, hm, fun a ha => ?_⟩
  · unfold St.load
    rw [el, if_pos (in_visited k addr n hc a ha), hm]; rfl
  · have hv : ¬ (first k addr ≤ num k a ∧ num k a < first k addr + count k n) :=
      fun h => ha (visited_near k addr n hn0 a h)
    rw [el, if_neg hv]

/-- start of the range on a line boundary (every object of the scheduler and of the IPC, which are
declared `aligned(ARCH_L1_DCACHE_LINESIZE)`): right. -/
theorem flush_aligned (k : Nat) (hk : k < 32) (op : CacheOp) (hop : op = .writebackInv ∨ op = .clean)
    (addr n : BitVec 32) (hn0 : n ≠ 0#32) (hn : n.toNat + 2 ^ k ≤ 2 ^ 32)
    (ht : addr.toNat + n.toNat ≤ 2 ^ 32) (ha : 2 ^ k ∣ addr.toNat) :
    FlushOk k op addr n ∧ InvalidateOk k .inval addr n :=
  ⟨flush_ok k hk op hop addr n hn0 hn ht (covers_of_start k addr n ha),
   invalidate_ok k hk addr n hn0 hn ht (covers_of_start k addr n ha)⟩

/-- end of the range on a line boundary: right too. -/
theorem flush_aligned_end (k : Nat) (hk : k < 32) (op : CacheOp) (hop : op = .writebackInv ∨ op = .clean)
    (addr n : BitVec 32) (hn0 : n ≠ 0#32) (hn : n.toNat + 2 ^ k ≤ 2 ^ 32)
    (ht : addr.toNat + n.toNat ≤ 2 ^ 32) (ha : 2 ^ k ∣ addr.toNat + n.toNat) :
    FlushOk k op addr n ∧ InvalidateOk k .inval addr n :=
  ⟨flush_ok k hk op hop addr n hn0 hn ht (covers_of_end k addr n ha),
   invalidate_ok k hk addr n hn0 hn ht (covers_of_end k addr n ha)⟩

/-- What the SMP scheduler does at every switch (picoRTOS-SMP.c:578, 605, 626, 673) and the e200 port for a new
task (picoRTOS_port.c:63): the part of a task's stack between its stack pointer and the top.  The stack
being laid out by picoRTOS_task_init, the whole saved context reaches memory, whatever the stack
pointer. -/
theorem flush_task_stack (a : TaskInit.Arch) (haw : a.aw = 32) (la lb : Nat) (hla : la < 32)
    (hline : a.line = 2 ^ la) (hes : a.es = 2 ^ lb) (hba : lb ≤ la)
    (stack : BitVec a.aw) (cnt : Nat) (halign : a.es ∣ stack.toNat) (hmin : a.minCount ≤ cnt)
    (hml : a.line ≤ a.minCount * a.es) (hspace : stack.toNat + cnt * a.es < 2 ^ a.aw) (hsize : cnt < 2 ^ a.sw)
    (st : BitVec a.aw) (c : BitVec a.sw) (hi : TaskInit.taskInit a stack cnt = .ok (st, c))
    (sp : BitVec 32) (h1 : st.toNat ≤ sp.toNat) (h2 : sp.toNat < st.toNat + c.toNat * a.es)
    (hbig : st.toNat + c.toNat * a.es + a.line ≤ 2 ^ 32 ∨ a.line ≤ st.toNat)
    (op : CacheOp) (hop : op = .writebackInv ∨ op = .clean) :
    FlushOk la op sp (BitVec.ofNat 32 (st.toNat + c.toNat * a.es) - sp) ∧
    InvalidateOk la .inval sp (BitVec.ofNat 32 (st.toNat + c.toNat * a.es) - sp) := by
  obtain ⟨st', c', e, d1, d2, _, hin, _⟩ :=
    TaskInit.task_init_inside a la lb hline hes hba stack cnt halign hmin hml hspace hsize
  rw [hi] at e
  obtain ⟨rfl, rfl⟩ : st = st' ∧ c = c' := by
    have := Res.ok.inj e; exact ⟨congrArg Prod.fst this, congrArg Prod.snd this⟩
  have h32 : 2 ^ a.aw = 2 ^ 32 := by rw [haw]
  rw [h32] at hspace
  generalize hT : st.toNat + c.toNat * a.es = T at *
  have hT32 : T < 2 ^ 32 := by omega
  have hn : (BitVec.ofNat 32 T - sp).toNat = T - sp.toNat := by
    rw [BitVec.toNat_sub, BitVec.toNat_ofNat, Nat.mod_eq_of_lt hT32]; omega
  rw [hline] at hbig d1 d2
  apply flush_aligned_end la hla op hop
  · intro h0
    have := congrArg BitVec.toNat h0
    rw [hn] at this; simp at this; omega
  · rw [hn]; omega
  · rw [hn]; omega
  · rw [hn, show sp.toNat + (T - sp.toNat) = T by omega, ← hT]
    exact Nat.dvd_add d1 d2

/-- Any other range, for every port but those without a cache: if its lines are more numerous than its size
suggests (unaligned start, and an end that runs over into one more line), the last byte is not flushed
(counterexample to C60) ... -/
theorem flush_wrong (k : Nat) (hk : k < 32) (op : CacheOp) (addr n : BitVec 32) (hn0 : n ≠ 0#32)
    (hn : n.toNat + 2 ^ k ≤ 2 ^ 32) (ht : addr.toNat + n.toNat ≤ 2 ^ 32) (hc : ¬ Covers k addr n) :
    ¬ FlushOk k op addr n := by
  intro h
  let s : St := ⟨fun _ => 0, fun _ => some (true, fun _ => 1#8)⟩
  obtain ⟨hin, hl, _⟩ := last_untouched k hk op addr n hn0 hn ht hc s
  exact (h s).2.1 _ hin ⟨_, hl⟩

/-- ... and a stale last byte is still read after the range is invalidated. -/
theorem invalidate_wrong (k : Nat) (hk : k < 32) (op : CacheOp) (addr n : BitVec 32) (hn0 : n ≠ 0#32)
    (hn : n.toNat + 2 ^ k ≤ 2 ^ 32) (ht : addr.toNat + n.toNat ≤ 2 ^ 32) (hc : ¬ Covers k addr n) :
    ¬ InvalidateOk k op addr n := by
  intro h
  let s : St := ⟨fun _ => 0, fun _ => some (false, fun _ => 1#8)⟩
  obtain ⟨hin, hl, _⟩ := last_untouched k hk op addr n hn0 hn ht hc s
  have h1 := (h s).1 _ hin
  unfold St.load at h1
  rw [hl] at h1
  change (1#8 : Byte) = 0#8 at h1
  exact absurd h1 (by decide)

/-- such a range: 8 bytes at 0x2000001c with lines of 32 bytes -/
example : ¬ Covers 5 0x2000001c#32 8#32 := by decide
/-- and ranges that are covered: a saved context of 156 bytes below an aligned top; an aligned mutex -/
example : Covers 5 0x20000364#32 156#32 ∧ Covers 5 0x20000060#32 32#32 := by decide

/-! ## CMCC (atsame5x) -/
namespace Cmcc

/-- A 4-way cache, 64 sets of lines of 16 bytes: each set holds up to four lines, in any way.  Write-through,
so there is nothing to flush. `tag` is the line number. -/
structure C where
  mem : Nat → Byte
  way : Nat → Nat → Option (Nat × (Nat → Byte))

/-- set of a line -/
def set (l : Nat) : Nat := l % 64

/-- a load of byte `a`: a hit in any way of its set, else memory -/
def C.load (s : C) (a : Nat) : Byte :=
  match (List.range 4).findSome? (fun w =>
      match s.way w (set (a / 16)) with
      | some (l, d) => if l = a / 16 then some d else none
      | none => none) with
  | some d => d a
  | none => s.mem a

/-- a write of MAINT1: drop the line in that way of that set -/
def maint (w i : Nat) (s : C) : C := { s with way := fun w' i' => if w' = w ∧ i' = i then none else s.way w' i' }

/-- arch/arm/armv7e-m/cache_cmcc.c:18-30: way and index computed from the address (lines 13-16; the line size is
16, so the shift of CMCC_INDEX is 4), on addresses that do not wrap -/
def loop (base : Nat) : Nat → C → C
  | 0, s => s
  | j + 1, s => loop base j (maint (3 &&& ((base + j * 16) >>> 10)) (0x3f &&& ((base + j * 16) >>> 4)) s)

def invalidate (addr n : Nat) (s : C) : C := loop (addr / 16 * 16) ((n + 15) / 16) s

/-- the way a line is dropped from -/
def wayOf (l : Nat) : Nat := l / 64 % 4

theorem loop_way (l : Nat) : ∀ c s w i, (loop (l * 16) c s).way w i =
    if ∃ j, j < c ∧ w = wayOf (l + j) ∧ i = set (l + j) then none else s.way w i := by
  intro c
  induction c with
  | zero => intro s w i; rw [if_neg (by rintro ⟨j, h, _⟩; omega)]; rfl
  | succ c ih =>
    intro s w i
    have hw : 3 &&& ((l * 16 + c * 16) >>> 10) = wayOf (l + c) := by
      rw [Nat.and_comm, show (3 : Nat) = 2 ^ 2 - 1 by rfl, Nat.and_two_pow_sub_one_eq_mod, Nat.shiftRight_eq_div_pow]
      unfold wayOf; omega
    have hi : 0x3f &&& ((l * 16 + c * 16) >>> 4) = set (l + c) := by
      rw [Nat.and_comm, show (0x3f : Nat) = 2 ^ 6 - 1 by rfl, Nat.and_two_pow_sub_one_eq_mod, Nat.shiftRight_eq_div_pow]
      unfold set; omega
    rw [loop, ih, hw, hi]
    simp only [maint]
    by_cases h1 : ∃ j, j < c ∧ w = wayOf (l + j) ∧ i = set (l + j)
    · rw [if_pos h1]
      obtain ⟨j, hj, h⟩ := h1
      rw [if_pos ⟨j, by omega, h⟩]
    · rw [if_neg h1]
      by_cases h2 : w = wayOf (l + c) ∧ i = set (l + c)
      · rw [if_pos h2, if_pos ⟨c, by omega, h2⟩]
      · rw [if_neg h2, if_neg]
        rintro ⟨j, hj, h⟩
        by_cases hjc : j = c
        · subst hjc; exact h2 h
        · exact h1 ⟨j, by omega, h⟩

/-- The way is not a function of the address: for every byte there is a state (its line cached in another way)
in which invalidating it changes nothing, and the stale value is still read (counterexample to C60). -/
theorem invalidate_wrong (addr : Nat) :
    ∃ s : C, s.load addr ≠ s.mem addr ∧ (invalidate addr 1 s).load addr = s.load addr := by
  let w0 := (wayOf (addr / 16) + 1) % 4
  let s : C := ⟨fun _ => 0#8, fun w i => if w = w0 ∧ i = set (addr / 16) then some (addr / 16, fun _ => 1#8) else none⟩
  have hw : wayOf (addr / 16) < 4 := Nat.mod_lt _ (by decide)
  have hsame : (invalidate addr 1 s).way = s.way := by
    funext w i
    show (loop (addr / 16 * 16) 1 s).way w i = s.way w i
    rw [loop_way]
    split
    · next h =>
      obtain ⟨j, hj, h1, h2⟩ := h
      have : j = 0 := by omega
      subst this
      show none = if _ then _ else _
      rw [if_neg]
      rintro ⟨h3, _⟩
      rw [Nat.add_zero] at h1
      have : w = (wayOf (addr / 16) + 1) % 4 := h3
      omega
    · rfl
  have hload : s.load addr = 1#8 := by
    unfold C.load
    have : (List.range 4).findSome? (fun w =>
      match s.way w (set (addr / 16)) with
      | some (l, d) => if l = addr / 16 then some d else none
      | none => none) = some (fun _ => 1#8) := by
      have hc : w0 = 0 ∨ w0 = 1 ∨ w0 = 2 ∨ w0 = 3 := by
        have : w0 < 4 := Nat.mod_lt _ (by decide)
        omega
      have hs : ∀ w, s.way w (set (addr / 16)) = if w = w0 then some (addr / 16, fun _ => 1#8) else none := by
        intro w
        show (if w = w0 ∧ set (addr / 16) = set (addr / 16) then _ else _) = _
        simp only [and_true]
      simp only [hs]
      rcases hc with h | h | h | h <;> rw [h] <;> simp [List.range, List.range.loop, List.findSome?]
    rw [this]
  refine ⟨s, ?_, ?_⟩
  · rw [hload]; show (1#8 : Byte) ≠ 0#8; decide
  · unfold C.load; rw [hsame]; rfl

end Cmcc
end Pico.Cache
