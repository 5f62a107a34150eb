import Verif.Basic

/-! # `picoRTOS_task_init` (scheduler/picoRTOS.c:57-65, 228-243) -/

namespace Pico.TaskInit

/-- Architecture parameters. -/
structure Arch where
  /-- width of an address in bits (`picoRTOS_uintptr_t`) -/
  aw : Nat
  /-- width of `size_t` in bits -/
  sw : Nat
  /-- `ARCH_L1_DCACHE_LINESIZE` in bytes -/
  line : Nat
  /-- `sizeof(picoRTOS_stack_t)` -/
  es : Nat
  /-- `ARCH_MIN_STACK_COUNT` -/
  minCount : Nat

/-- `L1_CACHE_ALIGN` (picoRTOS.c:57-65): `L1_CACHE_ALIGN_MASK(x, align - 1) - x` is added to the pointer. -/
def cacheAlign (a : Arch) (ptr : BitVec a.aw) : BitVec a.aw :=
  let mask : BitVec a.aw := BitVec.ofNat a.aw a.line - 1
  let bias := ((ptr + mask) &&& ~~~mask) - ptr
  ptr + bias

/-- `picoRTOS_task_init` (picoRTOS.c:228-243): the stack address and count recorded in the task.
`(stack + stack_count) - task->stack` is a pointer difference: bytes divided by the
element size. -/
def taskInit (a : Arch) (stack : BitVec a.aw) (count : Nat) : Res (BitVec a.aw × BitVec a.sw) := do
  assertFatal (decide (count ≥ a.minCount))
  let st := cacheAlign a stack
  let diff : Int := ((stack.toNat + count * a.es : Nat) - (st.toNat : Int)) / (a.es : Int)
  let mask : BitVec a.sw := BitVec.ofNat a.sw (a.line / a.es) - 1
  pure (st, BitVec.ofInt a.sw diff &&& ~~~mask)

/-- clearing the low bits rounds down -/
theorem and_not_mask {w k : Nat} (y m : BitVec w) (hm : m = BitVec.ofNat w (2 ^ k) - 1) (hk : k < w) :
    (y &&& ~~~m).toNat = y.toNat / 2 ^ k * 2 ^ k := by
  have hlt : 2 ^ k < 2 ^ w := Nat.pow_lt_pow_right (by omega) hk
  have hmn : m = BitVec.ofNat w (2 ^ k - 1) := by
    apply BitVec.eq_of_toNat_eq
    have hone : (1 : BitVec w).toNat = 1 := by
      have : (1 : BitVec w) = BitVec.ofNat w 1 := rfl
      rw [this, BitVec.toNat_ofNat]; apply Nat.mod_eq_of_lt
      exact Nat.one_lt_two_pow (by omega)
    have hp := Nat.two_pow_pos k
    rw [hm, BitVec.toNat_sub, BitVec.toNat_ofNat, BitVec.toNat_ofNat, hone, Nat.mod_eq_of_lt hlt,
      show 2 ^ w - 1 + 2 ^ k = (2 ^ k - 1) + 2 ^ w by omega, Nat.add_mod_right]
  have h1 : y &&& ~~~m = (y >>> k) <<< k := by
    ext i hi
    rw [hmn]
    simp only [BitVec.getElem_and, BitVec.getElem_not, BitVec.getElem_shiftLeft]
    rw [← BitVec.getLsbD_eq_getElem (x := BitVec.ofNat w (2 ^ k - 1)) hi, BitVec.getLsbD_ofNat, Nat.testBit_two_pow_sub_one]
    by_cases h : i < k
    · simp [h, hi]
    · simp [h, hi]
      rw [BitVec.getLsbD_eq_getElem (by omega)]
      congr 1; omega
  rw [h1, BitVec.toNat_shiftLeft, BitVec.toNat_ushiftRight, Nat.shiftLeft_eq, Nat.shiftRight_eq_div_pow]
  apply Nat.mod_eq_of_lt
  have := Nat.div_mul_le_self y.toNat (2 ^ k)
  have := y.isLt; omega

/-- C21. With a line of 2^a bytes and elements of 2^b bytes, b ≤ a, an element-aligned array of at least the
architectural minimum (itself at least a line) that lies in the address space: the recorded stack
starts on a line, is a whole number of lines, lies inside the array and loses at most two lines minus
two elements. -/
theorem task_init_inside (a : Arch) (la lb : Nat) (hline : a.line = 2 ^ la) (hes : a.es = 2 ^ lb) (hba : lb ≤ la)
    (stack : BitVec a.aw) (count : Nat) (halign : a.es ∣ stack.toNat) (hmin : a.minCount ≤ count)
    (hml : a.line ≤ a.minCount * a.es) (hspace : stack.toNat + count * a.es < 2 ^ a.aw) (hsize : count < 2 ^ a.sw) :
    ∃ st n, taskInit a stack count = .ok (st, n) ∧
      a.line ∣ st.toNat ∧ a.line ∣ n.toNat * a.es ∧
      stack.toNat ≤ st.toNat ∧ st.toNat + n.toNat * a.es ≤ stack.toNat + count * a.es ∧
      count * a.es ≤ n.toNat * a.es + 2 * (a.line - a.es) := by
  have hla0 := Nat.two_pow_pos la
  have hlb0 := Nat.two_pow_pos lb
  have hle : 2 ^ lb ≤ 2 ^ la := Nat.pow_le_pow_right (by omega) hba
  have hmul : a.minCount * a.es ≤ count * a.es := Nat.mul_le_mul_right _ hmin
  have hlw : la < a.aw := by
    rcases Nat.lt_or_ge la a.aw with h | h
    · exact h
    · exfalso
      have : 2 ^ a.aw ≤ 2 ^ la := Nat.pow_le_pow_right (by omega) h
      omega
  rw [hes] at halign hml hspace hmul
  rw [hline] at hml
  -- the aligned address
  have hst : (cacheAlign a stack).toNat = (stack.toNat + (2 ^ la - 1)) / 2 ^ la * 2 ^ la := by
    have h1 : cacheAlign a stack = (stack + (BitVec.ofNat a.aw a.line - 1)) &&& ~~~(BitVec.ofNat a.aw a.line - 1) := by
      unfold cacheAlign
      simp only []
      rw [BitVec.add_comm, BitVec.sub_add_cancel]
    rw [h1, and_not_mask (k := la) _ _ (by rw [hline]) hlw]
    congr 2
    have hone : (1 : BitVec a.aw).toNat = 1 := by
      have : (1 : BitVec a.aw) = BitVec.ofNat a.aw 1 := rfl
      rw [this, BitVec.toNat_ofNat]; apply Nat.mod_eq_of_lt
      exact Nat.one_lt_two_pow (by omega)
    have hlt : 2 ^ la < 2 ^ a.aw := Nat.pow_lt_pow_right (by omega) hlw
    rw [BitVec.toNat_add, BitVec.toNat_sub, BitVec.toNat_ofNat, hline, hone, Nat.mod_eq_of_lt hlt,
      show 2 ^ a.aw - 1 + 2 ^ la = (2 ^ la - 1) + 2 ^ a.aw by omega, Nat.add_mod_right,
      Nat.mod_eq_of_lt (a := 2 ^ la - 1) (by omega), Nat.mod_eq_of_lt (by omega)]
  -- everything in units of elements
  obtain ⟨L, hL⟩ : 2 ^ lb ∣ 2 ^ la := Nat.pow_dvd_pow 2 hba
  obtain ⟨S, hS⟩ := halign
  have hLpos : 0 < L := by
    rcases Nat.eq_zero_or_pos L with h | h
    · rw [h, Nat.mul_zero] at hL; omega
    · exact h
  have hLline : 2 ^ la / 2 ^ lb = L := by rw [hL, Nat.mul_div_cancel_left _ hlb0]
  obtain ⟨lL, hlL⟩ : ∃ l, L = 2 ^ l := by
    refine ⟨la - lb, ?_⟩
    rw [← hLline]; exact Nat.pow_div hba (by omega)
  have hq : (stack.toNat + (2 ^ la - 1)) / 2 ^ la = (S + (L - 1)) / L := by
    have e1 : stack.toNat + (2 ^ la - 1) = 2 ^ lb * (S + (L - 1)) + (2 ^ lb - 1) := by
      rw [hS, hL, Nat.mul_add, Nat.mul_sub, Nat.mul_one]
      have : 2 ^ lb ≤ 2 ^ lb * L := by omega
      omega
    rw [e1, hL, ← Nat.div_div_eq_div_mul, Nat.mul_add_div hlb0, Nat.div_eq_of_lt (a := 2 ^ lb - 1) (by omega),
      Nat.add_zero]
  -- A: aligned address in elements
  generalize hA : (S + (L - 1)) / L * L = A at *
  have hA1 : S ≤ A ∧ A < S + L := by
    have h1 := Nat.div_add_mod (S + (L - 1)) L
    have h2 := Nat.mod_lt (S + (L - 1)) hLpos
    rw [Nat.mul_comm, hA] at h1; omega
  have hstA : (cacheAlign a stack).toNat = 2 ^ lb * A := by
    rw [hst, hq, ← hA, hL]; ac_rfl
  have hc1 : L ≤ count := by
    have h1 : 2 ^ lb * L ≤ 2 ^ lb * count := by rw [← hL, Nat.mul_comm (2 ^ lb) count]; omega
    exact Nat.le_of_mul_le_mul_left h1 hlb0
  have hdiff : ((stack.toNat + count * a.es : Nat) - ((cacheAlign a stack).toNat : Int)) / (a.es : Int) =
      ((S + count - A : Nat) : Int) := by
    rw [hes, hstA, hS]
    have e1 : (2 ^ lb * S + count * 2 ^ lb : Nat) = 2 ^ lb * (S + count) := by rw [Nat.mul_add, Nat.mul_comm count]
    rw [e1]
    have e2 : ((2 ^ lb * (S + count) : Nat) : Int) - ((2 ^ lb * A : Nat) : Int) = ((2 ^ lb : Nat) : Int) * ((S + count - A : Nat) : Int) := by
      rw [Int.natCast_mul, Int.natCast_mul, ← Int.mul_sub]
      congr 1; omega
    rw [e2, Int.mul_ediv_cancel_left]
    omega
  have hlLw : lL < a.sw := by
    rcases Nat.lt_or_ge lL a.sw with h | h
    · exact h
    · exfalso
      have : 2 ^ a.sw ≤ 2 ^ lL := Nat.pow_le_pow_right (by omega) h
      omega
  let n : BitVec a.sw := BitVec.ofNat a.sw (S + count - A) &&& ~~~(BitVec.ofNat a.sw (2 ^ la / 2 ^ lb) - 1)
  have hn : n.toNat = (S + count - A) / L * L := by
    show (BitVec.ofNat a.sw (S + count - A) &&& ~~~(BitVec.ofNat a.sw (2 ^ la / 2 ^ lb) - 1)).toNat = _
    rw [and_not_mask (k := lL) _ _ (by rw [hLline, hlL]) hlLw, BitVec.toNat_ofNat,
      Nat.mod_eq_of_lt (a := S + count - A) (by omega), hlL]
  refine ⟨cacheAlign a stack, n, ?_, ?_, ?_, ?_, ?_, ?_⟩
  · unfold taskInit
    simp only [hdiff]
    rw [show decide (count ≥ a.minCount) = true from by simpa using hmin]
    show Res.ok (_, _) = Res.ok (_, _)
    rw [BitVec.ofInt_natCast, hline, hes]
  · rw [hst, hline]; exact ⟨_, Nat.mul_comm _ _⟩
  · rw [hn, hline, hes, hL]; refine ⟨(S + count - A) / L, ?_⟩; ac_rfl
  · rw [hstA, hS]; exact Nat.mul_le_mul_left _ hA1.1
  · rw [hstA, hn, hS, hes]
    have h1 := Nat.div_mul_le_self (S + count - A) L
    rw [Nat.mul_comm _ (2 ^ lb), Nat.mul_comm count, ← Nat.mul_add, ← Nat.mul_add]
    exact Nat.mul_le_mul_left _ (by omega)
  · rw [hn, hline, hes, hL]
    have h1 := Nat.div_add_mod (S + count - A) L
    have h2 := Nat.mod_lt (S + count - A) hLpos
    rw [Nat.mul_comm L] at h1
    have h3 : count ≤ (S + count - A) / L * L + 2 * (L - 1) := by omega
    have h4 := Nat.mul_le_mul_left (2 ^ lb) h3
    rw [Nat.mul_add, Nat.mul_left_comm (2 ^ lb) 2, Nat.mul_sub (2 ^ lb), Nat.mul_one] at h4
    rw [Nat.mul_comm count, Nat.mul_comm _ (2 ^ lb)]
    exact h4

/-- C21. A stack below the architectural minimum stalls, any other one does not. -/
theorem task_init_stalls_iff (a : Arch) (stack : BitVec a.aw) (count : Nat) :
    (taskInit a stack count = .fatal ↔ count < a.minCount) ∧ taskInit a stack count ≠ .ub := by
  unfold taskInit
  by_cases h : count ≥ a.minCount
  · have : ¬ count < a.minCount := by omega
    simp [h, this]
  · have : count < a.minCount := by omega
    simp [h, this]

-- a 32-byte line, 4-byte elements, 100 elements at address 0x1004: starts at 0x1020, 88 elements
def demoArch : Arch := { aw := 32, sw := 32, line := 32, es := 4, minCount := 53 }
example : taskInit demoArch 0x1004 100 = .ok (0x1020, 88) := by decide

/-- C21 does not hold where a line is smaller than an element: with `ARCH_L1_DCACHE_LINESIZE` 4 and an 8-byte
`picoRTOS_stack_t` (arch/pthread/linux/picoRTOS_types.h on a 64-bit machine) the recorded count is 0 for every
stack. -/
theorem task_init_small_line (a : Arch) (h : a.line < a.es) (stack : BitVec a.aw) (count : Nat) (hc : a.minCount ≤ count) :
    ∃ st, taskInit a stack count = .ok (st, 0) := by
  refine ⟨cacheAlign a stack, ?_⟩
  unfold taskInit
  rw [show decide (count ≥ a.minCount) = true from by simpa using hc]
  show Res.ok (_, _) = Res.ok (_, _)
  rw [Nat.div_eq_of_lt h]
  congr 2
  have : ~~~(BitVec.ofNat a.sw 0 - 1) = 0#a.sw := by
    rw [show BitVec.ofNat a.sw 0 - 1 = BitVec.allOnes a.sw from by
      rw [← BitVec.neg_one_eq_allOnes]
      show 0#a.sw - 1#a.sw = -1#a.sw
      simp]
    simp
  rw [this]; simp

end Pico.TaskInit
