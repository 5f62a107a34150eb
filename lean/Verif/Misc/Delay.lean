import Verif.Basic

/-! # Delay macros (picoRTOS.h:64-95) -/

namespace Pico.Delay

/-- The C integer type in which a macro computes: width and signedness of `x * CONFIG_TICK_HZ`. -/
structure IntTy where
  width : Nat
  signed : Bool

/-- One more than the largest value of the type. -/
def IntTy.limit (t : IntTy) : Nat := if t.signed then 2 ^ (t.width - 1) else 2 ^ t.width

/-- Result of an arithmetic operation in the type, for a non-negative mathematical result: signed overflow is
undefined, unsigned overflow wraps. -/
def IntTy.arith (t : IntTy) (v : Nat) : Res Nat :=
  if v < t.limit then .ok v else if t.signed then .ub else .ok (v % 2 ^ t.width)

/-- `PICORTOS_DELAY_SEC(x)` (picoRTOS.h:70). -/
def delaySec (t : IntTy) (tw hz x : Nat) : Res (BitVec tw) := do
  let a ← t.arith (x * hz)
  pure (BitVec.ofNat tw a)

/-- `PICORTOS_DELAY_MSEC(x)` (picoRTOS.h:78). -/
def delayMsec (t : IntTy) (tw hz x : Nat) : Res (BitVec tw) := do
  let a ← t.arith (x * hz)
  let b ← t.arith (a + 999)
  pure (BitVec.ofNat tw (b / 1000))

/-- `PICORTOS_DELAY_USEC(x)` (picoRTOS.h:86). -/
def delayUsec (t : IntTy) (tw hz x : Nat) : Res (BitVec tw) := do
  let a ← t.arith (x * hz)
  let b ← t.arith (a + 999999)
  pure (BitVec.ofNat tw (b / 1000000))

theorem arith_fits {t : IntTy} {v : Nat} (h : v < t.limit) : t.arith v = .ok v := by
  unfold IntTy.arith; rw [if_pos h]

/-- C23. `PICORTOS_DELAY_SEC` is exact if the product fits. -/
theorem delay_sec_exact (t : IntTy) (tw hz x : Nat) (h1 : x * hz < t.limit) (h2 : x * hz < 2 ^ tw) :
    ∃ r, delaySec t tw hz x = .ok r ∧ r.toNat = x * hz := by
  refine ⟨BitVec.ofNat tw (x * hz), ?_, ?_⟩
  · unfold delaySec; rw [arith_fits h1]; rfl
  · rw [BitVec.toNat_ofNat, Nat.mod_eq_of_lt h2]

/-- rounding up -/
theorem ceil_least (a k : Nat) (hk : 0 < k) :
    a ≤ (a + (k - 1)) / k * k ∧ ∀ m, a ≤ m * k → (a + (k - 1)) / k ≤ m := by
  refine ⟨?_, ?_⟩
  · have h1 := Nat.div_add_mod (a + (k - 1)) k
    have h2 := Nat.mod_lt (a + (k - 1)) hk
    rw [Nat.mul_comm] at h1; omega
  · intro m hm
    apply Nat.le_of_lt_succ
    rw [Nat.div_lt_iff_lt_mul hk, Nat.succ_mul]; omega

/-- C23. `PICORTOS_DELAY_MSEC(x)` is the least number of ticks (of 1/hz second) that last at least `x`
milliseconds, if the intermediate value fits the integer type and the result fits `picoRTOS_tick_t`. -/
theorem delay_msec_rounds_up (t : IntTy) (tw hz x : Nat) (h1 : x * hz + 999 < t.limit)
    (h2 : (x * hz + 999) / 1000 < 2 ^ tw) :
    ∃ r, delayMsec t tw hz x = .ok r ∧ x * hz ≤ r.toNat * 1000 ∧ ∀ m, x * hz ≤ m * 1000 → r.toNat ≤ m := by
  refine ⟨BitVec.ofNat tw ((x * hz + 999) / 1000), ?_, ?_⟩
  · unfold delayMsec; rw [arith_fits (show x * hz < t.limit by omega)]
    simp only [Res.ok_bind]; rw [arith_fits h1]; rfl
  · rw [BitVec.toNat_ofNat, Nat.mod_eq_of_lt h2]; exact ceil_least (x * hz) 1000 (by omega)

/-- C23. Same for `PICORTOS_DELAY_USEC(x)` and microseconds. -/
theorem delay_usec_rounds_up (t : IntTy) (tw hz x : Nat) (h1 : x * hz + 999999 < t.limit)
    (h2 : (x * hz + 999999) / 1000000 < 2 ^ tw) :
    ∃ r, delayUsec t tw hz x = .ok r ∧ x * hz ≤ r.toNat * 1000000 ∧ ∀ m, x * hz ≤ m * 1000000 → r.toNat ≤ m := by
  refine ⟨BitVec.ofNat tw ((x * hz + 999999) / 1000000), ?_, ?_⟩
  · unfold delayUsec; rw [arith_fits (show x * hz < t.limit by omega)]
    simp only [Res.ok_bind]; rw [arith_fits h1]; rfl
  · rw [BitVec.toNat_ofNat, Nat.mod_eq_of_lt h2]; exact ceil_least (x * hz) 1000000 (by omega)

-- 5 ms at 300 Hz (32-bit int) is 2 ticks
example : delayMsec ⟨32, true⟩ 32 300 5 = .ok 2 ∧ 5 * 300 + 999 < (IntTy.mk 32 true).limit := by decide

/-- C23, the conditions are needed: with 16-bit ints and a 1000 Hz tick, one second in ms is undefined (signed), or
17 ticks instead of 1000 (unsigned); one second in 16-bit unsigned microseconds cannot even hold the rounding
constant. -/
theorem delay_overflows : delayMsec ⟨16, true⟩ 16 1000 1000 = .ub ∧ delayMsec ⟨16, false⟩ 16 1000 1000 = .ok 17 ∧
    delayUsec ⟨32, true⟩ 32 1000 10000000 = .ub := by decide

/-- `PICORTOS_DELAY_ELAPSED(ref, x)` (picoRTOS.h:95), `now` being `picoRTOS_get_tick()`: the subtraction is done in
`picoRTOS_tick_t`, unless `int` (of width `iw`) is wider, in which case both are promoted. -/
def delayElapsed (iw tw : Nat) (now ref x : BitVec tw) : Bool :=
  if tw < iw then !decide ((now.toNat : Int) - (ref.toNat : Int) < (x.toNat : Int))
  else !decide ((now - ref).toNat < x.toNat)

/-- C24. If `n < 2^tw` ticks passed since `ref` was read, `PICORTOS_DELAY_ELAPSED(ref, x)` is true iff `n ≥ x`,
also across a wrap of the counter (when `int` is not wider than `picoRTOS_tick_t`, as on every
architecture of the repository). -/
theorem delay_elapsed_iff (iw tw : Nat) (hw : iw ≤ tw) (ref x : BitVec tw) (n : Nat) (hn : n < 2 ^ tw) :
    delayElapsed iw tw (ref + BitVec.ofNat tw n) ref x = true ↔ x.toNat ≤ n := by
  unfold delayElapsed
  rw [if_neg (by omega), BitVec.add_comm, BitVec.add_sub_cancel, BitVec.toNat_ofNat, Nat.mod_eq_of_lt hn]
  simp

-- ref = 250, 10 ticks later the 8-bit counter is at 4
example : delayElapsed 8 8 (250 + 10#8) 250 10 = true ∧ delayElapsed 8 8 (250 + 9#8) 250 10 = false := by decide

/-- C24 would be false with a tick type narrower than `int`: 10 ticks after 250 nothing seems elapsed. -/
theorem delay_elapsed_promoted : delayElapsed 32 8 (250 + 10#8) 250 10 = false := by decide

end Pico.Delay
