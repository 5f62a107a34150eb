/-
arch_counter_opt, the cycle counter behind the CPU usage statistics (scheduler/picoRTOS.c:137-153,
picoRTOS-SMP.c:159-175).

Specification: time is a number of timer cycles `τ`; a timer is a function from time to the value of its
counter register.  If `t` was read (ARCH_COUNTER_CURRENT) at time `τ`, then ARCH_COUNTER_SINCE `t` at time
`τ + d` should return `d`.

Simplification: cycles are natural numbers; the subtractions of the C code are guarded so that none wraps, and
no sum exceeds the width of picoRTOS_cycles_t as the reload registers hold less than its maximum.  The
free-running counters are 32-bit words.
-/
namespace Pico.Counter

/-- a counter: value of the register at a time, and what ARCH_COUNTER_SINCE `t` returns when the register
holds `c` -/
structure Timer where
  value : Nat → Nat
  since : Nat → Nat → Nat

/-- The measure is right for all lengths below `p`. -/
def Timer.Exact (T : Timer) (p : Nat) : Prop :=
  ∀ τ d, d < p → T.since (T.value (τ + d)) (T.value τ) = d

/-- the documented range of the result (picoRTOS_port.h:260: "between (0-PICORTOS_CYCLES_PER_TICK)"): no more
than the period of the timer, whatever the reading `t` -/
def Timer.Bounded (T : Timer) (p : Nat) : Prop := ∀ τ t, T.since (T.value τ) t ≤ p

/-! ## Down-counters with reload -/

/-- counts from `rvr` down to 0 then reloads: SysTick, e200 decrementer and PIT, C28x CPU timer -/
def down (rvr : Nat) (τ : Nat) : Nat := rvr - τ % (rvr + 1)

/-- arch/arm/armv7-m/picoRTOS_port.c:121-130, armv7e-m:121-130, armv6-m:134-143,
arch/powerpc/e200z7/timer-dec.c:40-48, arch/powerpc/e200z4/mach-mpc574x/timer-pit.c:85-92,
arch/c2000/c28x/picoRTOS_port.c:180-187 -/
def sinceDown (rvr c t : Nat) : Nat :=
  if t > rvr then rvr + 1 else if c > t then (rvr - c) + t else t - c

def downTimer (rvr : Nat) : Timer := ⟨down rvr, sinceDown rvr⟩

theorem mod_add_cases (a d p : Nat) (hd : d < p) :
    (a % p + d < p ∧ (a + d) % p = a % p + d) ∨ (p ≤ a % p + d ∧ (a + d) % p = a % p + d - p) := by
  have hp : 0 < p := by omega
  have h1 : a % p < p := Nat.mod_lt _ hp
  have h2 : (a + d) % p = (a % p + d) % p := by rw [Nat.add_mod, Nat.mod_eq_of_lt hd]
  rcases Nat.lt_or_ge (a % p + d) p with h | h
  · exact Or.inl ⟨h, by rw [h2, Nat.mod_eq_of_lt h]⟩
  · refine Or.inr ⟨h, ?_⟩
    rw [h2, Nat.mod_eq_sub_mod h, Nat.mod_eq_of_lt (by omega)]

/-- Right when the counter did not reload in between; one cycle too few when it did. -/
theorem down_since (rvr τ d : Nat) (hd : d < rvr + 1) :
    (downTimer rvr).since ((downTimer rvr).value (τ + d)) ((downTimer rvr).value τ) =
      if τ % (rvr + 1) + d ≤ rvr then d else d - 1 := by
  show sinceDown rvr (rvr - (τ + d) % (rvr + 1)) (rvr - τ % (rvr + 1)) = _
  have h1 : τ % (rvr + 1) < rvr + 1 := Nat.mod_lt _ (by omega)
  unfold sinceDown
  rw [if_neg (by omega)]
  rcases mod_add_cases τ d (rvr + 1) hd with ⟨h, e⟩ | ⟨h, e⟩
  · rw [e, if_neg (by omega), if_pos (by omega)]; omega
  · rw [e, if_neg (c := τ % (rvr + 1) + d ≤ rvr) (by omega)]
    by_cases h0 : rvr - (τ % (rvr + 1) + d - (rvr + 1)) > rvr - τ % (rvr + 1)
    · rw [if_pos h0]; omega
    · rw [if_neg h0]; omega

/-- so the measure is not exact, for any period of more than one cycle (counterexample to C61) -/
theorem down_not_exact (rvr : Nat) (h : 0 < rvr) : ¬ (downTimer rvr).Exact (rvr + 1) := by
  intro H
  have h1 := H rvr 1 (by omega)
  rw [down_since rvr rvr 1 (by omega), if_neg] at h1
  · omega
  · rw [Nat.mod_eq_of_lt (by omega)]; omega

/-- it is off by at most one -/
theorem down_within_one (rvr τ d : Nat) (hd : d < rvr + 1) :
    (downTimer rvr).since ((downTimer rvr).value (τ + d)) ((downTimer rvr).value τ) ≤ d ∧
    d ≤ (downTimer rvr).since ((downTimer rvr).value (τ + d)) ((downTimer rvr).value τ) + 1 := by
  rw [down_since rvr τ d hd]; split <;> omega

/-- and within the documented range, whatever was read before -/
theorem down_bounded (rvr : Nat) : (downTimer rvr).Bounded (rvr + 1) := by
  intro τ t
  show sinceDown rvr (rvr - τ % (rvr + 1)) t ≤ rvr + 1
  unfold sinceDown
  split
  · omega
  · split <;> omega

/-! ## Up-counters with reload -/

/-- counts from 0 to `top`: PWM counter of the rp2040, STK of the ch32v003, TC0 and RTC of the AVRs, MTIM1 of
the hcs08 -/
def up (top : Nat) (τ : Nat) : Nat := τ % (top + 1)

/-- arch/arm/armv6-m/mach-rp2040/picoRTOS-SMP_port.c:88-97 -/
def sinceRp (top c t : Nat) : Nat :=
  if t > top then top + 1 else if c < t then (top - t) + c else c - t
def rpTimer (top : Nat) : Timer := ⟨up top, sinceRp top⟩

theorem rp_since (top τ d : Nat) (hd : d < top + 1) :
    (rpTimer top).since ((rpTimer top).value (τ + d)) ((rpTimer top).value τ) =
      if τ % (top + 1) + d ≤ top then d else d - 1 := by
  show sinceRp top ((τ + d) % (top + 1)) (τ % (top + 1)) = _
  have h1 : τ % (top + 1) < top + 1 := Nat.mod_lt _ (by omega)
  unfold sinceRp
  rw [if_neg (by omega)]
  rcases mod_add_cases τ d (top + 1) hd with ⟨h, e⟩ | ⟨h, e⟩
  · rw [e, if_neg (by omega), if_pos (by omega)]; omega
  · rw [e, if_neg (c := τ % (top + 1) + d ≤ top) (by omega), if_pos (by omega)]; omega

theorem rp_not_exact (top : Nat) (h : 0 < top) : ¬ (rpTimer top).Exact (top + 1) := by
  intro H
  have h1 := H top 1 (by omega)
  rw [rp_since top top 1 (by omega), if_neg] at h1
  · omega
  · rw [Nat.mod_eq_of_lt (by omega)]; omega

theorem rp_bounded (top : Nat) : (rpTimer top).Bounded (top + 1) := by
  intro τ t
  show sinceRp top (τ % (top + 1)) t ≤ top + 1
  have h1 : τ % (top + 1) < top + 1 := Nat.mod_lt _ (by omega)
  unfold sinceRp
  split
  · omega
  · split <;> omega

/-- arch/avr/timer-tc0.c:82-90, arch/avr/timer-rtc.c:58-66, arch/hcs08/mach-mc9s08ptxx/timer-mtim1.c:95-103 -/
def sinceAvr (top c t : Nat) : Nat :=
  if t ≥ top then top else if c < t then top - t else c - t
def avrTimer (top : Nat) : Timer := ⟨up top, sinceAvr top⟩

/-- right when the counter did not reload (and was not read at its very top); after a reload the cycles elapsed
since are ignored altogether -/
theorem avr_since (top τ d : Nat) (hd : d < top + 1) :
    (avrTimer top).since ((avrTimer top).value (τ + d)) ((avrTimer top).value τ) =
      if τ % (top + 1) = top then top
      else if τ % (top + 1) + d ≤ top then d else top - τ % (top + 1) := by
  show sinceAvr top ((τ + d) % (top + 1)) (τ % (top + 1)) = _
  have h1 : τ % (top + 1) < top + 1 := Nat.mod_lt _ (by omega)
  unfold sinceAvr
  by_cases ht : τ % (top + 1) = top
  · rw [if_pos (by omega), if_pos ht]
  · rw [if_neg (by omega), if_neg ht]
    rcases mod_add_cases τ d (top + 1) hd with ⟨h, e⟩ | ⟨h, e⟩
    · rw [e, if_neg (by omega), if_pos (by omega)]; omega
    · rw [e, if_neg (c := τ % (top + 1) + d ≤ top) (by omega), if_pos (by omega)]

theorem avr_not_exact (top : Nat) (h : 0 < top) : ¬ (avrTimer top).Exact (top + 1) := by
  intro H
  have h1 := H top 0 (by omega)
  rw [avr_since top top 0 (by omega), if_pos (Nat.mod_eq_of_lt (by omega))] at h1
  omega

/-- the value returned never exceeds the period -/
theorem avr_bounded (top : Nat) : (avrTimer top).Bounded (top + 1) := by
  intro τ t
  show sinceAvr top (τ % (top + 1)) t ≤ top + 1
  have h1 : τ % (top + 1) < top + 1 := Nat.mod_lt _ (by omega)
  unfold sinceAvr
  split
  · omega
  · split <;> omega

/-- arch/riscv/rv32ec/mach-ch32v003/timer-stk.c:50-59 -/
def sinceStk (cmp c t : Nat) : Nat :=
  if t > cmp then cmp + 1 else if c < t then c + t else c
def stkTimer (cmp : Nat) : Timer := ⟨up cmp, sinceStk cmp⟩

/-- right only for readings taken at 0: otherwise the reading is added when it should be subtracted, or not used
at all -/
theorem stk_since (cmp τ d : Nat) (hd : d < cmp + 1) :
    (stkTimer cmp).since ((stkTimer cmp).value (τ + d)) ((stkTimer cmp).value τ) =
      if τ % (cmp + 1) + d ≤ cmp then d + τ % (cmp + 1)
      else d + 2 * (τ % (cmp + 1)) - (cmp + 1) := by
  show sinceStk cmp ((τ + d) % (cmp + 1)) (τ % (cmp + 1)) = _
  have h1 : τ % (cmp + 1) < cmp + 1 := Nat.mod_lt _ (by omega)
  unfold sinceStk
  rw [if_neg (by omega)]
  rcases mod_add_cases τ d (cmp + 1) hd with ⟨h, e⟩ | ⟨h, e⟩
  · rw [e, if_neg (by omega), if_pos (by omega)]; omega
  · rw [e, if_neg (c := τ % (cmp + 1) + d ≤ cmp) (by omega), if_pos (by omega)]; omega

theorem stk_not_exact (cmp : Nat) (h : 0 < cmp) : ¬ (stkTimer cmp).Exact (cmp + 1) := by
  intro H
  have h1 := H 1 0 (by omega)
  rw [stk_since cmp 1 0 (by omega), if_pos] at h1
  · rw [Nat.mod_eq_of_lt (by omega)] at h1; omega
  · rw [Nat.mod_eq_of_lt (by omega)]; omega

/-- and the documented range is exceeded (3 cycles before the end of a period of 8: 4 + 5) -/
theorem stk_not_bounded : ¬ (stkTimer 7).Bounded 8 := by
  intro H; exact absurd (H 5 6) (by decide)

/-! ## Free-running counters -/

/-- CP0 Count, mtime (low word), STM: 32 bits, never reloaded.
arch/mips/m51xx/picoRTOS_port.c:90-91, arch/riscv/rv32imac/picoRTOS_port.c:73-74,
arch/powerpc/e200z4/mach-mpc574x/timer-stm.c:106-107, e200z7/mach-mpc577x/timer-stm.c:86-87 -/
def free : Timer :=
  ⟨fun τ => (BitVec.ofNat 32 τ).toNat, fun c t => (BitVec.ofNat 32 c - BitVec.ofNat 32 t).toNat⟩

/-- exact for every length that fits the counter -/
theorem free_exact : free.Exact (2 ^ 32) := by
  intro τ d hd
  show (BitVec.ofNat 32 (BitVec.ofNat 32 (τ + d)).toNat - BitVec.ofNat 32 (BitVec.ofNat 32 τ).toNat).toNat = d
  rw [BitVec.ofNat_toNat, BitVec.ofNat_toNat, BitVec.setWidth_eq, BitVec.setWidth_eq, BitVec.toNat_sub,
    BitVec.toNat_ofNat, BitVec.toNat_ofNat]
  omega

/-! ## Host port -/

/-- arch/pthread/linux/picoRTOS_port.c:225-234: nanoseconds within the second -/
def sinceNs (c t : Nat) : Nat :=
  if t ≥ 1000000000 then 1000000000 else if c < t then (1000000000 - t) + c else c - t
def nsTimer : Timer := ⟨fun τ => τ % 1000000000, sinceNs⟩

theorem ns_exact : nsTimer.Exact 1000000000 := by
  intro τ d hd
  show sinceNs ((τ + d) % 1000000000) (τ % 1000000000) = d
  unfold sinceNs
  rcases mod_add_cases τ d 1000000000 hd with ⟨h, e⟩ | ⟨h, e⟩ <;> rw [e]
  · rw [if_neg (by omega), if_neg (by omega)]; omega
  · rw [if_neg (by omega), if_pos (by omega)]; omega

theorem ns_bounded : nsTimer.Bounded 1000000000 := by
  intro τ t
  show sinceNs (τ % 1000000000) t ≤ 1000000000
  unfold sinceNs
  split
  · omega
  · split <;> omega

/-- concrete cases: SysTick reloading at 15999, read 10 cycles before it reloads and 20 cycles later -/
example : (downTimer 15999).since ((downTimer 15999).value 16010) ((downTimer 15999).value 15990) = 19 := by decide
example : free.since (free.value (2 ^ 32 + 5)) (free.value (2 ^ 32 - 5)) = 10 := by decide
example : nsTimer.since (nsTimer.value 1000000007) (nsTimer.value 999999990) = 17 := by decide

end Pico.Counter
