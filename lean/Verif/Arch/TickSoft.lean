import Verif.Arch.TickPeriod
/-
The tick of mach-stc12c5axx (8051/mach-stc12c5axx/timer-t0.c): timer 0 in mode 1 does not reload itself, the tick
handler does (arch_timer_ack, 106-110), so the time from the overflow to the reload is part of the period.

Time is in cycles of the internal clock, F = CONFIG_SYSCLK_HZ / CONFIG_SYSCLK_DIV of them a second (CLK_DIV divides
by the same power of 2, 40-62, 69); the timer counts every 12 of them (AUXR_T0X12 cleared, 75).
-/
namespace Pico.Tick

/-- `~(((F / CONFIG_TICK_HZ) / 12ul) - LATENCY)` in `unsigned long` (62-64), of which TH0:TL0 hold 16 bits (72-73, 108-109) -/
def stcReload (F hz : Nat) : Nat :=
  let x := (F / hz / 12 + (2 ^ 32 - 8)) % 2 ^ 32
  (2 ^ 32 - 1 - x) % 2 ^ 16

/-- times of the overflows of timer 0: the first, `start`, then 12 cycles for each count from the reload value to 65536,
after the `lat k` cycles it took from the `k`-th overflow to its reload (the handler may be held off by a critical
section, and saves the context of the task first) -/
def stcTick (F hz start : Nat) (lat : Nat → Nat) : Nat → Nat
  | 0 => start
  | k + 1 => stcTick F hz start lat k + lat k + 12 * (2 ^ 16 - stcReload F hz)

/-- total of the first `n` latencies -/
def total (lat : Nat → Nat) : Nat → Nat
  | 0 => 0
  | n + 1 => total lat n + lat n

theorem stc_reload (F hz : Nat) (h1 : 8 ≤ F / hz / 12) (h2 : F / hz / 12 < 2 ^ 16 + 8) :
    2 ^ 16 - stcReload F hz = F / hz / 12 - 7 := by
  unfold stcReload
  generalize F / hz / 12 = q at *
  show 2 ^ 16 - (2 ^ 32 - 1 - (q + (2 ^ 32 - 8)) % 2 ^ 32) % 2 ^ 16 = q - 7
  have : (q + (2 ^ 32 - 8)) % 2 ^ 32 = q - 8 := by omega
  rw [this]
  omega

/-- C58, stc12: the time of the n-th tick. Every latency is added and none is made up for: the period is right if, and
as far as, the reload comes 7 counts (84 cycles) after the overflow. -/
theorem stc_tick_time (F hz start : Nat) (lat : Nat → Nat) (h1 : 8 ≤ F / hz / 12) (h2 : F / hz / 12 < 2 ^ 16 + 8) (n : Nat) :
    stcTick F hz start lat n = start + n * (12 * (F / hz / 12 - 7)) + total lat n := by
  induction n with
  | zero => rw [stcTick, total, Nat.zero_mul, Nat.add_zero]
  | succ n ih =>
    rw [stcTick, ih, stc_reload F hz h1 h2, total, Nat.add_mul, Nat.one_mul]
    omega

/-- ticks are then one period apart, to within one count -/
theorem stc_right_partial (F hz start : Nat) (lat : Nat → Nat) (h0 : 0 < hz) (h1 : 8 ≤ F / hz / 12)
    (h2 : F / hz / 12 < 2 ^ 16 + 8) (hl : ∀ k, lat k = 84) (k : Nat) :
    ∃ d, stcTick F hz start lat (k + 1) = stcTick F hz start lat k + 12 * d ∧ Close F hz ⟨12, d⟩ := by
  refine ⟨F / hz / 12, ?_, close_of h0 ?_ ?_⟩
  · rw [stcTick, stc_reload F hz h1 h2, hl]; omega
  · simp only [Prog.period]; omega
  · simp only [Prog.period]; omega

/-- C58 is false of it otherwise: latencies that are all `c` cycles longer make the n-th tick late by `n * c` cycles; the
lateness grows without bound. -/
theorem stc_drifts (F hz start : Nat) (lat : Nat → Nat) (h1 : 8 ≤ F / hz / 12) (h2 : F / hz / 12 < 2 ^ 16 + 8) (c : Nat)
    (hl : ∀ k, 84 + c ≤ lat k) (n : Nat) : start + n * (12 * (F / hz / 12)) + n * c ≤ stcTick F hz start lat n := by
  rw [stc_tick_time F hz start lat h1 h2]
  have ht : n * (84 + c) ≤ total lat n := by
    induction n with
    | zero => rw [Nat.zero_mul]; exact Nat.zero_le _
    | succ n ih => rw [total, Nat.succ_mul]; exact Nat.add_le_add ih (hl n)
  have e : n * (12 * (F / hz / 12)) = n * (12 * (F / hz / 12 - 7)) + n * 84 := by
    rw [← Nat.mul_add]; congr 1; omega
  rw [Nat.mul_add] at ht
  omega

/-- One late tick is never made up for: a critical section that holds off the `j`-th reload by `c` cycles delays every tick
after it by `c`. -/
theorem stc_late_forever (F hz start : Nat) (lat lat' : Nat → Nat) (j c : Nat) (hj : lat' j = lat j + c)
    (ho : ∀ k, k ≠ j → lat' k = lat k) (n : Nat) (hn : j < n) :
    stcTick F hz start lat' n = stcTick F hz start lat n + c := by
  have hbefore : ∀ m, m ≤ j → stcTick F hz start lat' m = stcTick F hz start lat m := by
    intro m
    induction m with
    | zero => intro _; rfl
    | succ m ih => intro h; rw [stcTick, stcTick, ih (by omega), ho m (by omega)]
  induction n with
  | zero => omega
  | succ n ih =>
    by_cases h : n = j
    · subst h; rw [stcTick, stcTick, hbefore n (Nat.le_refl _), hj]; omega
    · rw [stcTick, stcTick, ih (by omega), ho n h]; omega

/-- Nothing refuses a longer tick: the count programmed is then short by a multiple of 65536. -/
theorem stc_wrong (F hz start : Nat) (lat : Nat → Nat) (hF : F < 2 ^ 32) (h : 2 ^ 16 + 8 ≤ F / hz / 12) (k : Nat)
    (hl : lat k < 12 * 2 ^ 15) :
    stcTick F hz start lat (k + 1) + 12 * 2 ^ 14 < stcTick F hz start lat k + F / hz := by
  have hq : F / hz ≤ F := Nat.div_le_self _ _
  rw [stcTick]
  unfold stcReload
  generalize hx : F / hz / 12 = q at *
  have : 12 * q ≤ F / hz := by rw [← hx]; exact Nat.mul_div_le _ _
  have h3 : (q + (2 ^ 32 - 8)) % 2 ^ 32 = q - 8 := by omega
  show stcTick F hz start lat k + lat k + 12 * (2 ^ 16 - (2 ^ 32 - 1 - (q + (2 ^ 32 - 8)) % 2 ^ 32) % 2 ^ 16) + 12 * 2 ^ 14 < _
  rw [h3]
  omega

/-- 12 MHz, 100 Hz, a latency of 40 cycles: 44 cycles are missing in each tick -/
example : stcTick 12000000 100 0 (fun _ => 40) 3 = 3 * (120000 - 44) := by decide

/-- the hypotheses of the theorems: 12 MHz at 100 Hz, and at 10 Hz -/
example : 8 ≤ 12000000 / 100 / 12 ∧ 12000000 / 100 / 12 < 2 ^ 16 + 8 ∧ 2 ^ 16 + 8 ≤ 12000000 / 10 / 12 := by decide

end Pico.Tick
