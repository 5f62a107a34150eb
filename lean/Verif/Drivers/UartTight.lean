import Verif.Drivers.UartRateProps
import Verif.Drivers.UartTxProps
import Verif.Drivers.FlashExt
/-
Small theorems that seeded bugs showed to be missing (C67, C70, C82).
-/
namespace Pico.UartRate

/-- **C82, n76e003**: a rate is refused only when the clock is too slow for a divider of 16 -/
theorem n76_accepts (F b : Nat) : (16 ≤ F ↔ (n76t1 F b).isSome = true) ∧ (16 ≤ F ↔ (n76t3 F b).isSome = true) ∧ (16 ≤ F ↔ (n76u1 F b).isSome = true) := by
  unfold n76t1 n76t3 n76u1
  by_cases h : F / 16 = 0
  · simp only [h, if_true, Option.isSome_none, Bool.false_eq_true, iff_false]
    omega
  · simp only [h, if_false, Option.isSome_some, iff_true]
    omega

example : (n76t1 16 9600).isSome = true ∧ (n76t1 15 9600).isSome = false := by decide

end Pico.UartRate

namespace Pico.Drv.Tx

/-- **C67, atsamx7x**: an interrupt that comes when nothing is left to send masks itself: it does not come again and again until uart_write is called -/
theorem tx_isr_quiet {c : Pico.Fifo.Cfg} {V : Type} (l : List Bool) (s : St c V) (h : s.q.readable = false) : (isrSam (true :: l) s).ie = false := by
  simp [isrSam, h]

end Pico.Drv.Tx

namespace Pico.FlashExt

/-- **C70**: a reset is a message 0x66, then one 0x99, then 0 is returned and the next reset begins with 0x66 again; a call during which no byte goes through changes none of it -/
theorem reset_sends (c : Choice) (s : St) (hl : s.left = 0) :
    (s.seq = 0 → c.k ≠ 0 → (reset c s).1.log = s.log ++ [(settle c.fin s.dev).sel ++ [0x66#8]] ∧ (reset c s).1.seq = 1 ∧ (reset c s).1.left = 0 ∧ (reset c s).2 = .more) ∧
    (s.seq = 1 → c.k ≠ 0 → (reset c s).1.log = s.log ++ [(settle c.fin s.dev).sel ++ [0x99#8]] ∧ (reset c s).1.seq = 2 ∧ (reset c s).1.left = 0 ∧ (reset c s).2 = .more) ∧
    (s.seq < 2 → c.k = 0 → (reset c s).1.log = s.log ∧ (reset c s).1.seq = s.seq ∧ (reset c s).2 = .again) ∧
    (s.seq = 2 → reset c s = ({ s with seq := 0 }, .done 0)) := by
  refine ⟨fun h hk => ?_, fun h hk => ?_, fun h hk => ?_, fun h => ?_⟩
  · have e : min c.k 1 = 1 := by omega
    simp [reset, h, next, runCmd, hl, e, send]
  · have e : min c.k 1 = 1 := by omega
    simp [reset, h, next, runCmd, hl, e, send]
  · have : s.seq = 0 ∨ s.seq = 1 := by omega
    rcases this with h | h <;> simp [reset, h, next, runCmd, hl, hk]
  · simp [reset, h]

end Pico.FlashExt
