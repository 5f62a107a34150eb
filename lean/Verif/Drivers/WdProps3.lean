/-
The watchdog drivers (C85): theorems, stm32h7xx_iwdg, atmel_wdt, sam3x, ti_f28x.
-/
import Verif.Drivers.WdProps2
namespace Pico.Wd

/-! ### stm32h7xx_iwdg -/

/-- always -/
def Always (_ : List Ev) : Prop := True

/-- the last event is a refresh, or nothing happened since set-up -/
def JustRefreshed (l : List Ev) : Prop := l = [] ∨ ∃ a, l = a ++ [.refresh]

theorem stmFind_some (F ms wms : Nat) (l : List (Nat × Nat)) (p rl w : Nat) (h : stmFind F ms wms l = some (p, rl, w)) :
    ∃ pr, (p, pr) ∈ l ∧ rl = m32 (ms * (F / pr / 1000)) ∧ w = m32 (wms * (F / pr / 1000)) ∧ rl ≤ 0xfff ∧ w ≤ 0xfff := by
  induction l with
  | nil => cases h
  | cons q l ih =>
    obtain ⟨q, pr⟩ := q
    simp only [stmFind] at h
    by_cases c : m32 (ms * (F / pr / 1000)) ≤ 0xfff ∧ m32 (wms * (F / pr / 1000)) ≤ 0xfff
    · rw [if_pos c] at h
      simp only [Option.some.injEq, Prod.mk.injEq] at h
      obtain ⟨rfl, rfl, rfl⟩ := h
      exact ⟨pr, List.mem_cons_self, rfl, rfl, c.1, c.2⟩
    · rw [if_neg c] at h
      obtain ⟨pr', h1, h2⟩ := ih h
      exact ⟨pr', List.mem_cons_of_mem _ h1, h2⟩

/-- the registers after a set-up that succeeds: prescaler `pr`, reload value and window -/
theorem stm_setup (F ms wms : Nat) (s s' : St Iw) (hset : stmSetup F ms wms s = some s') :
    ∃ pr rl w, pr ∈ [4, 8, 16, 32, 64, 128, 256] ∧ rl = m32 (ms * (F / pr / 1000)) ∧ w = m32 (wms * (F / pr / 1000)) ∧ rl ≤ 0xfff ∧ w ≤ 0xfff ∧
      iwInv ⟨true, pr * (rl + 1), pr * (rl - w)⟩ s' ∧ s'.r.on = true ∧ s'.age = 0 ∧ s'.fired = s.fired := by
  unfold stmSetup at hset
  by_cases c0 : ms = 0 ∨ wms = 0 ∨ ms < wms ∨ F = 0
  · rw [if_pos c0] at hset; cases hset
  rw [if_neg c0] at hset
  cases hg : stmFind F ms wms [(0, 4), (1, 8), (2, 16), (3, 32), (4, 64), (5, 128), (6, 256)] with
  | none => rw [hg] at hset; cases hset
  | some x =>
    obtain ⟨p, rl, w⟩ := x
    rw [hg] at hset
    obtain ⟨pr, h1, h2, h3, h4, h5⟩ := stmFind_some _ _ _ _ _ _ _ hg
    simp only [Option.some.injEq] at hset
    have hmem : (p, pr) ∈ [(0, 4), (1, 8), (2, 16), (3, 32), (4, 64), (5, 128), (6, 256)] → pr ∈ [4, 8, 16, 32, 64, 128, 256] ∧ 4 * 2 ^ (min (p % 8) 6) = pr := by
      intro h
      simp only [List.mem_cons, Prod.mk.injEq, List.not_mem_nil, or_false] at h
      rcases h with ⟨rfl, rfl⟩ | ⟨rfl, rfl⟩ | ⟨rfl, rfl⟩ | ⟨rfl, rfl⟩ | ⟨rfl, rfl⟩ | ⟨rfl, rfl⟩ | ⟨rfl, rfl⟩ <;> decide
    obtain ⟨hm1, hm2⟩ := hmem h1
    refine ⟨pr, rl, w, hm1, h2, h3, h4, h5, ?_⟩
    have e1 : rl % 4096 = rl := by omega
    have e2 : w % 4096 = w := by omega
    have hon : (iwKey 0x5555 (iwKey 0xcccc s)).r.on = true ∧ (iwKey 0x5555 (iwKey 0xcccc s)).fired = s.fired ∧ (iwKey 0x5555 (iwKey 0xcccc s)).r.access = true := by
      simp only [iwKey, enable]
      by_cases c : (iwCfg s.r).on = true <;> simp [c]
    generalize iwKey 0x5555 (iwKey 0xcccc s) = u at hset hon
    obtain ⟨⟨on, ac, p0, r0, w0⟩, age, fired⟩ := u
    simp only at hon
    obtain ⟨rfl, rfl, rfl⟩ := hon
    subst hset
    refine ⟨?_, rfl, rfl, rfl⟩
    simp [iwInv, iwCfg, iwPsc, iwRld, iwWinr, e1, e2, hm2]

theorem early_nostop (W : Nat) (l : List Ev) (on : List Ev → Prop) (h : ∀ a, on a) : EarlyR ⟨false, false⟩ on W l ↔ Early Always JustRefreshed NotRefresh W l := by
  constructor
  · rintro (⟨a, b, c, rfl, h1, h2, h3, h4⟩ | ⟨a, b, c, _, h1, _⟩)
    · refine ⟨a, b, c, rfl, trivial, ?_, fun e he => (quiet_nostop e).1 (h3 e he), h4⟩
      rcases h2 with h2 | h2 | ⟨a', _, h2 | h2⟩
      · exact .inl h2
      · exact .inr h2
      · exact absurd h2 (by simp)
      · exact absurd (h a') h2
    · exact absurd h1 (by simp)
  · rintro ⟨a, b, c, rfl, -, h2, h3, h4⟩
    refine .inl ⟨a, b, c, rfl, h a, ?_, fun e he => (quiet_nostop e).2 (h3 e he), h4⟩
    rcases h2 with h2 | h2
    · exact .inl h2
    · exact .inr (.inl h2)

/-- histories of a watchdog that runs and cannot be stopped -/
theorem fired_always {R : Type} (cfg : R → Cfg) (step : Ev → St R → St R) (P W : Nat) (Inv : St R → Prop)
    (h : ∀ e s, Inv s → Inv (step e s) ∧ view cfg (step e s) = tStep ⟨false, false⟩ P W e (view cfg s)) (s : St R) (hs : Inv s) (hon : (cfg s.r).on = true)
    (ha : s.age = 0) (hf : s.fired = false) (hP : 0 < P) (l : List Ev) :
    (run step l s).fired = true ↔ Starved Always NotRefresh P l ∨ Early Always JustRefreshed NotRefresh W l := by
  obtain ⟨-, h2⟩ := run_sim cfg step _ P W Inv h l s hs
  have hall : ∀ a, (run (tStep ⟨false, false⟩ P W) a (view cfg s)).on = true := fun a => (on_nostop false P W _ a).2 (.inl (by simp [view, hon]))
  rw [← view_fired cfg, h2, timer_fired _ P W _ ⟨by simp [view, hon, ha], hf, hP⟩, early_nostop W l _ hall]
  rw [starved_congr _ Always _ NotRefresh P l (fun a => ⟨fun _ => trivial, fun _ => hall a⟩) quiet_nostop]

/-- C85, stm32h7xx, on a clock F and for timeouts such that the divided frequency is a whole number of kHz and nothing overflows (`hex`, for every prescaler that can be
chosen): the system is reset exactly if the watchdog is not refreshed for the timeout asked (to one count), or is refreshed before the window; whatever calls of wd_start and
wd_stop are made: it runs from the set-up on, and does not stop -/
theorem stm32_watchdog_partial (F ms wms : Nat) (hms : ms * F < 2 ^ 32)
    (hex : ∀ pr ∈ [4, 8, 16, 32, 64, 128, 256], ms * (F / pr / 1000) ≤ 0xfff → F % (pr * 1000) = 0) (s s' : St Iw) (hset : stmSetup F ms wms s = some s') (hf : s.fired = false) :
    ∃ P W pr, pr ≤ 256 ∧ Lasts F P ms 1000 pr ∧ Lasts F W (ms - wms) 1000 pr ∧
      ∀ l, (run stmStep l s').fired = true ↔ Starved Always NotRefresh P l ∨ Early Always JustRefreshed NotRefresh W l := by
  obtain ⟨pr, rl, w, hpr, h2, h3, h4, h5, hi, hon, hag, hfi⟩ := stm_setup F ms wms s s' hset
  have hle : wms ≤ ms := by
    unfold stmSetup at hset
    by_cases c0 : ms = 0 ∨ wms = 0 ∨ ms < wms ∨ F = 0
    · rw [if_pos c0] at hset; cases hset
    · omega
  have hpos : 4 ≤ pr ∧ pr ≤ 256 := by
    simp only [List.mem_cons, List.not_mem_nil, or_false] at hpr
    omega
  have hdle : F / pr / 1000 ≤ F := Nat.le_trans (Nat.div_le_self _ _) (Nat.div_le_self _ _)
  have hov : ms * (F / pr / 1000) < 2 ^ 32 := Nat.lt_of_le_of_lt (Nat.mul_le_mul_left _ hdle) hms
  have hov2 : wms * (F / pr / 1000) < 2 ^ 32 := Nat.lt_of_le_of_lt (Nat.mul_le_mul hle (Nat.le_refl _)) hov
  have e2 : rl = ms * (F / pr / 1000) := by rw [h2]; exact Nat.mod_eq_of_lt hov
  have e3 : w = wms * (F / pr / 1000) := by rw [h3]; exact Nat.mod_eq_of_lt hov2
  have hx := hex pr hpr (by rw [← e2]; exact h4)
  have hF : pr * (F / pr / 1000) * 1000 = F := by
    rw [Nat.div_div_eq_div_mul]
    calc pr * (F / (pr * 1000)) * 1000 = pr * 1000 * (F / (pr * 1000)) := by ac_rfl
      _ = F := Nat.mul_div_cancel' (Nat.dvd_of_mod_eq_zero hx)
  generalize F / pr / 1000 = t at *
  refine ⟨pr * (rl + 1), pr * (rl - w), pr, hpos.2, ?_, ?_, ?_⟩
  · have : pr * (rl + 1) * 1000 = F * ms + pr * 1000 := by
      have e4 : pr * (ms * t) * 1000 = pr * t * 1000 * ms := by ac_rfl
      rw [← hF, e2, Nat.mul_add, Nat.mul_one, Nat.add_mul, e4]
    unfold Lasts
    rw [this]; omega
  · have : pr * (rl - w) * 1000 = F * (ms - wms) := by
      rw [← hF, e2, e3, ← Nat.sub_mul]
      ac_rfl
    unfold Lasts
    rw [this]; omega
  · exact fired_always iwCfg stmStep _ _ _ (iw_sim _ stmStep (.inr rfl)) s' hi hon hag (by rw [hfi, hf]) (Nat.mul_pos (by omega) (Nat.succ_pos _))

/-- the hypotheses hold on the usual clock of 32 kHz for timeouts up to 4 s -/
theorem stm32_usual (ms : Nat) (h : ms ≤ 4095) : ms * 32000 < 2 ^ 32 ∧ ∀ pr ∈ [4, 8, 16, 32], 32000 % (pr * 1000) = 0 := by
  refine ⟨by omega, ?_⟩
  decide

/-- C85, stm32h7xx on the usual clock of 32 kHz, timeouts up to 4095 ms: as asked -/
theorem stm32_32k_partial (ms wms : Nat) (hms : ms ≤ 4095) (s s' : St Iw) (hset : stmSetup 32000 ms wms s = some s') (hf : s.fired = false) :
    ∃ P W pr, pr ≤ 32 ∧ Lasts 32000 P ms 1000 pr ∧ Lasts 32000 W (ms - wms) 1000 pr ∧
      ∀ l, (run stmStep l s').fired = true ↔ Starved Always NotRefresh P l ∨ Early Always JustRefreshed NotRefresh W l := by
  have h0 : ms ≠ 0 ∧ wms ≠ 0 ∧ wms ≤ ms := by
    unfold stmSetup at hset
    by_cases c0 : ms = 0 ∨ wms = 0 ∨ ms < wms ∨ 32000 = 0
    · rw [if_pos c0] at hset; cases hset
    · omega
  obtain ⟨pr, rl, w, hpr, h2, h3, h4, h5, hi, hon, hag, hfi⟩ := stm_setup 32000 ms wms s s' hset
  -- the prescaler found is at most 32
  have hfind : ∃ p pr rl w, stmFind 32000 ms wms [(0, 4), (1, 8), (2, 16), (3, 32), (4, 64), (5, 128), (6, 256)] = some (p, rl, w) ∧ (p, pr) ∈ [(0, 4), (1, 8), (2, 16), (3, 32)] ∧
      rl = ms * (32 / pr) ∧ w = wms * (32 / pr) := by
    have m1 : ∀ x k, x ≤ 4095 → k ≤ 8 → m32 (x * k) = x * k := by
      intro x k hx hk
      have : x * k ≤ 4095 * 8 := Nat.mul_le_mul hx hk
      exact Nat.mod_eq_of_lt (by omega)
    simp only [stmFind]
    have a1 : 32000 / 4 / 1000 = 8 := by decide
    have a2 : 32000 / 8 / 1000 = 4 := by decide
    have a3 : 32000 / 16 / 1000 = 2 := by decide
    have a4 : 32000 / 32 / 1000 = 1 := by decide
    rw [a1, a2, a3, a4, m1 ms 8 hms (by omega), m1 ms 4 hms (by omega), m1 ms 2 hms (by omega), m1 ms 1 hms (by omega), m1 wms 8 (by omega) (by omega),
      m1 wms 4 (by omega) (by omega), m1 wms 2 (by omega) (by omega), m1 wms 1 (by omega) (by omega)]
    by_cases c1 : ms * 8 ≤ 0xfff ∧ wms * 8 ≤ 0xfff
    · exact ⟨0, 4, ms * 8, wms * 8, by rw [if_pos c1], by simp, rfl, rfl⟩
    by_cases c2 : ms * 4 ≤ 0xfff ∧ wms * 4 ≤ 0xfff
    · exact ⟨1, 8, ms * 4, wms * 4, by rw [if_neg c1, if_pos c2], by simp, rfl, rfl⟩
    by_cases c3 : ms * 2 ≤ 0xfff ∧ wms * 2 ≤ 0xfff
    · exact ⟨2, 16, ms * 2, wms * 2, by rw [if_neg c1, if_neg c2, if_pos c3], by simp, rfl, rfl⟩
    · exact ⟨3, 32, ms * 1, wms * 1, by rw [if_neg c1, if_neg c2, if_neg c3, if_pos (by omega)], by simp, rfl, rfl⟩
  clear hi
  obtain ⟨p, pr, rl, w, hg, hmem, e2, e3⟩ := hfind
  unfold stmSetup at hset
  rw [if_neg (by omega), hg] at hset
  simp only [Option.some.injEq] at hset
  have hm : 4 * 2 ^ (min (p % 8) 6) = pr ∧ pr * (32 / pr) = 32 ∧ 4 ≤ pr ∧ pr ≤ 32 := by
    simp only [List.mem_cons, Prod.mk.injEq, List.not_mem_nil, or_false] at hmem
    rcases hmem with ⟨rfl, rfl⟩ | ⟨rfl, rfl⟩ | ⟨rfl, rfl⟩ | ⟨rfl, rfl⟩ <;> decide
  obtain ⟨hm1, hm2, hm3, hm4⟩ := hm
  have hrl : rl ≤ 0xfff ∧ w ≤ 0xfff := by
    obtain ⟨_, _, _, _, h, h'⟩ := stmFind_some _ _ _ _ _ _ _ hg
    exact ⟨h, h'⟩
  have hi : iwInv ⟨true, pr * (rl + 1), pr * (rl - w)⟩ s' := by
    have e1 : rl % 4096 = rl := by omega
    have e2 : w % 4096 = w := by omega
    have hac : (iwKey 0x5555 (iwKey 0xcccc s)).r.access = true := by simp [iwKey]
    generalize iwKey 0x5555 (iwKey 0xcccc s) = u at hset hac
    obtain ⟨⟨on, ac, p0, r0, w0⟩, age, fired⟩ := u
    simp only at hac
    subst hac
    subst hset
    simp [iwInv, iwCfg, iwPsc, iwRld, iwWinr, e1, e2, hm1]
  refine ⟨pr * (rl + 1), pr * (rl - w), pr, hm4, ?_, ?_, ?_⟩
  · have : pr * (rl + 1) * 1000 = 32000 * ms + pr * 1000 := by
      rw [e2, Nat.mul_add, Nat.mul_one, Nat.add_mul]
      congr 1
      calc pr * (ms * (32 / pr)) * 1000 = pr * (32 / pr) * (1000 * ms) := by ac_rfl
        _ = 32000 * ms := by rw [hm2]; omega
    unfold Lasts
    rw [this]; omega
  · have : pr * (rl - w) * 1000 = 32000 * (ms - wms) := by
      rw [e2, e3, ← Nat.sub_mul]
      calc pr * ((ms - wms) * (32 / pr)) * 1000 = pr * (32 / pr) * (1000 * (ms - wms)) := by ac_rfl
        _ = 32000 * (ms - wms) := by rw [hm2]; omega
    unfold Lasts
    rw [this]; omega
  · exact fired_always iwCfg stmStep _ _ _ (iw_sim _ stmStep (.inr rfl)) s' hi hon hag (by rw [hfi, hf]) (Nat.mul_pos (by omega) (Nat.succ_pos _))

/-- C85, stm32h7xx on the usual clock, fails: any timeout longer than 4096 ms is accepted, and gives at most 4096 ms; from 4096 ms to 536 s, it gives 2 ms -/
theorem stm32_long :
    (∀ ms wms, 4096 ≤ ms → ms < 2 ^ 32 → wms ≤ ms → wms ≠ 0 → ∀ s : St Iw, ∃ s' P W, stmSetup 32000 ms wms s = some s' ∧ iwInv ⟨true, P, W⟩ s' ∧ P ≤ 4096 * 32) ∧
    (∀ ms, 4096 ≤ ms → ms < 2 ^ 29 → ∀ s : St Iw, ∃ s', stmSetup 32000 ms ms s = some s' ∧ iwInv ⟨true, 64, 0⟩ s') := by
  constructor
  · intro ms wms h1 h2 h3 h4 s
    have hs : ∃ s', stmSetup 32000 ms wms s = some s' := by
      unfold stmSetup
      rw [if_neg (by omega)]
      have : ∃ x, stmFind 32000 ms wms [(0, 4), (1, 8), (2, 16), (3, 32), (4, 64), (5, 128), (6, 256)] = some x := by
        simp only [stmFind]
        rw [show 32000 / 64 / 1000 = 0 by decide]
        simp only [Nat.mul_zero]
        split
        · exact ⟨_, rfl⟩
        split
        · exact ⟨_, rfl⟩
        split
        · exact ⟨_, rfl⟩
        split
        · exact ⟨_, rfl⟩
        · rw [if_pos (by simp [m32])]; exact ⟨_, rfl⟩
      obtain ⟨⟨p, rl, w⟩, hx⟩ := this
      rw [hx]
      exact ⟨_, rfl⟩
    obtain ⟨s', hs'⟩ := hs
    obtain ⟨pr, rl, w, hpr, e1, e2, e3, e4, hi, -⟩ := stm_setup _ _ _ _ _ hs'
    refine ⟨s', _, _, hs', hi, ?_⟩
    simp only [List.mem_cons, List.not_mem_nil, or_false] at hpr
    rcases hpr with rfl | rfl | rfl | rfl | rfl | rfl | rfl
    · omega
    · omega
    · omega
    · omega
    · rw [show 32000 / 64 / 1000 = 0 by decide] at e1; simp [m32] at e1; subst e1; decide
    · rw [show 32000 / 128 / 1000 = 0 by decide] at e1; simp [m32] at e1; subst e1; decide
    · rw [show 32000 / 256 / 1000 = 0 by decide] at e1; simp [m32] at e1; subst e1; decide
  · intro ms h1 h2 s
    have m1 : ∀ k, k ≤ 7 → m32 (ms * k) = ms * k := by
      intro k hk
      have : ms * k ≤ 2 ^ 29 * 7 := Nat.mul_le_mul (Nat.le_of_lt h2) hk
      exact Nat.mod_eq_of_lt (by omega)
    have m8 : m32 (ms * 8) = ms * 8 := Nat.mod_eq_of_lt (by omega)
    have hg : stmFind 32000 ms ms [(0, 4), (1, 8), (2, 16), (3, 32), (4, 64), (5, 128), (6, 256)] = some (4, 0, 0) := by
      simp only [stmFind]
      rw [show 32000 / 4 / 1000 = 8 by decide, show 32000 / 8 / 1000 = 4 by decide, show 32000 / 16 / 1000 = 2 by decide, show 32000 / 32 / 1000 = 1 by decide,
        show 32000 / 64 / 1000 = 0 by decide, m8, m1 4 (by omega), m1 2 (by omega), m1 1 (by omega), m1 0 (by omega), if_neg (by omega), if_neg (by omega), if_neg (by omega),
        if_neg (by omega), if_pos (by omega)]
      simp
    refine ⟨{ iwKey 0x5555 (iwKey 0xcccc s) with r := iwWinr 0 (iwRld 0 (iwPsc 4 (iwKey 0x5555 (iwKey 0xcccc s)).r)), age := 0 }, ?_, ?_⟩
    · unfold stmSetup
      rw [if_neg (by omega), hg]
    · have hac : (iwKey 0x5555 (iwKey 0xcccc s)).r.access = true := by simp [iwKey]
      generalize iwKey 0x5555 (iwKey 0xcccc s) = u at hac
      obtain ⟨⟨on, ac, p0, r0, w0⟩, age, fired⟩ := u
      simp only at hac
      subst hac
      simp [iwInv, iwCfg, iwPsc, iwRld, iwWinr]

/-! ### atmel_wdt -/

/-- the reset value of WDT_MR: running, reset allowed, 16 s; nothing was written yet -/
def samReset (s : St Sam) : Prop := s.r = ⟨0x3fff2fff, false⟩

/-- the mode register cannot be written any more -/
def samInv (c : Cfg) (s : St Sam) : Prop := s.r.locked = true ∧ samCfg s.r = c

theorem sam_sim (P W : Nat) (e : Ev) (s : St Sam) (h : samInv ⟨true, P, W⟩ s) :
    samInv ⟨true, P, W⟩ (samStep e s) ∧ view samCfg (samStep e s) = tStep ⟨false, false⟩ P W e (view samCfg s) := by
  obtain ⟨h1, h2⟩ := h
  cases e
  · refine ⟨?_, view_tick _ _ _ _ _ (fun _ => by rw [h2])⟩
    simp only [samStep, tick, h2, if_true]; exact ⟨h1, h2⟩
  · exact ⟨⟨h1, h2⟩, view_reload _ _ _ _ _ (fun _ => by rw [h2])⟩
  · have : samStep .start s = s := by simp [samStep, samWr, h1]
    rw [this]; exact ⟨⟨h1, h2⟩, by simp [view, tStep, h2]⟩
  · have : samStep .stop s = s := by simp [samStep, samWr, h1]
    rw [this]; exact ⟨⟨h1, h2⟩, by simp [view, tStep]⟩

theorem samWdv_some (F ms v : Nat) (h : samWdv F ms = some v) : F / 128 ≠ 0 ∧ 1000 / (F / 128) ≠ 0 ∧ v = ms / (1000 / (F / 128)) ∧ v ≠ 0 ∧ v ≤ 0xfff := by
  simp only [samWdv] at h
  by_cases c : F / 128 = 0 ∨ 1000 / (F / 128) = 0
  · rw [if_pos c] at h; cases h
  rw [if_neg c] at h
  by_cases c2 : ms / (1000 / (F / 128)) = 0 ∨ 0xfff < ms / (1000 / (F / 128))
  · rw [if_pos c2] at h; cases h
  rw [if_neg c2] at h
  simp only [Option.some.injEq] at h
  subst h
  exact ⟨fun h => c (.inl h), fun h => c (.inr h), rfl, fun h => c2 (.inl h), by omega⟩

theorem at_cfg (v : Nat) (hv : v ≤ 0xfff) :
    samCfg ⟨0x10002000#32 ||| ((BitVec.ofNat 32 v &&& 0xfff) <<< 16) ||| (BitVec.ofNat 32 v &&& 0xfff), true⟩ = ⟨true, 128 * v, 0⟩ := by
  have e : ∀ b : BitVec 12, (0x10002000#32 ||| (b.zeroExtend 32 <<< 16) ||| (b.zeroExtend 32)) &&& 0xfff = b.zeroExtend 32 ∧
      (((0x10002000#32 ||| (b.zeroExtend 32 <<< 16) ||| (b.zeroExtend 32)) >>> 16) &&& 0xfff) = b.zeroExtend 32 ∧
      (0x10002000#32 ||| (b.zeroExtend 32 <<< 16) ||| (b.zeroExtend 32)).getLsbD 15 = false ∧
      (0x10002000#32 ||| (b.zeroExtend 32 <<< 16) ||| (b.zeroExtend 32)).getLsbD 13 = true := by
    decide +kernel
  have hb : BitVec.ofNat 32 v &&& 0xfff = (BitVec.ofNat 12 v).zeroExtend 32 := by
    apply BitVec.eq_of_toNat_eq
    simp only [BitVec.toNat_and, BitVec.toNat_ofNat, BitVec.toNat_setWidth]
    rw [show BitVec.toNat (4095 : BitVec 32) = 2 ^ 12 - 1 by decide, Nat.and_two_pow_sub_one_eq_mod]
    omega
  have hn : ((BitVec.ofNat 12 v).zeroExtend 32).toNat = v := by
    simp only [BitVec.toNat_ofNat, BitVec.toNat_setWidth]; omega
  rw [hb]
  obtain ⟨e1, e2, e3, e4⟩ := e (BitVec.ofNat 12 v)
  simp only [samCfg]
  rw [e1, e2, e3, e4, hn]
  simp

theorem at_setup (F ms : Nat) (s s' : St Sam) (h0 : samReset s) (hset : atSetup F ms s = some s') :
    ∃ v, samWdv F ms = some v ∧ samInv ⟨true, 128 * v, 0⟩ s' ∧ s'.age = 0 ∧ s'.fired = s.fired := by
  unfold atSetup at hset
  cases hv : samWdv F ms with
  | none => rw [hv] at hset; cases hset
  | some v =>
    rw [hv] at hset
    obtain ⟨-, -, -, h1, h2⟩ := samWdv_some F ms v hv
    refine ⟨v, rfl, ?_⟩
    obtain ⟨r, age, fired⟩ := s
    have h0 : r = ⟨0x3fff2fff, false⟩ := h0
    subst h0
    simp only [samWr, Bool.false_eq_true, if_false, Option.some.injEq] at hset
    subst hset
    exact ⟨⟨rfl, at_cfg v h2⟩, rfl, rfl⟩

/-- C85, atmel_wdt, set up once after a reset, on a clock F whose 128th is a divider of 1000: the system is reset exactly if the watchdog is not refreshed for the timeout
asked (to one count of 128 cycles), whatever calls of wd_start and wd_stop are made: it runs from the reset on, and the set-up writes the register that can be written once -/
theorem atmel_watchdog_partial (F ms : Nat) (hF : F % 128 = 0) (hd : 1000 % (F / 128) = 0) (s s' : St Sam) (h0 : samReset s) (hset : atSetup F ms s = some s')
    (hf : s.fired = false) :
    ∃ P, Lasts F P ms 1000 128 ∧ ∀ l, (run samStep l s').fired = true ↔ Starved Always NotRefresh P l := by
  obtain ⟨v, hv, hi, ha, hfi⟩ := at_setup F ms s s' h0 hset
  obtain ⟨g1, g2, g3, g4, g5⟩ := samWdv_some F ms v hv
  refine ⟨128 * v, ?_, ?_⟩
  · have e1 : F = 128 * (F / 128) := by omega
    generalize F / 128 = f at *
    have e2 : f * (1000 / f) = 1000 := Nat.mul_div_cancel' (Nat.dvd_of_mod_eq_zero hd)
    generalize 1000 / f = q at *
    have e3 : ms = q * v + ms % q := by rw [g3]; exact (Nat.div_add_mod ms q).symm
    have e4 : ms % q < q := Nat.mod_lt _ (by omega)
    have e5 : F * ms = 128 * v * 1000 + 128 * (f * (ms % q)) := by
      generalize ms % q = x at *
      rw [e3, e1, Nat.mul_add, ← e2]
      have : 128 * f * (q * v) = 128 * v * (f * q) := by ac_rfl
      rw [this, Nat.mul_assoc 128 f x]
    have e6 : f * (ms % q) ≤ f * q := Nat.mul_le_mul_left _ (Nat.le_of_lt e4)
    unfold Lasts
    rw [e5]
    omega
  · intro l
    rw [fired_always samCfg samStep (128 * v) 0 _ (sam_sim _ _) s' hi (by rw [hi.2]) ha (by rw [hfi, hf]) (by omega)]
    constructor
    · rintro (h | ⟨a, b, c, -, -, -, -, h⟩)
      · exact h
      · omega
    · exact .inl

/-- the hypotheses hold on a clock of 32000 Hz, for timeouts from 4 ms to 16383 ms -/
theorem atmel_32000 (ms : Nat) (h1 : 4 ≤ ms) (h2 : ms < 4 * 4096) (s : St Sam) : 32000 % 128 = 0 ∧ 1000 % (32000 / 128) = 0 ∧ ∃ s', atSetup 32000 ms s = some s' := by
  refine ⟨by decide, by decide, ?_⟩
  have : samWdv 32000 ms = some (ms / 4) := by
    simp only [samWdv]
    rw [show 32000 / 128 = 250 by decide, show 1000 / 250 = 4 by decide, if_neg (by decide), if_neg (by omega)]
  unfold atSetup
  rw [this]
  exact ⟨_, rfl⟩

/-- C85, atmel_wdt on the usual clock of 32768 Hz, fails: the watchdog always resets the system late; the time given is 30 % longer than the time asked, to one count -/
theorem atmel_late (ms : Nat) (s s' : St Sam) (h0 : samReset s) (hset : atSetup 32768 ms s = some s') (hf : s.fired = false) :
    ∃ P, (∀ l, (run samStep l s').fired = true ↔ Starved Always NotRefresh P l) ∧ 128 * (10 * ms) ≤ P * 30 + 128 * 20 ∧ P * 30 ≤ 128 * (10 * ms) ∧
      (26 ≤ ms → 12 * (32768 * ms) ≤ 10 * (P * 1000)) := by
  obtain ⟨v, hv, hi, ha, hfi⟩ := at_setup 32768 ms s s' h0 hset
  obtain ⟨g1, g2, g3, g4, g5⟩ := samWdv_some 32768 ms v hv
  rw [show 32768 / 128 = 256 by decide, show 1000 / 256 = 3 by decide] at g3
  refine ⟨128 * v, ?_, by omega, by omega, by omega⟩
  intro l
  rw [fired_always samCfg samStep (128 * v) 0 _ (sam_sim _ _) s' hi (by rw [hi.2]) ha (by rw [hfi, hf]) (by omega)]
  constructor
  · rintro (h | ⟨a, b, c, -, -, -, -, h⟩)
    · exact h
    · omega
  · exact .inl

theorem locked_run (l : List Ev) : ∀ s : St Sam, s.r.locked = true → (samCfg s.r).on = false → s.fired = false → (run samStep l s).fired = false := by
  induction l with
  | nil => intro s _ _ h; exact h
  | cons e l ih =>
    intro s h1 h2 h3
    rw [run_cons]
    cases e
    · have : samStep .tick s = s := by simp [samStep, tick, h2]
      rw [this]; exact ih s h1 h2 h3
    · exact ih _ h1 h2 (by simp [samStep, reload, h2, h3])
    · have : samStep .start s = s := by simp [samStep, samWr, h1]
      rw [this]; exact ih s h1 h2 h3
    · have : samStep .stop s = s := by simp [samStep, samWr, h1]
      rw [this]; exact ih s h1 h2 h3

/-- C85, atmel_wdt, fails: a watchdog that is stopped first (as boards do) can never be set up or started again: the system is never reset -/
theorem atmel_stopped (F ms : Nat) (s s' : St Sam) (h0 : samReset s) (hf : s.fired = false) (hset : atSetup F ms (samStep .stop s) = some s') (l : List Ev) :
    (run samStep l s').fired = false := by
  obtain ⟨r, age, fired⟩ := s
  have h0 : r = ⟨0x3fff2fff, false⟩ := h0
  subst h0
  simp only [samStep, samWr, Bool.false_eq_true, if_false] at hset
  unfold atSetup at hset
  cases hv : samWdv F ms with
  | none => rw [hv] at hset; cases hset
  | some v =>
    rw [hv] at hset
    simp only [samWr, if_true, Option.some.injEq] at hset
    subst hset
    exact locked_run l _ rfl (show (samCfg ⟨0x3fff2fff ||| 0x8000, true⟩).on = false by decide) hf

/-! ### sam3x -/

/-- C85, sam3x, fails: after wd_sam3x_init the watchdog is disabled for good: whatever the set-up and the calls, the system is never reset, even if wd_start is called and
wd_refresh never is -/
theorem sam3x_never (F ms : Nat) (s s' : St Sam) (h0 : samReset s) (hf : s.fired = false) (hset : s3Setup F ms (s3Init s) = some s') (l : List Ev) :
    (run samStep l s').fired = false := by
  obtain ⟨r, age, fired⟩ := s
  have h0 : r = ⟨0x3fff2fff, false⟩ := h0
  subst h0
  simp only [s3Init, samWr, Bool.false_eq_true, if_false, if_true] at hset
  unfold s3Setup at hset
  cases hv : samWdv F ms with
  | none => rw [hv] at hset; cases hset
  | some v =>
    rw [hv] at hset
    simp only [samWr, if_true, Option.some.injEq] at hset
    subst hset
    exact locked_run l _ rfl (show (samCfg ⟨0x3fff2fff ||| 0x8000, true⟩).on = false by decide) hf

/-- the set-up succeeds all the same, for example for one second -/
theorem sam3x_example (s : St Sam) : ∃ s', s3Setup 32768 1000 (s3Init s) = some s' := by
  have : samWdv 32768 1000 = some 333 := by decide
  unfold s3Setup
  rw [this]
  exact ⟨_, rfl⟩

/-! ### ti_f28x -/

/-- the period asked: 256 counts of 512 cycles times the prescaler of the settings (WD_TI_F28X_WDPS_1, 1b, 2, 4 ...) -/
def tiAsked (wdps : Nat) : Nat := match wdps with
  | 0 | 1 => 131072
  | n + 2 => 262144 * 2 ^ n

theorem ti_setup : ∀ w : Fin 8, tiCfg (tiWr (0x40 ||| (BitVec.ofNat 16 w.val &&& 7) ||| (5 <<< 3)) ⟨0x40, true⟩) = ⟨false, tiAsked w.val, 0⟩ := by decide

/-- running with a prescaler of 1: from there WDDIS cannot be set again -/
def tiInv (s : St Ti) : Prop := s.r.wdcr = 0#16

theorem ti_run_cfg (r : Ti) (h : r.wdcr = 0#16) : tiCfg r = ⟨true, 131072, 0⟩ := by
  simp [tiCfg, h]

theorem ti_sim (e : Ev) (s : St Ti) (h : tiInv s) : tiInv (tiStep e s) ∧ view tiCfg (tiStep e s) = tStep ⟨false, false⟩ 131072 0 e (view tiCfg s) := by
  have hc := ti_run_cfg s.r h
  cases e
  · refine ⟨?_, view_tick _ _ _ _ _ (fun _ => by rw [hc])⟩
    simp only [tiStep, tick, hc, if_true]; exact h
  · exact ⟨h, view_reload _ _ _ _ _ (fun _ => by rw [hc])⟩
  · have hw : (tiWr (5 <<< 3) s.r).wdcr = 0#16 := by
      unfold tiInv at h
      cases ho : s.r.override <;> simp [tiWr, ho, h]
    have e1 : tiStep .start s = { s with r := tiWr (5 <<< 3) s.r } := by simp [tiStep, enable, hc]
    rw [e1]
    refine ⟨hw, ?_⟩
    simp only [view, ti_run_cfg _ hw, hc, tStep, if_true, Bool.false_eq_true, if_false]
  · have hw : (tiStep .stop s).r.wdcr = 0#16 := by
      unfold tiInv at h
      simp [tiStep, tiWr, tiOverride, h]
    refine ⟨hw, ?_⟩
    simp only [view, ti_run_cfg _ hw, hc, tStep]
    simp [tiStep]

/-- set up, and not started: a cycle and a refresh change nothing but the age -/
theorem ti_off (a : List Ev) : ∀ s : St Ti, (tiCfg s.r).on = false → s.fired = false → (∀ e ∈ a, e = .tick ∨ e = .refresh) →
    (run tiStep a s).r = s.r ∧ (run tiStep a s).fired = false := by
  induction a with
  | nil => intro s _ h _; exact ⟨rfl, h⟩
  | cons e a ih =>
    intro s h1 h2 h3
    rw [run_cons]
    have h4 : ∀ e ∈ a, e = .tick ∨ e = .refresh := fun x hx => h3 x (List.mem_cons_of_mem _ hx)
    rcases h3 e List.mem_cons_self with rfl | rfl
    · have : tiStep .tick s = s := by simp [tiStep, tick, h1]
      rw [this]; exact ih s h1 h2 h4
    · exact ih _ h1 (by simp [tiStep, reload, h1, h2]) h4

theorem ti_setup_off (wdps : Nat) (s s' : St Ti) (ho : s.r.override = true) (hset : tiSetup wdps s = some s') :
    tiCfg s'.r = ⟨false, tiAsked wdps, 0⟩ ∧ s'.r.override = true ∧ s'.fired = s.fired ∧ wdps < 8 := by
  unfold tiSetup at hset
  by_cases c : wdps < 8
  · rw [if_pos c] at hset
    simp only [Option.some.injEq] at hset
    subst hset
    refine ⟨?_, ho, rfl, c⟩
    have := ti_setup ⟨wdps, c⟩
    simp only [tiWr, if_true] at this
    simp only [tiWr, ho, if_true]
    exact this
  · rw [if_neg c] at hset; cases hset

/-- once started, whatever the prescaler asked and the calls that follow: the system is reset exactly if 131072 cycles go by without a refresh -/
theorem ti_started (wdps : Nat) (s s' : St Ti) (ho : s.r.override = true) (hf : s.fired = false) (hset : tiSetup wdps s = some s') (a l : List Ev)
    (ha : ∀ e ∈ a, e = .tick ∨ e = .refresh) : (run tiStep (a ++ .start :: l) s').fired = true ↔ Starved Always NotRefresh 131072 l := by
  obtain ⟨h1, h2, h3, -⟩ := ti_setup_off wdps s s' ho hset
  rw [run_append, run_cons]
  obtain ⟨g1, g2⟩ := ti_off a s' (by rw [h1]) (by rw [h3, hf]) ha
  generalize run tiStep a s' = u at *
  have hw : (tiWr (5 <<< 3) u.r).wdcr = 0#16 := by simp [tiWr, g1, h2]
  have e1 : tiStep .start u = { u with r := tiWr (5 <<< 3) u.r, age := 0 } := by simp [tiStep, enable, g1, h1]
  rw [e1, fired_always tiCfg tiStep 131072 0 tiInv ti_sim { u with r := tiWr (5 <<< 3) u.r, age := 0 } hw (by rw [ti_run_cfg _ hw]) rfl g2 (by omega)]
  constructor
  · rintro (h | ⟨a, b, c, -, -, -, -, h⟩)
    · exact h
    · omega
  · exact .inl

theorem starved_silent (a : List Ev) (n : Nat) : Starved Always NotRefresh n (a ++ List.replicate n .tick) := by
  refine ⟨a, List.replicate n .tick, [], by simp, trivial, ?_, by simp⟩
  intro e he
  rw [List.eq_of_mem_replicate he]
  simp [NotRefresh]

/-- C85, ti_f28x with a prescaler of 1: once wd_start is called, the system is reset exactly if the period asked goes by without a refresh (wd_stop does not stop it) -/
theorem ti_watchdog_partial (wdps : Nat) (hp : wdps ≤ 1) (s s' : St Ti) (ho : s.r.override = true) (hf : s.fired = false) (hset : tiSetup wdps s = some s') (a l : List Ev)
    (ha : ∀ e ∈ a, e = .tick ∨ e = .refresh) : (run tiStep (a ++ .start :: l) s').fired = true ↔ Starved Always NotRefresh (tiAsked wdps) l := by
  rw [ti_started wdps s s' ho hf hset a l ha]
  have : wdps = 0 ∨ wdps = 1 := by omega
  rcases this with rfl | rfl <;> exact Iff.rfl

/-- every set-up is accepted, and the system is not reset before wd_start -/
theorem ti_before (wdps : Nat) (hp : wdps < 8) (s : St Ti) (ho : s.r.override = true) (hf : s.fired = false) :
    ∃ s', tiSetup wdps s = some s' ∧ ∀ a : List Ev, (∀ e ∈ a, e = .tick ∨ e = .refresh) → (run tiStep a s').fired = false := by
  have h : ∃ s', tiSetup wdps s = some s' := by unfold tiSetup; rw [if_pos hp]; exact ⟨_, rfl⟩
  obtain ⟨s', hs⟩ := h
  obtain ⟨h1, h2, h3, -⟩ := ti_setup_off wdps s s' ho hs
  exact ⟨s', hs, fun a ha => (ti_off a s' (by rw [h1]) (by rw [h3, hf]) ha).2⟩

/-- C85, ti_f28x, fails: a prescaler other than 1 is lost by wd_start: a program that refreshes the watchdog in half the period it asked for is reset -/
theorem ti_prescaler (wdps : Nat) (hp : 2 ≤ wdps) (s s' : St Ti) (ho : s.r.override = true) (hf : s.fired = false) (hset : tiSetup wdps s = some s') :
    2 * 131072 ≤ tiAsked wdps ∧ (run tiStep (.start :: List.replicate 131072 .tick) s').fired = true := by
  constructor
  · obtain ⟨n, rfl⟩ : ∃ n, wdps = n + 2 := ⟨wdps - 2, by omega⟩
    have : 0 < 2 ^ n := Nat.two_pow_pos n
    show 2 * 131072 ≤ 262144 * 2 ^ n
    omega
  · have h := ti_started wdps s s' ho hf hset [] (List.replicate 131072 .tick) (by intro e he; cases he)
    rw [List.nil_append] at h
    rw [h]
    exact starved_silent [] 131072

/-- C85, ti_f28x, fails: wd_stop does not stop a watchdog that runs -/
theorem ti_stop (wdps : Nat) (s s' : St Ti) (ho : s.r.override = true) (hf : s.fired = false) (hset : tiSetup wdps s = some s') :
    (run tiStep (.start :: .stop :: List.replicate 131072 .tick) s').fired = true := by
  have h := ti_started wdps s s' ho hf hset [] (.stop :: List.replicate 131072 .tick) (by intro e he; cases he)
  rw [List.nil_append] at h
  rw [h]
  exact starved_silent [.stop] 131072

theorem ti_locked_run (l : List Ev) : ∀ s : St Ti, s.r.override = false → s.r.wdcr.getLsbD 6 = true → s.fired = false → (run tiStep l s).fired = false := by
  induction l with
  | nil => intro s _ _ h; exact h
  | cons e l ih =>
    intro s h1 h2 h3
    have hoff : (tiCfg s.r).on = false := by simp [tiCfg, h2]
    rw [run_cons]
    cases e
    · have : tiStep .tick s = s := by simp [tiStep, tick, hoff]
      rw [this]; exact ih s h1 h2 h3
    · exact ih _ h1 h2 (by simp [tiStep, reload, hoff, h3])
    · refine ih _ ?_ ?_ ?_ <;> simp_all [tiStep, enable, tiWr]
    · refine ih _ ?_ ?_ ?_ <;> simp_all [tiStep, tiOverride, tiWr]

/-- C85, ti_f28x, fails: wd_stop called on a watchdog that does not run prevents wd_start from ever starting it -/
theorem ti_stopped_first (wdps : Nat) (s s' : St Ti) (ho : s.r.override = true) (hf : s.fired = false) (hset : tiSetup wdps s = some s') (l : List Ev) :
    (run tiStep (.stop :: l) s').fired = false := by
  obtain ⟨h1, h2, h3, h4⟩ := ti_setup_off wdps s s' ho hset
  have hb : s'.r.wdcr.getLsbD 6 = true := by
    have : (tiCfg s'.r).on = false := by rw [h1]
    simpa [tiCfg] using this
  rw [run_cons]
  refine ti_locked_run l _ ?_ ?_ ?_
  · simp [tiStep, tiOverride, tiWr]
  · simp_all [tiStep, tiOverride, tiWr]
  · simp [tiStep, h3, hf]

/-! ### Cases: the hypotheses are met -/

example : (avrSetup 6 ⟨⟨0, false, 0⟩, 0, false⟩).isSome = true ∧ avrCycles 6 = 131072 := by decide
example : (tinySetup 0 8 ⟨⟨0, 0⟩, 0, false⟩).isSome = true ∧ tinyAsked 8 = 1024 := by decide
example : ((tinySetup 3 8 ⟨⟨0, 0⟩, 0, false⟩).map fun s => tinyCfg (tinyStep .start s).r) = some ⟨true, 1056, 32⟩ := by decide
example : ((sameSetup 7 false 0 (sameInit ⟨⟨0, 0xbb⟩, 0, false⟩)).map fun s => sameCfg (sameStep .start s).r) = some ⟨true, 1024, 0⟩ := by decide
example : ((rpInit 12000000 ⟨⟨false, 0, 0, 0⟩, 0, false⟩).bind (rpSetup 1000000)).isSome = true := by decide
example : ((gdSetup 40000 100000 ⟨⟨false, false, 0, 0xfff, 0xfff⟩, 0, false⟩).map fun s => (iwCfg (gdStep .start s).r)) = some ⟨true, 4004, 0⟩ := by decide
example : ((stmSetup 32000 1000 900 ⟨⟨false, false, 0, 0xfff, 0xfff⟩, 0, false⟩).map fun s => iwCfg s.r) = some ⟨true, 32008, 3200⟩ := by decide
example : (atSetup 32000 1000 ⟨⟨0x3fff2fff, false⟩, 0, false⟩).map (fun s => samCfg s.r) = some ⟨true, 32000, 0⟩ := by decide
example : (atSetup 32768 1000 ⟨⟨0x3fff2fff, false⟩, 0, false⟩).map (fun s => samCfg s.r) = some ⟨true, 42624, 0⟩ := by decide
example : (s3Setup 32768 1000 (s3Init ⟨⟨0x3fff2fff, false⟩, 0, false⟩)).map (fun s => (samCfg s.r).on) = some false := by decide
example : (tiSetup 4 ⟨⟨0, true⟩, 0, false⟩).map (fun s => (tiCfg s.r, tiCfg (tiStep .start s).r)) = some (⟨false, 1048576, 0⟩, ⟨true, 131072, 0⟩) := by decide

end Pico.Wd
