/-
The watchdog drivers (C85): theorems.
-/
import Verif.Drivers.WdTimer
namespace Pico.Wd

/-- nothing but cycles -/
def OnlyTicks (e : Ev) : Prop := e = .tick
/-- cycles, and useless calls of wd_start -/
def NoReload (e : Ev) : Prop := e = .tick ∨ e = .start

/-- from a timer that is stopped at first and can be stopped -/
theorem fired_started {R : Type} (cfg : R → Cfg) (step : Ev → St R → St R) (rel : Bool) (P : Nat) (Inv : St R → Prop)
    (h : ∀ e s, Inv s → Inv (step e s) ∧ view cfg (step e s) = tStep ⟨rel, true⟩ P 0 e (view cfg s)) (s : St R) (hs : Inv s) (hoff : (cfg s.r).on = false)
    (hf : s.fired = false) (hP : 0 < P) (l : List Ev) : (run step l s).fired = true ↔ Starved Started (Quiet ⟨rel, true⟩) P l := by
  obtain ⟨-, h2⟩ := run_sim cfg step _ P 0 Inv h l s hs
  rw [← view_fired cfg, h2, timer_fired _ P 0 _ ⟨by simp [view, hoff], hf, hP⟩]
  rw [or_iff_left (early_zero _ _ _)]
  exact starved_congr _ _ _ _ _ _ (on_started rel P 0 _ (by simp [view, hoff])) (fun _ => Iff.rfl)

/-! ### avr -/

theorem avr_cfg_start (c : Nat) (hc : c < 10) (irqf : Bool) (r : Avr) (h : r.cycles = c) :
    avrCfg (avrTimed false ((BitVec.ofNat 8 r.cycles &&& 7) ||| (if r.cycles > 7 then 0x20 else 0) ||| 0x8) { r with wdrf := irqf }) = ⟨true, 2048 * 2 ^ c, 0⟩ := by
  rw [h]
  have : ∀ b : Bool, ∀ c : Fin 10, avrCfg ⟨if b then ((BitVec.ofNat 8 c.val &&& 7) ||| (if c.val > 7 then 0x20 else 0) ||| 0x8) ||| 0x8 else
      ((BitVec.ofNat 8 c.val &&& 7) ||| (if c.val > 7 then 0x20 else 0) ||| 0x8), false, 0⟩ = ⟨true, 2048 * 2 ^ c.val, 0⟩ := by decide
  have := this irqf ⟨c, hc⟩
  simpa [avrTimed, avrCfg] using this

def avrInv (c : Nat) (s : St Avr) : Prop := s.r.cycles = c ∧ s.r.wdrf = false ∧ ((avrCfg s.r).on = true → avrCfg s.r = ⟨true, 2048 * 2 ^ c, 0⟩)

theorem avr_sim (c : Nat) (hc : c < 10) (e : Ev) (s : St Avr) (h : avrInv c s) :
    avrInv c (avrStep e s) ∧ view avrCfg (avrStep e s) = tStep ⟨true, true⟩ (2048 * 2 ^ c) 0 e (view avrCfg s) := by
  obtain ⟨h1, h2, h3⟩ := h
  have hwin : ∀ r : Avr, (avrCfg r).win = 0 := fun _ => rfl
  cases e
  · refine ⟨?_, view_tick _ _ _ _ _ (fun c => by rw [h3 c])⟩
    simp only [avrStep, tick]
    split <;> exact ⟨h1, h2, h3⟩
  · exact ⟨⟨h1, h2, h3⟩, view_reload _ _ _ _ _ (fun c => by rw [h3 c])⟩
  · have e1 := avr_cfg_start c hc false s.r h1
    have e2 : ({ s.r with wdrf := false } : Avr) = s.r := by rw [← h2]
    rw [e2] at e1
    refine ⟨⟨?_, ?_, fun _ => e1⟩, ?_⟩
    · simpa [avrStep, avrStart, reload, avrTimed] using h1
    · simpa [avrStep, avrStart, reload, avrTimed] using h2
    · simp only [view, avrStep, avrStart, reload, e1, tStep, hwin, Nat.not_lt_zero, decide_false, Bool.and_false, Bool.or_false]
      split <;> simp_all
  · have e1 : avrCfg (avrTimed false 0#8 s.r) = ⟨false, 2048, 0⟩ := by simp [avrTimed, avrCfg, h2]
    refine ⟨⟨?_, ?_, ?_⟩, ?_⟩
    · simpa [avrStep, avrStop, reload, avrTimed] using h1
    · simpa [avrStep, avrStop, reload, avrTimed] using h2
    · simp [avrStep, avrStop, reload, e1]
    · simp [view, avrStep, avrStop, reload, e1, tStep, hwin]

/-- the period asked: WD_AVR_CYCLES_2K ... 1024K -/
def avrCycles (c : Nat) : Nat := 2048 * 2 ^ c

/-- C85, avr (no interrupt in the timed sequences, last reset not caused by the watchdog): after set-up, for any history of cycles and calls, the system is reset exactly
if, wd_start having been called and not wd_stop since, the cycles asked went by without wd_refresh (or wd_start) -/
theorem avr_watchdog_partial (c : Nat) (s s' : St Avr) (hset : avrSetup c s = some s') (hoff : (avrCfg s.r).on = false) (hf : s.fired = false) (hr : s.r.wdrf = false)
    (l : List Ev) : (run avrStep l s').fired = true ↔ Starved Started OnlyTicks (avrCycles c) l := by
  have hc : c < 10 := by unfold avrSetup at hset; by_cases h : c < 10; exact h; rw [if_neg h] at hset; cases hset
  simp only [avrSetup, hc, if_true, Option.some.injEq] at hset
  have h1 : s'.r.cycles = c ∧ s'.r.wdrf = false ∧ (avrCfg s'.r).on = false ∧ s'.fired = false := by subst hset; exact ⟨rfl, hr, hoff, hf⟩
  rw [fired_started avrCfg avrStep true (2048 * 2 ^ c) (avrInv c) (avr_sim c hc) s' ⟨h1.1, h1.2.1, by simp [h1.2.2.1]⟩ h1.2.2.1 h1.2.2.2
    (Nat.mul_pos (by omega) (Nat.two_pow_pos c)) l]
  exact starved_congr _ _ _ _ _ _ (fun _ => Iff.rfl) (fun e => by simp [Quiet, OnlyTicks])

/-- C85, avr, fails: an interrupt inside the timed sequence of wd_start leaves the period that was there; inside that of wd_stop it leaves the watchdog running, even starts
one that was stopped; after a reset by the watchdog, wd_stop does not stop it -/
theorem avr_interrupted :
    (∀ s : St Avr, (avrCfg (avrStart true s).r).on = true ∧ (avrCfg (avrStart true s).r).per = (avrCfg s.r).per) ∧
    (∀ s : St Avr, (avrCfg (avrStop true s).r).on = true) ∧
    (∀ s : St Avr, s.r.wdrf = true → (avrCfg (avrStop false s).r).on = true) := by
  refine ⟨fun s => ⟨?_, ?_⟩, fun s => ?_, fun s h => ?_⟩
  · simp [avrCfg, avrStart, reload, avrTimed]
  · simp [avrCfg, avrStart, reload, avrTimed]
  · simp [avrCfg, avrStop, reload, avrTimed]
  · simp [avrCfg, avrStop, reload, avrTimed, h]

/-! ### tinyavr -/

theorem nib_lo : ∀ w p : Fin 12, nib (((BitVec.ofNat 8 w.val &&& 0xf) <<< 4) ||| (BitVec.ofNat 8 p.val &&& 0xf)) 0 = p.val ∧
    nib (((BitVec.ofNat 8 w.val &&& 0xf) <<< 4) ||| (BitVec.ofNat 8 p.val &&& 0xf)) 4 = w.val := by decide

/-- the period asked: WD_TINYAVR_PERIOD_8MS ... 8S, in cycles of 1024 Hz; 0: off -/
def tinyAsked (n : Nat) : Nat := match n with
  | 1 => 8 | 2 => 16 | 3 => 32 | 4 => 64 | 5 => 128 | 6 => 256 | 7 => 512 | 8 => 1024 | 9 => 2048 | 10 => 4096 | 11 => 8192 | _ => 0

theorem tiny_asked : ∀ n : Fin 12, tinyCyc n.val = tinyAsked n.val := by decide

def tinyInv (w p : Nat) (s : St Tiny) : Prop :=
  tinyCfg { s.r with ctrla := s.r.ctx } = ⟨true, tinyAsked w + tinyAsked p, tinyAsked w⟩ ∧ (s.r.ctrla = 0 ∨ s.r.ctrla = s.r.ctx)

theorem tiny_sim (w p : Nat) (e : Ev) (s : St Tiny) (h : tinyInv w p s) :
    tinyInv w p (tinyStep e s) ∧ view tinyCfg (tinyStep e s) = tStep ⟨true, true⟩ (tinyAsked w + tinyAsked p) (tinyAsked w) e (view tinyCfg s) := by
  obtain ⟨h1, h2⟩ := h
  have hon : (tinyCfg s.r).on = true → tinyCfg s.r = ⟨true, tinyAsked w + tinyAsked p, tinyAsked w⟩ := by
    intro c
    rcases h2 with h2 | h2
    · exfalso; simp [tinyCfg, h2, nib] at c
    · rw [← h1]; simp [tinyCfg, h2]
  cases e
  · refine ⟨?_, view_tick _ _ _ _ _ (fun c => by rw [hon c])⟩
    simp only [tinyStep, tick]
    split <;> exact ⟨h1, h2⟩
  · exact ⟨⟨h1, h2⟩, view_reload _ _ _ _ _ (fun c => by rw [hon c])⟩
  · constructor
    · simp only [tinyStep]
      split
      · exact ⟨h1, .inr rfl⟩
      · exact ⟨h1, .inr rfl⟩
    · by_cases c : (tinyCfg s.r).on = true
      · simp only [tinyStep, c, if_true, view, reload, h1, tStep]
        simp
      · simp only [tinyStep, c, if_false, view, h1, tStep, Bool.false_eq_true]
        simp
  · refine ⟨⟨h1, .inl rfl⟩, ?_⟩
    simp [view, tinyStep, tStep, tinyCfg, nib]

/-- C85, tinyavr: after set-up with a period and no window, the system is reset exactly if the watchdog was started, not stopped, and not refreshed for the period asked -/
theorem tinyavr_watchdog (w p : Nat) (hw : w = 0) (hp : p ≠ 0) (s s' : St Tiny) (hset : tinySetup w p s = some s') (hoff : s.r.ctrla = 0) (hf : s.fired = false)
    (l : List Ev) : (run tinyStep l s').fired = true ↔ Starved Started OnlyTicks (tinyAsked p) l := by
  subst hw
  have hc : p < 12 := by unfold tinySetup at hset; by_cases h : p < 12; exact h; simp [h] at hset
  simp only [tinySetup, hc, show 0 < 12 by omega, if_true, Option.some.injEq] at hset
  have hn := nib_lo ⟨0, by omega⟩ ⟨p, hc⟩
  simp only at hn
  have ha := tiny_asked ⟨p, hc⟩
  simp only at ha
  have hpos : 0 < tinyAsked p := by rw [← ha, tinyCyc, if_neg hp]; exact Nat.two_pow_pos _
  have h1 : s'.r.ctrla = 0 ∧ s'.fired = false ∧ nib s'.r.ctx 0 = p ∧ nib s'.r.ctx 4 = 0 := by subst hset; exact ⟨hoff, hf, hn.1, hn.2⟩
  rw [fired_started tinyCfg tinyStep true (tinyAsked p) (tinyInv 0 p) (fun e s h => by have := tiny_sim 0 p e s h; simpa [tinyAsked] using this) s'
    ⟨?_, .inl h1.1⟩ (by simp [tinyCfg, h1.1, nib]) h1.2.1 hpos l]
  · exact starved_congr _ _ _ _ _ _ (fun _ => Iff.rfl) (fun e => by simp [Quiet, OnlyTicks])
  · simp only [tinyCfg, h1.2.2.1, h1.2.2.2, ha, show tinyCyc 0 = 0 from rfl, show tinyAsked 0 = 0 from rfl]
    simp [hp]

/-- C85, tinyavr with a window: it is also reset by a refresh that comes too early -/
theorem tinyavr_window (w p : Nat) (hp : p ≠ 0) (s s' : St Tiny) (hset : tinySetup w p s = some s') (hoff : s.r.ctrla = 0) (hf : s.fired = false)
    (l : List Ev) : (run tinyStep l s').fired = true ↔ Starved Started OnlyTicks (tinyAsked w + tinyAsked p) l ∨ EarlyR ⟨true, true⟩ Started (tinyAsked w) l := by
  have hc : w < 12 ∧ p < 12 := by
    unfold tinySetup at hset
    by_cases hw : w < 12
    · by_cases h : p < 12
      · exact ⟨hw, h⟩
      · simp [h] at hset
    · simp [hw] at hset
  simp only [tinySetup, hc.1, hc.2, if_true, Option.some.injEq] at hset
  have hn := nib_lo ⟨w, hc.1⟩ ⟨p, hc.2⟩
  simp only at hn
  have ha := tiny_asked ⟨p, hc.2⟩
  have hb := tiny_asked ⟨w, hc.1⟩
  simp only at ha hb
  have hpos : 0 < tinyAsked p := by rw [← ha, tinyCyc, if_neg hp]; exact Nat.two_pow_pos _
  have h1 : s'.r.ctrla = 0 ∧ s'.fired = false ∧ nib s'.r.ctx 0 = p ∧ nib s'.r.ctx 4 = w := by subst hset; exact ⟨hoff, hf, hn.1, hn.2⟩
  have hoff' : (tinyCfg s'.r).on = false := by simp [tinyCfg, h1.1, nib]
  obtain ⟨-, h2⟩ := run_sim tinyCfg tinyStep _ _ _ (tinyInv w p) (tiny_sim w p) l s' ⟨by simp only [tinyCfg, h1.2.2.1, h1.2.2.2, ha, hb]; simp [hp], .inl h1.1⟩
  have hon : ∀ a, (run (tStep ⟨true, true⟩ (tinyAsked w + tinyAsked p) (tinyAsked w)) a (view tinyCfg s')).on = true ↔ Started a :=
    on_started true _ _ _ (by simp [view, hoff'])
  rw [← view_fired tinyCfg, h2, timer_fired _ _ _ _ ⟨by simp [view, hoff'], h1.2.1, by omega⟩, funext (fun a => propext (hon a))]
  rw [starved_congr Started Started _ OnlyTicks _ _ (fun _ => Iff.rfl) (fun e => by simp [Quiet, OnlyTicks])]

/-! ### same5x -/

theorem same_nib : ∀ p : Fin 12, nib (BitVec.ofNat 8 p.val &&& 0xf#8) 0 = p.val := by decide

def sameInv (p : Nat) (s : St Same) : Prop := s.r.ctrla &&& ~~~ 0x2 = 0 ∧ nib s.r.config 0 = p

theorem same_cfg (p : Nat) (s : St Same) (h : sameInv p s) : sameCfg s.r = ⟨s.r.ctrla.getLsbD 1, 8 * 2 ^ p, 0⟩ := by
  have h2 : s.r.ctrla.getLsbD 2 = false := by
    have := congrArg (fun x : BitVec 8 => x.getLsbD 2) h.1
    simpa using this
  simp only [sameCfg, h2, h.2]
  simp

theorem same_two : ∀ c : BitVec 8, c &&& ~~~ 0x2 = 0 → c = 0 ∨ c = 2 := by decide

theorem same_sim (p : Nat) (e : Ev) (s : St Same) (h : sameInv p s) :
    sameInv p (sameStep e s) ∧ view sameCfg (sameStep e s) = tStep ⟨false, true⟩ (8 * 2 ^ p) 0 e (view sameCfg s) := by
  obtain ⟨⟨ctrla, config⟩, age, fired⟩ := s
  have hn := h.2
  simp only at hn
  rcases same_two _ h.1 with c | c <;> simp only at c <;> subst c <;> cases e <;>
    simp [sameStep, tick, reload, enable, sameCfg, sameWrCtrla, view, tStep, sameInv, hn]

/-- the period asked: WD_SAME5X_PERIOD_8CYC ... 16384CYC (one is misspelt 2028CYC) -/
def sameAsked (n : Nat) : Nat := 8 * 2 ^ n

/-- C85, same5x without window, from a watchdog just initialized: reset exactly if started, not stopped, and not refreshed for the cycles asked -/
theorem same5x_watchdog_partial (p w : Nat) (s s' : St Same) (hset : sameSetup p false w (sameInit s) = some s') (hen : s.r.ctrla.getLsbD 1 = false) (hf : s.fired = false)
    (l : List Ev) : (run sameStep l s').fired = true ↔ Starved Started NoReload (sameAsked p) l := by
  have hp : p < 12 := by unfold sameSetup at hset; by_cases h : p < 12; exact h; rw [if_neg h] at hset; cases hset
  simp only [sameSetup, hp, if_true, if_false, Bool.false_eq_true, Option.some.injEq] at hset
  have hz0 : sameInit s = { s with r := { s.r with ctrla := 0 } } := by simp only [sameInit, sameWrCtrla, hen]; simp
  rw [hz0] at hset
  have hi : sameInv p s' := by
    subst hset
    have := same_nib ⟨p, hp⟩
    simp only at this
    simp [sameInv, sameWrConfig, this]
  have hz : s'.r.ctrla = 0 ∧ s'.fired = false := by subst hset; simp [sameWrConfig, hf]
  rw [fired_started sameCfg sameStep false (8 * 2 ^ p) (sameInv p) (same_sim p) s' hi (by rw [same_cfg p _ hi, hz.1]; rfl) hz.2 (Nat.mul_pos (by omega) (Nat.two_pow_pos p)) l]
  exact starved_congr _ _ _ _ _ _ (fun _ => Iff.rfl) (fun e => by simp [Quiet, NoReload])

/-- C85, same5x, fails: set up without window after a set-up with one, the window stays (8 cycles closed); set up while running without window, nothing changes although 0 is
returned, and with a window the watchdog is stopped -/
theorem same5x_again :
    (∀ p w q : Nat, p < 12 → w < 12 → q < 12 → ∀ s : St Same, s.r.ctrla = 0 → ∃ s1 s2, sameSetup p true w s = some s1 ∧ sameSetup q false 0 s1 = some s2 ∧ (sameCfg s2.r).win = 8) ∧
    (∀ q : Nat, q < 12 → ∀ s : St Same, s.r.ctrla = 2 → sameSetup q false 0 s = some s) ∧
    (∀ q w : Nat, q < 12 → w < 12 → ∀ s : St Same, s.r.ctrla = 2 → ∃ s', sameSetup q true w s = some s' ∧ (sameCfg s'.r).on = false) := by
  refine ⟨?_, ?_, ?_⟩
  · intro p w q hp hw hq s hs
    refine ⟨_, _, by simp only [sameSetup, hp, hw, if_true]; rfl, by simp only [sameSetup, hq, if_true, if_false, Bool.false_eq_true]; rfl, ?_⟩
    have h4 : ∀ q : Fin 12, nib (BitVec.ofNat 8 q.val &&& 0xf#8) 4 = 0 := by decide
    have := h4 ⟨q, hq⟩
    simp only at this
    simp [sameCfg, sameWrCtrla, sameWrConfig, hs, this]
  · intro q hq s hs
    simp [sameSetup, hq, sameWrConfig, hs]
  · intro q w hq hw s hs
    refine ⟨_, by simp only [sameSetup, hq, hw, if_true]; rfl, ?_⟩
    simp [sameCfg, sameWrCtrla, sameWrConfig, hs]

end Pico.Wd
