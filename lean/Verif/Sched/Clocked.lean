import Verif.Sched.Props4
import Verif.Arch.Counter
/-
C105: the cycle counter behind the statistics (scheduler/picoRTOS.c:137-152 and 563-676; C22 takes the readings as given, here they are those of a counter, C61).
-/
namespace Pico.Sched

open Pico.Counter (Timer)

/-- An event and the times at which its handler reads the cycle counter: `t1` in task_core_stat_finish, `t2` in task_core_stat_start. -/
structure TEv (tw : Nat) where
  call : Call tw
  sp : Nat
  t1 : Nat
  t2 : Nat

/-- The readings: arch_counter(ARCH_COUNTER_SINCE, task->stat.counter) (144) and arch_counter(ARCH_COUNTER_CURRENT, 0) (139). -/
def readings (c : Cfg) (T : Timer) (s : Core c.tw) (e : TEv c.tw) : Ev c.tw :=
  ⟨e.call, e.sp, T.since (T.value e.t1) (s.task s.index).statCounter, T.value e.t2⟩

/-- A history and the readings of its counter. -/
def clocked (c : Cfg) (T : Timer) : Core c.tw → List (TEv c.tw) → List (Ev c.tw)
  | _, [] => []
  | s, e :: es => readings c T s e :: match step c s (readings c T s e) with
    | .ok (s', _) => clocked c T s' es
    | _ => []

/-- For how long task `p` had the processor, each time it had it; `t0`: when the task running in `s` was given it. -/
def durations (c : Cfg) (T : Timer) (p : Nat) : Nat → Core c.tw → List (TEv c.tw) → List Nat
  | _, _, [] => []
  | t0, s, e :: es => match step c s (readings c T s e) with
    | .ok (s', _) => if s.index = p then (e.t1 - t0) :: durations c T p e.t2 s' es else durations c T p e.t2 s' es
    | _ => []

/-- Time goes on, and something happens (a tick, at the latest) within each `P` cycles. -/
def Timely {tw : Nat} (P : Nat) : Nat → List (TEv tw) → Prop
  | _, [] => True
  | t0, e :: es => t0 ≤ e.t1 ∧ e.t1 - t0 < P ∧ Timely P e.t2 es

/-- the task given the processor carries the reading made then -/
theorem step_counter {c : Cfg} {s s' : Core c.tw} {e : Ev c.tw} {o : Out c.tw} (h : step c s e = .ok (s', o)) :
    (s'.task s'.index).statCounter = e.cur % 2 ^ c.cw := by
  have sw : ∀ {s s' : Core c.tw} {pid since cur : Nat}, switchContext c s pid since cur = .ok s' → (s'.task s'.index).statCounter = cur % 2 ^ c.cw := by
    intro s s' pid since cur h
    unfold switchContext at h
    obtain ⟨a, _, h⟩ := Res.bind_eq_ok h
    have fin : ∀ s2 : Core c.tw, (pure (s2.setTask s2.index (statStart c (s2.task s2.index) cur)) : Res (Core c.tw)) = .ok s' → (s'.task s'.index).statCounter = cur % 2 ^ c.cw := by
      intro s2 h
      rw [Res.pure_eq, Res.ok.injEq] at h
      subst h
      simp [Core.setTask, statStart]
    simp only at h
    by_cases h1 : a.index = c.N ∧ a.postponed = true
    · rw [if_pos h1] at h
      obtain ⟨b, _, h⟩ := Res.bind_eq_ok h
      by_cases h2 : b.index = c.N ∧ b.postponed = true
      · rw [if_pos h2] at h; cases h
      · rw [if_neg h2] at h; exact fin _ h
    · rw [if_neg h1] at h; exact fin _ h
  have sys : syscall c s e = .ok (s', o) → (s'.task s'.index).statCounter = e.cur % 2 ^ c.cw := by
    intro h
    unfold syscall at h
    obtain ⟨_, _, h⟩ := Res.bind_eq_ok h
    obtain ⟨_, _, h⟩ := Res.bind_eq_ok h
    cases hc : e.call <;> rw [hc] at h
    case tick => cases h
    all_goals
      obtain ⟨a, h1, h⟩ := Res.bind_eq_ok h
      rw [Res.pure_eq, Res.ok.injEq] at h
      have := sw h1
      rw [(Prod.mk.inj h).1] at this
      exact this
  unfold step at h
  cases hc : e.call <;> rw [hc] at h
  case tick =>
    simp only at h
    unfold tickFn at h
    obtain ⟨_, _, h⟩ := Res.bind_eq_ok h
    obtain ⟨_, _, h⟩ := Res.bind_eq_ok h
    obtain ⟨a, _, h⟩ := Res.bind_eq_ok h
    rw [Res.pure_eq, Res.ok.injEq] at h
    rw [← (Prod.mk.inj h).1]
    simp [Core.setTask, statStart]
  case sleepUntil =>
    obtain ⟨_, _, h⟩ := Res.bind_eq_ok h
    obtain ⟨_, _, h⟩ := Res.bind_eq_ok h
    exact sys h
  all_goals
    obtain ⟨_, _, h⟩ := Res.bind_eq_ok h
    exact sys h

theorem samples_durations {c : Cfg} {T : Timer} {P : Nat} (hT : T.Exact P) (hv : ∀ t, T.value t < 2 ^ c.cw) (hP : P ≤ 2 ^ c.cw) (p : Nat) :
    ∀ (es : List (TEv c.tw)) (s : Core c.tw) (t0 : Nat), (s.task s.index).statCounter = T.value t0 → Timely P t0 es →
      samples c p s (clocked c T s es) = durations c T p t0 s es
  | [], _, _, _, _ => rfl
  | e :: es, s, t0, hs, ht => by
    obtain ⟨h1, h2, h3⟩ := ht
    rw [clocked, samples, durations]
    cases hst : step c s (readings c T s e) with
    | fatal => rfl
    | ub => rfl
    | ok r =>
      obtain ⟨s', o⟩ := r
      have hc' : (s'.task s'.index).statCounter = T.value e.t2 := by
        rw [step_counter hst]; exact Nat.mod_eq_of_lt (hv _)
      have ih := samples_durations hT hv hP p es s' e.t2 hc' h3
      have hm : (readings c T s e).since % 2 ^ c.cw = e.t1 - t0 := by
        show T.since (T.value e.t1) (s.task s.index).statCounter % _ = _
        have := hT t0 (e.t1 - t0) h2
        rw [Nat.add_sub_cancel' h1] at this
        rw [hs, this]
        exact Nat.mod_eq_of_lt (by omega)
      simp only [ih, hm]

/-- C105. With an exact counter, the watermarks of a task bound every duration for which it had the processor without interruption by
the scheduler since the start, and are attained. `e0` is the first tick. -/
theorem watermarks_are_durations {c : Cfg} (hc : c.WF) {strict : Bool} {adds : List (Desc × Nat)} {s0 s : Core c.tw} (hb : boot c strict adds = .ok s0)
    {T : Timer} {P : Nat} (hT : T.Exact P) (hv : ∀ t, T.value t < 2 ^ c.cw) (hP : P ≤ 2 ^ c.cw) {e0 : TEv c.tw} {es : List (TEv c.tw)} (ht : Timely P e0.t2 es)
    (hrun : run c s0 (clocked c T s0 (e0 :: es)) = .ok s) (p : Nat) (hp : p < c.N) (t0 : Nat) :
    (∀ d ∈ durations c T p t0 s0 (e0 :: es), (s.task p).statLo ≤ d ∧ d ≤ (s.task p).statHi) ∧
    (durations c T p t0 s0 (e0 :: es) ≠ [] → (s.task p).statLo ∈ durations c T p t0 s0 (e0 :: es) ∧ (s.task p).statHi ∈ durations c T p t0 s0 (e0 :: es)) := by
  have hidx : s0.index ≠ p := by
    obtain ⟨f, g, _, _, rfl⟩ := boot_shape hc hb
    show c.N ≠ p
    omega
  have hw := watermarks_tight hc hb hrun p (by omega)
  have he : samples c p s0 (clocked c T s0 (e0 :: es)) = durations c T p t0 s0 (e0 :: es) := by
    rw [clocked, samples, durations]
    cases hst : step c s0 (readings c T s0 e0) with
    | fatal => rfl
    | ub => rfl
    | ok r =>
      obtain ⟨s', o⟩ := r
      have hc' : (s'.task s'.index).statCounter = T.value e0.t2 := by
        rw [step_counter hst]; exact Nat.mod_eq_of_lt (hv _)
      simp only [samples_durations hT hv hP p es s' e0.t2 hc' ht, if_neg hidx]
  rwa [he] at hw

/-- The idle task: its first sample, before the first tick, is not a duration but SINCE(-1) (picoRTOS.c:94), which the ports answer with a whole period at most. -/
theorem idle_first_sample {c : Cfg} (hc : c.WF) {strict : Bool} {adds : List (Desc × Nat)} {s0 : Core c.tw} (hb : boot c strict adds = .ok s0) (T : Timer)
    (e0 : TEv c.tw) : (readings c T s0 e0).since = T.since (T.value e0.t1) (2 ^ c.cw - 1) := by
  obtain ⟨f, g, hf, _, rfl⟩ := boot_shape hc hb
  show T.since _ (numbered f c.N c.N).statCounter = _
  rw [show (numbered f c.N c.N) = f c.N from by unfold numbered; simp, hf.idle]; rfl

/-- C105. A sample is kept as the last one and goes into both watermarks -/
theorem watermark_takes {c : Cfg} (t : Task c.tw) (v : Nat) : (statFinish c t v).statHi = max t.statHi (v % 2 ^ c.cw) ∧ (statFinish c t v).statLo = min t.statLo (v % 2 ^ c.cw) ∧
    (statFinish c t v).statCounter = v % 2 ^ c.cw := by
  unfold statFinish
  simp only
  refine ⟨?_, ?_, trivial⟩
  · rw [Nat.max_def]; split <;> split <;> omega
  · rw [Nat.min_def]; split <;> split <;> omega

/- a case: a counter of 8 bits; pid 0 is given the processor at 12, leaves at 32 (20 cycles), has it again from 40 to 47 -/
def exT : Timer := ⟨fun τ => τ % 256, fun v t => (v + 256 - t) % 256⟩
theorem exT_exact : exT.Exact 256 := by
  intro τ d hd
  show ((τ + d) % 256 + 256 - τ % 256) % 256 = d
  omega
def exH : List (TEv 4) := [⟨.tick, 5, 10, 12⟩, ⟨.tick, 205, 32, 40⟩, ⟨.sleep 3, 205, 47, 48⟩]
example : Timely 256 12 exH.tail := by unfold exH Timely; refine ⟨?_, ?_, ?_, ?_, trivial⟩ <;> decide
example : durations Demo.cfg exT 0 0 Demo.started exH = [20, 7] ∧ ∃ s, run Demo.cfg Demo.started (clocked Demo.cfg exT Demo.started exH) = .ok s ∧
    (s.task 0).statLo = 7 ∧ (s.task 0).statHi = 20 := ⟨by decide, _, rfl, by decide, by decide⟩

end Pico.Sched
