import Verif.SMP.Boot2
import Verif.SMP.Demo
import Verif.Arch.Counter
/-
C105 on SMP: the cycle counter behind the statistics (scheduler/picoRTOS-SMP.c:159-174, 519-562, 613-677).
-/
namespace Pico.SMP

open Pico.Sched (Desc Call Out)
open Pico.Counter (Timer)

theorem nextAvail_frame {c : Cfg} {k : Nat} : ∀ (fuel : Nat) (s s' : Core c.tw), nextAvail c k fuel s = .ok s' → s'.task = s.task ∧ ∀ j, j ≠ k → s'.index j = s.index j
  | 0, _, _, h => by cases h
  | fuel + 1, s, s', h => by
    unfold nextAvail at h
    obtain ⟨_, _, h⟩ := Res.bind_eq_ok h
    obtain ⟨a, _, h⟩ := Res.bind_eq_ok h
    have hix : ∀ j, j ≠ k → (s.setIndex k ((s.index k + 1) % 2 ^ c.pw)).index j = s.index j := fun j hj => upd_ne _ _ hj
    cases a with
    | true =>
      simp only [if_true, Res.pure_eq, Res.ok.injEq] at h
      subst h
      exact ⟨rfl, hix⟩
    | false =>
      obtain ⟨h1, h2⟩ := nextAvail_frame fuel _ s' h
      exact ⟨h1, fun j hj => (h2 j hj).trans (hix j hj)⟩

theorem tickLoop_frame {c : Cfg} {k : Nat} : ∀ (n : Nat) (s s' : Core c.tw), tickLoop c k n s = .ok s' →
    (∀ q, q < n → (s'.task q).statCounter = 0) ∧ (∀ q, n ≤ q → s'.task q = s.task q) ∧ ∀ j, j ≠ k → s'.index j = s.index j
  | 0, s, s', h => by
    simp only [tickLoop, Res.ok.injEq] at h
    subst h
    exact ⟨fun q hq => absurd hq (Nat.not_lt_zero q), fun _ _ => rfl, fun _ _ => rfl⟩
  | n + 1, s, s', h => by
    unfold tickLoop at h
    obtain ⟨a, _, h⟩ := Res.bind_eq_ok h
    obtain ⟨h1, h2, h3⟩ := tickLoop_frame n _ s' h
    refine ⟨fun q hq => ?_, fun q hq => ?_, fun j hj => ?_⟩
    · by_cases hn : q = n
      · subst hn; rw [h2 q (Nat.le_refl _)]; simp [Core.setTask]
      · exact h1 q (by omega)
    · rw [h2 q (by omega)]
      have : q ≠ n := by omega
      cases a <;> simp [Core.setTask, Core.setIndex, this]
    · rw [h3 j hj]
      cases a
      · rfl
      · exact upd_ne _ _ hj

/-- frame of a switch: the task given the core carries the new reading, no task but the one that leaves and the one that comes changes -/
theorem switch_frame {c : Cfg} {s s' : Core c.tw} {k pid since cur : Nat} (h : switchContext c s k pid since cur = .ok s') :
    (s'.task (s'.index k)).statCounter = cur % 2 ^ c.cw ∧ (∀ j, j ≠ k → s'.index j = s.index j) ∧
      ∀ q, q ≠ pid → q ≠ s'.index k → s'.task q = s.task q := by
  unfold switchContext at h
  obtain ⟨a, h1, h⟩ := Res.bind_eq_ok h
  obtain ⟨f1, f2⟩ := nextAvail_frame _ _ _ h1
  have fin : ∀ s2 : Core c.tw, s2.task = a.task → (∀ j, j ≠ k → s2.index j = s.index j) →
      (pure ((setBusy s2 k).setTask ((setBusy s2 k).index k) (statStart c ((setBusy s2 k).task ((setBusy s2 k).index k)) cur)) : Res (Core c.tw)) = .ok s' →
      (s'.task (s'.index k)).statCounter = cur % 2 ^ c.cw ∧ (∀ j, j ≠ k → s'.index j = s.index j) ∧ ∀ q, q ≠ pid → q ≠ s'.index k → s'.task q = s.task q := by
    intro s2 t2 i2 h
    rw [Res.pure_eq, Res.ok.injEq] at h
    subst h
    refine ⟨by simp [Core.setTask, statStart, setBusy], i2, fun q hq hi => ?_⟩
    have hi : q ≠ s2.index k := hi
    simp only [Core.setTask, setBusy, upd_ne _ _ hi]
    rw [t2, f1]
    simp only [Core.setTask, upd_ne _ _ hq]
  simp only at h
  by_cases g1 : a.index k ≥ c.N ∧ a.postponed = true
  · rw [if_pos g1] at h
    obtain ⟨b, h2, h⟩ := Res.bind_eq_ok h
    obtain ⟨f3, f4⟩ := nextAvail_frame _ _ _ h2
    by_cases g2 : b.index k ≥ c.N ∧ b.postponed = true
    · rw [if_pos g2] at h; cases h
    · rw [if_neg g2] at h
      exact fin b f3 (fun j hj => (f4 j hj).trans ((upd_ne _ _ hj).trans (f2 j hj))) h
  · rw [if_neg g1] at h
    exact fin a rfl (fun j hj => f2 j hj) h

theorem step_frame {c : Cfg} (hc : c.WF) {s s' : Core c.tw} {e : Ev c.tw} {o : Out c.tw} (h : step c s e = .ok (s', o)) :
    (s'.task (s'.index e.core)).statCounter = e.cur % 2 ^ c.cw ∧ (∀ j, j ≠ e.core → s'.index j = s.index j) ∧
      ∀ q, q < c.taskCount → q ≠ s.index e.core → q ≠ s'.index e.core →
        (s'.task q).statCounter = if e.call = .tick then 0 else (s.task q).statCounter := by
  have lv : ∀ {s s' : Core c.tw} {k : Nat} {r : BitVec c.tw} {b : Bool} {o : Out c.tw}, leave s k r b = .ok (s', o) → s' = s := by
    intro s s' k r b o h
    unfold leave at h
    obtain ⟨_, _, h⟩ := Res.bind_eq_ok h
    rw [Res.pure_eq, Res.ok.injEq] at h
    exact (Prod.mk.inj h).1.symm
  have sys : e.call ≠ .tick → syscall c s e = .ok (s', o) → (s'.task (s'.index e.core)).statCounter = e.cur % 2 ^ c.cw ∧ (∀ j, j ≠ e.core → s'.index j = s.index j) ∧
      ∀ q, q < c.taskCount → q ≠ s.index e.core → q ≠ s'.index e.core → (s'.task q).statCounter = if e.call = .tick then 0 else (s.task q).statCounter := by
    intro hne h
    unfold syscall at h
    obtain ⟨_, _, h⟩ := Res.bind_eq_ok h
    obtain ⟨_, _, h⟩ := Res.bind_eq_ok h
    cases hcall : e.call <;> rw [hcall] at h
    case tick => exact absurd hcall hne
    all_goals
      obtain ⟨a, h1, h⟩ := Res.bind_eq_ok h
      have := lv h
      subst this
      obtain ⟨f1, f2, f3⟩ := switch_frame h1
      refine ⟨f1, f2, fun q _ hq hi => ?_⟩
      rw [f3 q hq hi]
      simp [Core.setTask, hq]
  unfold step at h
  cases hcall : e.call with
  | tick =>
    rw [hcall] at h
    simp only at h
    unfold tickFn at h
    obtain ⟨_, _, h⟩ := Res.bind_eq_ok h
    obtain ⟨_, _, h⟩ := Res.bind_eq_ok h
    obtain ⟨a, h1, h⟩ := Res.bind_eq_ok h
    have := lv h
    rw [show c.taskCount % 2 ^ c.pw = c.taskCount from Nat.mod_eq_of_lt hc.fits] at h1
    obtain ⟨f1, f2, f3⟩ := tickLoop_frame _ _ _ h1
    have hix : ∀ j, j ≠ e.core → a.index j = s.index j := by
      intro j hj; rw [f3 j hj]
      by_cases hz : (s.setTask (s.index e.core) (statFinish c { s.task (s.index e.core) with sp := e.sp, state := .ready } e.since)).coreCounter = 0
      · simp only [if_pos hz]; rfl
      · simp only [if_neg hz]; rfl
    have ht : ∀ q, s'.task q = ((setBusy a e.core).setTask (a.index e.core) (statStart c ((setBusy a e.core).task (a.index e.core)) e.cur)).task q ∧ s'.index = a.index := by
      intro q
      rw [this]
      by_cases hz : ((setBusy a e.core).setTask ((setBusy a e.core).index e.core) (statStart c ((setBusy a e.core).task ((setBusy a e.core).index e.core)) e.cur)).coreCounter = c.K % 2 ^ c.kw
      · simp only [if_pos hz]; exact ⟨rfl, rfl⟩
      · simp only [if_neg hz]; exact ⟨rfl, rfl⟩
    have hi := (ht 0).2
    refine ⟨?_, fun j hj => by rw [hi]; exact hix j hj, fun q hq _ hn => ?_⟩
    · rw [hi, (ht _).1]; simp [Core.setTask, statStart, setBusy]
    · rw [hi] at hn
      rw [(ht q).1, if_pos rfl]
      simp only [Core.setTask, setBusy, upd_ne _ _ hn]
      exact f1 q hq
  | sleepUntil r p =>
    have hne : e.call ≠ .tick := by rw [hcall]; simp
    rw [hcall] at h
    obtain ⟨_, _, h⟩ := Res.bind_eq_ok h
    obtain ⟨_, _, h⟩ := Res.bind_eq_ok h
    rw [← hcall]; exact sys hne h
  | sleep d =>
    have hne : e.call ≠ .tick := by rw [hcall]; simp
    rw [hcall] at h
    obtain ⟨_, _, h⟩ := Res.bind_eq_ok h
    rw [← hcall]; exact sys hne h
  | kill =>
    have hne : e.call ≠ .tick := by rw [hcall]; simp
    rw [hcall] at h
    obtain ⟨_, _, h⟩ := Res.bind_eq_ok h
    rw [← hcall]; exact sys hne h
  | postpone =>
    have hne : e.call ≠ .tick := by rw [hcall]; simp
    rw [hcall] at h
    obtain ⟨_, _, h⟩ := Res.bind_eq_ok h
    rw [← hcall]; exact sys hne h

theorem counter_others {c : Cfg} (hc : c.WF) {i : Nat} (hi : i < c.K) : ∀ (es : List (Ev c.tw)) (s s' : Core c.tw), Inv c s → OnCores c es → (∀ e ∈ es, e.core ≠ i) →
    run c s es = .ok s' → s'.index i = s.index i ∧
      (s'.task (s'.index i)).statCounter = if ∃ e ∈ es, e.call = .tick then 0 else (s.task (s.index i)).statCounter := by
  intro es
  induction es with
  | nil => intro s s' _ _ _ h; simp only [run, Res.ok.injEq] at h; subst h; simp
  | cons e es ih =>
    intro s s' hv ho hn h
    obtain ⟨s1, o, h1, h2⟩ := run_cons h
    have hek : e.core < c.K := ho e (by simp)
    have hei : e.core ≠ i := hn e (by simp)
    have hv1 := (step_cases hc hv hek h1).2.1
    obtain ⟨_, f2, f3⟩ := step_frame hc h1
    obtain ⟨g1, g2⟩ := ih s1 s' hv1 (fun x hx => ho x (by simp [hx])) (fun x hx => hn x (by simp [hx])) h2
    have k1 : s1.index i = s.index i := f2 i (Ne.symm hei)
    have k2 := f3 (s.index i) (hv.idx i hi trivial) (fun hh => hei (hv.inj _ _ hi hek trivial trivial hh).symm)
      (fun hh => hei (hv1.inj _ _ hi hek trivial trivial (k1.trans hh)).symm)
    refine ⟨g1.trans k1, ?_⟩
    rw [g2, k1, k2]
    by_cases a : ∃ x ∈ es, x.call = .tick
    · rw [if_pos a, if_pos (by obtain ⟨x, hx, hxt⟩ := a; exact ⟨x, by simp [hx], hxt⟩)]
    · rw [if_neg a]
      by_cases b : e.call = .tick
      · rw [if_pos b, if_pos ⟨e, by simp, b⟩]
      · rw [if_neg b, if_neg]
        rintro ⟨x, hx, hxt⟩
        rcases List.mem_cons.mp hx with hx | hx
        · exact b (hx ▸ hxt)
        · exact a ⟨x, hx, hxt⟩

/-- C105 on SMP, exactly: core `i` is given a task in event `e` (which reads `e.cur`), other cores have their events, and then the task of core `i` is
measured. The reading it is measured against is that of `e` if no other core had a tick meanwhile, and 0 otherwise. -/
theorem smp_measured_against {c : Cfg} (hc : c.WF) {s s1 s2 : Core c.tw} {e : Ev c.tw} {o : Out c.tw} {es : List (Ev c.tw)} (hr : Reach c s) (hi : e.core < c.K)
    (h1 : step c s e = .ok (s1, o)) (ho : OnCores c es) (hn : ∀ x ∈ es, x.core ≠ e.core) (h2 : run c s1 es = .ok s2) :
    s2.index e.core = s1.index e.core ∧
      (s2.task (s2.index e.core)).statCounter = if ∃ x ∈ es, x.call = .tick then 0 else e.cur % 2 ^ c.cw := by
  have hv := reach_inv hc hr
  obtain ⟨g1, g2⟩ := counter_others hc hi es s1 s2 (step_cases hc hv hi h1).2.1 ho hn h2
  exact ⟨g1, by rw [g2, (step_frame hc h1).1]⟩

/-- The value the handler gets from arch_counter(ARCH_COUNTER_SINCE, task->stat.counter) at time `t` on core `i`. -/
def sampleAt {c : Cfg} (T : Timer) (s : Core c.tw) (i t : Nat) : Nat := T.since (T.value t) (s.task (s.index i)).statCounter

/-- C105 on SMP: the time measured is the time the task had the core, provided no other core had a tick meanwhile. -/
theorem smp_sample_exact_partial {c : Cfg} (hc : c.WF) {T : Timer} {P : Nat} (hT : T.Exact P) (hv : ∀ t, T.value t < 2 ^ c.cw) {s s1 s2 : Core c.tw} {e : Ev c.tw} {o : Out c.tw}
    {es : List (Ev c.tw)} (hr : Reach c s) (hi : e.core < c.K) (h1 : step c s e = .ok (s1, o)) (ho : OnCores c es) (hn : ∀ x ∈ es, x.core ≠ e.core)
    (h2 : run c s1 es = .ok s2) {t0 d : Nat} (hcur : e.cur = T.value t0) (hd : d < P) (hnt : ∀ x ∈ es, x.call ≠ .tick) : sampleAt T s2 e.core (t0 + d) = d := by
  obtain ⟨_, g⟩ := smp_measured_against hc hr hi h1 ho hn h2
  unfold sampleAt
  rw [g, if_neg (fun ⟨x, hx, ht⟩ => hnt x hx ht), hcur, Nat.mod_eq_of_lt (hv t0)]
  exact hT t0 d hd

/-- Refuted otherwise: after a tick of any other core the value measured is what the counter reads, whenever the task was given the core
(free-running counter, as the STM of the mpc574x) -/
theorem smp_sample_wrong {c : Cfg} (hc : c.WF) {s s1 s2 : Core c.tw} {e : Ev c.tw} {o : Out c.tw}
    {es : List (Ev c.tw)} (hr : Reach c s) (hi : e.core < c.K) (h1 : step c s e = .ok (s1, o)) (ho : OnCores c es) (hn : ∀ x ∈ es, x.core ≠ e.core)
    (h2 : run c s1 es = .ok s2) (ht : ∃ x ∈ es, x.call = .tick) (t : Nat) : sampleAt Counter.free s2 e.core t = t % 2 ^ 32 := by
  obtain ⟨_, g⟩ := smp_measured_against hc hr hi h1 ho hn h2
  unfold sampleAt
  rw [g, if_pos ht]
  show (BitVec.ofNat 32 (BitVec.ofNat 32 t).toNat - BitVec.ofNat 32 0).toNat = _
  simp

/-- and it is kept as the last sample and goes into the watermarks: the next event of the core makes statHi at least this value -/
theorem watermark_takes {c : Cfg} (t : Task c.tw) (v : Nat) : (statFinish c t v).statHi = max t.statHi (v % 2 ^ c.cw) ∧ (statFinish c t v).statLo = min t.statLo (v % 2 ^ c.cw) ∧
    (statFinish c t v).statCounter = v % 2 ^ c.cw := by
  unfold statFinish
  simp only
  refine ⟨?_, ?_, trivial⟩
  · rw [Nat.max_def]; split <;> split <;> omega
  · rw [Nat.min_def]; split <;> split <;> omega

/- a case: core 0 is given pid 1 when the counter reads 90, core 1 has a tick, core 0 is measured at 100: 100 cycles instead of 10. -/
def statDemo : Core Demo.cfg.tw := match run Demo.cfg Demo.started [Demo.ev 1 .tick 1105, { Demo.ev 0 .tick 1005 with cur := 90 }, Demo.ev 1 .tick 105] with | .ok s => s | _ => Demo.started
example : statDemo.index 0 = 1 ∧ sampleAt Counter.free statDemo 0 100 = 100 := by decide
/- without that tick: 10 -/
example : sampleAt Counter.free (match run Demo.cfg Demo.started [Demo.ev 1 .tick 1105, { Demo.ev 0 .tick 1005 with cur := 90 }, Demo.ev 1 (.sleep 3) 105] with | .ok s => s | _ => Demo.started) 0 100 = 10 := by decide

end Pico.SMP
