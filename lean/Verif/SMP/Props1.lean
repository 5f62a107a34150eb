import Verif.SMP.Boot2
import Verif.SMP.Demo
import Verif.Sched.Props1

/-! # Properties of the SMP scheduler, part 1 -/

namespace Pico.SMP

open Pico.Sched (Desc Call Out Goes countdown_step countdown_wake countdown_zero range_split)

/-- C25. Two cores never run the same task. -/
theorem smp_no_double_run {c : Cfg} (hc : c.WF) {s : Core c.tw} (hr : Reach c s) {i j p : Nat} (hi : i < c.K) (hj : j < c.K)
    (h1 : RunsOn s p i) (h2 : RunsOn s p j) : i = j :=
  (reach_inv hc hr).inj i j hi hj trivial trivial (h1.trans h2.symm)

/-- C25. A user task is marked busy exactly when some core runs it. -/
theorem smp_busy_iff_running {c : Cfg} (hc : c.WF) {s : Core c.tw} (hr : Reach c s) {p : Nat} (hp : p < c.N) :
    (s.task p).state = .busy ↔ ∃ i, i < c.K ∧ RunsOn s p i := by
  have h := reach_inv hc hr
  constructor
  · intro hb
    obtain ⟨i, h1, _, h2⟩ := h.owned p (by unfold Cfg.taskCount; omega) hb
    exact ⟨i, h1, h2⟩
  · rintro ⟨i, h1, h2⟩
    have h2' : s.index i = p := h2
    rcases h.run i h1 trivial with h3 | ⟨h3, _⟩
    · rw [h2'] at h3; exact h3
    · omega

-- two cores run two different tasks
example : Reach Demo.cfg (Demo.after Demo.h1) ∧ RunsOn (Demo.after Demo.h1) 0 1 ∧ RunsOn (Demo.after Demo.h1) 1 0 :=
  ⟨Demo.reach_h1, by unfold RunsOn; decide, by unfold RunsOn; decide⟩

/-! ### static facts along a history -/

theorem step_static {c : Cfg} (hc : c.WF) {s s' : Core c.tw} {e : Ev c.tw} {o : Out c.tw} (h : Inv c s) (hk : e.core < c.K)
    (hs : step c s e = .ok (s', o)) (p : Nat) : SameStatic (s.task p) (s'.task p) := by
  obtain ⟨_, _, _, hcase⟩ := step_cases hc h hk hs
  rcases hcase with ⟨_, r⟩ | ⟨hnt, hu, hb, r, _⟩
  · exact (tickMid_static c s e p).trans (r.picked.same p).toSameStatic
  · exact (sysMid_static hb hnt p).trans (r.picked.same p).toSameStatic

theorem OnCores.tail {c : Cfg} {e : Ev c.tw} {es : List (Ev c.tw)} (h : OnCores c (e :: es)) : OnCores c es :=
  fun x hx => h x (by simp [hx])

theorem OnCores.head {c : Cfg} {e : Ev c.tw} {es : List (Ev c.tw)} (h : OnCores c (e :: es)) : e.core < c.K :=
  h e (by simp)

theorem run_static {c : Cfg} (hc : c.WF) : ∀ (evs : List (Ev c.tw)) (s s' : Core c.tw), Inv c s → OnCores c evs →
    run c s evs = .ok s' → ∀ p, SameStatic (s.task p) (s'.task p) := by
  intro evs
  induction evs with
  | nil => intro s s' _ _ h p; simp [run] at h; subst h; exact SameStatic.refl _
  | cons e es ih =>
    intro s s' hi ho h p
    obtain ⟨s1, o, h1, h2⟩ := run_cons h
    have h3 := step_static hc hi ho.head h1 p
    exact h3.trans (ih s1 s' (step_cases hc hi ho.head h1).2.1 ho.tail h2 p)

/-- C26. Whatever the interleaving, the user task a core runs is one the user added with a mask that contains this core
(identified by its stack), and the only idle task a core runs is its own. -/
theorem smp_affinity {c : Cfg} (hc : c.WF) {strict : Bool} {adds : List Add} {s0 s : Core c.tw} {evs : List (Ev c.tw)}
    (hb : boot c strict adds = .ok s0) (ho : OnCores c evs) (hrun : run c s0 evs = .ok s) {i : Nat} (hi : i < c.K) :
    (s.index i < c.N → ∃ a ∈ adds, (s.task (s.index i)).bottom = a.desc.stack ∧
      (s.task (s.index i)).top = a.desc.stack + a.desc.stackCount ∧ (s.task (s.index i)).prio = a.prio ∧
      (s.task (s.index i)).mask = a.mask ∧ a.mask.testBit i = true) ∧
    (c.N ≤ s.index i → s.index i = c.N + i) := by
  have h0 := boot_inv hc hb
  have h := inv_run hc evs s0 s h0 ho hrun
  have hal := h.allowed i hi trivial
  refine ⟨?_, fun hge => h.toStatic.avail_idle_only hi (h.idx i hi trivial) hge hal⟩
  intro hlt
  have hst := run_static hc evs s0 s h0 ho hrun (s.index i)
  obtain ⟨hpr, hl⟩ := boot_legal hc hb
  obtain ⟨f, g, hf, _, hs0⟩ := boot_shape hc hb
  have ht0 : s0.task (s.index i) = numbered f c.N (s.index i) := by rw [hs0]
  generalize hp : s.index i = p at hlt hst ht0 hal ⊢
  unfold Allowed at hal
  rcases Nat.lt_or_ge p adds.length with hpl | hpl
  · obtain ⟨a, h1, h2⟩ := hf.used hc hl hpr p hpl
    have hn := numbered_static f c.N p
    refine ⟨a, h1, ?_, ?_, ?_, ?_, ?_⟩
    · rw [hst.bottom, ht0, hn.2.2.2.1, h2]; rfl
    · rw [hst.top, ht0, hn.2.1, h2]; rfl
    · rw [hst.prio, ht0, numbered_prio, h2]; rfl
    · rw [hst.mask, ht0, hn.2.2.1, h2]; rfl
    · rw [hst.mask, ht0, hn.2.2.1, h2] at hal; exact hal
  · exfalso
    rw [hst.mask, ht0, (numbered_static f c.N p).2.2.1, hf.unused hc hl hpr p hlt hpl] at hal
    simp [taskCoreInit] at hal

-- pid 1 (mask 1) runs on core 0
example : boot Demo.cfg true Demo.adds = .ok Demo.started ∧ OnCores Demo.cfg Demo.h1 ∧
    run Demo.cfg Demo.started Demo.h1 = .ok (Demo.after Demo.h1) ∧ (Demo.after Demo.h1).index 0 = 1 ∧
    ((Demo.after Demo.h1).task 1).mask = 1 :=
  ⟨rfl, Demo.on_h1, Demo.run_after (by decide), by decide, by decide⟩

/-! ### the tick -/

theorem step_tick {c : Cfg} (hc : c.WF) {s s' : Core c.tw} {e : Ev c.tw} {o : Out c.tw} (h : Inv c s) (hk : e.core < c.K)
    (hs : step c s e = .ok (s', o)) :
    (e.call = .tick → s'.tick = nextTick s ∧ s'.coreCounter = if s.coreCounter + 1 = c.K then 0 else s.coreCounter + 1) ∧
    (e.call ≠ .tick → s'.tick = s.tick ∧ s'.coreCounter = s.coreCounter) := by
  obtain ⟨_, _, _, hcase⟩ := step_cases hc h hk hs
  rcases hcase with ⟨ht, r⟩ | ⟨hnt, hu, hb, r, _⟩
  · exact ⟨fun _ => ⟨r.picked.tick, r.counter⟩, fun h => absurd ht h⟩
  · exact ⟨fun h => absurd h hnt, fun _ => ⟨r.picked.tick, r.counter⟩⟩

theorem tickCalls_cons {tw : Nat} (e : Ev tw) (es : List (Ev tw)) :
    tickCalls (e :: es) = tickCalls es + if e.call = .tick then 1 else 0 := by
  unfold tickCalls
  rw [List.countP_cons]; simp

/-- C27. After `n` calls of `picoRTOS_tick`, on whichever cores and in whichever order, the tick counter
has advanced `⌈n / cores⌉` times (its value is that minus one, modulo the width of `picoRTOS_tick_t`), and syscalls do not
count. -/
theorem smp_tick_per_round {c : Cfg} (hc : c.WF) {strict : Bool} {adds : List Add} {s0 s : Core c.tw} {evs : List (Ev c.tw)}
    (hb : boot c strict adds = .ok s0) (ho : OnCores c evs) (hrun : run c s0 evs = .ok s) :
    s.tick = BitVec.ofNat c.tw ((tickCalls evs + c.K - 1) / c.K) - 1 := by
  have hK := hc.cores
  have key : ∀ (evs : List (Ev c.tw)) (s s' : Core c.tw) (m : Nat), Inv c s → OnCores c evs → run c s evs = .ok s' →
      s.tick = BitVec.ofNat c.tw ((m + c.K - 1) / c.K) - 1 → s.coreCounter = m % c.K →
      s'.tick = BitVec.ofNat c.tw ((m + tickCalls evs + c.K - 1) / c.K) - 1 := by
    intro evs
    induction evs with
    | nil => intro s s' m _ _ h h1 _; simp [run] at h; subst h; simpa [tickCalls] using h1
    | cons e es ih =>
      intro s s' m hi ho h h1 h2
      obtain ⟨s1, o, k1, k2⟩ := run_cons h
      have hi1 := (step_cases hc hi ho.head k1).2.1
      have hst := step_tick hc hi ho.head k1
      rw [tickCalls_cons]
      by_cases ht : e.call = .tick
      · obtain ⟨t1, t2⟩ := hst.1 ht
        rw [if_pos ht]
        have := ih s1 s' (m + 1) hi1 ho.tail k2 ?_ ?_
        · rw [this]; congr 4; omega
        · rw [t1]; unfold nextTick; rw [h1, h2]
          have e1 : m = c.K * (m / c.K) + m % c.K := (Nat.div_add_mod m c.K).symm
          have hlt : m % c.K < c.K := Nat.mod_lt _ hK
          by_cases h0 : m % c.K = 0
          · rw [if_pos h0]
            have a1 : (m + c.K - 1) / c.K = m / c.K := by
              have : m + c.K - 1 = c.K - 1 + c.K * (m / c.K) := by omega
              rw [this, Nat.add_mul_div_left _ _ hK, Nat.div_eq_of_lt (by omega), Nat.zero_add]
            have a2 : (m + 1 + c.K - 1) / c.K = m / c.K + 1 := by
              have : m + 1 + c.K - 1 = m + c.K := by omega
              rw [this, Nat.add_div_right _ hK]
            rw [a1, a2, BitVec.ofNat_add]
            have : BitVec.ofNat c.tw 1 = 1 := rfl
            rw [this]; grind
          · rw [if_neg h0]
            have a1 : (m + c.K - 1) / c.K = m / c.K + 1 := by
              have : m + c.K - 1 = (m % c.K - 1) + c.K * (m / c.K + 1) := by
                rw [Nat.mul_add]; omega
              rw [this, Nat.add_mul_div_left _ _ hK, Nat.div_eq_of_lt (by omega), Nat.zero_add]
            have a2 : (m + 1 + c.K - 1) / c.K = m / c.K + 1 := by
              have : m + 1 + c.K - 1 = m + c.K := by omega
              rw [this, Nat.add_div_right _ hK]
            rw [a1, a2]
        · rw [t2, h2]
          have hlt : m % c.K < c.K := Nat.mod_lt _ hK
          rcases Nat.lt_or_ge 1 c.K with h3 | h3
          · have h1K : 1 % c.K = 1 := Nat.mod_eq_of_lt h3
            have hadd : (m + 1) % c.K = (m % c.K + 1) % c.K := by rw [Nat.add_mod, h1K]
            rw [hadd]
            split
            · rename_i h4; rw [h4, Nat.mod_self]
            · exact (Nat.mod_eq_of_lt (by omega)).symm
          · have : c.K = 1 := by omega
            simp [this, Nat.mod_one]
      · obtain ⟨t1, t2⟩ := hst.2 ht
        rw [if_neg ht]
        exact ih s1 s' m hi1 ho.tail k2 (t1.trans h1) (t2.trans h2)
  have hi := boot_inv hc hb
  have h0 : s0.tick = -1 ∧ s0.coreCounter = 0 := by
    obtain ⟨f, g, hf, _, rfl⟩ := boot_shape hc hb
    exact ⟨rfl, rfl⟩
  have := key evs s0 s 0 hi ho hrun ?_ ?_
  · simpa using this
  · rw [h0.1]
    have : (0 + c.K - 1) / c.K = 0 := Nat.div_eq_of_lt (by omega)
    rw [this]; simp
  · rw [h0.2]; simp

-- three calls on two cores: two system ticks, the counter is 1
example : ∃ s, run Demo.cfg Demo.started (Demo.h1 ++ [Demo.ev 0 .tick 205]) = .ok s ∧ s.tick = 1 :=
  ⟨_, rfl, by decide⟩

/-- C27. A syscall never changes the tick. -/
theorem smp_syscall_keeps_tick {c : Cfg} (hc : c.WF) {s s' : Core c.tw} {e : Ev c.tw} {o : Out c.tw} (hr : Reach c s)
    (hk : e.core < c.K) (ht : e.call ≠ .tick) (hs : step c s e = .ok (s', o)) : s'.tick = s.tick :=
  ((step_tick hc (reach_inv hc hr) hk hs).2 ht).1

/-! ### sleeping -/

/-- a running task is not asleep -/
theorem Inv.not_sleep {c : Cfg} {s : Core c.tw} (h : Inv c s) {i : Nat} (hi : i < c.K) :
    (s.task (s.index i)).state ≠ .sleep ∧ (s.task (s.index i)).state ≠ .empty ∧ (s.task (s.index i)).state ≠ .done := by
  rcases h.run i hi trivial with h1 | ⟨_, h1⟩ <;> rw [h1] <;> simp

theorem add_one_ne {w : Nat} (hw : 0 < w) (x : BitVec w) : x + 1 ≠ x := by
  intro h
  have h1 : (1 : BitVec w) = 0 := by
    have : x + 1 - x = x - x := by rw [h]
    grind
  have h2 : (1 : BitVec w).toNat = 0 := by rw [h1]; simp
  have h3 : (1 : BitVec w) = BitVec.ofNat w 1 := rfl
  rw [h3, BitVec.toNat_ofNat, Nat.mod_eq_of_lt (Nat.one_lt_two_pow (by omega))] at h2
  omega

/-- one event seen by a sleeping task -/
theorem step_sleep {c : Cfg} (hc : c.WF) {s s' : Core c.tw} {e : Ev c.tw} {o : Out c.tw} (h : Inv c s) (hk : e.core < c.K)
    (hs : step c s e = .ok (s', o)) {p : Nat} (hp : p < c.taskCount) (hst : (s.task p).state = .sleep)
    (hne : (s.task p).tick ≠ s.tick) :
    SameTask (s.task p) (s'.task p) ∧
    ((s'.tick = s.tick ∧ (s'.task p).state = .sleep) ∨
     (s'.tick = s.tick + 1 ∧ e.call = .tick ∧
       if (s.task p).tick = s.tick + 1 then (s'.task p).state = .ready ∨ ((s'.task p).state = .busy ∧ s'.index e.core = p)
       else (s'.task p).state = .sleep)) := by
  obtain ⟨_, _, _, hcase⟩ := step_cases hc h hk hs
  have hcur : p ≠ s.index e.core := by
    intro he; have := (h.not_sleep hk).1; rw [← he] at this; exact this hst
  rcases hcase with ⟨ht, r⟩ | ⟨hnt, hu, hb, r, _⟩
  · have hm := tickMid_other (e := e) hp hcur
    refine ⟨hm.1.trans (r.picked.same p), ?_⟩
    have htick : s'.tick = nextTick s := r.picked.tick
    have hsleep : (s.task p).tick ≠ nextTick s → (s'.task p).state = .sleep := by
      intro hx
      have h1 : ((tickMid c s e).task p).state = .sleep := by
        rw [hm.2, if_neg]
        · exact hst
        · rintro (⟨_, h1⟩ | h1)
          · exact hx h1
          · rw [hst] at h1; cases h1
      have h2 : p ≠ s'.index e.core := by
        intro he; have := r.picked.av.2.1; rw [← he, h1] at this; cases this
      rw [r.picked.stateO p h2, h1]
    unfold nextTick at htick hsleep
    by_cases h0 : s.coreCounter = 0
    · rw [if_pos h0] at htick hsleep
      right
      refine ⟨htick, ht, ?_⟩
      by_cases hx : (s.task p).tick = s.tick + 1
      · rw [if_pos hx]
        have h1 : ((tickMid c s e).task p).state = .ready := by
          rw [hm.2, if_pos]
          left; refine ⟨hst, ?_⟩; unfold nextTick; rw [if_pos h0]; exact hx
        by_cases h2 : p = s'.index e.core
        · right; refine ⟨?_, h2.symm⟩; rw [h2]; exact r.picked.busy
        · left; rw [r.picked.stateO p h2, h1]
      · rw [if_neg hx]; exact hsleep hx
    · rw [if_neg h0] at htick hsleep
      left; exact ⟨htick, hsleep hne⟩
  · have hm : (sysMid c s e).task p = s.task p := sysMid_other hcur
    have hsame := r.picked.same p
    rw [hm] at hsame
    refine ⟨hsame, .inl ⟨r.picked.tick, ?_⟩⟩
    have h2 : p ≠ s'.index e.core := by
      intro he; have := r.picked.av.2.1; rw [← he, hm, hst] at this; cases this
    rw [r.picked.stateO p h2, hm, hst]

theorem sysTicks_cons {c : Cfg} {s s1 : Core c.tw} {e : Ev c.tw} {es : List (Ev c.tw)} {o : Out c.tw}
    (h : step c s e = .ok (s1, o)) : sysTicks c s (e :: es) = (if s1.tick = s.tick then 0 else 1) + sysTicks c s1 es := by
  rw [sysTicks, h]

theorem sysTicks_append {c : Cfg} : ∀ (es fs : List (Ev c.tw)) (s s1 : Core c.tw), run c s es = .ok s1 →
    sysTicks c s (es ++ fs) = sysTicks c s es + sysTicks c s1 fs := by
  intro es
  induction es with
  | nil => intro fs s s1 h; simp [run] at h; subst h; simp [sysTicks]
  | cons e es ih =>
    intro fs s s1 h
    obtain ⟨s2, o, h1, h2⟩ := run_cons h
    rw [List.cons_append, sysTicks_cons h1, sysTicks_cons h1, ih fs s2 s1 h2]; omega

/-- a sleeping task with `k` system ticks to go, followed along a history -/
theorem sleeping_run {c : Cfg} (hc : c.WF) (hw : 0 < c.tw) {p : Nat} (hp : p < c.taskCount) :
    ∀ (evs : List (Ev c.tw)) (s s' : Core c.tw) (k : Nat), Inv c s → OnCores c evs → (s.task p).state = .sleep →
    ((s.task p).tick - s.tick).toNat = k → 0 < k → run c s evs = .ok s' → sysTicks c s evs < k →
    (s'.task p).state = .sleep ∧ ((s'.task p).tick - s'.tick).toNat = k - sysTicks c s evs ∧
      (s'.task p).tick = (s.task p).tick := by
  intro evs
  induction evs with
  | nil =>
    intro s s' k hi _ hst hk hpos hr _
    simp [run] at hr; subst hr
    exact ⟨hst, by simpa [sysTicks] using hk, rfl⟩
  | cons e es ih =>
    intro s s' k hi ho hst hk hpos hr ht
    obtain ⟨s1, o, h1, h2⟩ := run_cons hr
    have hi1 := (step_cases hc hi ho.head h1).2.1
    have hne : (s.task p).tick ≠ s.tick := by
      intro he; rw [he, BitVec.sub_self] at hk; simp at hk; omega
    obtain ⟨hsame, hcase⟩ := step_sleep hc hi ho.head h1 hp hst hne
    rw [sysTicks_cons h1] at ht ⊢
    rcases hcase with ⟨t1, t2⟩ | ⟨t1, _, t2⟩
    · rw [if_pos t1] at ht ⊢
      have hh := ih s1 s' k hi1 ho.tail t2 (by rw [hsame.tick, t1]; exact hk) hpos h2 (by omega)
      exact ⟨hh.1, by rw [hh.2.1]; omega, hh.2.2.trans hsame.tick⟩
    · have hch : s1.tick ≠ s.tick := by rw [t1]; exact add_one_ne hw _
      rw [if_neg hch] at ht ⊢
      obtain ⟨m, rfl⟩ : ∃ m, k = m + 1 := ⟨k - 1, by omega⟩
      have hm : m ≠ 0 := by omega
      rw [if_neg (fun h3 => hm ((countdown_wake hk).1 h3))] at t2
      have hh := ih s1 s' m hi1 ho.tail t2 (by rw [hsame.tick, t1]; exact countdown_step hk) (by omega) h2 (by omega)
      exact ⟨hh.1, by rw [hh.2.1]; omega, hh.2.2.trans hsame.tick⟩

/-- the system tick at which a sleeping task wakes up -/
theorem sleeping_wake {c : Cfg} (hc : c.WF) (hw : 0 < c.tw) {p : Nat} (hp : p < c.taskCount) {pre : List (Ev c.tw)} {e : Ev c.tw}
    {s s' : Core c.tw} {k : Nat} (hi : Inv c s) (ho : OnCores c (pre ++ [e])) (hst : (s.task p).state = .sleep)
    (hk : ((s.task p).tick - s.tick).toNat = k) (hpos : 0 < k) (hr : run c s (pre ++ [e]) = .ok s')
    (ht1 : sysTicks c s pre < k) (ht2 : sysTicks c s (pre ++ [e]) = k) :
    ((s'.task p).state = .ready ∨ ((s'.task p).state = .busy ∧ s'.index e.core = p)) ∧ s'.tick = (s.task p).tick := by
  have hop : OnCores c pre := fun x hx => ho x (by simp [hx])
  have hoe : e.core < c.K := ho e (by simp)
  obtain ⟨s1, h1, h2⟩ := (run_append _ _ _ _).1 hr
  obtain ⟨a1, a2, a3⟩ := sleeping_run hc hw hp pre s s1 k hi hop hst hk hpos h1 ht1
  have hi1 := inv_run hc pre s s1 hi hop h1
  obtain ⟨s2, o, h3, h4⟩ := run_cons h2
  simp [run] at h4; subst h4
  rw [sysTicks_append pre [e] s s1 h1, sysTicks_cons h3] at ht2
  simp only [sysTicks, Nat.add_zero] at ht2
  have hch : s2.tick ≠ s1.tick := by
    intro h; rw [if_pos h] at ht2; omega
  rw [if_neg hch] at ht2
  have h5 : ((s1.task p).tick - s1.tick).toNat = 0 + 1 := by omega
  have h6 := (countdown_wake h5).2 rfl
  have hne : (s1.task p).tick ≠ s1.tick := by
    intro he; rw [he, BitVec.sub_self] at h5; simp at h5
  obtain ⟨_, hcase⟩ := step_sleep hc hi1 hoe h3 hp a1 hne
  rcases hcase with ⟨t1, _⟩ | ⟨t1, _, t2⟩
  · exact absurd t1 hch
  · rw [if_pos h6] at t2
    exact ⟨t2, by rw [t1, ← h6, a3]⟩

/-- C28. `picoRTOS_sleep(d)`, `d ≥ 1`: whatever all cores do next, the caller runs on no core before the system tick has
advanced `d` times; at the event at which it advances for the `d`-th time it becomes ready, or already runs on
the core of that event. Holds across wrap-around. -/
theorem smp_sleep_lasts_exactly {c : Cfg} (hc : c.WF) {s s1 s2 : Core c.tw} {e : Ev c.tw} {o : Out c.tw} {d : BitVec c.tw}
    {evs : List (Ev c.tw)} (hr : Reach c s) (hk : e.core < c.K) (hcall : e.call = .sleep d) (hd : 0 < d.toNat)
    (hs : step c s e = .ok (s1, o)) (ho : OnCores c evs) (hrun : run c s1 evs = .ok s2) :
    (sysTicks c s1 evs < d.toNat →
      (s2.task (s.index e.core)).state = .sleep ∧ ∀ i, i < c.K → ¬ RunsOn s2 (s.index e.core) i) ∧
    (∀ pre t, evs = pre ++ [t] → sysTicks c s1 pre < d.toNat → sysTicks c s1 evs = d.toNat →
      (s2.task (s.index e.core)).state = .ready ∨
      ((s2.task (s.index e.core)).state = .busy ∧ RunsOn s2 (s.index e.core) t.core)) := by
  have hi := reach_inv hc hr
  have hw : 0 < c.tw := by
    rcases Nat.eq_zero_or_pos c.tw with h | h
    · have h1 := d.isLt
      have h2 : 2 ^ c.tw = 1 := by simp [h]
      omega
    · exact h
  obtain ⟨_, hi1, _, hcase⟩ := step_cases hc hi hk hs
  have hnt : e.call ≠ .tick := by rw [hcall]; simp
  rcases hcase with ⟨h, _⟩ | ⟨_, hu, hb, r, _⟩
  · exact absurd h hnt
  have hcur := sysMid_cur hb hnt
  have hstM : ((sysMid c s e).task (s.index e.core)).state = .sleep := by
    rw [hcur.2.2.2, hcall]; simp [callerState, hd]
  have hne : s.index e.core ≠ s1.index e.core := by
    intro he; have := r.picked.av.2.1; rw [← he, hstM] at this; cases this
  have hst : (s1.task (s.index e.core)).state = .sleep := by rw [r.picked.stateO _ hne, hstM]
  have hkk : ((s1.task (s.index e.core)).tick - s1.tick).toNat = d.toNat := by
    have ht : s1.tick = s.tick := r.picked.tick
    rw [(r.picked.same _).tick, ht, hcur.2.2.1, hcall]
    simp only [callerTick, if_pos hd]
    rw [BitVec.add_comm, BitVec.add_sub_cancel]
  have hplt : s.index e.core < c.taskCount := hi.idx _ hk trivial
  have hi2 := inv_run hc evs s1 s2 hi1 ho hrun
  refine ⟨?_, ?_⟩
  · intro ht
    have := (sleeping_run hc hw hplt evs s1 s2 d.toNat hi1 ho hst hkk hd hrun ht).1
    refine ⟨this, ?_⟩
    intro i hiK h
    have h2 := (hi2.not_sleep hiK).1
    rw [show s2.index i = s.index e.core from h] at h2
    exact h2 this
  · intro pre t hev h1 h2
    subst hev
    exact (sleeping_wake hc hw hplt hi1 ho hst hkk hd hrun h1 h2).1

-- pid 0 (core 1) sleeps 1 tick; the first core to tick wakes it up and takes it over
example : ∃ r, step Demo.cfg (Demo.after Demo.h1) (Demo.ev 1 (.sleep 1) 105) = .ok r ∧
    ∃ s2, run Demo.cfg r.1 [Demo.ev 0 .tick 205] = .ok s2 ∧ s2.index 0 = 0 ∧
      sysTicks Demo.cfg r.1 [Demo.ev 0 .tick 205] = 1 :=
  ⟨_, rfl, _, rfl, by decide, by decide⟩

/-- C32. A task that called `picoRTOS_kill` never runs again, on any core. -/
theorem smp_killed_never_runs {c : Cfg} (hc : c.WF) {s s1 s2 : Core c.tw} {e : Ev c.tw} {o : Out c.tw} {evs : List (Ev c.tw)}
    (hr : Reach c s) (hk : e.core < c.K) (hcall : e.call = .kill) (hs : step c s e = .ok (s1, o)) (ho : OnCores c evs)
    (hrun : run c s1 evs = .ok s2) {i : Nat} (hi : i < c.K) : ¬ RunsOn s2 (s.index e.core) i := by
  have hinv := reach_inv hc hr
  obtain ⟨_, hi1, _, hcase⟩ := step_cases hc hinv hk hs
  have hnt : e.call ≠ .tick := by rw [hcall]; simp
  rcases hcase with ⟨h, _⟩ | ⟨_, hu, hb, r, _⟩
  · exact absurd h hnt
  have hstM : ((sysMid c s e).task (s.index e.core)).state = .empty := by
    rw [(sysMid_cur hb hnt).2.2.2, hcall]; rfl
  have hne : s.index e.core ≠ s1.index e.core := by
    intro he; have := r.picked.av.2.1; rw [← he, hstM] at this; cases this
  have hst : (s1.task (s.index e.core)).state = .empty := by rw [r.picked.stateO _ hne, hstM]
  have key : ∀ (evs : List (Ev c.tw)) (a b : Core c.tw) (p : Nat), p < c.taskCount → Inv c a → OnCores c evs →
      (a.task p).state = .empty → run c a evs = .ok b → (b.task p).state = .empty := by
    intro evs
    induction evs with
    | nil => intro a b p _ _ _ hpe hab; simp [run] at hab; subst hab; exact hpe
    | cons x xs ih =>
      intro a b p hpN hia ho hpe hab
      obtain ⟨a1, o1, k1, k2⟩ := run_cons hab
      obtain ⟨_, hia1, _, hc1⟩ := step_cases hc hia ho.head k1
      have hcur : p ≠ a.index x.core := by
        intro he; have := (hia.not_sleep ho.head).2.1; rw [← he] at this; exact this hpe
      refine ih a1 b p hpN hia1 ho.tail ?_ k2
      rcases hc1 with ⟨_, r1⟩ | ⟨_, _, _, r1, _⟩
      · have hm := tickMid_other (e := x) hpN hcur
        have h1 : ((tickMid c a x).task p).state = .empty := by rw [hm.2, hpe]; simp
        have h2 : p ≠ a1.index x.core := by
          intro he; have := r1.picked.av.2.1; rw [← he, h1] at this; cases this
        rw [r1.picked.stateO p h2, h1]
      · have hm : (sysMid c a x).task p = a.task p := sysMid_other hcur
        have h2 : p ≠ a1.index x.core := by
          intro he; have := r1.picked.av.2.1; rw [← he, hm, hpe] at this; cases this
        rw [r1.picked.stateO p h2, hm, hpe]
  have hfin := key evs s1 s2 (s.index e.core) (hinv.idx _ hk trivial) hi1 ho hst hrun
  have hi2 := inv_run hc evs s1 s2 hi1 ho hrun
  intro h
  have h2 := (hi2.not_sleep hi).2.1
  rw [show s2.index i = s.index e.core from h] at h2
  exact h2 hfin

-- pid 0 (core 1) dies; both cores go on without it
example : ∃ r, step Demo.cfg (Demo.after Demo.h1) (Demo.ev 1 .kill 105) = .ok r ∧
    ∃ s2, run Demo.cfg r.1 [Demo.ev 0 .tick 205, Demo.ev 1 .tick 305] = .ok s2 ∧ s2.index 0 = 1 ∧ s2.index 1 = 3 :=
  ⟨_, rfl, _, rfl, by decide, by decide⟩

end Pico.SMP
