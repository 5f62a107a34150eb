import Verif.Lite.Props
import Verif.Sched.Props2
import Mathlib.Data.List.Nodup
import Mathlib.Data.List.Perm.Subperm

/-!
# The lite scheduler does what the full one does when priorities are distinct (C36)
-/

namespace Pico.Lite

open Pico.Sched (Cfg Desc TState Call Ev Out Goes Avail)

/-- What an observer of the full scheduler sees along a history: after each event, the priority of the running task (`N` for
idle), the tick counter and the result handed back (stack pointer resumed, `ref` of `picoRTOS_sleep_until`, debug break). -/
def fullTrace (c : Cfg) : Sched.Core c.tw → List (Ev c.tw) → Res (List (Nat × BitVec c.tw × Out c.tw))
  | _, [] => .ok []
  | s, e :: es => do
    let r ← Sched.step c s e
    let t ← fullTrace c r.1 es
    pure (((r.1.task r.1.index).prio, r.1.tick, r.2) :: t)

/-- The same for the lite scheduler, where the index of a task is its priority. -/
def liteTrace (c : Cfg) : Core c.tw → List (Ev c.tw) → Res (List (Nat × BitVec c.tw × Out c.tw))
  | _, [] => .ok []
  | s, e :: es => do
    let r ← step c s e
    let t ← liteTrace c r.1 es
    pure ((r.1.index, r.1.tick, r.2) :: t)

/-- a full slot and a lite slot agree -/
structure Agree {tw : Nat} (t : Sched.Task tw) (u : Task tw) : Prop where
  sp : u.sp = t.sp
  state : u.state = t.state
  tick : u.tick = t.tick
  bottom : u.bottom = t.bottom
  top : u.top = t.top
  miss : u.miss = t.miss

/-- simulation relation -/
structure Sim (c : Cfg) (F : Sched.Core c.tw) (L : Core c.tw) : Prop where
  hF : Sched.Inv c F
  hL : Inv c L
  dist : ∀ p q, p < c.N → q < c.N → (F.task p).prio = (F.task q).prio → (F.task p).prio < c.N → p = q
  dich : ∀ p, p < c.N → (F.task p).prio < c.N ∨ (F.task p).prio = c.N + 1
  tick : L.tick = F.tick
  post : L.postponed = F.postponed
  idx : L.index = (F.task F.index).prio
  agree : ∀ p, p ≤ c.N → (F.task p).prio ≤ c.N → Agree (F.task p) (L.task (F.task p).prio)
  rest : ∀ q, q < c.N → (∀ p, p < c.N → (F.task p).prio ≠ q) → (L.task q).state = .empty

theorem goes_det {N : Nat} {A : Nat → Prop} {post : Bool} {i j j' : Nat} {b b' : Bool}
    (h : Goes N A post i j b) (h' : Goes N A post i j' b') : j = j' ∧ b = b' := by
  cases h with
  | next h1 h2 h3 h4 h5 =>
    cases h' with
    | next k1 k2 k3 k4 k5 =>
      refine ⟨?_, rfl⟩
      rcases Nat.lt_trichotomy j j' with h | h | h
      · exact absurd h3 (k4 _ h1 h)
      · exact h
      · exact absurd k3 (h4 _ k1 h)
    | wrap k1 k2 k3 k4 k5 =>
      exfalso
      rcases Nat.lt_or_ge j N with h | h
      · exact k2 j h1 h h3
      · rw [h5 (by omega)] at k1; cases k1
  | wrap h1 h2 h3 h4 h5 =>
    cases h' with
    | next k1 k2 k3 k4 k5 =>
      exfalso
      rcases Nat.lt_or_ge j' N with h | h
      · exact h2 j' k1 h k3
      · rw [k5 (by omega)] at h1; cases h1
    | wrap k1 k2 k3 k4 k5 =>
      refine ⟨?_, rfl⟩
      rcases Nat.lt_trichotomy j j' with h | h | h
      · exact absurd h4 (k5 _ h)
      · exact h
      · exact absurd k4 (h5 _ h)

/-- a monotone renaming of the slots carries the choice over -/
theorem goes_map {N : Nat} {A B : Nat → Prop} {f : Nat → Nat} {post : Bool} {i j : Nat} {b : Bool}
    (hN : f N = N) (hi : i < N) (hfi : f i < N)
    (hA : ∀ p, p ≤ N → A p → f p ≤ N ∧ B (f p))
    (hB : ∀ q, q ≤ N → B q → ∃ p, p ≤ N ∧ A p ∧ f p = q)
    (hmono : ∀ p q, p < q → q ≤ N → f p ≤ N → f q ≤ N → f p < f q)
    (h : Goes N A post i j b) : Goes N B post (f i) (f j) b := by
  have back : ∀ p q, p ≤ N → q ≤ N → f p ≤ N → f q ≤ N → f p < f q → p < q := by
    intro p q hp hq h1 h2 h3
    rcases Nat.lt_trichotomy p q with h | h | h
    · exact h
    · subst h; omega
    · have := hmono q p h hp h2 h1; omega
  cases h with
  | next h1 h2 h3 h4 h5 =>
    have hj := hA j h2 h3
    refine .next (hmono i j h1 h2 (by omega) hj.1) hj.1 hj.2 ?_ ?_
    · intro q hq1 hq2 hb
      obtain ⟨p, hp1, hp2, rfl⟩ := hB q (by omega) hb
      exact h4 p (back i p (by omega) hp1 (by omega) (by omega) hq1) (back p j hp1 h2 (by omega) hj.1 hq2) hp2
    · intro hjN
      apply h5
      rcases Nat.lt_or_ge j N with h | h
      · have := hmono j N h (Nat.le_refl _) hj.1 (by omega); omega
      · omega
  | wrap h1 h2 h3 h4 h5 =>
    have hj := hA j h3 h4
    refine .wrap h1 ?_ hj.1 hj.2 ?_
    · intro q hq1 hq2 hb
      obtain ⟨p, hp1, hp2, rfl⟩ := hB q (by omega) hb
      exact h2 p (back i p (by omega) hp1 (by omega) (by omega) hq1)
        (back p N hp1 (Nat.le_refl _) (by omega) (by omega) (by omega)) hp2
    · intro q hq hb
      obtain ⟨p, hp1, hp2, rfl⟩ := hB q (by omega) hb
      exact h5 p (back p j hp1 h3 (by omega) hj.1 hq) hp2

/-- without shared priorities every ready task of the full scheduler is eligible -/
theorem avail_iff_ready {c : Cfg} {F : Sched.Core c.tw} (h : Sched.Inv c F)
    (hd : ∀ p q, p < c.N → q < c.N → (F.task p).prio = (F.task q).prio → (F.task p).prio < c.N → p = q)
    (p : Nat) (hp : p ≤ c.N) : Avail c F p ↔ (F.task p).state = .ready := by
  constructor
  · exact fun h => h.1
  · intro hst
    by_cases hpN : p = c.N
    · subst hpN; exact h.idleAvail
    · have hlt : p < c.N := by omega
      have hpr := h.userPrio p hlt (by rw [hst]; simp)
      have hturn : Sched.turn c F p = 0 := by
        unfold Sched.turn
        rw [List.length_eq_zero_iff, List.filter_eq_nil_iff]
        intro q hq; simp at hq
        simp only [decide_eq_true_eq]
        intro he
        have := hd q p (by omega) hlt he (by omega)
        omega
      have hsh : Sched.sharers c F p = 1 := by
        unfold Sched.sharers
        have : (List.range c.N).filter (fun q => decide ((F.task q).prio = (F.task p).prio)) =
            (List.range c.N).filter (fun q => decide (q = p)) := by
          apply List.filter_congr
          intro q hq; simp at hq
          apply decide_eq_decide.2
          exact ⟨fun he => hd q p hq hlt he (by omega), fun he => by rw [he]⟩
        rw [this, List.filter_eq, List.length_replicate, List.count_eq_one_of_mem List.nodup_range (by simpa using hlt)]
      have := (h.eligible_iff p).1 ⟨hlt, hst, by rw [hsh, hturn, Nat.mod_one]⟩
      exact this.2

/-- the part of the simulation relation about the static numbering -/
structure Static (c : Cfg) (F : Sched.Core c.tw) : Prop where
  hF : Sched.Inv c F
  dist : ∀ p q, p < c.N → q < c.N → (F.task p).prio = (F.task q).prio → (F.task p).prio < c.N → p = q
  dich : ∀ p, p < c.N → (F.task p).prio < c.N ∨ (F.task p).prio = c.N + 1

theorem Sim.static {c : Cfg} {F : Sched.Core c.tw} {L : Core c.tw} (h : Sim c F L) : Static c F :=
  ⟨h.hF, h.dist, h.dich⟩

theorem Static.mono {c : Cfg} {F : Sched.Core c.tw} (h : Static c F) :
    ∀ p q, p < q → q ≤ c.N → (F.task p).prio ≤ c.N → (F.task q).prio ≤ c.N → (F.task p).prio < (F.task q).prio := by
  intro p q hpq hq h1 h2
  have hpN : (F.task p).prio < c.N := by rcases h.dich p (by omega) with h3 | h3 <;> omega
  by_cases hqN : q = c.N
  · subst hqN; rw [h.hF.idlePrio]; exact hpN
  · have := h.hF.sorted p q (by omega) (by omega)
    rcases Nat.lt_or_ge (F.task p).prio (F.task q).prio with h3 | h3
    · exact h3
    · have := h.dist p q (by omega) (by omega) (by omega) hpN; omega

theorem Static.prio_le {c : Cfg} {F : Sched.Core c.tw} (h : Static c F) (p : Nat) (hp : p ≤ c.N)
    (hs : (F.task p).state ≠ .empty) : (F.task p).prio ≤ c.N := by
  by_cases hpN : p = c.N
  · subst hpN; rw [h.hF.idlePrio]; exact Nat.le_refl _
  · have := h.hF.userPrio p (by omega) hs; omega

/-- the ready slots correspond -/
theorem map_facts {c : Cfg} {F : Sched.Core c.tw} {L : Core c.tw} (h : Static c F)
    (agree : ∀ p, p ≤ c.N → (F.task p).prio ≤ c.N → (L.task (F.task p).prio).state = (F.task p).state)
    (rest : ∀ q, q < c.N → (∀ p, p < c.N → (F.task p).prio ≠ q) → (L.task q).state = .empty) :
    (∀ p, p ≤ c.N → Avail c F p → (F.task p).prio ≤ c.N ∧ Ready L (F.task p).prio) ∧
    (∀ q, q ≤ c.N → Ready L q → ∃ p, p ≤ c.N ∧ Avail c F p ∧ (F.task p).prio = q) := by
  constructor
  · intro p hp ha
    have hle := h.prio_le p hp (by rw [ha.1]; simp)
    exact ⟨hle, by unfold Ready; rw [agree p hp hle]; exact ha.1⟩
  · intro q hq hr
    have : ∃ p, p ≤ c.N ∧ (F.task p).prio = q := by
      by_cases hqN : q = c.N
      · exact ⟨c.N, Nat.le_refl _, by rw [hqN]; exact h.hF.idlePrio⟩
      · apply Classical.byContradiction
        intro hn
        have := rest q (by omega) (fun p hp he => hn ⟨p, by omega, he⟩)
        unfold Ready at hr; rw [this] at hr; cases hr
    obtain ⟨p, hp, rfl⟩ := this
    refine ⟨p, hp, (avail_iff_ready h.hF h.dist p hp).2 ?_, rfl⟩
    rw [← agree p hp hq]; exact hr

/-- every event on the full scheduler: legal with the described effect, or a stall -/
theorem full_step_total {c : Cfg} (hc : c.WF) {s : Sched.Core c.tw} (h : Sched.Inv c s) (e : Ev c.tw) :
    (Sched.SpOk s e.sp ∧ Legal c.N s.index e.call ∧ ∃ s' o, Sched.step c s e = .ok (s', o) ∧ Sched.Inv c s' ∧
      o.sp = (s'.task s'.index).sp ∧
      ((e.call = .tick ∧ Sched.TickRes c s e s' ∧ o.ref = 0 ∧ o.brk = false) ∨
       (e.call ≠ .tick ∧ s.index < c.N ∧ Sched.SysRes c s e s' ∧ (o.ref, o.brk) = Sched.callerOut c s e))) ∨
    (¬ (Sched.SpOk s e.sp ∧ Legal c.N s.index e.call) ∧ Sched.step c s e = .fatal) := by
  by_cases ht : e.call = .tick
  · have hst : Sched.step c s e = Sched.tickFn c s e := by unfold Sched.step; rw [ht]
    rw [hst]
    by_cases hsp : Sched.SpOk s e.sp
    · left
      obtain ⟨s1, h1, h2⟩ := Sched.tickFn_spec hc s e h hsp
      exact ⟨hsp, .inl ht, s1, _, h1, Sched.inv_tick h h2, rfl, .inl ⟨ht, h2, rfl, rfl⟩⟩
    · right
      exact ⟨fun h => hsp h.1, Sched.tickFn_badSp s e hsp⟩
  · by_cases hper : ∀ r p, e.call = .sleepUntil r p → 0 < p.toNat
    · have hst : Sched.step c s e = Sched.syscall c s e := Sched.step_syscall h e ht hper
      rw [hst]
      by_cases hsp : Sched.SpOk s e.sp
      · rcases Nat.lt_or_ge s.index c.N with hu | hu
        · left
          obtain ⟨s1, h1, h2⟩ := Sched.syscall_spec hc s e h hsp hu ht
          exact ⟨hsp, .inr ⟨hu, hper⟩, s1, _, h1, Sched.inv_sys h hu h2, rfl, .inr ⟨ht, hu, h2, rfl⟩⟩
        · right
          refine ⟨?_, Sched.syscall_idle hc s e (by have := h.idx; omega)⟩
          rintro ⟨_, h1 | h1⟩
          · exact ht h1
          · omega
      · right
        exact ⟨fun h => hsp h.1, Sched.syscall_badSp s e hsp⟩
    · right
      refine ⟨?_, ?_⟩
      · rintro ⟨_, h1 | h1⟩
        · exact ht h1
        · exact hper h1.2
      · have : ∃ r p, e.call = .sleepUntil r p ∧ ¬ 0 < p.toNat := by
          apply Classical.byContradiction
          intro hn
          apply hper
          intro r p hcall
          apply Classical.byContradiction
          intro hp; exact hn ⟨r, p, hcall, hp⟩
        obtain ⟨r, p, hcall, hp⟩ := this
        unfold Sched.step; rw [hcall]; simp [hp]

theorem Sim.idx_le {c : Cfg} {F : Sched.Core c.tw} {L : Core c.tw} (h : Sim c F L) : (F.task F.index).prio ≤ c.N :=
  h.static.prio_le _ h.hF.idx (by rw [h.hF.av.1]; simp)

theorem Sim.spOk_iff {c : Cfg} {F : Sched.Core c.tw} {L : Core c.tw} (h : Sim c F L) (sp : Nat) :
    Sched.SpOk F sp ↔ SpOk L sp := by
  have := h.agree _ h.hF.idx h.idx_le
  unfold Sched.SpOk SpOk; rw [h.idx, this.bottom, this.top]

theorem Sim.user_iff {c : Cfg} {F : Sched.Core c.tw} {L : Core c.tw} (h : Sim c F L) : F.index < c.N ↔ L.index < c.N := by
  rw [h.idx]
  have := h.hF.idx
  constructor
  · intro h1
    have := h.static.mono F.index c.N h1 (Nat.le_refl _) h.idx_le (by rw [h.hF.idlePrio]; exact Nat.le_refl _)
    rw [h.hF.idlePrio] at this; exact this
  · intro h1
    rcases Nat.lt_or_ge F.index c.N with h2 | h2
    · exact h2
    · have : F.index = c.N := by omega
      rw [this, h.hF.idlePrio] at h1; omega

theorem Sim.prio_inj {c : Cfg} {F : Sched.Core c.tw} {L : Core c.tw} (h : Sim c F L) {p : Nat} (hp : p ≤ c.N)
    (hle : (F.task p).prio ≤ c.N) (he : (F.task p).prio = (F.task F.index).prio) : p = F.index := by
  rcases Nat.lt_trichotomy p F.index with h1 | h1 | h1
  · have := h.static.mono p F.index h1 h.hF.idx hle h.idx_le; omega
  · exact h1
  · have := h.static.mono F.index p h1 hp h.idx_le hle; omega

theorem Sim.tick_step {c : Cfg} {F F' : Sched.Core c.tw} {L L' : Core c.tw} {e : Ev c.tw} (h : Sim c F L)
    (hF' : Sched.Inv c F') (hL' : Inv c L') (r : Sched.TickRes c F e F') (s : TickRes c L e L') : Sim c F' L' := by
  have hpr : ∀ q, (F'.task q).prio = (F.task q).prio := fun q => (r.static q).prio
  have hst' : Static c F' := by
    refine ⟨hF', ?_, ?_⟩
    · intro p q; simp only [hpr]; exact h.dist p q
    · intro p; simp only [hpr]; exact h.dich p
  have hst : ∀ p, p ≤ c.N → (F.task p).prio ≤ c.N → (L'.task (F.task p).prio).state = (F'.task p).state := by
    intro p hp hle
    have ha := h.agree p hp hle
    rw [s.state _ hle, r.state _ hp, ha.state, ha.tick, h.tick]
  have hrest : ∀ q, q < c.N → (∀ p, p < c.N → (F'.task p).prio ≠ q) → (L'.task q).state = .empty := by
    intro q hq hn
    have := h.rest q hq (fun p hp => by have := hn p hp; rw [hpr] at this; exact this)
    rw [s.state _ (by omega), this]; simp
  have hag : ∀ p, p ≤ c.N → (F'.task p).prio ≤ c.N → Agree (F'.task p) (L'.task (F'.task p).prio) := by
    intro p hp hle
    rw [hpr] at hle ⊢
    have ha := h.agree p hp hle
    by_cases hpi : p = F.index
    · subst hpi
      have hc := s.cur
      rw [h.idx] at hc
      obtain ⟨c1, c2, c3, c4, c5, c6⟩ := hc
      exact ⟨by rw [c1, r.curSp], hst _ hp hle, by rw [c2, r.curTick]; exact ha.tick,
        by rw [c3, (r.static _).bottom]; exact ha.bottom, by rw [c4, (r.static _).top]; exact ha.top,
        by rw [c6, r.curMiss]; exact ha.miss⟩
    · have hne : (F.task p).prio ≠ L.index := by
        rw [h.idx]; exact fun he => hpi (h.prio_inj hp hle he)
      obtain ⟨c1, c2, c3, c4, c5, c6⟩ := s.other _ hne
      have ho := r.other p hpi
      exact ⟨by rw [c1, ho.sp]; exact ha.sp, hst p hp hle, by rw [c2, ho.tick]; exact ha.tick,
        by rw [c3, ho.bottom]; exact ha.bottom, by rw [c4, ho.top]; exact ha.top, by rw [c6, ho.miss]; exact ha.miss⟩
  obtain ⟨m1, m2⟩ := map_facts (L := L') hst' (fun p hp hle => (hag p hp hle).state) hrest
  refine ⟨hF', hL', hst'.dist, hst'.dich, by rw [s.tick, r.tick, h.tick], by rw [s.postponed, r.postponed], ?_, hag, hrest⟩
  obtain ⟨a1, a2⟩ := m1 F'.index r.idx r.av
  rcases Nat.lt_trichotomy L'.index (F'.task F'.index).prio with hlt | heq | hgt
  · exfalso
    obtain ⟨p, p1, p2, p3⟩ := m2 L'.index s.idx s.av
    rcases Nat.lt_trichotomy p F'.index with h1 | h1 | h1
    · exact r.least p h1 p2
    · subst h1; omega
    · have := hst'.mono F'.index p h1 p1 a1 (by rw [p3]; exact s.idx); omega
  · exact heq
  · exact absurd a2 (s.least _ hgt)

theorem caller_agree {c : Cfg} {F F' : Sched.Core c.tw} {L : Core c.tw} {e : Ev c.tw} (h : Sim c F L)
    (r : Sched.SysRes c F e F') (hnt : e.call ≠ .tick) : Agree (F'.task F.index) (callerTask c L e) := by
  have ha := h.agree _ h.hF.idx h.idx_le
  rw [← h.idx] at ha
  have hm := r.curMiss
  refine
    { sp := ?_
      state := ?_
      tick := ?_
      bottom := ?_
      top := ?_
      miss := ?_ }
  · rw [r.curSp]; unfold callerTask
    cases e.call <;> simp only [syscallSleep, syscallSleepUntil, syscallKill] <;> (repeat' split) <;> rfl
  · rw [r.curState]; unfold callerTask Sched.callerState
    cases e.call <;> simp only [syscallSleep, syscallSleepUntil, syscallKill, h.tick, ha.state] <;> (repeat' split) <;> first | rfl | exact ha.state
  · rw [r.curTick]; unfold callerTask Sched.callerTick
    cases e.call <;> simp only [syscallSleep, syscallSleepUntil, syscallKill, h.tick, ha.tick] <;> (repeat' split) <;> first | rfl | exact ha.tick
  · rw [(r.static _).bottom]; unfold callerTask
    cases e.call <;> simp only [syscallSleep, syscallSleepUntil, syscallKill] <;> (repeat' split) <;> exact ha.bottom
  · rw [(r.static _).top]; unfold callerTask
    cases e.call <;> simp only [syscallSleep, syscallSleepUntil, syscallKill] <;> (repeat' split) <;> exact ha.top
  · rw [hm]; unfold callerTask Sched.callerTask
    cases e.call <;>
      simp only [syscallSleep, syscallSleepUntil, syscallKill, Sched.syscallSleep, Sched.syscallSleepUntil, Sched.syscallKill, h.tick, ha.miss] <;>
      (repeat' split) <;> first | rfl | exact ha.miss

theorem Sim.sys_step {c : Cfg} {F F' : Sched.Core c.tw} {L L' : Core c.tw} {e : Ev c.tw} (h : Sim c F L)
    (hu : F.index < c.N) (hnt : e.call ≠ .tick)
    (hF' : Sched.Inv c F') (hL' : Inv c L') (r : Sched.SysRes c F e F') (s : SysRes c L e L') : Sim c F' L' := by
  have hpr : ∀ q, (F'.task q).prio = (F.task q).prio := fun q => (r.static q).prio
  have hst' : Static c F' := by
    refine ⟨hF', ?_, ?_⟩
    · intro p q; simp only [hpr]; exact h.dist p q
    · intro p; simp only [hpr]; exact h.dich p
  have hag : ∀ p, p ≤ c.N → (F'.task p).prio ≤ c.N → Agree (F'.task p) (L'.task (F'.task p).prio) := by
    intro p hp hle
    rw [hpr] at hle ⊢
    have ha := h.agree p hp hle
    by_cases hpi : p = F.index
    · subst hpi
      rw [← h.idx, s.cur]
      exact caller_agree h r hnt
    · have hne : (F.task p).prio ≠ L.index := by
        rw [h.idx]; exact fun he => hpi (h.prio_inj hp hle he)
      rw [s.other _ hne]
      have ho := r.other p hpi
      exact ⟨by rw [ho.1.sp]; exact ha.sp, by rw [ho.2]; exact ha.state, by rw [ho.1.tick]; exact ha.tick,
        by rw [ho.1.bottom]; exact ha.bottom, by rw [ho.1.top]; exact ha.top, by rw [ho.1.miss]; exact ha.miss⟩
  have hrest : ∀ q, q < c.N → (∀ p, p < c.N → (F'.task p).prio ≠ q) → (L'.task q).state = .empty := by
    intro q hq hn
    have h1 := h.rest q hq (fun p hp => by have := hn p hp; rw [hpr] at this; exact this)
    have hne : q ≠ L.index := by
      rw [h.idx]; intro he
      have := hn F.index hu
      rw [hpr] at this; exact this he.symm
    rw [s.other _ hne]; exact h1
  obtain ⟨m1, m2⟩ := map_facts (L := L') hst' (fun p hp hle => (hag p hp hle).state) hrest
  have hcp : callerPost L e.call = Sched.callerPost F e.call := by
    unfold callerPost Sched.callerPost
    cases e.call <;> first | rfl | exact h.post
  have hg := goes_map (f := fun p => (F'.task p).prio) (B := Ready L') hF'.idlePrio hu
    (by have := h.user_iff.1 hu; rw [h.idx] at this; rw [hpr]; exact this) m1 m2 hst'.mono r.goes
  have hg2 := s.goes
  rw [hcp, h.idx, ← hpr] at hg2
  obtain ⟨e1, e2⟩ := goes_det hg2 hg
  exact ⟨hF', hL', hst'.dist, hst'.dich, by rw [s.tick, r.tick, h.tick], e2, e1, hag, hrest⟩

theorem Sim.out_eq {c : Cfg} {F : Sched.Core c.tw} {L : Core c.tw} {e : Ev c.tw} (h : Sim c F L) :
    callerOut c L e = Sched.callerOut c F e := by
  have ha := h.agree _ h.hF.idx h.idx_le
  rw [← h.idx] at ha
  unfold callerOut Sched.callerOut
  cases e.call <;> simp only [syscallSleepUntil, Sched.syscallSleepUntil, h.tick, ha.miss] <;> (repeat' split) <;> rfl

/-- one event -/
theorem Sim.step {c : Cfg} (hc : c.WF) {F : Sched.Core c.tw} {L : Core c.tw} (h : Sim c F L) (e : Ev c.tw) :
    (∃ F' L' o, Sched.step c F e = .ok (F', o) ∧ Lite.step c L e = .ok (L', o) ∧ Sim c F' L') ∨
    (Sched.step c F e = .fatal ∧ Lite.step c L e = .fatal) := by
  have hleg : Legal c.N F.index e.call ↔ Legal c.N L.index e.call := by unfold Legal; rw [h.user_iff]
  rcases full_step_total hc h.hF e with ⟨a1, a2, F', o, a3, a4, a5, a6⟩ | ⟨a1, a2⟩
  · rcases step_total hc h.hL e with ⟨b1, b2, L', o', b3, b4, b5, b6⟩ | ⟨b1, b2⟩
    · left
      rcases a6 with ⟨t1, r, t2, t3⟩ | ⟨t1, hu, r, t2⟩
      · rcases b6 with ⟨_, s, u2, u3⟩ | ⟨u1, _⟩
        · have hs := h.tick_step a4 b4 r s
          have hoo : o' = o := by
            cases o; cases o'
            simp only at a5 b5 t2 t3 u2 u3
            have hag := hs.agree _ hs.hF.idx hs.idx_le
            rw [a5, b5, t2, t3, u2, u3, hs.idx, hag.sp]
          exact ⟨F', L', o, a3, hoo ▸ b3, hs⟩
        · exact absurd t1 u1
      · rcases b6 with ⟨u1, _⟩ | ⟨_, hu', s, u2⟩
        · exact absurd u1 t1
        · have hs := h.sys_step hu t1 a4 b4 r s
          have hoo : o' = o := by
            rw [h.out_eq, ← t2] at u2
            cases o; cases o'
            simp only at a5 b5 u2
            injection u2 with u2 u3
            have hag := hs.agree _ hs.hF.idx hs.idx_le
            rw [a5, b5, u2, u3, hs.idx, hag.sp]
          exact ⟨F', L', o, a3, hoo ▸ b3, hs⟩
    · exact absurd ⟨(h.spOk_iff _).1 a1, hleg.1 a2⟩ b1
  · rcases step_total hc h.hL e with ⟨b1, b2, L', o', b3, b4, b5, b6⟩ | ⟨b1, b2⟩
    · exact absurd ⟨(h.spOk_iff _).2 b1, hleg.2 b2⟩ a1
    · exact .inr ⟨a2, b2⟩

theorem Sim.trace {c : Cfg} (hc : c.WF) : ∀ (evs : List (Ev c.tw)) (F : Sched.Core c.tw) (L : Core c.tw), Sim c F L →
    fullTrace c F evs = liteTrace c L evs := by
  intro evs
  induction evs with
  | nil => intro F L _; rfl
  | cons e es ih =>
    intro F L h
    rw [fullTrace, liteTrace]
    rcases h.step hc e with ⟨F', L', o, h1, h2, h3⟩ | ⟨h1, h2⟩
    · rw [h1, h2]
      simp only [Res.ok_bind]
      rw [ih F' L' h3, h3.tick, h3.idx]
    · rw [h1, h2]; rfl

/-- the relation holds after the start -/
theorem boot_sim {c : Cfg} (hc : c.WF) {strict : Bool} {adds : List (Desc × Nat)} {F : Sched.Core c.tw} {L : Core c.tw}
    (hF : Sched.boot c strict adds = .ok F) (hL : boot c adds = .ok L) : Sim c F L := by
  have hFi := Sched.boot_inv hc hF
  have hLi := boot_inv hL
  obtain ⟨hp, hl⟩ := Sched.boot_legal hc hF
  obtain ⟨f, g, hf, hg, rfl⟩ := Sched.boot_shape hc hF
  obtain ⟨hd, _, rfl⟩ := (boot_iff adds L).1 hL
  have hcls : ∀ p, p < c.N → (∃ a, a ∈ adds ∧ f p = Sched.addedTask c a) ∨ f p = Sched.taskCoreInit c := by
    intro p hpN
    rcases Nat.lt_or_ge p adds.length with h1 | h1
    · exact .inl (hf.used hc hl hp p h1)
    · exact .inr (hf.unused hc hl hp p hpN h1)
  have hidle : (Sched.numbered f c.N c.N) = Sched.idleTask c := by
    unfold Sched.numbered; rw [if_neg (by omega)]; exact hf.idle
  have hidleP : (Sched.idleTask c).prio = c.N := by
    show c.N % 2 ^ c.pw = _
    apply Nat.mod_eq_of_lt; have := hc.fits; omega
  refine
    { hF := hFi
      hL := hLi
      dist := ?_
      dich := ?_
      tick := rfl
      post := rfl
      idx := ?_
      agree := ?_
      rest := ?_ }
  · intro p q hpN hqN he hlt
    have he' : (f p).prio = (f q).prio := by
      have : (Sched.numbered f c.N p).prio = (Sched.numbered f c.N q).prio := he
      rwa [Sched.numbered_prio, Sched.numbered_prio] at this
    have hlt' : (f p).prio < c.N := by
      have : (Sched.numbered f c.N p).prio < c.N := hlt
      rwa [Sched.numbered_prio] at this
    -- at most one slot has each priority
    have hsame := hf.same (f p).prio
    have hcount : Sched.cnt f c.N (f p).prio ≤ 1 := by
      have e1 : Sched.cnt f c.N (f p).prio = ((List.range c.N).map f).countP (fun t => t.prio = (f p).prio) := by
        unfold Sched.cnt; rw [List.countP_map, List.countP_eq_length_filter]; rfl
      rw [e1, hf.perm.countP_eq, Sched.map_addedTable hl, List.countP_append, List.countP_replicate,
        Sched.unused_prio hc, if_neg (by simp; omega), Nat.add_zero, List.countP_map]
      have e2 : adds.countP ((fun t : Sched.Task c.tw => decide (t.prio = (f p).prio)) ∘ Sched.addedTask c) =
          (adds.map (·.2)).count (f p).prio := by
        rw [List.count, List.countP_map]
        apply List.countP_congr
        intro a ha
        simp only [Function.comp, Sched.addedTask, beq_iff_eq]
        exact decide_eq_true_iff
      rw [e2]
      exact List.nodup_iff_count_le_one.1 hd _
    apply Classical.byContradiction
    intro hne
    have : 2 ≤ Sched.cnt f c.N (f p).prio := by
      unfold Sched.cnt
      have hsub : ([p, q] : List Nat).Nodup := by simp [hne]
      have hss : ([p, q] : List Nat) ⊆ (List.range c.N).filter (fun r => decide ((f r).prio = (f p).prio)) := by
        intro x hx; simp at hx
        rcases hx with rfl | rfl
        · simp [hpN]
        · simp [hqN, he']
      have := (List.subperm_of_subset hsub hss).length_le
      simpa using this
    omega
  · intro p hpN
    show (Sched.numbered f c.N p).prio < _ ∨ (Sched.numbered f c.N p).prio = _
    rw [Sched.numbered_prio]
    rcases hcls p hpN with ⟨a, ha, h1⟩ | h1
    · left; rw [h1]; exact hp a ha
    · right; rw [h1, Sched.unused_prio hc]
  · show c.N = (Sched.numbered f c.N c.N).prio
    rw [hidle, hidleP]
  · intro p hpN hle
    show Agree (Sched.numbered f c.N p) (putAll c (init c).task adds (Sched.numbered f c.N p).prio)
    have hle' : (Sched.numbered f c.N p).prio ≤ c.N := hle
    by_cases hpe : p = c.N
    · subst hpe
      rw [hidle, hidleP, putAll_other c adds _ c.N (fun a ha => by have := hp a ha; omega)]
      have : (init c).task c.N = fillSlot c (taskCoreInit c.tw) c.idle := by simp [init]
      rw [this]
      exact ⟨rfl, rfl, rfl, rfl, rfl, rfl⟩
    · rw [Sched.numbered_prio] at hle' ⊢
      rcases hcls p (by omega) with ⟨a, ha, h1⟩ | h1
      · have h2 : (f p).prio = a.2 := by rw [h1]; rfl
        rw [h2, putAll_mem c adds _ a hd ha, init_empty (hp a ha)]
        unfold Sched.numbered
        rw [if_pos (by omega), h1]
        exact ⟨rfl, rfl, rfl, rfl, rfl, rfl⟩
      · rw [h1, Sched.unused_prio hc] at hle'; omega
  · intro q hq hn
    show (putAll c (init c).task adds q).state = _
    have : ∀ a ∈ adds, a.2 ≠ q := by
      intro a ha he
      have hm : Sched.addedTask c a ∈ (List.range c.N).map f := by
        rw [hf.perm.mem_iff, Sched.map_addedTable hl]
        exact List.mem_append_left _ (List.mem_map_of_mem ha)
      obtain ⟨p, h1, h2⟩ := List.mem_map.1 hm
      have h3 := hn p (by simpa using h1)
      apply h3
      show (Sched.numbered f c.N p).prio = q
      rw [Sched.numbered_prio, h2]; exact he
    rw [putAll_other c adds _ q this, init_empty hq]; rfl

/-- C36. When the same tasks are added to both schedulers (the lite one accepts only distinct priorities), every history is seen
identically: after each event the same priority runs, the tick counter is the same and the same result is handed
back, and one stalls exactly when the other does. -/
theorem lite_same_as_full {c : Cfg} (hc : c.WF) {strict : Bool} {adds : List (Desc × Nat)} {F : Sched.Core c.tw} {L : Core c.tw}
    (hF : Sched.boot c strict adds = .ok F) (hL : boot c adds = .ok L) (evs : List (Ev c.tw)) :
    fullTrace c F evs = liteTrace c L evs :=
  Sim.trace hc evs F L (boot_sim hc hF hL)

/-- Whatever the lite scheduler accepts, the full one accepts. -/
theorem lite_accepts_full_accepts {c : Cfg} (hc : c.WF) {adds : List (Desc × Nat)} {L : Core c.tw}
    (hL : boot c adds = .ok L) : ∃ F, Sched.boot c false adds = .ok F := by
  obtain ⟨hd, hp, _⟩ := (boot_iff adds L).1 hL
  have hl : adds.length ≤ c.N := by
    have hss : adds.map (·.2) ⊆ List.range c.N := by
      intro x hx
      obtain ⟨a, ha, rfl⟩ := List.mem_map.1 hx
      simpa using hp a ha
    have := (List.subperm_of_subset hd hss).length_le
    simpa using this
  obtain ⟨f, g, _, _, h⟩ := Sched.boot_ok hc false hl hp (by simp)
  exact ⟨_, h⟩

/-- the demo history and the priorities seen running -/
def Demo.seen : Option (List Nat) :=
  match Sched.boot Sched.Demo.cfg true Demo.adds with
  | .ok F =>
    match fullTrace Sched.Demo.cfg F [Sched.Demo.ev .tick 5, Sched.Demo.ev (.sleep 2) 201, Sched.Demo.ev .postpone 102,
        Sched.Demo.ev .tick 103, Sched.Demo.ev .tick 104, Sched.Demo.ev .kill 205] with
    | .ok l => some (l.map (·.1))
    | _ => none
  | _ => none

-- both schedulers boot the demo tasks, and a history of six events gives a non-trivial common trace
example : (∃ F L, Sched.boot Sched.Demo.cfg true Demo.adds = .ok F ∧ boot Sched.Demo.cfg Demo.adds = .ok L) ∧
    Demo.seen = some [0, 2, 2, 2, 0, 2] :=
  ⟨⟨_, _, rfl, rfl⟩, by decide⟩

end Pico.Lite
