/-
The watchdog drivers (C85): a timer that all of them implement, and what its histories do.
-/
import Verif.Drivers.Wd
namespace Pico.Wd

/-- an ideal watchdog timer -/
structure T where
  on : Bool
  age : Nat
  fired : Bool
  deriving DecidableEq

/-- `rel`: start reloads; `stops`: stop stops -/
structure Fl where
  rel : Bool
  stops : Bool

def tStep (f : Fl) (P W : Nat) : Ev → T → T
  | .tick, t => if t.on then ⟨true, t.age + 1, t.fired || decide (P ≤ t.age + 1)⟩ else t
  | .refresh, t => if t.on then ⟨true, 0, t.fired || decide (t.age < W)⟩ else t
  | .start, t => if t.on then (if f.rel then ⟨true, 0, t.fired || decide (t.age < W)⟩ else t) else ⟨true, 0, t.fired⟩
  | .stop, t => if f.stops then ⟨false, 0, t.fired⟩ else t

/-- events that do not reload -/
def Quiet (f : Fl) (e : Ev) : Prop := e = .tick ∨ (e = .start ∧ f.rel = false) ∨ (e = .stop ∧ f.stops = false)

theorem snoc_ind {α : Type} {Q : List α → Prop} (h0 : Q []) (h1 : ∀ l a, Q l → Q (l ++ [a])) (l : List α) : Q l := by
  have : ∀ r : List α, Q r.reverse := by
    intro r
    induction r with
    | nil => exact h0
    | cons a r ih => rw [List.reverse_cons]; exact h1 _ _ ih
  simpa using this l.reverse

theorem run_nil {S : Type} (step : Ev → S → S) (s : S) : run step [] s = s := rfl
theorem run_snoc {S : Type} (step : Ev → S → S) (l : List Ev) (e : Ev) (s : S) : run step (l ++ [e]) s = step e (run step l s) := by simp [run, List.foldl_append]
theorem run_append {S : Type} (step : Ev → S → S) (l m : List Ev) (s : S) : run step (l ++ m) s = run step m (run step l s) := by simp [run, List.foldl_append]
theorem run_cons {S : Type} (step : Ev → S → S) (e : Ev) (l : List Ev) (s : S) : run step (e :: l) s = run step l (step e s) := rfl

theorem fired_mono (f : Fl) (P W : Nat) (l : List Ev) : ∀ t : T, t.fired = true → (run (tStep f P W) l t).fired = true := by
  induction l with
  | nil => intro t h; exact h
  | cons e l ih =>
    intro t h
    rw [run_cons]
    apply ih
    cases e <;> simp only [tStep] <;> split <;> (try split) <;> simp_all

/-- a fresh timer: just loaded, or stopped -/
def Fresh (P : Nat) (t : T) : Prop := t.age = 0 ∧ t.fired = false ∧ 0 < P

theorem age_fired (f : Fl) (P W : Nat) (l : List Ev) (t : T) (h0 : Fresh P t) : P ≤ (run (tStep f P W) l t).age → (run (tStep f P W) l t).fired = true := by
  induction l using snoc_ind with
  | h0 => intro h; rw [run_nil, h0.1] at h; have := h0.2.2; omega
  | h1 l e ih =>
    rw [run_snoc]
    generalize hs : run (tStep f P W) l t = s at ih
    have hp := h0.2.2
    cases e <;> simp only [tStep]
    · by_cases c : s.on <;> simp only [c, if_true, if_false, Bool.false_eq_true]
      · intro h; simp [h]
      · exact ih
    · by_cases c : s.on <;> simp only [c, if_true, if_false, Bool.false_eq_true]
      · intro h; omega
      · exact ih
    · by_cases c : s.on <;> simp only [c, if_true, if_false, Bool.false_eq_true]
      · by_cases d : f.rel <;> simp only [d, if_true, if_false, Bool.false_eq_true]
        · intro h; omega
        · exact ih
      · intro h; omega
    · by_cases d : f.stops <;> simp only [d, if_true, if_false, Bool.false_eq_true]
      · intro h; omega
      · exact ih

/-- the timer was reloaded by the last event -/
def Loaded (f : Fl) (on : List Ev → Prop) (l : List Ev) : Prop :=
  l = [] ∨ (∃ a, l = a ++ [.refresh]) ∨ ∃ a, l = a ++ [.start] ∧ (f.rel = true ∨ ¬ on a)

/-- where the count of a running timer began -/
theorem on_age (f : Fl) (P W : Nat) (t : T) (h0 : Fresh P t) (l : List Ev) : (run (tStep f P W) l t).on = true →
    ∃ a b, l = a ++ b ∧ (run (tStep f P W) a t).on = true ∧ Loaded f (fun a => (run (tStep f P W) a t).on = true) a ∧ (∀ e ∈ b, Quiet f e) ∧
      (run (tStep f P W) l t).age = b.count .tick := by
  induction l using snoc_ind with
  | h0 => intro h; exact ⟨[], [], rfl, h, .inl rfl, by simp, by simp [run_nil, h0.1]⟩
  | h1 l e ih =>
    intro h
    rw [run_snoc] at h ⊢
    cases e
    · -- tick
      simp only [tStep] at h ⊢
      by_cases c : (run (tStep f P W) l t).on = true
      · obtain ⟨a, b, rfl, h1, h2, h3, h4⟩ := ih c
        refine ⟨a, b ++ [.tick], by simp, h1, h2, ?_, ?_⟩
        · intro e he; rcases List.mem_append.1 he with h | h
          · exact h3 e h
          · simp only [List.mem_singleton] at h; exact .inl h
        · rw [if_pos c]; simp [h4]
      · rw [if_neg c] at h; exact absurd h c
    · -- refresh
      have c : (run (tStep f P W) l t).on = true := by
        simp only [tStep] at h
        by_cases c : (run (tStep f P W) l t).on = true
        · exact c
        · rw [if_neg c] at h; exact h
      refine ⟨l ++ [.refresh], [], by simp, by rw [run_snoc]; exact h, .inr (.inl ⟨l, rfl⟩), by simp, ?_⟩
      simp only [tStep]; rw [if_pos c]; simp
    · -- start
      by_cases c : (run (tStep f P W) l t).on = true
      · by_cases d : f.rel = true
        · refine ⟨l ++ [.start], [], by simp, by rw [run_snoc]; exact h, .inr (.inr ⟨l, rfl, .inl d⟩), by simp, ?_⟩
          simp only [tStep]; rw [if_pos c, if_pos d]; simp
        · obtain ⟨a, b, rfl, h1, h2, h3, h4⟩ := ih c
          refine ⟨a, b ++ [.start], by simp, h1, h2, ?_, ?_⟩
          · intro e he; rcases List.mem_append.1 he with h | h
            · exact h3 e h
            · simp only [List.mem_singleton] at h; exact .inr (.inl ⟨h, by simpa using d⟩)
          · simp only [tStep]; rw [if_pos c, if_neg d, h4]; simp
      · refine ⟨l ++ [.start], [], by simp, by rw [run_snoc]; exact h, .inr (.inr ⟨l, rfl, .inr c⟩), by simp, ?_⟩
        simp only [tStep]; rw [if_neg c]; simp
    · -- stop
      simp only [tStep] at h ⊢
      by_cases d : f.stops = true
      · rw [if_pos d] at h; exact absurd h (by simp)
      · rw [if_neg d] at h ⊢
        obtain ⟨a, b, rfl, h1, h2, h3, h4⟩ := ih h
        refine ⟨a, b ++ [.stop], by simp, h1, h2, ?_, ?_⟩
        · intro e he; rcases List.mem_append.1 he with h | h
          · exact h3 e h
          · simp only [List.mem_singleton] at h; exact .inr (.inr ⟨h, by simpa using d⟩)
        · rw [h4]; simp

theorem quiet_run (f : Fl) (P W : Nat) (b : List Ev) : ∀ t : T, t.on = true → (∀ e ∈ b, Quiet f e) →
    (run (tStep f P W) b t).on = true ∧ (run (tStep f P W) b t).age = t.age + b.count .tick := by
  induction b with
  | nil => intro t h _; exact ⟨h, by simp [run_nil]⟩
  | cons e b ih =>
    intro t h hq
    have hq' : ∀ e ∈ b, Quiet f e := fun x hx => hq x (List.mem_cons_of_mem _ hx)
    rw [run_cons]
    rcases hq e (List.mem_cons_self) with rfl | ⟨rfl, hr⟩ | ⟨rfl, hs⟩
    · obtain ⟨h1, h2⟩ := ih (tStep f P W .tick t) (by simp [tStep, h]) hq'
      refine ⟨h1, ?_⟩
      rw [h2]; simp [tStep, h]; omega
    · have e1 : tStep f P W .start t = t := by simp [tStep, h, hr]
      rw [e1]; obtain ⟨h1, h2⟩ := ih t h hq'
      exact ⟨h1, by rw [h2]; simp⟩
    · have e1 : tStep f P W .stop t = t := by simp [tStep, hs]
      rw [e1]; obtain ⟨h1, h2⟩ := ih t h hq'
      exact ⟨h1, by rw [h2]; simp⟩

theorem loaded_age (f : Fl) (P W : Nat) (t : T) (h0 : Fresh P t) (a : List Ev) (hon : (run (tStep f P W) a t).on = true)
    (h : Loaded f (fun a => (run (tStep f P W) a t).on = true) a) : (run (tStep f P W) a t).age = 0 := by
  rcases h with rfl | ⟨a, rfl⟩ | ⟨a, rfl, h⟩
  · exact h0.1
  · rw [run_snoc] at hon ⊢
    simp only [tStep] at hon ⊢
    by_cases c : (run (tStep f P W) a t).on = true
    · rw [if_pos c]
    · rw [if_neg c] at hon; exact absurd hon c
  · rw [run_snoc]
    simp only [tStep]
    by_cases c : (run (tStep f P W) a t).on = true
    · rw [if_pos c]
      rcases h with h | h
      · rw [if_pos h]
      · exact absurd c h
    · rw [if_neg c]

/-- a refresh comes too early: the calls of wd_start that reload count as refreshes -/
def EarlyR (f : Fl) (on : List Ev → Prop) (W : Nat) (l : List Ev) : Prop :=
  Early on (Loaded f on) (Quiet f) W l ∨
  ∃ a b c, l = a ++ b ++ .start :: c ∧ f.rel = true ∧ on a ∧ Loaded f on a ∧ (∀ e ∈ b, Quiet f e) ∧ b.count .tick < W

/-- the system is reset exactly if the watchdog was not refreshed for `P` cycles or was refreshed less than `W` cycles after the last reload -/
theorem timer_fired (f : Fl) (P W : Nat) (t : T) (h0 : Fresh P t) (l : List Ev) :
    (run (tStep f P W) l t).fired = true ↔
      Starved (fun a => (run (tStep f P W) a t).on = true) (Quiet f) P l ∨ EarlyR f (fun a => (run (tStep f P W) a t).on = true) W l := by
  constructor
  · induction l using snoc_ind with
    | h0 => intro h; rw [run_nil, h0.2.1] at h; exact absurd h (by simp)
    | h1 l e ih =>
      have ext : (Starved (fun a => (run (tStep f P W) a t).on = true) (Quiet f) P l ∨ EarlyR f (fun a => (run (tStep f P W) a t).on = true) W l) →
          (Starved (fun a => (run (tStep f P W) a t).on = true) (Quiet f) P (l ++ [e]) ∨ EarlyR f (fun a => (run (tStep f P W) a t).on = true) W (l ++ [e])) := by
        rintro (⟨a, b, c, rfl, h⟩ | ⟨a, b, c, rfl, h⟩ | ⟨a, b, c, rfl, h⟩)
        · exact .inl ⟨a, b, c ++ [e], by simp, h⟩
        · exact .inr (.inl ⟨a, b, c ++ [e], by simp, h⟩)
        · exact .inr (.inr ⟨a, b, c ++ [e], by simp, h⟩)
      intro h
      by_cases c0 : (run (tStep f P W) l t).fired = true
      · exact ext (ih c0)
      · rw [run_snoc] at h
        cases e <;> simp only [tStep] at h
        · by_cases c : (run (tStep f P W) l t).on = true
          · rw [if_pos c] at h
            simp only [Bool.or_eq_true, decide_eq_true_eq] at h
            replace h := h.resolve_left c0
            obtain ⟨a, b, rfl, h1, h2, h3, h4⟩ := on_age f P W t h0 l c
            refine .inl ⟨a, b ++ [.tick], [], by simp, h1, ?_, ?_⟩
            · intro x hx; rcases List.mem_append.1 hx with hx | hx
              · exact h3 x hx
              · simp only [List.mem_singleton] at hx; exact .inl hx
            · simp only [List.count_append, List.count_singleton_self]; omega
          · rw [if_neg c] at h; exact absurd h c0
        · by_cases c : (run (tStep f P W) l t).on = true
          · rw [if_pos c] at h
            simp only [Bool.or_eq_true, decide_eq_true_eq] at h
            replace h := h.resolve_left c0
            obtain ⟨a, b, rfl, h1, h2, h3, h4⟩ := on_age f P W t h0 l c
            exact .inr (.inl ⟨a, b, [], by simp, h1, h2, h3, by omega⟩)
          · rw [if_neg c] at h; exact absurd h c0
        · by_cases c : (run (tStep f P W) l t).on = true
          · rw [if_pos c] at h
            by_cases d : f.rel = true
            · rw [if_pos d] at h
              simp only [Bool.or_eq_true, decide_eq_true_eq] at h
              replace h := h.resolve_left c0
              obtain ⟨a, b, rfl, h1, h2, h3, h4⟩ := on_age f P W t h0 l c
              exact .inr (.inr ⟨a, b, [], by simp, d, h1, h2, h3, by omega⟩)
            · rw [if_neg d] at h; exact absurd h c0
          · rw [if_neg c] at h; exact absurd h c0
        · by_cases d : f.stops = true
          · rw [if_pos d] at h; exact absurd h c0
          · rw [if_neg d] at h; exact absurd h c0
  · rintro (⟨a, b, c, rfl, h1, h2, h3⟩ | ⟨a, b, c, rfl, h1, h2, h3, h4⟩ | ⟨a, b, c, rfl, hr, h1, h2, h3, h4⟩)
    · rw [run_append]
      apply fired_mono
      apply age_fired f P W (a ++ b) t h0
      rw [run_append]
      obtain ⟨_, h5⟩ := quiet_run f P W b (run (tStep f P W) a t) h1 h2
      omega
    · rw [run_append, run_cons]
      apply fired_mono
      obtain ⟨h5, h6⟩ := quiet_run f P W b (run (tStep f P W) a t) h1 h3
      have h7 := loaded_age f P W t h0 a h1 h2
      rw [run_append]
      simp only [tStep]
      rw [if_pos h5, h6, h7, Bool.or_eq_true]
      exact .inr (by simp only [Nat.zero_add, decide_eq_true_eq]; exact h4)
    · rw [run_append, run_cons]
      apply fired_mono
      obtain ⟨h5, h6⟩ := quiet_run f P W b (run (tStep f P W) a t) h1 h3
      have h7 := loaded_age f P W t h0 a h1 h2
      rw [run_append]
      simp only [tStep]
      rw [if_pos h5, if_pos hr, h6, h7, Bool.or_eq_true]
      exact .inr (by simp only [Nat.zero_add, decide_eq_true_eq]; exact h4)

/-- no window: no early refresh -/
theorem early_zero (f : Fl) (on : List Ev → Prop) (l : List Ev) : ¬ EarlyR f on 0 l := by
  rintro (⟨a, b, c, _, _, _, _, h⟩ | ⟨a, b, c, _, _, _, _, _, h⟩) <;> omega

/-! ### when the timer runs -/

theorem on_started (rel : Bool) (P W : Nat) (t : T) (ht : t.on = false) (l : List Ev) : (run (tStep ⟨rel, true⟩ P W) l t).on = true ↔ Started l := by
  induction l using snoc_ind with
  | h0 => rw [run_nil, ht]; constructor
          · intro h; exact absurd h (by simp)
          · rintro ⟨a, b, h, _⟩; simp at h
  | h1 l e ih =>
    rw [run_snoc]
    have other : e ≠ .start → (Started (l ++ [e]) ↔ Started l ∧ e ≠ .stop) := by
      intro hne
      constructor
      · rintro ⟨a, b, h, hb⟩
        rcases List.eq_nil_or_concat b with rfl | ⟨b', x, rfl⟩
        · have := List.append_inj' h rfl
          simp at this; exact absurd this.2 hne
        · rw [List.concat_eq_append, ← List.cons_append, ← List.append_assoc] at h
          have h2 := List.append_inj' h rfl
          simp only [List.cons.injEq, and_true] at h2
          refine ⟨⟨a, b', h2.1, fun hx => hb (by simp [hx])⟩, ?_⟩
          rintro rfl
          exact hb (by simp [← h2.2])
      · rintro ⟨⟨a, b, rfl, hb⟩, hs⟩
        refine ⟨a, b ++ [e], by simp, ?_⟩
        simp only [List.mem_append, List.mem_singleton, not_or]
        exact ⟨hb, fun h => hs h.symm⟩
    cases e
    · rw [other (by simp), ← ih]
      simp only [tStep]; split <;> simp_all
    · rw [other (by simp), ← ih]
      simp only [tStep]; split <;> simp_all
    · constructor
      · intro _; exact ⟨l, [], rfl, by simp⟩
      · intro _; simp only [tStep]; split
        · split
          · rfl
          · assumption
        · rfl
    · rw [other (by simp)]
      simp [tStep]

theorem on_nostop (rel : Bool) (P W : Nat) (t : T) (l : List Ev) : (run (tStep ⟨rel, false⟩ P W) l t).on = true ↔ t.on = true ∨ .start ∈ l := by
  induction l using snoc_ind with
  | h0 => simp [run_nil]
  | h1 l e ih =>
    rw [run_snoc, List.mem_append, ← or_assoc, ← ih]
    cases e <;> simp only [tStep] <;> (repeat' split) <;> simp_all

/-! ### simulation -/

/-- what is seen of a driver and its registers -/
def view {R : Type} (cfg : R → Cfg) (s : St R) : T := ⟨(cfg s.r).on, if (cfg s.r).on then s.age else 0, s.fired⟩

theorem run_sim {R : Type} (cfg : R → Cfg) (step : Ev → St R → St R) (f : Fl) (P W : Nat) (Inv : St R → Prop)
    (h : ∀ e s, Inv s → Inv (step e s) ∧ view cfg (step e s) = tStep f P W e (view cfg s)) (l : List Ev) :
    ∀ s, Inv s → Inv (run step l s) ∧ view cfg (run step l s) = run (tStep f P W) l (view cfg s) := by
  induction l with
  | nil => intro s hs; exact ⟨hs, rfl⟩
  | cons e l ih =>
    intro s hs
    obtain ⟨h1, h2⟩ := h e s hs
    obtain ⟨h3, h4⟩ := ih _ h1
    rw [run_cons, run_cons, ← h2]
    exact ⟨h3, h4⟩

theorem view_fired {R : Type} (cfg : R → Cfg) (s : St R) : (view cfg s).fired = s.fired := rfl

theorem view_tick {R : Type} (cfg : R → Cfg) (f : Fl) (P W : Nat) (s : St R) (hp : (cfg s.r).on = true → (cfg s.r).per = P) :
    view cfg (tick cfg s) = tStep f P W .tick (view cfg s) := by
  by_cases c : (cfg s.r).on = true
  · simp [view, tick, tStep, c, hp c]
  · simp [view, tick, tStep, c]

theorem view_reload {R : Type} (cfg : R → Cfg) (f : Fl) (P W : Nat) (s : St R) (hp : (cfg s.r).on = true → (cfg s.r).win = W) :
    view cfg (reload cfg s) = tStep f P W .refresh (view cfg s) := by
  by_cases c : (cfg s.r).on = true
  · simp [view, reload, tStep, c, hp c]
  · simp [view, reload, tStep, c]

theorem starved_congr (on on' : List Ev → Prop) (q q' : Ev → Prop) (P : Nat) (l : List Ev) (h : ∀ a, on a ↔ on' a) (hq : ∀ e, q e ↔ q' e) :
    Starved on q P l ↔ Starved on' q' P l := by
  constructor
  · rintro ⟨a, b, c, rfl, h1, h2, h3⟩; exact ⟨a, b, c, rfl, (h a).1 h1, fun e he => (hq e).1 (h2 e he), h3⟩
  · rintro ⟨a, b, c, rfl, h1, h2, h3⟩; exact ⟨a, b, c, rfl, (h a).2 h1, fun e he => (hq e).2 (h2 e he), h3⟩

end Pico.Wd
