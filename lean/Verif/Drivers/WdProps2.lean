/-
The watchdog drivers (C85): theorems, rp2040, gd32vf103_fwdgt, stm32h7xx_iwdg, atmel_wdt, sam3x, ti_f28x.
-/
import Verif.Drivers.WdProps
namespace Pico.Wd

/-! ### rp2040 -/

/-- specification: cycles of a history during which the watchdog was started (`on`: it is at the beginning) -/
def onTicks : Bool → List Ev → Nat
  | _, [] => 0
  | on, .tick :: l => (if on then 1 else 0) + onTicks on l
  | on, .refresh :: l => onTicks on l
  | _, .start :: l => onTicks true l
  | _, .stop :: l => onTicks false l

theorem onTicks_snoc (l : List Ev) (e : Ev) : ∀ on, onTicks on (l ++ [e]) = onTicks on l + onTicks (run (tStep ⟨true, true⟩ 1 0) l ⟨on, 0, false⟩).on [e] := by
  induction l with
  | nil => intro on; simp [onTicks, run_nil]
  | cons x l ih =>
    intro on
    have key : ∀ t u : T, t.on = u.on → (run (tStep ⟨true, true⟩ 1 0) l t).on = (run (tStep ⟨true, true⟩ 1 0) l u).on := by
      clear ih
      induction l with
      | nil => intro t u h; exact h
      | cons y l ih => intro t u h; rw [run_cons, run_cons]; apply ih; cases y <;> simp only [tStep, h] <;> split <;> simp_all
    cases x <;> simp only [List.cons_append, onTicks, run_cons, ih]
    · rw [key (tStep ⟨true, true⟩ 1 0 .tick ⟨on, 0, false⟩) ⟨on, 0, false⟩ (by cases on <;> simp [tStep])]; omega
    · rw [key (tStep ⟨true, true⟩ 1 0 .refresh ⟨on, 0, false⟩) ⟨on, 0, false⟩ (by cases on <;> simp [tStep])]
    · rw [key (tStep ⟨true, true⟩ 1 0 .start ⟨on, 0, false⟩) ⟨true, 0, false⟩ (by cases on <;> simp [tStep])]
    · rw [key (tStep ⟨true, true⟩ 1 0 .stop ⟨on, 0, false⟩) ⟨false, 0, false⟩ (by simp [tStep])]

/-- the timer of the rp2040 as seen: started, cycles since the last load, reset -/
def pStep (P : Nat) : Ev → T → T
  | .tick, t => if t.on then ⟨true, t.age + 1, t.fired || decide (P ≤ t.age + 1)⟩ else t
  | .refresh, t => { t with age := 0 }
  | .start, t => { t with on := true }
  | .stop, t => { t with on := false }

theorem pOn (P : Nat) (l : List Ev) : ∀ t u : T, t.on = u.on → (run (pStep P) l t).on = (run (tStep ⟨true, true⟩ 1 0) l u).on := by
  induction l with
  | nil => intro t u h; exact h
  | cons y l ih => intro t u h; rw [run_cons, run_cons]; apply ih; cases y <;> simp only [tStep, pStep, h] <;> split <;> simp_all

theorem pStarted (P : Nat) (l : List Ev) : (run (pStep P) l ⟨false, 0, false⟩).on = true ↔ Started l := by
  rw [pOn P l ⟨false, 0, false⟩ ⟨false, 0, false⟩ rfl]; exact on_started true 1 0 _ rfl l

theorem pOnTicks (P : Nat) (t : T) (l : List Ev) : ∀ k : Bool, t.on = k → (run (pStep P) l t).on = (run (tStep ⟨true, true⟩ 1 0) l ⟨k, 0, false⟩).on :=
  fun k h => pOn P l t ⟨k, 0, false⟩ h

theorem p_mono (P : Nat) (l : List Ev) : ∀ t : T, t.fired = true → (run (pStep P) l t).fired = true := by
  induction l with
  | nil => intro t h; exact h
  | cons e l ih => intro t h; rw [run_cons]; apply ih; cases e <;> simp only [pStep] <;> (try split) <;> simp_all

theorem p_age (P : Nat) (hP : 0 < P) (l : List Ev) : P ≤ (run (pStep P) l ⟨false, 0, false⟩).age → (run (pStep P) l ⟨false, 0, false⟩).fired = true := by
  induction l using snoc_ind with
  | h0 => intro h; simp [run_nil] at h; omega
  | h1 l e ih =>
    rw [run_snoc]
    cases e <;> simp only [pStep]
    · split
      · intro h; simp only at h ⊢; simp [h]
      · exact ih
    · intro h; simp at h; omega
    · exact ih
    · exact ih

theorem p_since (P : Nat) (l : List Ev) : ∃ a b, l = a ++ b ∧ Ev.refresh ∉ b ∧
    (run (pStep P) l ⟨false, 0, false⟩).age = onTicks (run (pStep P) a ⟨false, 0, false⟩).on b := by
  induction l using snoc_ind with
  | h0 => exact ⟨[], [], rfl, by simp, rfl⟩
  | h1 l e ih =>
    obtain ⟨a, b, hl, hb, h⟩ := ih
    by_cases hr : e = .refresh
    · subst hr
      exact ⟨l ++ [.refresh], [], by simp, by simp, by rw [run_snoc]; rfl⟩
    · refine ⟨a, b ++ [e], by simp [hl], by simp [hb, Ne.symm hr], ?_⟩
      rw [run_snoc, onTicks_snoc, ← h, ← pOnTicks P _ b _ rfl, ← run_append, ← hl]
      generalize run (pStep P) l ⟨false, 0, false⟩ = t
      cases e
      · simp only [pStep, onTicks]; split <;> simp
      · exact absurd rfl hr
      · simp [pStep, onTicks]
      · simp [pStep, onTicks]

theorem p_grow (P : Nat) (b : List Ev) : Ev.refresh ∉ b → ∀ t : T, (run (pStep P) b t).age = t.age + onTicks t.on b := by
  induction b using snoc_ind with
  | h0 => intro _ t; simp [run_nil, onTicks]
  | h1 b e ih =>
    intro h t
    simp only [List.mem_append, List.mem_singleton, not_or] at h
    rw [run_snoc, onTicks_snoc, ← Nat.add_assoc, ← ih h.1 t, ← pOnTicks P t b _ rfl]
    generalize run (pStep P) b t = u
    cases e
    · simp only [pStep, onTicks]; split <;> simp
    · exact absurd rfl h.2
    · simp [pStep, onTicks]
    · simp [pStep, onTicks]

theorem p_fired (P : Nat) (hP : 0 < P) (l : List Ev) : (run (pStep P) l ⟨false, 0, false⟩).fired = true ↔
    ∃ a b c on, l = a ++ b ++ c ∧ Ev.refresh ∉ b ∧ (on = true ↔ Started a) ∧ P ≤ onTicks on b := by
  constructor
  · induction l using snoc_ind with
    | h0 => intro h; simp [run_nil] at h
    | h1 l e ih =>
      intro h
      by_cases c : (run (pStep P) l ⟨false, 0, false⟩).fired = true
      · obtain ⟨a, b, d, on, rfl, h'⟩ := ih c
        exact ⟨a, b, d ++ [e], on, by simp, h'⟩
      · obtain ⟨a, b, hl, hb, ha⟩ := p_since P (l ++ [e])
        refine ⟨a, b, [], _, by simp [hl], hb, pStarted P a, ?_⟩
        rw [← ha]
        rw [run_snoc] at h ⊢
        generalize run (pStep P) l ⟨false, 0, false⟩ = t at h c
        cases e <;> simp only [pStep] at h ⊢
        · split at h
          · next c2 => rw [if_pos c2]; simp only [Bool.or_eq_true, decide_eq_true_eq] at h; exact h.resolve_left c
          · exact absurd h c
        · exact absurd h c
        · exact absurd h c
        · exact absurd h c
  · rintro ⟨a, b, c, on, rfl, hb, hon, h⟩
    rw [run_append]
    apply p_mono
    apply p_age P hP
    rw [run_append, p_grow P b hb]
    have : (run (pStep P) a ⟨false, 0, false⟩).on = on := by
      have := pStarted P a
      rw [← hon] at this
      cases h1 : (run (pStep P) a ⟨false, 0, false⟩).on <;> cases on <;> simp_all
    rw [this]; omega

def rpView (s : St Rp) : T := ⟨s.r.en, s.age, s.fired⟩

theorem rp_sim (us cyc : Nat) (hus : us * 2 < 0x1000000) (e : Ev) (s : St Rp) (h : s.r.cycles = cyc ∧ s.r.loaded = us * 2 ∧ s.r.load = us * 2) :
    ((rpStep e s).r.cycles = cyc ∧ (rpStep e s).r.loaded = us * 2 ∧ (rpStep e s).r.load = us * 2) ∧ rpView (rpStep e s) = pStep (cyc * us) e (rpView s) := by
  obtain ⟨h1, h2, h3⟩ := h
  have hd : (us * 2 + 1) / 2 = us := by omega
  cases e
  · simp only [rpStep, tick, rpCfg, rpView, pStep, h1, h2, hd]
    by_cases c : s.r.en = true
    · simp only [c, if_true]; exact ⟨⟨h1, h2, h3⟩, rfl⟩
    · simp [c, h1, h2, h3]
  · refine ⟨⟨h1, ?_, h3⟩, rfl⟩
    simp only [rpStep, h3]; omega
  · exact ⟨⟨h1, h2, h3⟩, rfl⟩
  · exact ⟨⟨h1, h2, h3⟩, rfl⟩

/-- C85, rp2040, reference clock of a whole number of MHz: the timeout is the one asked, to the cycle; for any history the system is reset exactly if the watchdog, while
started, was not refreshed for that long.  (Stopping pauses the count, starting resumes it: wd_start does not give the full timeout.) -/
theorem rp2040_watchdog (F us : Nat) (hF : F % 1000000 = 0) (hus : us < 2 ^ 31) (s0 s s' : St Rp) (hinit : rpInit F s0 = some s) (hset : rpSetup us s = some s')
    (hoff : s0.r.en = false) (hf : s0.fired = false) :
    ∃ P, P * 1000000 = F * us ∧ ∀ l, (run rpStep l s').fired = true ↔ ∃ a b c on, l = a ++ b ++ c ∧ Ev.refresh ∉ b ∧ (on = true ↔ Started a) ∧ P ≤ onTicks on b := by
  unfold rpInit at hinit
  by_cases c0 : F = 0
  · rw [if_pos c0] at hinit; cases hinit
  rw [if_neg c0] at hinit
  by_cases c1 : F / 1000000 < 512
  case neg => rw [if_neg c1] at hinit; cases hinit
  rw [if_pos c1] at hinit
  unfold rpSetup at hset
  by_cases c2 : us = 0
  · rw [if_pos c2] at hset; cases hset
  rw [if_neg c2] at hset
  by_cases c3 : m32 (us * 2) < 0x1000000
  case neg => rw [if_neg c3] at hset; cases hset
  rw [if_pos c3] at hset
  have hm : m32 (us * 2) = us * 2 := by unfold m32; exact Nat.mod_eq_of_lt (by omega)
  rw [hm] at hset c3
  simp only [Option.some.injEq] at hinit hset
  have h0 : s.r.cycles = F / 1000000 ∧ s.r.en = false ∧ s.fired = false := by subst hinit; exact ⟨rfl, hoff, hf⟩
  have h1 : s'.r.cycles = F / 1000000 ∧ s'.r.loaded = us * 2 ∧ s'.r.load = us * 2 := by subst hset; exact ⟨h0.1, rfl, rfl⟩
  have h2 : rpView s' = ⟨false, 0, false⟩ := by subst hset; simp [rpView, h0.2.1, h0.2.2]
  refine ⟨F / 1000000 * us, ?_, fun l => ?_⟩
  · have : F = F / 1000000 * 1000000 := by omega
    calc F / 1000000 * us * 1000000 = F / 1000000 * 1000000 * us := by ac_rfl
      _ = F * us := by rw [← this]
  · have hsim : ∀ l, ∀ s, (s.r.cycles = F / 1000000 ∧ s.r.loaded = us * 2 ∧ s.r.load = us * 2) → rpView (run rpStep l s) = run (pStep (F / 1000000 * us)) l (rpView s) := by
      intro l
      induction l with
      | nil => intro s _; rfl
      | cons e l ih =>
        intro s h
        obtain ⟨h3, h4⟩ := rp_sim us (F / 1000000) c3 e s h
        rw [run_cons, run_cons, ← h4]; exact ih _ h3
    have := hsim l s' h1
    rw [h2] at this
    rw [← p_fired _ (Nat.mul_pos (by omega) (by omega)) l, ← this]
    rfl

/-! ### gd32vf103_fwdgt -/

/-- any event that is not a refresh -/
def NotRefresh (e : Ev) : Prop := e ≠ .refresh

theorem quiet_nostop (e : Ev) : Quiet ⟨false, false⟩ e ↔ NotRefresh e := by cases e <;> simp [Quiet, NotRefresh]

def iwInv (c : Cfg) (s : St Iw) : Prop := iwCfg { s.r with on := true } = c

theorem iw_on (s : St Iw) (c : Cfg) (h : iwInv c s) (hon : s.r.on = true) : iwCfg s.r = c := by
  obtain ⟨⟨on, a, p, r, w⟩, g, f⟩ := s
  simp only at hon; subst hon; exact h

theorem iw_sim (c : Cfg) (step : Ev → St Iw → St Iw) (hstep : step = gdStep ∨ step = stmStep) (e : Ev) (s : St Iw) (h : iwInv c s) :
    iwInv c (step e s) ∧ view iwCfg (step e s) = tStep ⟨false, false⟩ c.per c.win e (view iwCfg s) := by
  have hcon : (iwCfg s.r).on = s.r.on := rfl
  have hc2 : c.on = true := by rw [← h]; rfl
  have tickc : step .tick = tick iwCfg := by rcases hstep with rfl | rfl <;> rfl
  have refc : step .refresh = iwKey 0xaaaa := by rcases hstep with rfl | rfl <;> rfl
  have stac : step .start = iwKey 0xcccc := by rcases hstep with rfl | rfl <;> rfl
  cases e
  · rw [tickc]
    refine ⟨?_, view_tick _ _ _ _ _ (fun c' => by rw [iw_on s c h c'])⟩
    simp only [tick]; split <;> exact h
  · rw [refc]
    have e1 : iwKey 0xaaaa s = reload iwCfg { s with r := { s.r with access := false } } := rfl
    rw [e1]
    refine ⟨h, ?_⟩
    rw [view_reload iwCfg ⟨false, false⟩ c.per c.win _ (fun c' => by
      have := iw_on s c h c'
      show (iwCfg { s.r with access := false }).win = c.win
      rw [← this]; rfl)]
    rfl
  · rw [stac]
    have e1 : iwKey 0xcccc s = enable iwCfg { s.r with on := true, access := false } s := rfl
    rw [e1]
    constructor
    · simp only [enable]; split <;> exact h
    · by_cases d : s.r.on = true
      · simp [enable, hcon, d, view, tStep, iwCfg]
      · simp [enable, hcon, d, view, tStep, iwCfg]
  · rcases hstep with rfl | rfl
    · exact ⟨h, rfl⟩
    · exact ⟨h, rfl⟩

theorem gdFind_some (n : Nat) (l : List Nat) (p r : Nat) (h : gdFind n l = some (p, r)) : p ∈ l ∧ r = n / 2 ^ p ∧ r ≤ 0xfff := by
  induction l with
  | nil => cases h
  | cons q l ih =>
    simp only [gdFind] at h
    by_cases c : n / 2 ^ q ≤ 0xfff
    · rw [if_pos c] at h
      simp only [Option.some.injEq, Prod.mk.injEq] at h
      obtain ⟨rfl, rfl⟩ := h
      exact ⟨List.mem_cons_self, rfl, c⟩
    · rw [if_neg c] at h
      exact ⟨List.mem_cons_of_mem _ (ih h).1, (ih h).2⟩

/-- the registers after a set-up that succeeds -/
theorem gd_setup (F us : Nat) (s s' : St Iw) (hset : gdSetup F us s = some s') (hw : s.r.winr = 0xfff) :
    ∃ p, 2 ≤ p ∧ p ≤ 8 ∧ iwInv ⟨true, 2 ^ p * (m32 (F * us) / 1000000 / 2 ^ p + 1), 0⟩ s' ∧ s'.r.on = s.r.on ∧ s'.age = s.age ∧ s'.fired = s.fired := by
  unfold gdSetup at hset
  by_cases c0 : F = 0
  · rw [if_pos c0] at hset; cases hset
  rw [if_neg c0] at hset
  cases hg : gdFind (m32 (F * us) / 1000000) [2, 3, 4, 5, 6, 7, 8] with
  | none => rw [hg] at hset; cases hset
  | some x =>
    obtain ⟨p, r⟩ := x
    rw [hg] at hset
    obtain ⟨h1, h2, h3⟩ := gdFind_some _ _ _ _ hg
    simp only [Option.some.injEq] at hset
    have hp : 2 ≤ p ∧ p ≤ 8 := by simp at h1; omega
    refine ⟨p, hp.1, hp.2, ?_, ?_⟩
    · subst hset
      have e1 : (p - 2) % 8 = p - 2 := by omega
      have e2 : min (p - 2) 6 = p - 2 := by omega
      have e3 : r % 4096 = r := by omega
      have e4 : 4 * 2 ^ (p - 2) = 2 ^ p := by rw [show (4:Nat) = 2 ^ 2 from rfl, ← Nat.pow_add]; congr 1; omega
      have e5 : r - 4095 = 0 := by omega
      rw [← h2]
      simp only [iwInv, iwKey, iwRld, iwPsc, iwCfg, if_true, e1, e2, e3, e4, hw, e5]
      simp
    · subst hset; simp [iwKey, iwRld, iwPsc]

/-- C85, gd32vf103: once set up and started, the system is reset exactly if the watchdog is not refreshed for P cycles, whatever calls of wd_stop are made (it does not stop);
P is the timeout asked to one count of the timer, if F * timeout_us fits in 32 bits -/
theorem gd32_watchdog_partial (F us : Nat) (hov : F * us < 2 ^ 32) (s s' : St Iw) (hset : gdSetup F us s = some s') (hoff : s.r.on = false) (hf : s.fired = false)
    (hw : s.r.winr = 0xfff) :
    ∃ P p, p ≤ 8 ∧ Lasts F P us 1000000 (2 ^ p) ∧ ∀ l, (run gdStep l s').fired = true ↔ Starved (fun a => Ev.start ∈ a) NotRefresh P l := by
  obtain ⟨p, -, hp, hi, h1, -, h3⟩ := gd_setup F us s s' hset hw
  have hm : m32 (F * us) = F * us := Nat.mod_eq_of_lt hov
  refine ⟨2 ^ p * (F * us / 1000000 / 2 ^ p + 1), p, hp, ?_, fun l => ?_⟩
  · have hpp : 0 < 2 ^ p := Nat.two_pow_pos p
    unfold Lasts
    generalize 2 ^ p = k at hpp
    generalize F * us = n
    have h4 := Nat.div_add_mod (n / 1000000) k
    have h5 := Nat.mod_lt (n / 1000000) hpp
    have h6 : k * (n / 1000000 / k + 1) = k * (n / 1000000 / k) + k := Nat.mul_succ _ _
    generalize k * (n / 1000000 / k) = x at h4 h6
    rw [h6]
    omega
  · rw [hm] at hi
    obtain ⟨-, h4⟩ := run_sim iwCfg gdStep ⟨false, false⟩ _ 0 _ (iw_sim _ gdStep (.inl rfl)) l s' hi
    have hoff' : (iwCfg s'.r).on = false := by show s'.r.on = false; rw [h1, hoff]
    rw [← view_fired iwCfg, h4, timer_fired _ _ 0 _ ⟨by simp [view, hoff'], by rw [view_fired, h3, hf], Nat.mul_pos (Nat.two_pow_pos p) (Nat.succ_pos _)⟩,
      or_iff_left (early_zero _ _ _)]
    exact starved_congr _ _ _ _ _ _ (fun a => by rw [on_nostop]; simp [view, hoff']) quiet_nostop

/-- C85, gd32vf103, fails: the product F * timeout_us is computed in 32 bits, so that no timeout, however long the one asked, is longer than 4304 cycles (108 ms at 40 kHz) -/
theorem gd32_short (F us : Nat) (s s' : St Iw) (hset : gdSetup F us s = some s') (hw : s.r.winr = 0xfff) : ∃ P, P ≤ 4304 ∧ iwInv ⟨true, P, 0⟩ s' := by
  unfold gdSetup at hset
  by_cases c0 : F = 0
  · rw [if_pos c0] at hset; cases hset
  rw [if_neg c0] at hset
  have hm : m32 (F * us) / 1000000 < 4295 := by
    have : m32 (F * us) < 2 ^ 32 := Nat.mod_lt _ (by decide)
    omega
  generalize m32 (F * us) / 1000000 = n at hset hm
  have h2 : gdFind n [2, 3, 4, 5, 6, 7, 8] = some (2, n / 4) := by
    unfold gdFind; rw [if_pos (by show n / 4 ≤ _; omega)]
  rw [h2] at hset
  simp only [Option.some.injEq] at hset
  subst hset
  have e : n / 4 % 4096 = n / 4 := by omega
  have e2 : n / 4 - 4095 = 0 := by omega
  refine ⟨4 * (n / 4 + 1), by omega, ?_⟩
  simp [iwInv, iwKey, iwRld, iwPsc, iwCfg, e, hw, e2]

/-- a case: one second asked at 40 kHz is accepted and gives 33.7 ms -/
example : ((gdSetup 40000 1000000 ⟨⟨false, false, 0, 0xfff, 0xfff⟩, 0, false⟩).map fun s => iwCfg { s.r with on := true }) = some ⟨true, 1348, 0⟩ := by decide

end Pico.Wd
