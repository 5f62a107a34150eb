import Verif.Drivers.WdProps
/-
drivers/wd/wd-pic32mx.c (C85).

Hardware (DS60001114 "Watchdog, Deadman and Power-up Timers"), trusted: the watchdog counts on the 32 kHz LPRC, 32 cycles per ms, and resets after 2^RUNDIV ms; with WDTWINEN it also
resets when it is cleared during the first part of the period.  The manuals of the family say that RUNDIV is a copy of a configuration fuse, that can't be written, and that the key
that clears the timer is to be written by a write of 16 bits; both are parameters of the model, so that the theorems hold of either reading.
-/
namespace Pico.Wd

/-- WDTCON: ON (15), RUNDIV (12-8), WDTWINEN (0) -/
structure Pic where
  on : Bool
  rundiv : BitVec 5
  win : Bool
  deriving DecidableEq

/-- `ro`: RUNDIV can't be written; `key32`: the key is taken from a write of 32 bits; `shut n`: how many of the n cycles of a period are closed with a window (fuse FWDTWINSZ) -/
structure PicHw where
  ro : Bool
  key32 : Bool
  shut : Nat → Nat

/-- hardware: a write to WDTCON.SET -/
def picSet (hw : PicHw) (v : BitVec 32) (r : Pic) : Pic := ⟨r.on || v.getLsbD 15, if hw.ro then r.rundiv else r.rundiv ||| v.extractLsb' 8 5, r.win || v.getLsbD 0⟩
/-- hardware: a write to WDTCON.CLR -/
def picClr (hw : PicHw) (v : BitVec 32) (r : Pic) : Pic := ⟨r.on && !v.getLsbD 15, if hw.ro then r.rundiv else r.rundiv &&& ~~~(v.extractLsb' 8 5), r.win && !v.getLsbD 0⟩

def picCfg (hw : PicHw) (r : Pic) : Cfg := ⟨r.on, 32 * 2 ^ r.rundiv.toNat, if r.win then hw.shut (32 * 2 ^ r.rundiv.toNat) else 0⟩

/-- hardware: does a write of 32 bits to WDTCON.SET clear the timer? -/
def picKey (hw : PicHw) (v : BitVec 32) : Bool := hw.key32 && v.extractLsb' 16 16 == 0x5743#16

/-- wd_pic32mx_setup, wd-pic32mx.c:45-56; the field macros, :10-15 -/
def picSetup (hw : PicHw) (timeout : Nat) (windowed : Bool) (s : St Pic) : Option (St Pic) :=
  if timeout < 21 then
    let r := picClr hw ((0xf#32 &&& 0xf#32) <<< 8) s.r
    let r := picSet hw ((BitVec.ofNat 32 timeout &&& 0xf#32) <<< 8) r
    some { s with r := if windowed then picSet hw 1#32 r else r }
  else none

/-- wd_refresh, wd_start, wd_stop, wd-pic32mx.c:58-73 -/
def picStep (hw : PicHw) : Ev → St Pic → St Pic
  | .tick, s => tick (picCfg hw) s
  | .refresh, s => if picKey hw ((0x5743#32 &&& 0xffff#32) <<< 16) then reload (picCfg hw) { s with r := picSet hw ((0x5743#32 &&& 0xffff#32) <<< 16) s.r } else { s with r := picSet hw ((0x5743#32 &&& 0xffff#32) <<< 16) s.r }
  | .start, s => enable (picCfg hw) (picSet hw (1#32 <<< 15) s.r) s
  | .stop, s => { s with r := picClr hw (1#32 <<< 15) s.r }

/-! ### theorems -/

theorem pic_set_on (hw : PicHw) (r : Pic) : picSet hw (1#32 <<< 15) r = { r with on := true } := by
  obtain ⟨o, d, w⟩ := r
  have : (1#32 <<< 15).extractLsb' 8 5 = 0x0#5 ∧ (1#32 <<< 15).getLsbD 15 = true ∧ (1#32 <<< 15).getLsbD 0 = false := by decide
  simp only [picSet, this]
  cases hw.ro <;> simp

theorem pic_clr_on (hw : PicHw) (r : Pic) : picClr hw (1#32 <<< 15) r = { r with on := false } := by
  obtain ⟨o, d, w⟩ := r
  have : (1#32 <<< 15).extractLsb' 8 5 = 0x0#5 ∧ (1#32 <<< 15).getLsbD 15 = true ∧ (1#32 <<< 15).getLsbD 0 = false := by decide
  simp only [picClr, this]
  have h0 : d &&& ~~~0#5 = d := by revert d; decide
  rw [h0]
  cases hw.ro <;> simp

theorem pic_set_key (hw : PicHw) (r : Pic) : picSet hw ((0x5743#32 &&& 0xffff#32) <<< 16) r = r := by
  obtain ⟨o, d, w⟩ := r
  have : ((0x5743#32 &&& 0xffff#32) <<< 16).extractLsb' 8 5 = 0x0#5 ∧ ((0x5743#32 &&& 0xffff#32) <<< 16).getLsbD 15 = false ∧ ((0x5743#32 &&& 0xffff#32) <<< 16).getLsbD 0 = false := by decide
  simp only [picSet, this]
  cases hw.ro <;> simp

theorem pic_key (hw : PicHw) : picKey hw ((0x5743#32 &&& 0xffff#32) <<< 16) = hw.key32 := by
  have : ((0x5743#32 &&& 0xffff#32) <<< 16).extractLsb' 16 16 = 0x5743#16 := by decide
  simp [picKey, this]

/-- what set-up leaves: the lower four bits of RUNDIV, and WDTWINEN -/
theorem pic_setup (hw : PicHw) (t : Nat) (w : Bool) (s s' : St Pic) (h : picSetup hw t w s = some s') :
    t < 21 ∧ s'.age = s.age ∧ s'.fired = s.fired ∧ s'.r.on = s.r.on ∧ s'.r.win = (s.r.win || w) ∧
    s'.r.rundiv = if hw.ro then s.r.rundiv else s.r.rundiv &&& 16#5 ||| (BitVec.ofNat 5 t &&& 15#5) := by
  unfold picSetup at h
  split at h
  · rename_i ht
    cases h
    have e : ∀ k : Fin 21, ((BitVec.ofNat 32 k.val &&& 0xf#32) <<< 8).extractLsb' 8 5 = BitVec.ofNat 5 k.val &&& 15#5 ∧ ((BitVec.ofNat 32 k.val &&& 0xf#32) <<< 8).getLsbD 15 = false ∧
        ((BitVec.ofNat 32 k.val &&& 0xf#32) <<< 8).getLsbD 0 = false := by decide
    have e := e ⟨t, ht⟩
    simp only at e
    have c : ((0xf#32 &&& 0xf#32) <<< 8).extractLsb' 8 5 = 15#5 ∧ ((0xf#32 &&& 0xf#32) <<< 8).getLsbD 15 = false ∧ ((0xf#32 &&& 0xf#32) <<< 8).getLsbD 0 = false := by decide
    have o : (1#32).extractLsb' 8 5 = 0#5 ∧ (1#32).getLsbD 15 = false ∧ (1#32).getLsbD 0 = true := by decide
    have n : ~~~(15#5) = 16#5 := by decide
    refine ⟨ht, rfl, rfl, ?_, ?_, ?_⟩ <;> cases w <;> by_cases hr : hw.ro = true <;> simp [picSet, picClr, e, c, o, n, hr]
  · cases h

theorem pic_sim (hw : PicHw) (hk : hw.key32 = true) (r0 : Pic) (e : Ev) (s : St Pic) (h : s.r.rundiv = r0.rundiv ∧ s.r.win = r0.win) :
    ((picStep hw e s).r.rundiv = r0.rundiv ∧ (picStep hw e s).r.win = r0.win) ∧
    view (picCfg hw) (picStep hw e s) = tStep ⟨false, true⟩ (picCfg hw r0).per (picCfg hw r0).win e (view (picCfg hw) s) := by
  obtain ⟨h1, h2⟩ := h
  have hp : (picCfg hw s.r).per = (picCfg hw r0).per ∧ (picCfg hw s.r).win = (picCfg hw r0).win := by simp [picCfg, h1, h2]
  cases e
  · refine ⟨?_, view_tick _ _ _ _ _ (fun _ => hp.1)⟩
    simp only [picStep, tick]
    split <;> exact ⟨h1, h2⟩
  · simp only [picStep, pic_key, hk, if_true, pic_set_key]
    exact ⟨⟨h1, h2⟩, view_reload _ _ _ _ _ (fun _ => hp.2)⟩
  · simp only [picStep, pic_set_on]
    constructor
    · simp only [enable]; split <;> exact ⟨h1, h2⟩
    · by_cases c : s.r.on = true <;> simp [enable, view, tStep, picCfg, c]
  · simp only [picStep, pic_clr_on]
    exact ⟨⟨h1, h2⟩, by simp [view, tStep, picCfg]⟩

/-- the period asked, WD_PIC32MX_PERIOD_1MS ... 1048576MS, in cycles -/
def picAsked (t : Nat) : Nat := 32 * 2 ^ t

theorem pic_histories (hw : PicHw) (hk : hw.key32 = true) (s : St Pic) (hoff : s.r.on = false) (ha : s.age = 0) (hf : s.fired = false) (l : List Ev) :
    (run (picStep hw) l s).fired = true ↔ Starved Started NoReload (picCfg hw s.r).per l ∨ EarlyR ⟨false, true⟩ Started (picCfg hw s.r).win l := by
  obtain ⟨-, h2⟩ := run_sim (picCfg hw) (picStep hw) _ _ _ (fun x => x.r.rundiv = s.r.rundiv ∧ x.r.win = s.r.win) (pic_sim hw hk s.r) l s ⟨rfl, rfl⟩
  have hon : ∀ a, (run (tStep ⟨false, true⟩ (picCfg hw s.r).per (picCfg hw s.r).win) a (view (picCfg hw) s)).on = true ↔ Started a :=
    on_started false _ _ _ (by simp [view, picCfg, hoff])
  have hpos : 0 < (picCfg hw s.r).per := Nat.mul_pos (by omega) (Nat.two_pow_pos _)
  rw [← view_fired (picCfg hw), h2, timer_fired _ _ _ _ ⟨by simp [view, picCfg, hoff], hf, hpos⟩, funext (fun a => propext (hon a))]
  rw [starved_congr Started Started _ NoReload _ _ (fun _ => Iff.rfl) (fun e => by simp [Quiet, NoReload])]

/-- C85, pic32mx, if RUNDIV can be written and the key is taken from a write of 32 bits, for a period up to 32768 ms, from a watchdog never set up with a window or a longer fuse: for any
history the system is reset exactly if the watchdog, started and not stopped, was not refreshed for the period asked, or (with a window) was refreshed in its closed part -/
theorem pic_watchdog_partial (hw : PicHw) (hk : hw.key32 = true) (hro : hw.ro = false) (t : Nat) (w : Bool) (ht : t < 16) (s s' : St Pic) (hset : picSetup hw t w s = some s')
    (hoff : s.r.on = false) (hw0 : s.r.win = false) (hd : s.r.rundiv.getLsbD 4 = false) (ha : s.age = 0) (hf : s.fired = false) (l : List Ev) :
    (run (picStep hw) l s').fired = true ↔ Starved Started NoReload (picAsked t) l ∨ (w = true ∧ EarlyR ⟨false, true⟩ Started (hw.shut (picAsked t)) l) := by
  obtain ⟨-, h1, h2, h3, h4, h5⟩ := pic_setup hw t w s s' hset
  have e : ∀ d : BitVec 5, d.getLsbD 4 = false → ∀ k : Fin 16, (d &&& 16#5 ||| (BitVec.ofNat 5 k.val &&& 15#5)).toNat = k.val := by decide +kernel
  have e := e _ hd ⟨t, ht⟩
  rw [hro] at h5
  simp only [Bool.false_eq_true, if_false] at h5
  rw [pic_histories hw hk s' (by rw [h3, hoff]) (by rw [h1, ha]) (by rw [h2, hf]) l]
  have hw1 : s'.r.win = w := by rw [h4, hw0]; rfl
  have hp : s'.r.rundiv.toNat = t := by rw [h5]; exact e
  simp only [picCfg, hp, hw1, picAsked]
  cases w
  · simp only [Bool.false_eq_true, if_false, false_and, or_false]
    exact or_iff_left (early_zero _ _ _)
  · simp

/-- C85, pic32mx, fails: the longer periods, 65535 ms and on, give a 65536th of what is asked (1 ms for WD_PIC32MX_PERIOD_65535MS), RUNDIV having 5 bits and 4 being written -/
theorem pic_long (hw : PicHw) (hro : hw.ro = false) (t : Nat) (h1 : 16 ≤ t) (h2 : t < 21) (w : Bool) (s : St Pic) (hd : s.r.rundiv.getLsbD 4 = false) :
    ∃ s', picSetup hw t w s = some s' ∧ (picCfg hw s'.r).per * 65536 = picAsked t := by
  obtain ⟨s', h⟩ : ∃ s', picSetup hw t w s = some s' := ⟨_, if_pos h2⟩
  refine ⟨s', h, ?_⟩
  obtain ⟨-, -, -, -, -, h5⟩ := pic_setup hw t w s s' h
  rw [hro] at h5
  simp only [Bool.false_eq_true, if_false] at h5
  have e : ∀ d : BitVec 5, d.getLsbD 4 = false → ∀ k : Fin 5, (d &&& 16#5 ||| (BitVec.ofNat 5 (k.val + 16) &&& 15#5)).toNat = k.val := by decide +kernel
  have e := e _ hd ⟨t - 16, by omega⟩
  simp only [show t - 16 + 16 = t by omega] at e
  simp only [picCfg, h5, e, picAsked]
  rw [show t = t - 16 + 16 by omega, Nat.pow_add]
  simp only [Nat.add_sub_cancel]
  omega

/-- C85, pic32mx, fails where RUNDIV is the copy of a fuse: set-up returns 0 and the period is that of the fuse, whatever is asked -/
theorem pic_fuse (hw : PicHw) (hro : hw.ro = true) (t : Nat) (w : Bool) (s s' : St Pic) (hset : picSetup hw t w s = some s') : (picCfg hw s'.r).per = (picCfg hw s.r).per := by
  obtain ⟨-, -, -, -, -, h5⟩ := pic_setup hw t w s s' hset
  simp [picCfg, h5, hro]

/-- C85, pic32mx, fails: set up without a window after a set-up with one, the window stays -/
theorem pic_window_stays (hw : PicHw) (t u : Nat) (s s1 s2 : St Pic) (h1 : picSetup hw t true s = some s1) (h2 : picSetup hw u false s1 = some s2) :
    (picCfg hw s2.r).win = hw.shut (picCfg hw s2.r).per := by
  have e1 := (pic_setup hw t true s s1 h1).2.2.2.2.1
  have e2 := (pic_setup hw u false s1 s2 h2).2.2.2.2.1
  have : s2.r.win = true := by rw [e2, e1]; simp
  simp [picCfg, this]

theorem pic_deaf_run (hw : PicHw) (hk : hw.key32 = false) (l : List Ev) : ∀ s : St Pic, .stop ∉ l → s.r.on = true → ((picCfg hw s.r).per ≤ s.age → s.fired = true) →
    (picCfg hw s.r).per ≤ s.age + l.count .tick → (run (picStep hw) l s).fired = true := by
  induction l with
  | nil => intro s _ _ hi h; exact hi (by simpa using h)
  | cons e l ih =>
    intro s hn hon hi h
    have hc : (picCfg hw s.r).on = true := hon
    have hn' : Ev.stop ∉ l := fun x => hn (List.mem_cons_of_mem _ x)
    rw [run_cons]
    cases e
    · have e1 : picStep hw .tick s = { s with age := s.age + 1, fired := s.fired || decide ((picCfg hw s.r).per ≤ s.age + 1) } := by simp [picStep, tick, hc]
      rw [e1]
      refine ih _ hn' hon (fun x => ?_) ?_
      · simp only at x ⊢; simp [x]
      · simp only [List.count_cons_self] at h
        simp only; omega
    · have e1 : picStep hw .refresh s = s := by simp only [picStep, pic_key, hk, pic_set_key, Bool.false_eq_true, if_false]
      rw [e1]
      exact ih s hn' hon hi (by simpa using h)
    · have e1 : picStep hw .start s = s := by
        simp only [picStep, pic_set_on, enable, hc, if_true]
        obtain ⟨⟨o, d, w⟩, a, f⟩ := s
        simp only at hon
        subst hon
        rfl
      rw [e1]
      exact ih s hn' hon hi (by simpa using h)
    · exact absurd (List.mem_cons_self ..) hn

/-- C85, pic32mx, fails where the key must be written by a write of 16 bits: wd_refresh does nothing; once started, and not stopped, the watchdog resets the system after one period,
however often it is refreshed -/
theorem pic_deaf (hw : PicHw) (hk : hw.key32 = false) (s : St Pic) (hoff : s.r.on = false) (hf : s.fired = false) (l : List Ev) (hn : .stop ∉ l)
    (h : (picCfg hw s.r).per ≤ l.count .tick) : (run (picStep hw) (.start :: l) s).fired = true := by
  have hc : (picCfg hw s.r).on = false := hoff
  have e1 : picStep hw .start s = { s with r := { s.r with on := true }, age := 0 } := by simp only [picStep, pic_set_on, enable, hc, Bool.false_eq_true, if_false]
  rw [run_cons, e1]
  have hpos : 0 < (picCfg hw s.r).per := Nat.mul_pos (by omega) (Nat.two_pow_pos _)
  refine pic_deaf_run hw hk l _ hn rfl (fun x => ?_) ?_
  · have : (picCfg hw { s.r with on := true }).per = (picCfg hw s.r).per := rfl
    rw [this] at x
    simp only at x
    omega
  · have : (picCfg hw { s.r with on := true }).per = (picCfg hw s.r).per := rfl
    rw [this]
    simp only
    omega

/-- a case: 1 ms, started: reset at the 32nd cycle and not before; refreshed at the 20th, not at the 51st -/
example : let hw : PicHw := ⟨false, true, fun n => n / 2⟩
    (picSetup hw 0 false ⟨⟨false, 3, false⟩, 0, false⟩).map (fun s => ((run (picStep hw) (.start :: List.replicate 31 .tick) s).fired, (run (picStep hw) (.start :: List.replicate 32 .tick) s).fired,
      (run (picStep hw) (.start :: List.replicate 20 .tick ++ .refresh :: List.replicate 31 .tick) s).fired)) = some (false, true, false) := by decide +kernel

end Pico.Wd
