import Verif.Drivers.DmasgProps
/-
C115: the theorems.
-/
namespace Pico.Dmasg
open Pico.Field

/-! ### ACTIVE is the channel that is served -/

theorem Wf.of {e e' : Eng} (h : Wf e) (ha : ∀ c, (e'.tcd c).active = (e.tcd c).active) (hr : e'.run = e.run) : Wf e' := by
  intro c; rw [ha, hr]; exact h c

theorem updT_active (e : Eng) (ch c : Nat) (f : Tcd → Tcd) (hf : ∀ t, (f t).active = t.active) : ((updT e ch f).tcd c).active = (e.tcd c).active := by
  simp only [updT]; split
  · exact hf _
  · rfl

theorem request_active (ch c : Nat) (e : Eng) : ((request ch e).tcd c).active = (e.tcd c).active := by
  simp only [request, updT]
  split
  · split <;> rfl
  · rfl

theorem setupTcd_active (ch c : Nat) (x : Xfer) (e : Eng) : ((setupTcd ch x e).2.tcd c).active = (e.tcd c).active ∧ (setupTcd ch x e).2.run = e.run := by
  simp only [setupTcd]
  split
  · refine ⟨?_, rfl⟩
    simp only [updT]; split <;> rfl
  · refine ⟨?_, rfl⟩
    simp only [updT]; split <;> rfl

theorem Wf.arb {e : Eng} (h : Wf e) (ch : Nat) : Wf (arb ch e) := by
  unfold Dmasg.arb
  split
  · exact h
  · rename_i hr
    split
    · split
      · intro c
        by_cases hc : c = ch
        · subst hc; simp
        · have : (e.tcd c).active = false := by
            cases ha : (e.tcd c).active
            · rfl
            · obtain ⟨r, h1, _⟩ := (h c).1 ha; rw [hr] at h1; cases h1
          have hc' : ¬ ch = c := fun x => hc x.symm
          simp [updT, hc, hc', this]
      · exact h.of (fun c => by simp only [updT]; split <;> rfl) rfl
    · exact h

theorem Wf.unit {e : Eng} (h : Wf e) : Wf (unit e) := by
  unfold Dmasg.unit
  split
  · exact h
  · rename_i r hr
    have hx : ∀ c, c ≠ r.ch → (e.tcd c).active = false := by
      intro c hc
      cases ha : (e.tcd c).active
      · rfl
      · obtain ⟨r', h1, h2⟩ := (h c).1 ha; rw [hr] at h1; cases h1; exact absurd h2.symm hc
    simp only []
    split
    · intro c
      by_cases hc : c = r.ch
      · subst hc; simp [Tcd.finish]; split <;> rfl
      · simp [updT, hc, hx c hc]
    · intro c
      by_cases hc : c = r.ch
      · subst hc
        have := (h r.ch).2 ⟨r, hr, rfl⟩
        simp [this]
      · have hc' : ¬ r.ch = c := fun x => hc x.symm
        simp [hx c hc, hc']

theorem Wf.step {e : Eng} (h : Wf e) (v : Ev) : Wf (step e v) := by
  cases v with
  | xfer ch x =>
    simp only [Dmasg.step, Dmasg.xfer]
    split
    · exact h
    · have h1 : Wf (setupTcd (ch % 64) x (updT e (ch % 64 % 64) (fun t => { t with done := false }))).2 := by
        refine h.of (fun c => ?_) ?_
        · rw [(setupTcd_active _ _ _ _).1]; simp only [updT]; split <;> rfl
        · rw [(setupTcd_active _ 0 _ _).2]; rfl
      split
      · exact h1
      · exact h1.of (fun c => by simp only [updT]; split <;> rfl) rfl
  | setup ch x =>
    simp only [Dmasg.step, Dmasg.setup]
    have h1 : Wf (setupTcd (ch % 64) x e).2 := h.of (fun c => (setupTcd_active _ _ _ _).1) (setupTcd_active _ 0 _ _).2
    split
    · exact h1
    · exact h1.of (fun c => by simp only [updT]; split <;> rfl) rfl
  | poll ch => exact h
  | request ch => exact h.of (fun c => request_active ch c e) rfl
  | arb ch => exact h.arb ch
  | unit => exact h.unit

/-- nothing is asked for yet -/
def Eng.init (t : Nat → Tcd) : Eng := { tcd := fun c => { t c with start := false, active := false, done := false, erq := false }, run := none, log := fun _ => [] }

/-- ACTIVE is consistent in every reachable state -/
theorem wf_reachable (t : Nat → Tcd) (vs : List Ev) : Wf (runs vs (Eng.init t)) := by
  have : ∀ vs e, Wf e → Wf (runs vs e) := by
    intro vs
    induction vs with
    | nil => intro e h; exact h
    | cons v vs ih => intro e h; exact ih _ (h.step v)
  exact this vs _ (by intro c; simp [Eng.init])

/-! ### Steps of a channel -/

theorem idle_step {ch base x q n s} {e : Eng} (hv : x.Valid) (hw : Wf e) (h : Idle ch base x q n s e) (v : Ev) (hs : v.spares ch) :
    (∃ s', (q = false → s' = s ∧ (((e.tcd ch).done = true) → ((step e v).tcd ch).done = true)) ∧ Idle ch base x q n s' (step e v)) ∨ (s = true ∧ Busy ch base x q n 0 false (step e v)) := by
  cases v with
  | xfer c y =>
    have hs : c % 64 ≠ ch := hs
    obtain ⟨h1, _, h3⟩ := xfer_other (c % 64) ch y e (fun x => hs x.symm) (Nat.mod_lt _ (by omega))
    exact .inl ⟨s, fun _ => ⟨rfl, fun hd => by show ((xfer (c % 64) y e).2.tcd ch).done = true; rw [h1]; exact hd⟩, h.congr h1 (by show (xfer (c % 64) y e).2.log ch = _; rw [h3])⟩
  | setup c y =>
    have hs : c % 64 ≠ ch := hs
    obtain ⟨h1, _, h3⟩ := setup_other (c % 64) ch y e (fun x => hs x.symm) (Nat.mod_lt _ (by omega))
    exact .inl ⟨s, fun _ => ⟨rfl, fun hd => by show ((setup (c % 64) y e).2.tcd ch).done = true; rw [h1]; exact hd⟩, h.congr h1 (by show (setup (c % 64) y e).2.log ch = _; rw [h3])⟩
  | poll c => exact .inl ⟨s, fun _ => ⟨rfl, fun hd => hd⟩, h⟩
  | request c =>
    by_cases hc : ch = c
    · subst hc
      refine .inl ⟨q || s, fun hq => ⟨by rw [hq]; rfl, fun hd => ?_⟩, request_idle h⟩
      show ((request ch e).tcd ch).done = true
      rw [request, updT_same]; split <;> exact hd
    · exact .inl ⟨s, fun _ => ⟨rfl, fun hd => by show ((request c e).tcd ch).done = true; rw [request_other _ _ _ hc]; exact hd⟩, h.congr (request_other _ _ _ hc) rfl⟩
  | arb c =>
    by_cases hc : ch = c
    · subst hc
      rcases arb_idle hv h with h1 | h1
      · refine .inl ⟨s, fun _ => ⟨rfl, fun hd => ?_⟩, h1⟩
        show ((arb ch e).tcd ch).done = true
        have ha := h1.act
        unfold arb at ha ⊢
        split at ha
        · exact hd
        · split at ha
          · split at ha
            · simp at ha
            · rename_i g1 g2; rw [if_pos g1, if_neg g2, updT_same]; exact hd
          · rename_i g1; rw [if_neg g1]; exact hd
      · exact .inr h1
    · obtain ⟨h1, h2⟩ := arb_other c ch e hc
      exact .inl ⟨s, fun _ => ⟨rfl, fun hd => by show ((arb c e).tcd ch).done = true; rw [h1]; exact hd⟩, h.congr h1 (by show (arb c e).log ch = _; rw [h2])⟩
  | unit =>
    have hn : ∀ r, e.run = some r → ch ≠ r.ch := by
      intro r hr hc
      have := (hw ch).2 ⟨r, hr, hc.symm⟩
      rw [h.act] at this; cases this
    obtain ⟨h1, h2⟩ := unit_other ch e hn
    exact .inl ⟨s, fun _ => ⟨rfl, fun hd => by show ((unit e).tcd ch).done = true; rw [h1]; exact hd⟩, h.congr h1 h2⟩

theorem busy_step {ch base x q n k s} {e : Eng} (hv : x.Valid) (h : Busy ch base x q n k s e) (v : Ev) (hs : v.spares ch) :
    (∃ s' k', k ≤ k' ∧ (q = false → s' = s) ∧ Busy ch base x q n k' s' (step e v)) ∨ (∃ s', (q = false → s' = s) ∧ Idle ch base x q (n + 1) s' (step e v) ∧ ((step e v).tcd ch).done = true) := by
  cases v with
  | xfer c y =>
    have hs : c % 64 ≠ ch := hs
    obtain ⟨h1, h2, h3⟩ := xfer_other (c % 64) ch y e (fun x => hs x.symm) (Nat.mod_lt _ (by omega))
    exact .inl ⟨s, k, Nat.le_refl _, fun _ => rfl, h.congr h1 h2 (by show (xfer (c % 64) y e).2.log ch = _; rw [h3])⟩
  | setup c y =>
    have hs : c % 64 ≠ ch := hs
    obtain ⟨h1, h2, h3⟩ := setup_other (c % 64) ch y e (fun x => hs x.symm) (Nat.mod_lt _ (by omega))
    exact .inl ⟨s, k, Nat.le_refl _, fun _ => rfl, h.congr h1 h2 (by show (setup (c % 64) y e).2.log ch = _; rw [h3])⟩
  | poll c => exact .inl ⟨s, k, Nat.le_refl _, fun _ => rfl, h⟩
  | request c =>
    by_cases hc : ch = c
    · subst hc; exact .inl ⟨q || s, k, Nat.le_refl _, fun hq => by rw [hq]; rfl, request_busy h⟩
    · exact .inl ⟨s, k, Nat.le_refl _, fun _ => rfl, h.congr (request_other _ _ _ hc) rfl rfl⟩
  | arb c =>
    have : step e (.arb c) = e := arb_busy c h
    rw [this]; exact .inl ⟨s, k, Nat.le_refl _, fun _ => rfl, h⟩
  | unit =>
    rcases unit_busy hv h with ⟨_, h1⟩ | ⟨_, h1, h2, _⟩
    · exact .inl ⟨s, k + 1, by omega, fun _ => rfl, h1⟩
    · exact .inr ⟨s, fun _ => rfl, h1, h2⟩

/-- what an accepted transfer can be: waiting, being moved, or over -/
inductive Ph (ch : Nat) (base : List (List (Addr × Addr))) (x : Xfer) (e : Eng) : Prop where
  | wait (h : Idle ch base x false 0 true e)
  | busy (k : Nat) (h : Busy ch base x false 0 k false e)
  | over (h : Idle ch base x false 1 false e) (hd : (e.tcd ch).done = true)

theorem Ph.step {ch base x} {e : Eng} (hv : x.Valid) (hw : Wf e) (h : Ph ch base x e) (v : Ev) (hs : v.spares ch) : Ph ch base x (Dmasg.step e v) := by
  cases h with
  | wait h =>
    rcases idle_step hv hw h v hs with ⟨s', h1, h2⟩ | ⟨_, h2⟩
    · rw [(h1 rfl).1] at h2; exact .wait h2
    · exact .busy 0 h2
  | busy k h =>
    rcases busy_step hv h v hs with ⟨s', k', _, h1, h2⟩ | ⟨s', h1, h2, h3⟩
    · rw [h1 rfl] at h2; exact .busy k' h2
    · rw [h1 rfl] at h2; exact .over h2 h3
  | over h hd =>
    rcases idle_step hv hw h v hs with ⟨s', h1, h2⟩ | ⟨h1, _⟩
    · have := h1 rfl; rw [this.1] at h2; exact .over h2 (this.2 hd)
    · cases h1

theorem Ph.runs {ch base x} (hv : x.Valid) (vs : List Ev) : ∀ {e : Eng}, Wf e → Ph ch base x e → (∀ v ∈ vs, v.spares ch) → Ph ch base x (Dmasg.runs vs e) ∧ Wf (Dmasg.runs vs e) := by
  induction vs with
  | nil => intro e hw h _; exact ⟨h, hw⟩
  | cons v vs ih =>
    intro e hw h hs
    exact ih (hw.step v) (h.step hv hw v (hs v (by simp))) (fun u hu => hs u (by simp [hu]))

/-- dmasg_xfer on a channel that is not active -/
theorem xfer_eq (ch : Nat) (hc : ch < 64) (x : Xfer) (hv : x.Valid) (e : Eng) (ha : (e.tcd ch).active = false) :
    (xfer ch x e).1 = 0 ∧ (xfer ch x e).2.tcd ch = { wr x { e.tcd ch with done := false } with start := true } ∧ (xfer ch x e).2.log = e.log ∧ (xfer ch x e).2.run = e.run := by
  have hb : ¬ (x.smod > 31 ∨ x.dmod > 31 ∨ x.ssize > 8 ∨ x.dsize > 8) := by
    have := hv.sm; have := hv.dm
    rcases hv.ss with h | h | h | h <;> rcases hv.ds with g | g | g | g <;> omega
  simp only [xfer, ha, Nat.mod_eq_of_lt hc, setupTcd, if_neg hb]
  simp [updT, wr, ha]

theorem xfer_ph (ch : Nat) (hc : ch < 64) (x : Xfer) (hv : x.Valid) (e : Eng) (hw : Wf e) (ha : (e.tcd ch).active = false) (hq : (e.tcd ch).erq = false) :
    Wf (xfer ch x e).2 ∧ Ph ch (e.log ch) x (xfer ch x e).2 := by
  obtain ⟨_, h1, h2, h3⟩ := xfer_eq ch hc x hv e ha
  constructor
  · have := hw.step (.xfer ch x)
    simpa only [Dmasg.step, Nat.mod_eq_of_lt hc] using this
  · refine .wait ⟨?_, ?_, ?_, ?_, ?_⟩
    · rw [h1]; exact (wr_conf x hv _).starts true
    · rw [h1]; exact ha
    · rw [h1]; exact hq
    · rw [h1]
    · rw [h2]; simp [Xfer.rounds]

/-- **C115** partial: dmasg_xfer on a channel that is not active and was never given to a peripheral returns 0. Whatever the schedule, and whatever is done on the
other channels, the groups moved for it are then a beginning of the transfer asked for, in order, each once; once the engine has picked the channel (START has
fallen), dmasg_xfer_done returns 0 only if all of it has been moved, and as long as it returns -EAGAIN some of it has not -/
theorem dmasg_xfer_partial (ch : Nat) (hc : ch < 64) (x : Xfer) (hv : x.Valid) (e : Eng) (hw : Wf e) (ha : (e.tcd ch).active = false) (hq : (e.tcd ch).erq = false)
    (vs : List Ev) (hs : ∀ v ∈ vs, v.spares ch) :
    (xfer ch x e).1 = 0 ∧
    ∃ k ≤ x.wanted.length,
      (runs vs (xfer ch x e).2).log ch = e.log ch ++ x.wanted.take k ∧
      (((runs vs (xfer ch x e).2).tcd ch).start = false → xferDone ch (runs vs (xfer ch x e).2) = 0 → k = x.wanted.length) ∧
      (xferDone ch (runs vs (xfer ch x e).2) = eagain → k < x.wanted.length) := by
  refine ⟨(xfer_eq ch hc x hv e ha).1, ?_⟩
  obtain ⟨hw1, h1⟩ := xfer_ph ch hc x hv e hw ha hq
  have hl : x.wanted.length = x.total := by rw [wanted_eq]; simp
  obtain ⟨h2, _⟩ := h1.runs hv vs hw1 hs
  cases h2 with
  | wait h =>
    refine ⟨0, Nat.zero_le _, by rw [h.log]; simp [Xfer.rounds], ?_, ?_⟩
    · intro g; rw [h.start] at g; cases g
    · intro g; simp [xferDone, h.act, eagain] at g
  | busy k h =>
    refine ⟨k, by rw [hl]; exact Nat.le_of_lt h.lt, by rw [h.log]; simp [Xfer.rounds, Xfer.nth], ?_, ?_⟩
    · intro _ g; simp [xferDone, h.act, eagain] at g
    · intro _; rw [hl]; exact h.lt
  | over h hd =>
    refine ⟨x.wanted.length, Nat.le_refl _, by rw [h.log, List.take_length]; simp [Xfer.rounds], fun _ _ => rfl, ?_⟩
    intro g; simp [xferDone, h.act, eagain] at g

/-- the engine moves a group at each step: it is over after as many steps as there are groups -/
theorem busy_ends {ch base x} (hv : x.Valid) (j : Nat) : ∀ {k : Nat} {e : Eng}, Busy ch base x false 0 k false e → k + j = x.total → 0 < j →
    Idle ch base x false 1 false (runs (List.replicate j .unit) e) ∧ ((runs (List.replicate j .unit) e).tcd ch).done = true := by
  induction j with
  | zero => intro k e _ _ h; omega
  | succ j ih =>
    intro k e h hk _
    show Idle ch base x false 1 false (runs (List.replicate j .unit) (unit e)) ∧ ((runs (List.replicate j .unit) (unit e)).tcd ch).done = true
    rcases unit_busy hv h with ⟨h0, h1⟩ | ⟨h0, h1, h2, h3⟩
    · have h0 : k + 1 < x.total := h0
      exact ih h1 (by omega) (by omega)
    · have h0 : k + 1 = x.total := h0
      have : j = 0 := by omega
      subst this
      exact ⟨h1, h2⟩

/-- **C115**: with the engine free, the transfer is over as soon as the channel has been picked and each group moved -/
theorem dmasg_xfer_ends (ch : Nat) (hc : ch < 64) (x : Xfer) (hv : x.Valid) (e : Eng) (hr : e.run = none) (hw : Wf e) (ha : (e.tcd ch).active = false) (hq : (e.tcd ch).erq = false) :
    (runs (.arb ch :: List.replicate x.wanted.length .unit) (xfer ch x e).2).log ch = e.log ch ++ x.wanted ∧
    xferDone ch (runs (.arb ch :: List.replicate x.wanted.length .unit) (xfer ch x e).2) = 0 := by
  obtain ⟨hw1, h1⟩ := xfer_ph ch hc x hv e hw ha hq
  obtain ⟨_, e1, _, e3⟩ := xfer_eq ch hc x hv e ha
  have hl : x.wanted.length = x.total := by rw [wanted_eq]; simp
  have hi : Idle ch (e.log ch) x false 0 true (xfer ch x e).2 := by
    cases h1 with
    | wait h => exact h
    | busy k h => have := h.run; rw [e3, hr] at this; cases this
    | over h _ => have := h.start; rw [e1] at this; cases this
  have hb : Busy ch (e.log ch) x false 0 0 false (arb ch (xfer ch x e).2) := by
    rcases arb_idle hv hi with h2 | ⟨_, h2⟩
    · exfalso
      have h3 := h2.act
      unfold arb at h3
      rw [e3, hr] at h3
      simp only [hi.start, if_true, if_pos (hi.conf.ok (Valid.nth hv 0))] at h3
      simp at h3
    · exact h2
  obtain ⟨h4, _⟩ := busy_ends hv x.total hb (by omega) (Valid.total_pos hv)
  rw [hl]
  constructor
  · have := h4.log
    simpa [Xfer.rounds, runs, step] using this
  · have := h4.act
    show (if ((runs (List.replicate x.total .unit) (arb ch (xfer ch x e).2)).tcd ch).active = true then eagain else 0) = 0
    rw [this]; rfl

/-- **C115**: a transfer that is being moved is not disturbed: dmasg_xfer returns -EAGAIN and changes nothing -/
theorem dmasg_xfer_busy (ch : Nat) (x : Xfer) (e : Eng) (h : xferDone ch e = eagain) : xfer ch x e = (eagain, e) := by
  unfold xferDone at h
  unfold xfer
  split at h
  · rename_i g; rw [if_pos g]
  · cases h

theorem quiet (ch : Nat) {base x} (hv : x.Valid) (vs : List Ev) : ∀ {e : Eng}, Wf e → Idle ch base x false 0 true e → (∀ v ∈ vs, v.spares ch ∧ v ≠ .arb ch) →
    Idle ch base x false 0 true (runs vs e) := by
  induction vs with
  | nil => intro e _ h _; exact h
  | cons v vs ih =>
    intro e hw h hs
    refine ih (hw.step v) ?_ (fun u hu => hs u (by simp [hu]))
    rcases idle_step hv hw h v (hs v (by simp)).1 with ⟨s', h1, h2⟩ | ⟨_, h2⟩
    · rw [(h1 rfl).1] at h2; exact h2
    · exfalso
      have hne := (hs v (by simp)).2
      have hx := (hs v (by simp)).1
      have h3 := h2.act
      have key : ((Dmasg.step e v).tcd ch).active = (e.tcd ch).active := by
        cases v with
        | xfer c y => have hx : c % 64 ≠ ch := hx; exact congrArg Tcd.active (xfer_other (c % 64) ch y e (fun x => hx x.symm) (Nat.mod_lt _ (by omega))).1
        | setup c y => have hx : c % 64 ≠ ch := hx; exact congrArg Tcd.active (setup_other (c % 64) ch y e (fun x => hx x.symm) (Nat.mod_lt _ (by omega))).1
        | poll c => rfl
        | request c => exact request_active c ch e
        | arb c =>
          have hc : ch ≠ c := by intro g; exact hne (by rw [g])
          exact congrArg Tcd.active (arb_other c ch e hc).1
        | unit =>
          have hn : ∀ r, e.run = some r → ch ≠ r.ch := by
            intro r hr hc
            have := (hw ch).2 ⟨r, hr, hc.symm⟩
            rw [h.act] at this; cases this
          exact congrArg Tcd.active (unit_other ch e hn).1
      rw [key, h.act] at h3; cases h3

/-- **C115 refuted**: until the engine picks the channel, be it for as long as the transfers of the other channels last, dmasg_xfer_done returns 0 though nothing has been moved -/
theorem dmasg_done_early (ch : Nat) (hc : ch < 64) (x : Xfer) (hv : x.Valid) (e : Eng) (hw : Wf e) (ha : (e.tcd ch).active = false) (hq : (e.tcd ch).erq = false)
    (vs : List Ev) (hs : ∀ v ∈ vs, v.spares ch ∧ v ≠ .arb ch) :
    xferDone ch (runs vs (xfer ch x e).2) = 0 ∧ (runs vs (xfer ch x e).2).log ch = e.log ch ∧ x.wanted ≠ [] := by
  obtain ⟨hw1, h1⟩ := xfer_ph ch hc x hv e hw ha hq
  have hl : x.wanted.length = x.total := by rw [wanted_eq]; simp
  obtain ⟨_, e1, _, e3⟩ := xfer_eq ch hc x hv e ha
  have hi : Idle ch (e.log ch) x false 0 true (xfer ch x e).2 := by
    cases h1 with
    | wait h => exact h
    | busy k h => have := h.act; rw [e1] at this; have this : (e.tcd ch).active = true := this; rw [ha] at this; cases this
    | over h _ => have := h.start; rw [e1] at this; cases this
  have h2 := quiet ch hv vs hw1 hi hs
  refine ⟨by simp [xferDone, h2.act], by rw [h2.log]; simp [Xfer.rounds], ?_⟩
  intro g
  have := Valid.total_pos hv
  rw [← hl, g] at this
  exact absurd this (by simp)

/-- **C115 refuted**: a second dmasg_xfer before the engine has picked the channel is accepted, and the first transfer, which was accepted too, is never moved: only
groups of the second one are, whatever happens -/
theorem dmasg_xfer_lost (ch : Nat) (hc : ch < 64) (x y : Xfer) (hx : x.Valid) (hy : y.Valid) (e : Eng) (hw : Wf e) (ha : (e.tcd ch).active = false) (hq : (e.tcd ch).erq = false)
    (us vs : List Ev) (hu : ∀ v ∈ us, v.spares ch ∧ v ≠ .arb ch) (hs : ∀ v ∈ vs, v.spares ch) :
    (xfer ch x e).1 = 0 ∧ (xfer ch y (runs us (xfer ch x e).2)).1 = 0 ∧
    ∃ k, (runs vs (xfer ch y (runs us (xfer ch x e).2)).2).log ch = e.log ch ++ y.wanted.take k := by
  obtain ⟨hw1, h1⟩ := xfer_ph ch hc x hx e hw ha hq
  obtain ⟨_, e1, _, e3⟩ := xfer_eq ch hc x hx e ha
  have hi : Idle ch (e.log ch) x false 0 true (xfer ch x e).2 := by
    cases h1 with
    | wait h => exact h
    | busy k h => have := h.act; rw [e1] at this; have this : (e.tcd ch).active = true := this; rw [ha] at this; cases this
    | over h _ => have := h.start; rw [e1] at this; cases this
  have h2 := quiet ch hx us hw1 hi hu
  have hw2 : Wf (runs us (xfer ch x e).2) := by
    have := Ph.runs hx us hw1 h1 (fun v hv => (hu v hv).1)
    exact this.2
  have h3 := dmasg_xfer_partial ch hc y hy _ hw2 h2.act h2.erq vs hs
  obtain ⟨h4, k, _, h5, _⟩ := h3
  refine ⟨(xfer_eq ch hc x hx e ha).1, h4, k, ?_⟩
  rw [h5, h2.log]; simp [Xfer.rounds]

/-! ### Requests of a peripheral -/

theorem setup_eq (ch : Nat) (hc : ch < 64) (x : Xfer) (hv : x.Valid) (e : Eng) :
    (setup ch x e).1 = 0 ∧ (setup ch x e).2.tcd ch = { wr x (e.tcd ch) with erq := true } ∧ (setup ch x e).2.log = e.log ∧ (setup ch x e).2.run = e.run := by
  have hb : ¬ (x.smod > 31 ∨ x.dmod > 31 ∨ x.ssize > 8 ∨ x.dsize > 8) := by
    have := hv.sm; have := hv.dm
    rcases hv.ss with h | h | h | h <;> rcases hv.ds with g | g | g | g <;> omega
  simp only [setup, Nat.mod_eq_of_lt hc, setupTcd, if_neg hb]
  simp [updT, wr]

/-- a channel given to a peripheral -/
inductive Pq (ch : Nat) (base : List (List (Addr × Addr))) (x : Xfer) (e : Eng) : Prop where
  | idle (n : Nat) (s : Bool) (h : Idle ch base x true n s e)
  | busy (n k : Nat) (s : Bool) (h : Busy ch base x true n k s e)

theorem Pq.runs {ch base x} (hv : x.Valid) (vs : List Ev) : ∀ {e : Eng}, Wf e → Pq ch base x e → (∀ v ∈ vs, v.spares ch) → Pq ch base x (Dmasg.runs vs e) := by
  induction vs with
  | nil => intro e hw h _; exact h
  | cons v vs ih =>
    intro e hw h hs
    refine ih (hw.step v) ?_ (fun u hu => hs u (by simp [hu]))
    cases h with
    | idle n s h =>
      rcases idle_step hv hw h v (hs v (by simp)) with ⟨s', _, h2⟩ | ⟨_, h2⟩
      · exact .idle n s' h2
      · exact .busy n 0 false h2
    | busy n k s h =>
      rcases busy_step hv h v (hs v (by simp)) with ⟨s', k', _, _, h2⟩ | ⟨s', _, h2, _⟩
      · exact .busy n k' s' h2
      · exact .idle (n + 1) s' h2

/-- **C115**: a channel that is not active is given to a peripheral by dmasg_nxp_edma_dmasg_setup: whatever the schedule and the requests, what has been moved is a number of
rounds of the transfer, each from where the one before has stopped, plus the last adjustments, and a beginning of the next one; dmasg_xfer_done returns 0 only between two rounds -/
theorem dmasg_setup_rounds (ch : Nat) (hc : ch < 64) (x : Xfer) (hv : x.Valid) (e : Eng) (hw : Wf e) (ha : (e.tcd ch).active = false)
    (vs : List Ev) (hs : ∀ v ∈ vs, v.spares ch) :
    (setup ch x e).1 = 0 ∧
    ∃ n k, (runs vs (setup ch x e).2).log ch = e.log ch ++ Xfer.rounds n x ++ (x.nth n).wanted.take k ∧
      (xferDone ch (runs vs (setup ch x e).2) = 0 → k = 0) := by
  obtain ⟨h0, h1, h2, _⟩ := setup_eq ch hc x hv e
  refine ⟨h0, ?_⟩
  have hw1 : Wf (setup ch x e).2 := by
    have := hw.step (.setup ch x)
    simpa only [Dmasg.step, Nat.mod_eq_of_lt hc] using this
  have hp : Pq ch (e.log ch) x (setup ch x e).2 := by
    refine .idle 0 (e.tcd ch).start ⟨?_, ?_, ?_, ?_, ?_⟩
    · rw [h1]
      have h := wr_conf x hv (e.tcd ch)
      exact ⟨h.saddr, h.daddr, h.smod, h.dmod, h.ss, h.ds, h.sc, h.dc, h.soff, h.doff, h.nbytes, h.slast, h.dlast, h.citer, h.biter⟩
    · rw [h1]; exact ha
    · rw [h1]
    · rw [h1]; rfl
    · rw [h2]; simp [Xfer.rounds]
  cases hp.runs hv vs hw1 hs with
  | idle n s h => exact ⟨n, 0, by rw [h.log]; simp, fun _ => rfl⟩
  | busy n k s h => exact ⟨n, k, h.log, fun g => by simp [xferDone, h.act, eagain] at g⟩

/-- when the last adjustments bring both addresses back, every round is the same transfer -/
theorem rounds_same (x : Xfer) (h : x.next = x) (n : Nat) : x.nth n = x ∧ Xfer.rounds n x = (List.replicate n x.wanted).flatten := by
  induction n with
  | zero => exact ⟨rfl, rfl⟩
  | succ n ih =>
    constructor
    · show x.next.nth n = x; rw [h]; exact ih.1
    · show x.wanted ++ Xfer.rounds n x.next = _
      rw [h, ih.2, List.replicate_succ, List.flatten_cons]

/-- as they do without modulo, if they are the opposite of the way made -/
theorem next_same (x : Xfer) (hs : x.smod = 0) (hd : x.dmod = 0) (h1 : x.slast = - BitVec.ofNat 32 (x.count.toNat / x.ssize * x.soff.toNat))
    (h2 : x.dlast = - BitVec.ofNat 32 (x.count.toNat / x.dsize * x.doff.toNat)) : x.next = x := by
  obtain ⟨a, b, c, d, f, g, h, i, j, k, l⟩ := x
  simp only at hs hd h1 h2
  subst hs hd h1 h2
  simp [Xfer.next, place, BitVec.add_assoc, BitVec.add_right_neg]

/-! ### Memory -/

theorem applyGroup_other (g : List (Addr × Addr)) (m : Mem) (a : Addr) (h : ∀ p ∈ g, a ≠ p.2) : applyGroup g m a = m a := by
  suffices H : ∀ (g : List (Addr × Addr)) (m' : Mem), (∀ p ∈ g, a ≠ p.2) → (g.foldl (fun m' p => fun a => if a = p.2 then m p.1 else m' a) m') a = m' a from H g m h
  intro g
  induction g with
  | nil => intro m' _; rfl
  | cons p g ih =>
    intro m' h
    rw [List.foldl_cons, ih _ (fun q hq => h q (by simp [hq])), if_neg (h p (by simp))]

theorem applyGroup_in (g : List (Addr × Addr)) (m : Mem) (p : Addr × Addr) (hp : p ∈ g) (h : ∀ q ∈ g, q.2 = p.2 → q.1 = p.1) : applyGroup g m p.2 = m p.1 := by
  suffices H : ∀ (g : List (Addr × Addr)) (m' : Mem), (p ∈ g ∨ m' p.2 = m p.1) → (∀ q ∈ g, q.2 = p.2 → q.1 = p.1) →
      (g.foldl (fun m' p => fun a => if a = p.2 then m p.1 else m' a) m') p.2 = m p.1 from H g m (.inl hp) h
  intro g
  induction g with
  | nil => intro m' h _; rcases h with h | h
           · cases h
           · exact h
  | cons q g ih =>
    intro m' h1 h2
    rw [List.foldl_cons]
    refine ih _ ?_ (fun r hr => h2 r (by simp [hr]))
    rcases h1 with h1 | h1
    · rcases List.mem_cons.1 h1 with rfl | h1
      · right; simp
      · exact .inl h1
    · right
      by_cases c : p.2 = q.2
      · simp only [c, if_true]; rw [h2 q (by simp) c.symm]
      · simp only [c, if_false]; exact h1

theorem applyAll_append (a b : List (List (Addr × Addr))) (m : Mem) : applyAll (a ++ b) m = applyAll b (applyAll a m) := by
  simp [applyAll, List.foldl_append]

/-- the memory after n groups -/
theorem applyAll_grp (x : Xfer) (m : Mem) (L : Nat) (hi : ∀ b c, b < L → c < L → x.dst b = x.dst c → b = c) (hd : ∀ b c, b < L → c < L → x.src b ≠ x.dst c)
    (n : Nat) (hn : n * x.group ≤ L) :
    (∀ b < n * x.group, applyAll ((List.range n).map x.grp) m (x.dst b) = m (x.src b)) ∧
    (∀ a, (∀ b < n * x.group, a ≠ x.dst b) → applyAll ((List.range n).map x.grp) m a = m a) := by
  induction n with
  | zero => exact ⟨fun b hb => by omega, fun a _ => rfl⟩
  | succ n ih =>
    have hk : (n + 1) * x.group = n * x.group + x.group := by rw [Nat.add_mul, Nat.one_mul]
    rw [hk] at hn ⊢
    obtain ⟨i1, i2⟩ := ih (by omega)
    rw [List.range_succ, List.map_append, applyAll_append]
    generalize hM : applyAll ((List.range n).map x.grp) m = M at i1 i2
    have hA : applyAll (List.map x.grp [n]) M = applyGroup (x.grp n) M := rfl
    rw [hA]
    have mem : ∀ p, p ∈ x.grp n ↔ ∃ j < x.group, (x.src (n * x.group + j), x.dst (n * x.group + j)) = p := by
      intro p; simp [Xfer.grp]
    constructor
    · intro b hb
      by_cases c : b < n * x.group
      · rw [applyGroup_other, i1 b c]
        intro p hp
        obtain ⟨j, hj, rfl⟩ := (mem p).1 hp
        intro g
        have := hi b (n * x.group + j) (by omega) (by omega) g
        omega
      · have hin : (x.src b, x.dst b) ∈ x.grp n := (mem _).2 ⟨b - n * x.group, by omega, by rw [show n * x.group + (b - n * x.group) = b by omega]⟩
        rw [applyGroup_in _ _ (x.src b, x.dst b) hin]
        · exact i2 _ (fun c hc => hd b c (by omega) (by omega))
        · intro q hq hqe
          obtain ⟨j, hj, rfl⟩ := (mem q).1 hq
          have := hi _ _ (by omega) (by omega) hqe
          rw [this]
    · intro a ha
      rw [applyGroup_other, i2 a (fun b hb => ha b (by omega))]
      intro p hp
      obtain ⟨j, hj, rfl⟩ := (mem p).1 hp
      exact ha _ (by omega)

/-- **C115**: when no byte of the destination is written twice and none is one of the source, the transfer copies byte b of the source to byte b of the destination, for
each, and changes nothing else -/
theorem dmasg_wanted_copies (x : Xfer) (hv : x.Valid) (m : Mem)
    (hi : ∀ b c, b < x.count.toNat → c < x.count.toNat → x.dst b = x.dst c → b = c) (hd : ∀ b c, b < x.count.toNat → c < x.count.toNat → x.src b ≠ x.dst c) :
    (∀ b < x.count.toNat, applyAll x.wanted m (x.dst b) = m (x.src b)) ∧
    (∀ a, (∀ b < x.count.toNat, a ≠ x.dst b) → applyAll x.wanted m a = m a) := by
  have hg := Valid.gdiv hv
  have := applyAll_grp x m x.count.toNat hi hd x.total (by rw [Xfer.total]; omega)
  rw [show x.total * x.group = x.count.toNat from hg] at this
  exact this

/-! ### What is accepted though it cannot be done -/

/-- a column of a matrix of 16-bit words, 8 bytes a line, gathered into a row: the theorems apply -/
def column : Xfer := { saddr := 0x40000000#32, smod := 0, ssize := 2, dmod := 0, dsize := 4, soff := 8#32, count := 8#32, slast := 0#32, daddr := 0x40001000#32, doff := 4#32, dlast := 0#32 }

theorem column_valid : column.Valid := by
  constructor <;> decide

theorem column_moves : column.wanted =
    [[(0x40000000#32, 0x40001000#32), (0x40000001#32, 0x40001001#32), (0x40000008#32, 0x40001002#32), (0x40000009#32, 0x40001003#32)],
     [(0x40000010#32, 0x40001004#32), (0x40000011#32, 0x40001005#32), (0x40000018#32, 0x40001006#32), (0x40000019#32, 0x40001007#32)]] := by decide

/-- its bytes are as dmasg_wanted_copies requires -/
theorem column_apart : (∀ b c, b < 8 → c < 8 → column.dst b = column.dst c → b = c) ∧ (∀ b c, b < 8 → c < 8 → column.src b ≠ column.dst c) := by
  have h1 : ∀ b c : Fin 8, column.dst b.val = column.dst c.val → b = c := by decide
  have h2 : ∀ b c : Fin 8, column.src b.val ≠ column.dst c.val := by decide
  exact ⟨fun b c hb hc h => congrArg Fin.val (h1 ⟨b, hb⟩ ⟨c, hc⟩ h), fun b c hb hc => h2 ⟨b, hb⟩ ⟨c, hc⟩⟩

/-- a ring of 4 bytes read twice: the modulo keeps the address in it -/
def ring : Xfer := { saddr := 0x40000006#32, smod := 2, ssize := 1, dmod := 0, dsize := 1, soff := 1#32, count := 4#32, slast := 0#32, daddr := 0x40001000#32, doff := 1#32, dlast := 0#32 }

theorem ring_moves : ring.wanted =
    [[(0x40000006#32, 0x40001000#32)], [(0x40000007#32, 0x40001001#32)], [(0x40000004#32, 0x40001002#32)], [(0x40000005#32, 0x40001003#32)]] := by decide

/-- a channel that is not active -/
theorem column_idle (t : Nat → Tcd) : Wf (Eng.init t) ∧ ((Eng.init t).tcd 5).active = false ∧ ((Eng.init t).tcd 5).erq = false :=
  ⟨wf_reachable t [], rfl, rfl⟩

/-- **C115 refuted**: sizes that do not exist (0, 3, 5, 6, 7 bytes) are accepted: the units are of 1 byte -/
theorem dmasg_size_wrong (ch : Nat) (hc : ch < 64) (x : Xfer) (n : Nat) (hn : n = 0 ∨ n = 3 ∨ n = 5 ∨ n = 6 ∨ n = 7) (hv : { x with ssize := 1 }.Valid) (e : Eng) (ha : (e.tcd ch).active = false) :
    (xfer ch { x with ssize := n } e).1 = 0 ∧ (xfer ch { x with ssize := n } e).2 = (xfer ch { x with ssize := 1 } e).2 := by
  have hm := hv.sm
  have hdm := hv.dm
  have hds := hv.ds
  simp only at hm hdm hds
  have hb : ¬ (x.smod > 31 ∨ x.dmod > 31 ∨ n > 8 ∨ x.dsize > 8) := by
    rcases hds with g | g | g | g <;> omega
  have hb1 : ¬ (x.smod > 31 ∨ x.dmod > 31 ∨ 1 > 8 ∨ x.dsize > 8) := by
    rcases hds with g | g | g | g <;> omega
  have ea : attrOf { x with ssize := n } = attrOf { x with ssize := 1 } := by
    have : dataSize n = dataSize 1 := by rcases hn with h | h | h | h | h <;> subst h <;> rfl
    simp only [attrOf, this]
  simp only [xfer, ha, setupTcd, if_neg hb, if_neg hb1, ea]
  simp

/-- **C115 refuted**: an offset that does not fit in 16 bits is cut: with 0x10000 the source stays where it is -/
theorem dmasg_offset_cut (ch : Nat) (hc : ch < 64) (x : Xfer) (e : Eng) (ha : (e.tcd ch).active = false) :
    xfer ch { x with soff := 0x10000#32 } e = xfer ch { x with soff := 0#32 } e := by
  have h : attrOf { x with soff := 0x10000#32 } = attrOf { x with soff := 0#32 } := rfl
  simp only [xfer, setupTcd, h]
  rfl

/-- a transfer that the controller does not do: a remainder -/
theorem unmoved_step {ch : Nat} {e : Eng} (hw : Wf e) (ha : (e.tcd ch).active = false) (hk : ¬ (e.tcd ch).ok) (v : Ev) (hs : v.spares ch) :
    ((step e v).tcd ch).active = false ∧ ¬ ((step e v).tcd ch).ok ∧ (step e v).log ch = e.log ch := by
  cases v with
  | xfer c y =>
    have hs : c % 64 ≠ ch := hs
    obtain ⟨h1, _, h3⟩ := xfer_other (c % 64) ch y e (fun x => hs x.symm) (Nat.mod_lt _ (by omega))
    simp only [step]; rw [h1, h3]; exact ⟨ha, hk, rfl⟩
  | setup c y =>
    have hs : c % 64 ≠ ch := hs
    obtain ⟨h1, _, h3⟩ := setup_other (c % 64) ch y e (fun x => hs x.symm) (Nat.mod_lt _ (by omega))
    simp only [step]; rw [h1, h3]; exact ⟨ha, hk, rfl⟩
  | poll c => exact ⟨ha, hk, rfl⟩
  | request c =>
    by_cases hc : ch = c
    · subst hc
      simp only [step, request, updT_same]
      split
      · exact ⟨ha, hk, rfl⟩
      · exact ⟨ha, hk, rfl⟩
    · simp only [step]; rw [request_other _ _ _ hc]; exact ⟨ha, hk, rfl⟩
  | arb c =>
    by_cases hc : ch = c
    · subst hc
      simp only [step, arb]
      split
      · exact ⟨ha, hk, rfl⟩
      · split
        · rw [updT_same]; exact ⟨ha, hk, rfl⟩
        · exact ⟨ha, hk, rfl⟩
    · obtain ⟨h1, h2⟩ := arb_other c ch e hc
      simp only [step]; rw [h1, h2]; exact ⟨ha, hk, rfl⟩
  | unit =>
    have hn : ∀ r, e.run = some r → ch ≠ r.ch := by
      intro r hr hc
      have := (hw ch).2 ⟨r, hr, hc.symm⟩
      rw [ha] at this; cases this
    obtain ⟨h1, h2⟩ := unit_other ch e hn
    simp only [step]; rw [h1, h2]; exact ⟨ha, hk, rfl⟩

/-- **C115 refuted**: a count that is not a multiple of the size is accepted; nothing is ever moved, and dmasg_xfer_done always returns 0 -/
theorem dmasg_remainder (ch : Nat) (hc : ch < 64) (x : Xfer) (n : BitVec 32) (hv : x.Valid) (hn : n.toNat % x.ssize ≠ 0) (e : Eng) (hw : Wf e) (ha : (e.tcd ch).active = false)
    (vs : List Ev) (hs : ∀ v ∈ vs, v.spares ch) :
    (xfer ch { x with count := n } e).1 = 0 ∧
    (runs vs (xfer ch { x with count := n } e).2).log ch = e.log ch ∧ xferDone ch (runs vs (xfer ch { x with count := n } e).2) = 0 := by
  have hb : ¬ (x.smod > 31 ∨ x.dmod > 31 ∨ x.ssize > 8 ∨ x.dsize > 8) := by
    have := hv.sm; have := hv.dm
    rcases hv.ss with h | h | h | h <;> rcases hv.ds with g | g | g | g <;> omega
  have h0 : (xfer ch { x with count := n } e).1 = 0 ∧ (xfer ch { x with count := n } e).2.log = e.log ∧
      (xfer ch { x with count := n } e).2.tcd ch = { wr { x with count := n } { e.tcd ch with done := false } with start := true } := by
    simp only [xfer, ha, Nat.mod_eq_of_lt hc, setupTcd, if_neg hb]
    simp [updT, wr, ha]
  obtain ⟨h1, h2, h3⟩ := h0
  have hok : ¬ ((xfer ch { x with count := n } e).2.tcd ch).ok := by
    rw [h3]
    intro h
    have h5 := h.2.2.2.2.1
    have hss := (wr_conf x hv (e.tcd ch)).ss
    have e1 : Tcd.ss { wr { x with count := n } { e.tcd ch with done := false } with start := true } = x.ssize := hss
    rw [e1] at h5
    exact hn h5
  have hact : ((xfer ch { x with count := n } e).2.tcd ch).active = false := by rw [h3]; exact ha
  have hw1 : Wf (xfer ch { x with count := n } e).2 := by
    have := hw.step (.xfer ch { x with count := n })
    simpa only [Dmasg.step, Nat.mod_eq_of_lt hc] using this
  refine ⟨h1, ?_⟩
  rw [← h2]
  revert hok hact hw1
  generalize (xfer ch { x with count := n } e).2 = f
  clear h1 h2 h3
  intro hok hact hw1
  have : ∀ (vs : List Ev) (f : Eng), (∀ v ∈ vs, v.spares ch) → Wf f → (f.tcd ch).active = false → ¬ (f.tcd ch).ok → (runs vs f).log ch = f.log ch ∧ xferDone ch (runs vs f) = 0 := by
    intro vs
    induction vs with
    | nil => intro f _ _ h _; exact ⟨rfl, by simp [runs, xferDone, h]⟩
    | cons v vs ih =>
      intro f hs hw h1 h2
      obtain ⟨g1, g2, g3⟩ := unmoved_step hw h1 h2 v (hs v (by simp))
      obtain ⟨i1, i2⟩ := ih (step f v) (fun u hu => hs u (by simp [hu])) (hw.step v) g1 g2
      exact ⟨by rw [runs, i1, g3], i2⟩
  exact this vs f hs hw1 hact hok

end Pico.Dmasg
