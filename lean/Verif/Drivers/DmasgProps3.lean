import Verif.Drivers.DmasgProps2
/-
C115: requests are served; what is refused is not moved.
-/
namespace Pico.Dmasg
open Pico.Field

theorem total_nth (x : Xfer) (n : Nat) : (x.nth n).total = x.total := by
  induction n generalizing x with
  | zero => rfl
  | succ n ih => exact ih x.next

/-- a round ends after as many steps of the engine as there are groups -/
theorem busy_ends' {ch base x q n s} (hv : x.Valid) (j : Nat) : ∀ {k : Nat} {e : Eng}, Busy ch base x q n k s e → k + j = x.total → 0 < j →
    Idle ch base x q (n + 1) s (runs (List.replicate j .unit) e) ∧ (runs (List.replicate j .unit) e).run = none := by
  induction j with
  | zero => intro k e _ _ h; omega
  | succ j ih =>
    intro k e h hk _
    show Idle ch base x q (n + 1) s (runs (List.replicate j .unit) (unit e)) ∧ (runs (List.replicate j .unit) (unit e)).run = none
    rcases unit_busy hv h with ⟨h0, h1⟩ | ⟨h0, h1, _, h3⟩
    · rw [total_nth] at h0
      exact ih h1 (by omega) (by omega)
    · rw [total_nth] at h0
      have : j = 0 := by omega
      subst this
      exact ⟨h1, h3⟩

theorem runs_append (a b : List Ev) (e : Eng) : runs (a ++ b) e = runs b (runs a e) := by
  induction a generalizing e with
  | nil => rfl
  | cons v a ih => exact ih _

/-- a request, the channel is picked, the groups are moved -/
def served (ch : Nat) (x : Xfer) : List Ev := .request ch :: .arb ch :: List.replicate x.wanted.length .unit

theorem served_idle {ch base x n s} {e : Eng} (hv : x.Valid) (hr : e.run = none) (h : Idle ch base x true n s e) :
    Idle ch base x true (n + 1) false (runs (served ch x) e) ∧ (runs (served ch x) e).run = none := by
  have hl : x.wanted.length = x.total := by rw [wanted_eq]; simp
  have h1 := request_idle h
  have hr1 : (request ch e).run = none := hr
  have hb : Busy ch base x true n 0 false (arb ch (request ch e)) := by
    rcases arb_idle hv h1 with h2 | ⟨_, h2⟩
    · exfalso
      have h3 := h2.act
      unfold arb at h3
      rw [hr1] at h3
      have hst : ((request ch e).tcd ch).start = true := h1.start
      simp only [hst, if_true, if_pos (h1.conf.ok (Valid.nth hv n))] at h3
      simp at h3
    · exact h2
  show Idle ch base x true (n + 1) false (runs (List.replicate x.wanted.length .unit) (arb ch (request ch e))) ∧ (runs (List.replicate x.wanted.length .unit) (arb ch (request ch e))).run = none
  rw [hl]
  exact busy_ends' hv x.total hb (by omega) (Valid.total_pos hv)

/-- **C115**: with the engine free, each of n requests that are served in turn does one round, n being any number -/
theorem dmasg_setup_serves (ch : Nat) (hc : ch < 64) (x : Xfer) (hv : x.Valid) (e : Eng) (hr : e.run = none) (ha : (e.tcd ch).active = false) (n : Nat) :
    (runs (List.replicate n (served ch x)).flatten (setup ch x e).2).log ch = e.log ch ++ Xfer.rounds n x := by
  obtain ⟨_, h1, h2, h3⟩ := setup_eq ch hc x hv e
  have hi : Idle ch (e.log ch) x true 0 (e.tcd ch).start (setup ch x e).2 := by
    refine ⟨?_, ?_, ?_, ?_, ?_⟩
    · rw [h1]
      have h := wr_conf x hv (e.tcd ch)
      exact ⟨h.saddr, h.daddr, h.smod, h.dmod, h.ss, h.ds, h.sc, h.dc, h.soff, h.doff, h.nbytes, h.slast, h.dlast, h.citer, h.biter⟩
    · rw [h1]; exact ha
    · rw [h1]
    · rw [h1]; rfl
    · rw [h2]; simp [Xfer.rounds]
  have key : ∀ (n m : Nat) (s : Bool) (f : Eng), f.run = none → Idle ch (e.log ch) x true m s f →
      ∃ s', Idle ch (e.log ch) x true (m + n) s' (runs (List.replicate n (served ch x)).flatten f) := by
    intro n
    induction n with
    | zero => intro m s f _ h; exact ⟨s, h⟩
    | succ n ih =>
      intro m s f hr h
      obtain ⟨g1, g2⟩ := served_idle hv hr h
      rw [List.replicate_succ, List.flatten_cons, runs_append]
      obtain ⟨s', h'⟩ := ih (m + 1) false _ g2 g1
      exact ⟨s', by rw [show m + (n + 1) = m + 1 + n by omega]; exact h'⟩
  obtain ⟨s', h'⟩ := key n 0 _ _ (by rw [h3]; exact hr) hi
  rw [h'.log, Nat.zero_add]

/-- a channel that nothing has started sleeps -/
theorem asleep_step {ch : Nat} {e : Eng} (hw : Wf e) (ha : (e.tcd ch).active = false) (hst : (e.tcd ch).start = false) (v : Ev) (hs : v.spares ch) (hr : v ≠ .request ch) :
    ((step e v).tcd ch).active = false ∧ ((step e v).tcd ch).start = false ∧ (step e v).log ch = e.log ch := by
  have same : ∀ {e' : Eng}, e'.tcd ch = e.tcd ch → e'.log ch = e.log ch → (e'.tcd ch).active = false ∧ (e'.tcd ch).start = false ∧ e'.log ch = e.log ch := by
    intro e' h1 h2; rw [h1]; exact ⟨ha, hst, h2⟩
  cases v with
  | xfer c y =>
    have hs : c % 64 ≠ ch := hs
    obtain ⟨h1, _, h3⟩ := xfer_other (c % 64) ch y e (fun x => hs x.symm) (Nat.mod_lt _ (by omega))
    exact same h1 (congrFun h3 ch)
  | setup c y =>
    have hs : c % 64 ≠ ch := hs
    obtain ⟨h1, _, h3⟩ := setup_other (c % 64) ch y e (fun x => hs x.symm) (Nat.mod_lt _ (by omega))
    exact same h1 (congrFun h3 ch)
  | poll c => exact same rfl rfl
  | request c =>
    have hc : ch ≠ c := by intro g; exact hr (by rw [g])
    exact same (request_other _ _ _ hc) rfl
  | arb c =>
    by_cases hc : ch = c
    · subst hc
      have : arb ch e = e := by
        unfold arb
        split
        · rfl
        · simp [hst]
      exact same (by show (arb ch e).tcd ch = _; rw [this]) (by show (arb ch e).log ch = _; rw [this])
    · obtain ⟨h1, h2⟩ := arb_other c ch e hc
      exact same h1 (congrFun h2 ch)
  | unit =>
    have hn : ∀ r, e.run = some r → ch ≠ r.ch := by
      intro r hr hc
      have := (hw ch).2 ⟨r, hr, hc.symm⟩
      rw [ha] at this; cases this
    obtain ⟨h1, h2⟩ := unit_other ch e hn
    exact same h1 h2

theorem asleep_runs {ch : Nat} (vs : List Ev) : ∀ {e : Eng}, Wf e → (e.tcd ch).active = false → (e.tcd ch).start = false → (∀ v ∈ vs, v.spares ch ∧ v ≠ .request ch) →
    (runs vs e).log ch = e.log ch := by
  induction vs with
  | nil => intro e _ _ _ _; rfl
  | cons v vs ih =>
    intro e hw ha hst hs
    obtain ⟨h1, h2, h3⟩ := asleep_step hw ha hst v (hs v (by simp)).1 (hs v (by simp)).2
    show (runs vs (step e v)).log ch = _
    rw [ih (hw.step v) h1 h2 (fun u hu => hs u (by simp [hu])), h3]

/-- **C115**: nothing is moved for a channel that was given to a peripheral until it asks -/
theorem dmasg_setup_waits (ch : Nat) (hc : ch < 64) (x : Xfer) (hv : x.Valid) (e : Eng) (hw : Wf e) (ha : (e.tcd ch).active = false) (hst : (e.tcd ch).start = false)
    (vs : List Ev) (hs : ∀ v ∈ vs, v.spares ch ∧ v ≠ .request ch) : (runs vs (setup ch x e).2).log ch = e.log ch := by
  obtain ⟨_, h1, h2, _⟩ := setup_eq ch hc x hv e
  have hw1 : Wf (setup ch x e).2 := by
    have := hw.step (.setup ch x)
    simpa only [Dmasg.step, Nat.mod_eq_of_lt hc] using this
  rw [asleep_runs vs hw1 (by rw [h1]; exact ha) (by rw [h1]; exact hst) hs, h2]

/-- **C115**: sizes above 8 and modulos above 31 are refused, by both calls, and nothing is moved for it, ever -/
theorem dmasg_refused (ch : Nat) (hc : ch < 64) (x : Xfer) (hx : 31 < x.smod ∨ 31 < x.dmod ∨ 8 < x.ssize ∨ 8 < x.dsize) (e : Eng) (hw : Wf e) (ha : (e.tcd ch).active = false)
    (hst : (e.tcd ch).start = false) (vs : List Ev) (hs : ∀ v ∈ vs, v.spares ch ∧ v ≠ .request ch) :
    (xfer ch x e).1 = einval ∧ (runs vs (xfer ch x e).2).log ch = e.log ch ∧ (setup ch x e).1 = einval ∧ (runs vs (setup ch x e).2).log ch = e.log ch ∧
    ((setup ch x e).2.tcd ch).erq = (e.tcd ch).erq := by
  have e1 : xfer ch x e = (einval, updT (updT e ch (fun t => { t with done := false })) ch (fun t => { t with saddr := x.saddr })) := by
    simp only [xfer, setupTcd, Nat.mod_eq_of_lt hc, ha]
    rw [if_pos hx]
    simp [einval]
  have e2 : setup ch x e = (einval, updT e ch (fun t => { t with saddr := x.saddr })) := by
    simp only [setup, setupTcd, Nat.mod_eq_of_lt hc]
    rw [if_pos hx]
    simp [einval]
  have w1 : Wf (xfer ch x e).2 := by
    have := hw.step (.xfer ch x)
    simpa only [Dmasg.step, Nat.mod_eq_of_lt hc] using this
  have w2 : Wf (setup ch x e).2 := by
    have := hw.step (.setup ch x)
    simpa only [Dmasg.step, Nat.mod_eq_of_lt hc] using this
  rw [e1] at w1 ⊢
  rw [e2] at w2 ⊢
  refine ⟨rfl, ?_, rfl, ?_, by simp⟩
  · exact asleep_runs vs w1 (by simp [ha]) (by simp [hst]) hs
  · exact asleep_runs vs w2 (by simp [ha]) (by simp [hst]) hs

/-- the second round of a transfer that does not come back starts where the first has stopped -/
theorem column_rounds : Xfer.rounds 2 column = column.wanted ++
    [[(0x40000020#32, 0x40001008#32), (0x40000021#32, 0x40001009#32), (0x40000028#32, 0x4000100a#32), (0x40000029#32, 0x4000100b#32)],
     [(0x40000030#32, 0x4000100c#32), (0x40000031#32, 0x4000100d#32), (0x40000038#32, 0x4000100e#32), (0x40000039#32, 0x4000100f#32)]] := by decide

end Pico.Dmasg
