import Verif.Drivers.Ipwm
import Mathlib.Tactic.Linarith
import Mathlib.Tactic.Ring
/-
ipwm_get_period and ipwm_get_duty_cycle (C102): the signal and the two captures
-/
namespace Pico.Ipwm

/-! ### the signal -/

/-- residue of the edges -/
def Sig.at (g : Sig) (up : Bool) : Nat := if up then g.e else (g.e + g.H) % g.P

theorem edge_iff {g : Sig} (h : g.ok) (up : Bool) (n : Nat) : g.edge up n = true ↔ n % g.P = g.at up := by
  obtain ⟨P, H, e⟩ := g
  obtain ⟨h1, h2, h3⟩ := h
  simp only at h1 h2 h3
  have hP : 0 < P := by omega
  have hlt := Nat.mod_lt n hP
  have e1 : n = P * (n / P) + n % P := (Nat.div_add_mod n P).symm
  have key : ∀ x, x < P → ∀ m, (P * m + x) % P = x := fun x hx m => by rw [Nat.mul_add_mod, Nat.mod_eq_of_lt hx]
  generalize hq : n / P = q at e1
  generalize hr : n % P = r at e1 hlt
  -- the level now
  have l1 : (n + (P - e)) % P = if r < e then r + P - e else r - e := by
    split
    · rw [show n + (P - e) = P * q + (r + P - e) by omega, key _ (by omega)]
    · rw [show n + (P - e) = P * (q + 1) + (r - e) by rw [Nat.mul_add]; omega, key _ (by omega)]
  have l2 : (n + P - 1 + (P - e)) % P = if r < e + 1 then r + P - e - 1 else r - e - 1 := by
    split
    · rw [show n + P - 1 + (P - e) = P * (q + 1) + (r + P - e - 1) by rw [Nat.mul_add]; omega, key _ (by omega)]
    · rw [show n + P - 1 + (P - e) = P * (q + 2) + (r - e - 1) by rw [Nat.mul_add]; omega, key _ (by omega)]
  have l3 : (e + H) % P = if e + H < P then e + H else e + H - P := by
    split
    · exact Nat.mod_eq_of_lt (by omega)
    · rw [show e + H = P * 1 + (e + H - P) by omega, key _ (by omega)]; omega
  simp only [Sig.edge, Sig.level, Sig.at, l1, l2, l3]
  cases up
  · simp only [Bool.and_eq_true, beq_iff_eq, decide_eq_false_iff_not, Bool.not_false, decide_eq_true_eq, Bool.false_eq_true, if_false]
    split <;> split <;> split <;> omega
  · simp only [Bool.and_eq_true, beq_iff_eq, decide_eq_true_eq, Bool.not_true, decide_eq_false_iff_not, if_true]
    split <;> split <;> omega

theorem at_lt {g : Sig} (h : g.ok) (up : Bool) : g.at up < g.P := by
  cases up
  · exact Nat.mod_lt _ (by have := h.1; have := h.2.1; omega)
  · exact h.2.2

/-- two edges with none between them are a period apart -/
theorem edge_next {g : Sig} (h : g.ok) {up : Bool} {x y : Nat} (hx : g.edge up x = true) (hy : g.edge up y = true) (hlt : x < y) (hno : ∀ z, x < z → z < y → g.edge up z = false) : y = x + g.P := by
  have hP : 0 < g.P := by have := h.1; have := h.2.1; omega
  have e1 := (edge_iff h up x).1 hx
  have e2 := (edge_iff h up y).1 hy
  have e3 : g.edge up (x + g.P) = true := (edge_iff h up _).2 (by rw [Nat.add_mod_right]; exact e1)
  by_contra hne
  rcases Nat.lt_or_gt_of_ne hne with hl | hl
  · have a1 := Nat.div_add_mod x g.P
    have a2 := Nat.div_add_mod y g.P
    rw [e1] at a1; rw [e2] at a2
    have a3 : g.P * (x / g.P) < g.P * (y / g.P) := by omega
    have a4 : x / g.P < y / g.P := Nat.lt_of_mul_lt_mul_left a3
    have a5 : g.P * (x / g.P + 1) ≤ g.P * (y / g.P) := Nat.mul_le_mul_left _ a4
    rw [Nat.mul_add] at a5
    omega
  · have := hno (x + g.P) (by omega) hl
    rw [e3] at this; cases this

/-- there is an edge in every P cycles -/
theorem edge_in {g : Sig} (h : g.ok) (up : Bool) (x : Nat) : ∃ z, x ≤ z ∧ z < x + g.P ∧ g.edge up z = true := by
  have hP : 0 < g.P := by have := h.1; have := h.2.1; omega
  have a1 := Nat.div_add_mod x g.P
  have a2 := Nat.mod_lt x hP
  have a3 := at_lt h up
  by_cases hc : x % g.P ≤ g.at up
  · refine ⟨g.P * (x / g.P) + g.at up, by omega, by omega, (edge_iff h up _).2 ?_⟩
    rw [Nat.mul_add_mod, Nat.mod_eq_of_lt a3]
  · refine ⟨g.P * (x / g.P + 1) + g.at up, by rw [Nat.mul_add]; omega, by rw [Nat.mul_add]; omega, (edge_iff h up _).2 ?_⟩
    rw [Nat.mul_add_mod, Nat.mod_eq_of_lt a3]

/-! ### the two captures -/

/-- what holds while a measure goes on -/
structure Inv (k : Kind) (g : Sig) (up : Bool) (s : St) : Prop where
  le : s.start ≤ s.t
  acq : s.run = true → s.acq = true
  cnt : s.run = true → s.cnt = (s.t - s.start) % 2 ^ width k
  run : s.acq = true → s.run = false → 2 ≤ s.seen
  zero : s.acq = true → s.seen = 0 → ∀ z, s.start ≤ z → z < s.t → g.edge up z = false
  one : s.acq = true → 0 < s.seen → ∃ x, s.start ≤ x ∧ x < s.t ∧ g.edge up x = true ∧ s.a = (x - s.start) % 2 ^ width k ∧ (s.run = true → ∀ z, x < z → z < s.t → g.edge up z = false) ∧
    (2 ≤ s.seen → ∃ y, s.start ≤ y ∧ y < x ∧ g.edge up y = true ∧ s.b = (y - s.start) % 2 ^ width k ∧ (∀ z, y < z → z < x → g.edge up z = false)) ∧
    (s.seen = 1 → ∀ z, s.start ≤ z → z < x → g.edge up z = false)

theorem inv_init (k : Kind) (g : Sig) (up : Bool) : Inv k g up init :=
  ⟨Nat.le_refl _, (fun h => Bool.noConfusion h), (fun h => Bool.noConfusion h), (fun h => Bool.noConfusion h), (fun h => Bool.noConfusion h), (fun h => Bool.noConfusion h)⟩

theorem inv_call {k : Kind} {g : Sig} {up : Bool} {s : St} (h : Inv k g up s) : Inv k g up (call k s) := by
  unfold call
  by_cases h1 : s.acq = false
  · rw [if_pos h1]
    refine ⟨Nat.le_refl _, fun _ => rfl, fun _ => ?_, (fun _ hr => Bool.noConfusion hr), fun _ _ z hz hz' => ?_, fun _ hs => absurd hs (Nat.lt_irrefl 0)⟩
    · show 0 = (s.t - s.t) % _
      rw [Nat.sub_self, Nat.zero_mod]
    · exact absurd (Nat.lt_of_le_of_lt hz hz') (Nat.lt_irrefl _)
  · rw [if_neg h1]
    by_cases h2 : s.seen < 2
    · rw [if_pos h2]
      exact ⟨h.le, h.acq, h.cnt, h.run, h.zero, h.one⟩
    · rw [if_neg h2]
      exact ⟨h.le, (fun hr => Bool.noConfusion hr), (fun hr => Bool.noConfusion hr), (fun ha => Bool.noConfusion ha), (fun ha => Bool.noConfusion ha), (fun ha => Bool.noConfusion ha)⟩

theorem cnt_step (n t s w : Nat) (hle : s ≤ t) (h : n = (t - s) % w) : (n + 1) % w = (t + 1 - s) % w := by
  rw [h, Nat.mod_add_mod]; congr 1; omega

theorem inv_cycle {k : Kind} {g : Sig} {up : Bool} {s : St} (h : Inv k g up s) : Inv k g up (cycle k g up s) := by
  unfold cycle
  by_cases h1 : s.run = false
  · rw [if_pos h1]
    refine ⟨Nat.le_succ_of_le h.le, h.acq, (fun hr => absurd (h1.symm.trans hr) (by decide)), h.run, ?_, ?_⟩
    · intro ha hs z hz hz'
      have := h.run ha h1
      have : s.seen = 0 := hs
      omega
    · intro ha hs
      obtain ⟨x, x1, x2, x3, x4, x5, x6, x7⟩ := h.one ha hs
      refine ⟨x, x1, Nat.lt_succ_of_lt x2, x3, x4, fun hr => ?_, x6, x7⟩
      have hr : s.run = true := hr
      rw [h1] at hr; cases hr
  · rw [if_neg h1]
    have hr : s.run = true := by revert h1; cases s.run <;> simp
    have ha := h.acq hr
    have hc := cnt_step _ _ _ (2 ^ width k) h.le (h.cnt hr)
    dsimp only
    by_cases h2 : g.edge up s.t = false
    · rw [if_pos h2]
      refine ⟨Nat.le_succ_of_le h.le, fun _ => ha, fun _ => hc, fun _ hr' => by (have hr' : s.run = false := hr'); exact absurd hr' h1, ?_, ?_⟩
      · intro _ hs z hz hz'
        rcases Nat.lt_succ_iff_lt_or_eq.1 hz' with hl | he
        · exact h.zero ha hs z hz hl
        · rw [he]; exact h2
      · intro _ hs
        obtain ⟨x, x1, x2, x3, x4, x5, x6, x7⟩ := h.one ha hs
        refine ⟨x, x1, Nat.lt_succ_of_lt x2, x3, x4, fun _ z hz hz' => ?_, x6, x7⟩
        rcases Nat.lt_succ_iff_lt_or_eq.1 hz' with hl | he
        · exact x5 hr z hz hl
        · rw [he]; exact h2
    · rw [if_neg h2]
      have he : g.edge up s.t = true := by revert h2; cases g.edge up s.t <;> simp
      have new : ∃ x, s.start ≤ x ∧ x < s.t + 1 ∧ g.edge up x = true ∧ s.cnt = (x - s.start) % 2 ^ width k ∧ (∀ z, x < z → z < s.t + 1 → g.edge up z = false) ∧
          (2 ≤ s.seen + 1 → ∃ y, s.start ≤ y ∧ y < x ∧ g.edge up y = true ∧ s.a = (y - s.start) % 2 ^ width k ∧ (∀ z, y < z → z < x → g.edge up z = false)) ∧
          (s.seen + 1 = 1 → ∀ z, s.start ≤ z → z < x → g.edge up z = false) := by
        refine ⟨s.t, h.le, Nat.lt_succ_self _, he, h.cnt hr, fun z hz hz' => by omega, fun h2 => ?_, fun h1 z hz hz' => h.zero ha (by omega) z hz hz'⟩
        obtain ⟨x, x1, x2, x3, x4, x5, x6, x7⟩ := h.one ha (by omega)
        exact ⟨x, x1, x2, x3, x4, x5 hr⟩
      obtain ⟨x, x1, x2, x3, x4, x5, x6, x7⟩ := new
      cases k with
      | emios F d =>
        exact ⟨Nat.le_succ_of_le h.le, fun _ => ha, fun _ => hc, fun _ hr' => absurd hr' h1, fun _ hs => absurd hs (Nat.succ_ne_zero _), fun _ _ => ⟨x, x1, x2, x3, x4, fun _ => x5, x6, x7⟩⟩
      | tc f =>
        refine ⟨Nat.le_succ_of_le h.le, fun _ => ha, fun _ => hc, fun _ hr' => ?_, fun _ hs => absurd hs (Nat.succ_ne_zero _), fun _ _ => ⟨x, x1, x2, x3, x4, fun _ => x5, x6, x7⟩⟩
        have hr' : decide (s.seen = 0) = false := hr'
        show 2 ≤ s.seen + 1
        have := of_decide_eq_false hr'
        omega

theorem inv_run (k : Kind) (g : Sig) (up : Bool) (l : List Cmd) : Inv k g up (run k g up l) := by
  suffices ∀ s, Inv k g up s → Inv k g up (l.foldl (step k g up) s) from this _ (inv_init k g up)
  induction l with
  | nil => exact fun s h => h
  | cons c l ih =>
    intro s h
    refine ih _ ?_
    cases c
    · exact inv_call h
    · exact inv_cycle h

/-- the difference of two captures -/
theorem sub_mod (x y p w : Nat) (h : x = y + p) : (x % w + w - y % w) % w = p % w := by
  rcases Nat.eq_zero_or_pos w with rfl | hw
  · subst h; simp
  · have h1 := Nat.mod_lt y hw
    have h2 := Nat.div_add_mod y w
    subst h
    have h3 : (y + p) % w + w - y % w = (y + p) % w + (w - y % w) := by omega
    rw [h3, Nat.mod_add_mod]
    have : y + p + (w - y % w) = p + w * (y / w + 1) := by rw [Nat.mul_add]; omega
    rw [this, Nat.add_mul_mod_self_left]

/-- the driver's value for a period of P cycles -/
def tells (k : Kind) (P : Nat) : Out :=
  match k with
  | .emios F d => if F / d = 0 then .undef else .told (P % 2 ^ 24 * 1000000 % 2 ^ 32 / (F / d))
  | .tc f => if f / 1000000 = 0 then .undef else .told (((BitVec.ofNat 32 P).toInt.tdiv (f / 1000000 : Nat)) % 2 ^ 32).toNat

theorem value_of {k : Kind} {g : Sig} {up : Bool} (hg : g.ok) {s : St} (h : Inv k g up s) (ha : s.acq = true) (hs : ¬ s.seen < 2) : value k s.a s.b = tells k g.P := by
  obtain ⟨x, x1, x2, x3, x4, x5, x6, x7⟩ := h.one ha (by omega)
  obtain ⟨y, y1, y2, y3, y4, y5⟩ := x6 (by omega)
  have e := edge_next hg y3 x3 y2 y5
  cases k with
  | emios F d =>
    have hd : (s.a + 2 ^ 24 - s.b) % 2 ^ 24 = g.P % 2 ^ 24 := by
      rw [x4, y4]
      exact sub_mod (x - s.start) (y - s.start) g.P (2 ^ 24) (by omega)
    simp only [value, tells, hd]
  | tc f =>
    have hd : BitVec.ofNat 32 s.a - BitVec.ofNat 32 s.b = BitVec.ofNat 32 g.P := by
      apply BitVec.eq_of_toNat_eq
      simp only [BitVec.toNat_sub, BitVec.toNat_ofNat]
      have hd := sub_mod (x - s.start) (y - s.start) g.P (2 ^ 32) (by omega)
      have hw : width (.tc f) = 32 := rfl
      rw [hw] at x4 y4
      rw [x4, y4, Nat.mod_mod, Nat.mod_mod, ← hd]
      congr 1
      have := Nat.mod_lt (y - s.start) (show 0 < 2 ^ 32 by decide)
      omega
    simp only [value, tells, hd]

/-- what the calls return -/
theorem outs_run {k : Kind} {g : Sig} {up : Bool} (hg : g.ok) (l : List Cmd) : ∀ o ∈ (run k g up l).outs, o = .again ∨ o = tells k g.P := by
  suffices ∀ s, Inv k g up s → (∀ o ∈ s.outs, o = .again ∨ o = tells k g.P) → ∀ o ∈ (l.foldl (step k g up) s).outs, o = .again ∨ o = tells k g.P from this _ (inv_init k g up) (by intro o ho; cases ho)
  induction l with
  | nil => exact fun s _ h => h
  | cons c l ih =>
    intro s h ho
    cases c with
    | cycle =>
      refine ih _ (inv_cycle h) ?_
      have : (cycle k g up s).outs = s.outs := by
        unfold cycle
        split
        · rfl
        · dsimp only
          split
          · rfl
          · cases k <;> rfl
      show ∀ o ∈ (cycle k g up s).outs, _
      rw [this]; exact ho
    | call =>
      refine ih _ (inv_call h) ?_
      show ∀ o ∈ (call k s).outs, _
      unfold call
      by_cases h1 : s.acq = false
      · rw [if_pos h1]
        intro o hm
        rcases List.mem_append.1 hm with hm | hm
        · exact ho o hm
        · exact Or.inl (List.mem_singleton.1 hm)
      · rw [if_neg h1]
        have ha : s.acq = true := by revert h1; cases s.acq <;> simp
        by_cases h2 : s.seen < 2
        · rw [if_pos h2]
          intro o hm
          rcases List.mem_append.1 hm with hm | hm
          · exact ho o hm
          · exact Or.inl (List.mem_singleton.1 hm)
        · rw [if_neg h2]
          intro o hm
          rcases List.mem_append.1 hm with hm | hm
          · exact ho o hm
          · right
            rw [List.mem_singleton.1 hm, value_of hg h ha h2]

/-- floor of a floor -/
theorem right_floor {F d m P : Nat} (hd : 0 < d) (hF : F = d * m) (hm : 0 < m) : (P * 1000000 / m) * F ≤ P * d * 1000000 ∧ P * d * 1000000 < (P * 1000000 / m + 1) * F := by
  have h1 := Nat.div_add_mod (P * 1000000) m
  have h2 := Nat.mod_lt (P * 1000000) hm
  generalize P * 1000000 / m = v at *
  generalize hr : P * 1000000 % m = r at *
  have h3 : P * d * 1000000 = d * (P * 1000000) := by ring
  rw [hF, h3, ← h1]
  constructor
  · calc v * (d * m) = d * (m * v) := by ring
      _ ≤ d * (m * v + r) := Nat.mul_le_mul_left _ (by omega)
  · calc d * (m * v + r) < d * (m * v + m) := Nat.mul_lt_mul_of_pos_left (by omega) hd
      _ = (v + 1) * (d * m) := by ring

/-- C102, nxp_emios: whenever the calls are made, every period told is the period of the signal in microseconds, rounded down, if the clock divides evenly and the period is under 4295 cycles of the counter -/
theorem emios_period_partial {F d : Nat} {g : Sig} {up : Bool} (hg : g.ok) (hd : 0 < d) (hF : F % d = 0) (hF0 : 0 < F) (hP : g.P * 1000000 < 2 ^ 32) (l : List Cmd) :
    ∀ o ∈ (run (.emios F d) g up l).outs, o = .again ∨ ∃ v, o = .told v ∧ Right (.emios F d) g.P v := by
  intro o ho
  rcases outs_run hg l o ho with h | h
  · exact Or.inl h
  · right
    have e : F = d * (F / d) := by have := Nat.div_add_mod F d; omega
    have hm : 0 < F / d := by
      rcases Nat.eq_zero_or_pos (F / d) with h0 | h0
      · rw [h0] at e; omega
      · exact h0
    refine ⟨g.P * 1000000 / (F / d), ?_, right_floor hd e hm⟩
    rw [h]
    simp only [tells]
    rw [if_neg (by omega), Nat.mod_eq_of_lt (show g.P < 2 ^ 24 by omega), Nat.mod_eq_of_lt hP]

/-- C102, sam3x_tc: likewise if the clock is a whole number of MHz -/
theorem tc_period_partial {f : Nat} {g : Sig} {up : Bool} (hg : g.ok) (hf : f % 1000000 = 0) (hf0 : 0 < f) (hP : g.P < 2 ^ 31) (l : List Cmd) :
    ∀ o ∈ (run (.tc f) g up l).outs, o = .again ∨ ∃ v, o = .told v ∧ Right (.tc f) g.P v := by
  intro o ho
  rcases outs_run hg l o ho with h | h
  · exact Or.inl h
  · right
    have e : f = 1000000 * (f / 1000000) := by have := Nat.div_add_mod f 1000000; omega
    have hm : 0 < f / 1000000 := by omega
    have hv : g.P / (f / 1000000) ≤ g.P := Nat.div_le_self _ _
    refine ⟨g.P / (f / 1000000), ?_, ?_⟩
    · rw [h]
      simp only [tells]
      rw [if_neg (by omega)]
      congr 1
      have h1 : (BitVec.ofNat 32 g.P).toInt = (g.P : Int) := by
        rw [BitVec.toInt_eq_toNat_of_lt, BitVec.toNat_ofNat, Nat.mod_eq_of_lt (by omega)]
        rw [BitVec.toNat_ofNat, Nat.mod_eq_of_lt (by omega)]; omega
      rw [h1, ← Int.ofNat_tdiv]
      generalize g.P / (f / 1000000) = v at *
      omega
    · have h1 := Nat.div_add_mod g.P (f / 1000000)
      have h2 := Nat.mod_lt g.P hm
      show _ * f ≤ g.P * 1 * 1000000 ∧ g.P * 1 * 1000000 < (_ + 1) * f
      generalize hm' : f / 1000000 = m at *
      generalize g.P / m = v at *
      rw [e]
      have a : v * (1000000 * m) = 1000000 * (m * v) := by ring
      have b : (v + 1) * (1000000 * m) = 1000000 * (m * v + m) := by ring
      rw [a, b]
      omega

/-- C102: a period is told two periods after the measure began, at the latest -/
theorem period_answers {k : Kind} {g : Sig} {up : Bool} (hg : g.ok) (l : List Cmd) (ha : (run k g up l).acq = true) (ht : (run k g up l).start + 2 * g.P ≤ (run k g up l).t) :
    (run k g up (l ++ [.call])).outs = (run k g up l).outs ++ [tells k g.P] ∧ (run k g up (l ++ [.call])).acq = false := by
  have h := inv_run k g up l
  have e : run k g up (l ++ [.call]) = call k (run k g up l) := by unfold run; rw [List.foldl_append]; rfl
  rw [e]
  generalize run k g up l = s at *
  have h2 : ¬ s.seen < 2 := by
    intro hlt
    have hr : s.run = true := by
      rcases hrr : s.run with _ | _
      · have := h.run ha hrr; omega
      · rfl
    by_cases h0 : s.seen = 0
    · obtain ⟨z, z1, z2, z3⟩ := edge_in hg up s.start
      rw [h.zero ha h0 z z1 (by omega)] at z3; cases z3
    · obtain ⟨x, x1, x2, x3, x4, x5, x6, x7⟩ := h.one ha (by omega)
      obtain ⟨z, z1, z2, z3⟩ := edge_in hg up (x + 1)
      by_cases hx : x < s.start + g.P
      · rw [x5 hr z (by omega) (by omega)] at z3; cases z3
      · obtain ⟨z, z1, z2, z3⟩ := edge_in hg up s.start
        have h1 : s.seen = 1 := by clear x6; omega
        rw [x7 h1 z z1 (by clear x6; omega)] at z3; cases z3
  unfold call
  rw [if_neg (by rw [ha]; decide), if_neg h2]
  exact ⟨by show _ ++ [value k s.a s.b] = _; rw [value_of hg h ha h2], rfl⟩

/-! ### witnesses and refutations -/

/-- 100 cycles at 1 MHz: the measure gives 100 us -/
example : (run (.emios 1000000 1) ⟨100, 30, 7⟩ true (.call :: List.replicate 250 .cycle ++ [.call])).outs = [.again, .told 100] := by decide +kernel
example : (run (.tc 42000000) ⟨84, 30, 7⟩ true (.call :: List.replicate 250 .cycle ++ [.call])).outs = [.again, .told 2] := by decide +kernel

/-- C102 refuted, nxp_emios: at 80 MHz a signal of 100 us (8000 cycles) is told as 46 us: the product does not fit in unsigned long -/
theorem emios_period_wrong : tells (.emios 80000000 1) 8000 = .told 46 ∧ ¬ Right (.emios 80000000 1) 8000 46 ∧ Right (.emios 80000000 1) 8000 100 := by
  refine ⟨by decide +kernel, ?_, ?_⟩ <;> · unfold Right hz; decide

/-- C102 refuted, sam3x_tc: at 10.5 MHz (TIMER_CLOCK2 of 84 MHz) a signal of 1 ms (10500 cycles) is told as 1050 us; at 656250 Hz (TIMER_CLOCK4) the driver divides by zero -/
theorem tc_period_wrong : tells (.tc 10500000) 10500 = .told 1050 ∧ ¬ Right (.tc 10500000) 10500 1050 ∧ (∀ P, tells (.tc 656250) P = .undef) := by
  refine ⟨by decide +kernel, ?_, fun P => rfl⟩
  unfold Right hz; decide

end Pico.Ipwm
