import Verif.Drivers.IpwmProps
/-
C102: the duty cycle (nxp_emios, sam3x_tc) and the rp2040
-/
namespace Pico.Ipwm

/-! ### counting in a periodic sequence -/

def cnt (f : Nat → Bool) (s : Nat) : Nat → Nat
  | 0 => 0
  | n + 1 => cnt f s n + (if f (s + n) then 1 else 0)

theorem cnt_add (f : Nat → Bool) (s m n : Nat) : cnt f s (m + n) = cnt f s m + cnt f (s + m) n := by
  induction n with
  | zero => rfl
  | succ n ih => rw [← Nat.add_assoc, cnt, ih, cnt, Nat.add_assoc s m n, Nat.add_assoc]

theorem cnt_shift {f : Nat → Bool} {P : Nat} (hf : ∀ n, f (n + P) = f n) (s : Nat) : cnt f s P = cnt f 0 P := by
  induction s with
  | zero => rfl
  | succ s ih =>
    have h1 := cnt_add f s 1 P
    have h2 := cnt_add f s P 1
    rw [Nat.add_comm 1 P, h2, ih] at h1
    have e1 : cnt f (s + P) 1 = cnt f s 1 := by simp only [cnt, Nat.add_zero, hf]
    rw [e1] at h1
    omega

theorem cnt_mul {f : Nat → Bool} {P : Nat} (hf : ∀ n, f (n + P) = f n) (s k : Nat) : cnt f s (k * P) = k * cnt f 0 P := by
  induction k with
  | zero => simp [cnt]
  | succ k ih => rw [Nat.succ_mul, cnt_add, ih, cnt_shift hf (s + k * P), Nat.succ_mul]

theorem cnt_mono (f : Nat → Bool) (s : Nat) {m n : Nat} (h : m ≤ n) : cnt f s m ≤ cnt f s n := by
  obtain ⟨d, rfl⟩ := Nat.exists_eq_add_of_le h
  rw [cnt_add]; omega

theorem cnt_bounds {f : Nat → Bool} {P : Nat} (hP : 0 < P) (hf : ∀ n, f (n + P) = f n) (s n : Nat) : n / P * cnt f 0 P ≤ cnt f s n ∧ cnt f s n ≤ (n / P + 1) * cnt f 0 P := by
  have h1 := Nat.div_add_mod n P
  have h2 := Nat.mod_lt n hP
  rw [← cnt_mul hf s, ← cnt_mul hf s]
  refine ⟨cnt_mono f s ?_, cnt_mono f s ?_⟩
  · rw [Nat.mul_comm]; omega
  · rw [Nat.add_mul, Nat.mul_comm]; omega

theorem edges_eq (g : Sig) (up : Bool) (s n : Nat) : g.edges up s n = cnt (g.edge up) s n := by
  induction n with
  | zero => rfl
  | succ n ih => rw [Sig.edges, ih, cnt]
theorem highs_eq (g : Sig) (s n : Nat) : g.highs s n = cnt g.level s n := by
  induction n with
  | zero => rfl
  | succ n ih => rw [Sig.highs, ih, cnt]

theorem level_period (g : Sig) (n : Nat) : g.level (n + g.P) = g.level n := by
  unfold Sig.level
  rw [show n + g.P + (g.P - g.e) = n + (g.P - g.e) + g.P by omega, Nat.add_mod_right]
theorem edge_period {g : Sig} (h : g.ok) (up : Bool) (n : Nat) : g.edge up (n + g.P) = g.edge up n := by
  have := edge_iff h up (n + g.P)
  rw [Nat.add_mod_right, ← edge_iff h up n] at this
  exact Bool.eq_iff_iff.2 this

theorem highs_period {g : Sig} (h : g.ok) : cnt g.level 0 g.P = g.H := by
  have h2 := h.2.1
  have h3 := h.2.2
  rw [← cnt_shift (level_period g) g.e]
  have key : ∀ n, n ≤ g.P → cnt g.level g.e n = min n g.H := by
    intro n
    induction n with
    | zero => intro _; rw [Nat.zero_min]; rfl
    | succ n ih =>
      intro hn
      have e : (g.e + n + (g.P - g.e)) % g.P = n := by
        rw [show g.e + n + (g.P - g.e) = n + g.P by omega, Nat.add_mod_right, Nat.mod_eq_of_lt (by omega)]
      have hl : g.level (g.e + n) = decide (n < g.H) := by unfold Sig.level; rw [e]
      rw [cnt, ih (by omega), hl]
      by_cases hc : n < g.H
      · rw [if_pos (by rw [decide_eq_true hc])]; omega
      · rw [if_neg (by rw [decide_eq_false hc]; decide)]; omega
  rw [key _ (Nat.le_refl _)]
  omega

theorem edges_period {g : Sig} (h : g.ok) (up : Bool) : cnt (g.edge up) 0 g.P = 1 := by
  rw [← cnt_shift (edge_period h up) (g.at up)]
  have ha := at_lt h up
  have key : ∀ n, n ≤ g.P → cnt (g.edge up) (g.at up) n = min n 1 := by
    intro n
    induction n with
    | zero => intro _; rfl
    | succ n ih =>
      intro hn
      rw [cnt, ih (by omega)]
      by_cases h0 : n = 0
      · subst h0
        rw [if_pos ((edge_iff h up _).2 (by rw [Nat.add_zero, Nat.mod_eq_of_lt ha]))]
        rfl
      · have hne : ¬ g.edge up (g.at up + n) = true := by
          intro hc
          have hc := (edge_iff h up _).1 hc
          by_cases hl : g.at up + n < g.P
          · rw [Nat.mod_eq_of_lt hl] at hc; omega
          · rw [show g.at up + n = (g.at up + n - g.P) + g.P by omega, Nat.add_mod_right, Nat.mod_eq_of_lt (by omega)] at hc; omega
        rw [if_neg hne]; omega
  rw [key _ (Nat.le_refl _)]
  have := h.1; have := h.2.1
  omega

theorem highs_mul {g : Sig} (h : g.ok) (s k : Nat) : g.highs s (k * g.P) = k * g.H := by rw [highs_eq, cnt_mul (level_period g), highs_period h]
theorem edges_bounds {g : Sig} (h : g.ok) (up : Bool) (s n : Nat) : n / g.P ≤ g.edges up s n ∧ g.edges up s n ≤ n / g.P + 1 := by
  have hP : 0 < g.P := by have := h.1; have := h.2.1; omega
  have := cnt_bounds hP (edge_period h up) s n
  rw [edges_period h up, Nat.mul_one, Nat.mul_one, ← edges_eq] at this
  exact this

/-! ### nxp_emios -/

/-- C102, nxp_emios: if the window (one tick) is a whole number of periods and is at most 65537 cycles, the duty cycle told is that of the signal, of 65535, rounded down -/
theorem emios_duty_partial {F d T s t : Nat} {g : Sig} (hg : g.ok) (q : Nat) (hq : 0 < q) (hb : F / d / T = q * g.P) (hs : F / d / T * 65535 < 2 ^ 32) (ht : s + F / d / T ≤ t) :
    emiosDuty F d T g s t = .told (g.H * 65535 / g.P) := by
  have hP : 0 < g.P := by have := hg.1; have := hg.2.1; omega
  have hH := hg.2.1
  unfold emiosDuty
  dsimp only
  rw [if_neg (by omega), hb]
  have hqp : 0 < q * g.P := Nat.mul_pos hq hP
  rw [if_neg (by omega), highs_mul hg]
  rw [hb] at hs
  have h1 : q * g.H * 65535 ≤ q * g.P * 65535 := Nat.mul_le_mul_right _ (Nat.mul_le_mul_left _ (by omega))
  rw [Nat.mod_eq_of_lt (Nat.lt_of_le_of_lt h1 hs), Nat.mul_assoc q g.H, Nat.mul_div_mul_left _ _ hq]
  have h2 : g.H * 65535 / g.P < 65536 := by
    rw [Nat.div_lt_iff_lt_mul hP]
    exact Nat.lt_of_le_of_lt (Nat.mul_le_mul_right _ (Nat.le_of_lt hH)) (by rw [Nat.mul_comm]; exact Nat.mul_lt_mul_of_pos_right (by decide) hP)
  rw [Nat.mod_eq_of_lt h2]

/-- before the end of the window nothing is told -/
theorem emios_duty_waits {F d T s t : Nat} {g : Sig} (ht : t < s + F / d / T) : emiosDuty F d T g s t = .again := by
  unfold emiosDuty; dsimp only; rw [if_pos ht]

/-- C102 refuted, nxp_emios: at 80 MHz and 1000 ticks a second a duty cycle of 90 % is told as 8 %: the product does not fit in 32 bits -/
theorem emios_duty_wrong : emiosDuty 80000000 1 1000 ⟨100, 90, 0⟩ 0 80000 = .told 5294 ∧ 90 * 65535 / 100 = 58981 := by
  refine ⟨?_, by decide⟩
  have h := highs_mul (g := ⟨100, 90, 0⟩) ⟨by decide, by decide, by decide⟩ 0 800
  unfold emiosDuty
  have h : (⟨100, 90, 0⟩ : Sig).highs 0 80000 = 72000 := h
  rw [show (80000000 / 1 / 1000 : Nat) = 80000 by decide]
  simp [h]

example : emiosDuty 8000000 1 1000 ⟨100, 90, 3⟩ 17 8017 = .told 58981 := emios_duty_partial ⟨by decide, by decide, by decide⟩ 80 (by decide) (by decide) (by decide) (by decide)

/-! ### sam3x_tc -/

/-- the time from an edge `up` to the other one -/
def Sig.on (g : Sig) (up : Bool) : Nat := if up then g.H else g.P - g.H

theorem other_edge {g : Sig} (h : g.ok) {up : Bool} {x : Nat} (hx : g.edge up x = true) :
    g.edge (!up) (x + g.on up) = true ∧ (∀ i, i < g.on up → g.edge (!up) (x + i) = false) ∧ 0 < g.on up ∧ g.on up < g.P ∧ (∀ i, 0 < i → i < g.P → g.edge up (x + i) = false) ∧ g.edge up (x + g.P) = true := by
  obtain ⟨P, H, e⟩ := g
  have hx := (edge_iff h up x).1 hx
  have e1 := Nat.div_add_mod x P
  have key : ∀ r, r < P → ∀ m, (P * m + r) % P = r := fun r hr m => by rw [Nat.mul_add_mod, Nat.mod_eq_of_lt hr]
  have l3 : (e + H) % P = if e + H < P then e + H else e + H - P := by
    have := h.1; have := h.2.1; have := h.2.2
    simp only at *
    split
    · exact Nat.mod_eq_of_lt (by omega)
    · have := key (e + H - P) (by omega) 1
      rw [show P * 1 + (e + H - P) = e + H by omega] at this; exact this
  have h1 := h.1; have h2 := h.2.1; have h3 := h.2.2
  simp only at h1 h2 h3 hx e1
  have res : ∀ i, i < P → (x + i) % P = if x % P + i < P then x % P + i else x % P + i - P := by
    intro i hi
    have hr := Nat.mod_lt x (show 0 < P by omega)
    split
    · rw [show x + i = P * (x / P) + (x % P + i) by omega]; exact key _ (by omega) _
    · rw [show x + i = P * (x / P + 1) + (x % P + i - P) by rw [Nat.mul_add]; omega]; exact key _ (by omega) _
  have ff : ∀ (u : Bool) (n : Nat), (⟨P, H, e⟩ : Sig).edge u n = false ↔ ¬ n % P = (⟨P, H, e⟩ : Sig).at u := by
    intro u n
    rw [← edge_iff h u n]
    simp only [Bool.not_eq_true]
  have hon : (⟨P, H, e⟩ : Sig).on up < P := by cases up <;> simp only [Sig.on] <;> simp <;> omega
  refine ⟨(edge_iff h _ _).2 ?_, fun i hi => (ff _ _).2 ?_, ?_, hon, fun i hi hi' => (ff _ _).2 ?_, (edge_iff h _ _).2 ?_⟩
  · show (x + _) % P = _
    rw [res _ hon, hx]
    cases up <;> simp only [Sig.on, Sig.at, Bool.not_false, Bool.not_true, if_true, Bool.false_eq_true, if_false] at hx ⊢ <;> simp only [l3] <;> split <;> (try split) <;> omega
  · rw [res i (by omega), hx]
    cases up <;> simp only [Sig.on, Sig.at, Bool.not_false, Bool.not_true, if_true, Bool.false_eq_true, if_false] at hx hi ⊢ <;> simp only [l3] <;> split <;> (try split) <;> omega
  · cases up <;> simp only [Sig.on] <;> simp <;> omega
  · have hi' : i < P := hi'
    rw [res i hi', ← hx]
    have hr := Nat.mod_lt x (show 0 < P by omega)
    split <;> omega
  · show (x + P) % P = _
    rw [Nat.add_mod_right]; exact hx

def Tc.cyc (rc : Nat) (g : Sig) (up : Bool) : Nat → Tc → Tc
  | 0, s => s
  | n + 1, s => Tc.cyc rc g up n (s.cycle rc g up)

theorem cyc_add (rc : Nat) (g : Sig) (up : Bool) (m n : Nat) : ∀ s, Tc.cyc rc g up (m + n) s = Tc.cyc rc g up n (Tc.cyc rc g up m s) := by
  induction m with
  | zero => intro s; rw [Nat.zero_add]; rfl
  | succ m ih => intro s; rw [Nat.succ_add]; exact ih _

theorem cyc_one (rc : Nat) (g : Sig) (up : Bool) (s : Tc) : Tc.cyc rc g up 1 s = s.cycle rc g up := rfl

/-- cycles without edges -/
theorem cyc_quiet {rc : Nat} {g : Sig} {up : Bool} : ∀ (n : Nat) (s : Tc), s.run = true → (∀ i, i < n → g.edge up (s.t + i) = false) → (s.la = true ∨ ∀ i, i < n → g.edge (!up) (s.t + i) = false) → s.cnt + n ≤ rc →
    Tc.cyc rc g up n s = { s with t := s.t + n, cnt := s.cnt + n } := by
  intro n
  induction n with
  | zero => intro s _ _ _ _; rfl
  | succ n ih =>
    intro s hr h1 h2 hc
    have e : s.cycle rc g up = { s with t := s.t + 1, cnt := s.cnt + 1 } := by
      unfold Tc.cycle
      rw [if_neg (by rw [hr]; decide), if_neg (by have := h1 0 (by omega); rw [Nat.add_zero] at this; rw [this]; decide), if_neg, if_neg (by omega)]
      rcases h2 with h2 | h2
      · rw [h2]; simp
      · have := h2 0 (by omega); rw [Nat.add_zero] at this; rw [this]; simp
    show Tc.cyc rc g up n (s.cycle rc g up) = _
    have q := ih { s with t := s.t + 1, cnt := s.cnt + 1 } hr (fun i hi => by have := h1 (i + 1) (by omega); show g.edge up (s.t + 1 + i) = false; rw [show s.t + 1 + i = s.t + (i + 1) by omega]; exact this) (h2.imp id fun h2 i hi => by have := h2 (i + 1) (by omega); show g.edge (!up) (s.t + 1 + i) = false; rw [show s.t + 1 + i = s.t + (i + 1) by omega]; exact this) (by show s.cnt + 1 + n ≤ rc; omega)
    rw [e, q]
    show Tc.mk _ _ _ _ _ _ _ _ _ _ = Tc.mk _ _ _ _ _ _ _ _ _ _
    congr 1
    · show s.t + 1 + n = s.t + (n + 1); omega
    · show s.cnt + 1 + n = s.cnt + (n + 1); omega

theorem cyc_stopped {rc : Nat} {g : Sig} {up : Bool} : ∀ (n : Nat) (s : Tc), s.run = false → Tc.cyc rc g up n s = { s with t := s.t + n } := by
  intro n
  induction n with
  | zero => intro s _; rfl
  | succ n ih =>
    intro s hr
    have e : s.cycle rc g up = { s with t := s.t + 1 } := by unfold Tc.cycle; rw [if_pos hr]
    show Tc.cyc rc g up n (s.cycle rc g up) = _
    have q := ih { s with t := s.t + 1 } hr
    rw [e, q]
    show Tc.mk _ _ _ _ _ _ _ _ _ _ = Tc.mk _ _ _ _ _ _ _ _ _ _
    congr 1
    show s.t + 1 + n = s.t + (n + 1); omega

/-- C102, sam3x_tc: a measure begun w cycles before an edge `up`, with no other edge in between, whose end is asked after that and a whole period (and a period shorter than the timeout of a tick), tells H * (65535 / P): right if P divides 65535 -/
theorem tc_duty_partial {rc : Nat} {g : Sig} {up : Bool} (hg : g.ok) (s : Tc) (hi : s.acq = false) (hf : s.ldras = false ∧ s.cpcs = false) (w n : Nat) (hx : g.edge up (s.t + w) = true)
    (hw : ∀ i, i < w → g.edge up (s.t + i) = false ∧ g.edge (!up) (s.t + i) = false) (hrc : w ≤ rc) (hrc' : g.P < rc) (hn : w + g.P < n) :
    ((Tc.cyc rc g up n (s.call g up)).call g up).outs = s.outs ++ [.again, .told (g.on up * (65535 / g.P) % 2 ^ 16)] := by
  obtain ⟨o1, o2, o3, o4, o5, o6⟩ := other_edge hg hx
  have e0 : s.call g up = { s with acq := true, run := true, cnt := 0, la := false, outs := s.outs ++ [.again] } := by unfold Tc.call; rw [if_pos hi]
  rw [e0]
  -- to the edge
  obtain ⟨m, rfl⟩ := Nat.exists_eq_add_of_lt hn
  rw [show w + g.P + m + 1 = w + (1 + (g.on up - 1 + (1 + (g.P - g.on up - 1 + (1 + m))))) by omega, cyc_add]
  have q0 : Tc.cyc rc g up w { s with acq := true, run := true, cnt := 0, la := false, outs := s.outs ++ [.again] } = { s with acq := true, run := true, t := s.t + w, cnt := 0 + w, la := false, outs := s.outs ++ [.again] } :=
    cyc_quiet w _ rfl (fun i h => (hw i h).1) (Or.inr fun i h => (hw i h).2) (by show 0 + w ≤ rc; omega)
  rw [q0, cyc_add]
  have e1 : Tc.cyc rc g up 1 { s with acq := true, run := true, t := s.t + w, cnt := 0 + w, la := false, outs := s.outs ++ [.again] } = { s with acq := true, run := true, t := s.t + w + 1, cnt := 1, la := false, outs := s.outs ++ [.again] } := by
    rw [cyc_one]
    unfold Tc.cycle
    rw [if_neg (show ¬ true = false by decide), if_pos hx]
    rfl
  rw [e1, cyc_add]
  have q1 : Tc.cyc rc g up (g.on up - 1) { s with acq := true, run := true, t := s.t + w + 1, cnt := 1, la := false, outs := s.outs ++ [.again] } = { s with acq := true, run := true, t := s.t + w + 1 + (g.on up - 1), cnt := 1 + (g.on up - 1), la := false, outs := s.outs ++ [.again] } :=
    cyc_quiet (g.on up - 1) _ rfl (fun i h => by show g.edge up (s.t + w + 1 + i) = false; rw [show s.t + w + 1 + i = s.t + w + (i + 1) by omega]; exact o5 (i + 1) (by omega) (by omega))
      (Or.inr fun i h => by show g.edge (!up) (s.t + w + 1 + i) = false; rw [show s.t + w + 1 + i = s.t + w + (i + 1) by omega]; exact o2 (i + 1) (by omega)) (by show 1 + (g.on up - 1) ≤ rc; omega)
  rw [q1, cyc_add]
  have t2 : s.t + w + 1 + (g.on up - 1) = s.t + w + g.on up := by omega
  have c2 : 1 + (g.on up - 1) = g.on up := by omega
  have e2 : Tc.cyc rc g up 1 { s with acq := true, run := true, t := s.t + w + 1 + (g.on up - 1), cnt := 1 + (g.on up - 1), la := false, outs := s.outs ++ [.again] } = { s with acq := true, run := true, t := s.t + w + g.on up + 1, cnt := g.on up + 1, ra := g.on up, la := true, ldras := true, outs := s.outs ++ [.again] } := by
    rw [cyc_one]
    rw [t2, c2]
    unfold Tc.cycle
    rw [if_neg (show ¬ true = false by decide), if_neg (by show ¬ g.edge up (s.t + w + g.on up) = true; rw [o5 _ o3 o4]; decide), if_pos (by show (g.edge (!up) (s.t + w + g.on up) && !false) = true; rw [o1]; rfl)]
  rw [e2, cyc_add]
  have q2 : Tc.cyc rc g up (g.P - g.on up - 1) { s with acq := true, run := true, t := s.t + w + g.on up + 1, cnt := g.on up + 1, ra := g.on up, la := true, ldras := true, outs := s.outs ++ [.again] } = { s with acq := true, run := true, t := s.t + w + g.on up + 1 + (g.P - g.on up - 1), cnt := g.on up + 1 + (g.P - g.on up - 1), ra := g.on up, la := true, ldras := true, outs := s.outs ++ [.again] } :=
    cyc_quiet (g.P - g.on up - 1) _ rfl (fun i h => by show g.edge up (s.t + w + g.on up + 1 + i) = false; rw [show s.t + w + g.on up + 1 + i = s.t + w + (g.on up + 1 + i) by omega]; exact o5 _ (by omega) (by omega)) (Or.inl rfl) (by show g.on up + 1 + (g.P - g.on up - 1) ≤ rc; omega)
  rw [q2, cyc_add]
  have t3 : s.t + w + g.on up + 1 + (g.P - g.on up - 1) = s.t + w + g.P := by omega
  have c3 : g.on up + 1 + (g.P - g.on up - 1) = g.P := by omega
  have e3 : Tc.cyc rc g up 1 { s with acq := true, run := true, t := s.t + w + g.on up + 1 + (g.P - g.on up - 1), cnt := g.on up + 1 + (g.P - g.on up - 1), ra := g.on up, la := true, ldras := true, outs := s.outs ++ [.again] } = { s with acq := true, run := false, t := s.t + w + g.P + 1, cnt := 1, ra := g.on up, rb := g.P, la := false, ldras := true, outs := s.outs ++ [.again] } := by
    rw [cyc_one]
    rw [t3, c3]
    unfold Tc.cycle
    rw [if_neg (show ¬ true = false by decide), if_pos o6]
    rfl
  rw [e3, cyc_stopped _ _ rfl]
  unfold Tc.call
  rw [if_neg (show ¬ true = false by decide), if_pos (by show (s.cpcs || true) = true; rw [Bool.or_true])]
  show (s.outs ++ [.again]) ++ [tcValue _ _ _] = _
  rw [List.append_assoc]
  congr 2
  unfold tcValue
  rw [if_neg (by show ¬ s.cpcs = true; rw [hf.2]; decide), if_neg (show ¬ g.P = 0 by omega)]
  rfl

/-- C102 refuted, sam3x_tc: (1) asked between the two edges of the first measure, the driver divides by RB = 0; (2) begun while the signal is high, a signal of 50 % is told as about 17 %;
(3) 90 % of a period of 40000 cycles is told as 55 %; (4) with a period above 65535 cycles every duty cycle is told as 0 -/
theorem tc_duty_wrong :
    (Tc.run' 42000 ⟨100, 50, 10⟩ true (.call :: List.replicate 70 .cycle ++ [.call])).outs = [.again, .undef] ∧
    (Tc.run' 42000 ⟨100, 50, 60⟩ true (.call :: List.replicate 100 .cycle ++ [.call])).outs = [.again, .told 10920] ∧
    (∀ g up s, s.cpcs = false → s.ra = 36000 → s.rb = 40000 → tcValue g up s = .told 36000) ∧ 90 * 65535 / 100 = 58981 ∧
    (∀ g up s, s.cpcs = false → 65535 < s.rb → tcValue g up s = .told 0) := by
  refine ⟨by decide +kernel, by decide +kernel, ?_, by decide, ?_⟩
  · intro g up s h1 h2 h3
    unfold tcValue
    rw [if_neg (by rw [h1]; decide), h2, h3]; rfl
  · intro g up s h1 h2
    unfold tcValue
    rw [if_neg (by rw [h1]; decide), if_neg (by omega), Nat.div_eq_of_lt h2]; rfl

/-- 3 / 15 with the period 15: exact -/
example : (Tc.run' 42000 ⟨15, 3, 4⟩ true (.call :: List.replicate 40 .cycle ++ [.call])).outs = [.again, .told 13107] := by decide +kernel

/-! ### rp2040 -/

theorem div_bounds (a L : Nat) (h : 0 < L) : a / L * L ≤ a ∧ a < (a / L + 1) * L := by
  have h1 := Nat.div_add_mod a L
  have h2 := Nat.mod_lt a h
  rw [Nat.add_mul, Nat.mul_comm (a / L)]
  omega

/-- C102, rp2040: a period v told after E ticks of L cycles, of u microseconds, with N edges counted, is the period P * u / L of the signal but for the factors E / (E - 1), (N + div) / N above, and E / (E + 1), (N - 1) / N below (v rounded down), if the counters do not overflow -/
theorem rp_period_partial {c : Rp} {g : Sig} (hg : g.ok) (hd : 0 < c.div) (hL : 0 < c.F / c.T) {s n v : Nat} (ho : g.edges c.up s n < 2 ^ 16) (he : (c.tick (s + n) - c.tick s) * (1000000 / c.T) < 2 ^ 32) (h : c.period g s n = .told v) :
    ∃ E N, E = c.tick (s + n) - c.tick s ∧ 0 < E ∧ 2 ≤ N ∧ N ≤ g.edges c.up s n ∧ v = E * (1000000 / c.T) / N ∧
      v * N * (E - 1) * (c.F / c.T) ≤ E * (1000000 / c.T) * (N + c.div) * g.P ∧ E * (1000000 / c.T) * (N - 1) * g.P ≤ (v + 1) * N * (E + 1) * (c.F / c.T) := by
  have hP : 0 < g.P := by have := hg.1; have := hg.2.1; omega
  unfold Rp.period at h
  dsimp only at h
  by_cases h0 : c.tick (s + n) - c.tick s = 0
  · rw [if_pos h0] at h; cases h
  rw [if_neg h0] at h
  have hdd := div_bounds (g.edges c.up s n) c.div hd
  have hle : g.edges c.up s n / c.div ≤ g.edges c.up s n := Nat.div_le_self _ _
  have hN : g.edges c.up s n / c.div % 2 ^ 16 * c.div % 2 ^ 32 = g.edges c.up s n / c.div * c.div := by
    rw [Nat.mod_eq_of_lt (show _ < 2 ^ 16 by omega), Nat.mod_eq_of_lt (by omega)]
  rw [hN] at h
  by_cases h2 : g.edges c.up s n / c.div * c.div < 2
  · rw [if_pos h2] at h; cases h
  rw [if_neg h2, Nat.mod_eq_of_lt he] at h
  have hv : (c.tick (s + n) - c.tick s) * (1000000 / c.T) / (g.edges c.up s n / c.div * c.div) = v := by injection h
  have hb := edges_bounds hg c.up s n
  have b1 := div_bounds n g.P hP
  have b2 := div_bounds s (c.F / c.T) hL
  have b3 := div_bounds (s + n) (c.F / c.T) hL
  have hE : (c.tick (s + n) - c.tick s) = (s + n) / (c.F / c.T) - s / (c.F / c.T) := rfl
  refine ⟨_, _, rfl, by omega, by omega, hdd.1, hv.symm, ?_, ?_⟩
  all_goals
    generalize hEE : c.tick (s + n) - c.tick s = E at *
    generalize hNN : g.edges c.up s n / c.div * c.div = N at *
    generalize hUU : 1000000 / c.T = u at *
    generalize c.F / c.T = L at *
    generalize g.edges c.up s n = X at *
    have v1 := Nat.div_add_mod (E * u) N
    have v2 := Nat.mod_lt (E * u) (show 0 < N by omega)
    rw [hv] at v1
    have x1 : N ≤ X := hdd.1
    have x2 : X < N + c.div := by rw [Nat.add_mul, hNN] at hdd; omega
    generalize hA : (s + n) / L = A at *
    generalize hB : s / L = B at *
  · -- (E - 1) * L ≤ n ≤ (N + div) * P
    have hEA : A = B + E := by omega
    subst hEA
    have y1 : (E - 1) * L ≤ n := by
      obtain ⟨E', rfl⟩ : ∃ E', E = E' + 1 := ⟨E - 1, by omega⟩
      rw [Nat.add_sub_cancel]
      have : (B + (E' + 1)) * L = B * L + E' * L + L := by ring
      have : (B + 1) * L = B * L + L := by ring
      omega
    have y2 : n ≤ (N + c.div) * g.P := by
      have : (n / g.P + 1) * g.P ≤ (N + c.div) * g.P := Nat.mul_le_mul_right _ (by omega)
      omega
    have y3 : v * N ≤ E * u := by rw [Nat.mul_comm]; omega
    calc v * N * (E - 1) * L = (v * N) * ((E - 1) * L) := by ring
      _ ≤ (E * u) * ((N + c.div) * g.P) := Nat.mul_le_mul y3 (by omega)
      _ = E * u * (N + c.div) * g.P := by ring
  · have hEA : A = B + E := by omega
    subst hEA
    have y1 : n ≤ (E + 1) * L := by
      have : (B + E + 1) * L = B * L + (E + 1) * L := by ring
      omega
    have y2 : (N - 1) * g.P ≤ n := by
      have : (N - 1) * g.P ≤ n / g.P * g.P := Nat.mul_le_mul_right _ (by omega)
      omega
    have y3 : E * u ≤ (v + 1) * N := by rw [Nat.add_mul, Nat.mul_comm v]; omega
    calc E * u * (N - 1) * g.P = (E * u) * ((N - 1) * g.P) := by ring
      _ ≤ ((v + 1) * N) * ((E + 1) * L) := Nat.mul_le_mul y3 (by omega)
      _ = (v + 1) * N * (E + 1) * L := by ring

/-- C102 refuted, rp2040: the driver answers from the first tick on, so a signal of 100 us is told as 50 us or as 500 us, by the times of the calls (1 MHz, 1000 ticks a second) -/
theorem rp_period_wrong : (⟨1000000, 1000, 1, true⟩ : Rp).period ⟨100, 50, 60⟩ 1 1998 = .told 50 ∧ (⟨1000000, 1000, 1, true⟩ : Rp).period ⟨100, 50, 60⟩ 800 200 = .told 500 := by decide +kernel

/-- an exact measure -/
example : (⟨1000000, 1000, 1, true⟩ : Rp).period ⟨100, 50, 60⟩ 0 3000 = .told 100 := by decide +kernel

/-- C102, rp2040: if the calls are exactly E ticks apart, that is k periods, the divider divides the cycles of a tick, and the counters do not overflow, the duty cycle v told is that of the signal within 1 + 65535 / (cycles counted) -/
theorem rp_duty_partial {c : Rp} {g : Sig} (hg : g.ok) (hu : c.up = true) {M E k : Nat} (hT : 0 < c.T) (hd : 0 < c.div) (hM : 0 < M) (hF : c.F = c.T * (c.div * M)) (hE : 0 < E) {s n : Nat} (hn : n = E * (c.div * M)) (hk : n = k * g.P)
    (ho : M * E < 2 ^ 16) (ho' : c.T * M * E < 2 ^ 32) :
    ∃ v, c.duty g s n = .told v ∧ v * g.P ≤ g.H * 65535 ∧ g.H * 65535 * (M * E) < (v * (M * E) + M * E + 65535) * g.P := by
  have hP : 0 < g.P := by have := hg.1; have := hg.2.1; omega
  have hH := hg.2.1
  have hL : c.F / c.T = c.div * M := by rw [hF]; exact Nat.mul_div_cancel_left _ hT
  have hLp : 0 < c.div * M := Nat.mul_pos hd hM
  have he : c.tick (s + n) - c.tick s = E := by
    unfold Rp.tick
    rw [hL, hn, Nat.add_mul_div_right _ _ hLp]; omega
  have hdiv : c.F / c.div = c.T * M := by
    rw [hF, show c.T * (c.div * M) = c.div * (c.T * M) by ring]; exact Nat.mul_div_cancel_left _ hd
  have hm : c.F / c.div * E % 2 ^ 32 / c.T = M * E := by
    rw [hdiv, Nat.mod_eq_of_lt ho', Nat.mul_assoc]; exact Nat.mul_div_cancel_left _ hT
  have hME : 0 < M * E := Nat.mul_pos hM hE
  have hh : g.highs s n = k * g.H := by rw [hk]; exact highs_mul hg s k
  have b1 := div_bounds (k * g.H) c.div hd
  have hkk : k * g.P = c.div * (M * E) := by rw [← hk, hn]; ring
  generalize hq : k * g.H / c.div = q at *
  have hqd : q * c.div * g.P ≤ c.div * (M * E) * g.H := by
    calc q * c.div * g.P ≤ k * g.H * g.P := Nat.mul_le_mul_right _ b1.1
      _ = (k * g.P) * g.H := by ring
      _ = _ := by rw [hkk]
  have hqP : q * g.P ≤ M * E * g.H := by
    have : c.div * (q * g.P) ≤ c.div * (M * E * g.H) := by
      calc c.div * (q * g.P) = q * c.div * g.P := by ring
        _ ≤ _ := hqd
        _ = _ := by ring
    exact Nat.le_of_mul_le_mul_left this hd
  have hqlt : q < M * E := by
    have : q * g.P < M * E * g.P := Nat.lt_of_le_of_lt hqP (Nat.mul_lt_mul_of_pos_left hH hME)
    exact Nat.lt_of_mul_lt_mul_right this
  have hqP' : M * E * g.H < (q + 1) * g.P := by
    have : c.div * (M * E * g.H) < c.div * ((q + 1) * g.P) := by
      calc c.div * (M * E * g.H) = (k * g.P) * g.H := by rw [hkk]; ring
        _ = (k * g.H) * g.P := by ring
        _ < ((q + 1) * c.div) * g.P := Nat.mul_lt_mul_of_pos_right b1.2 hP
        _ = _ := by ring
    exact Nat.lt_of_mul_lt_mul_left this
  have v1 := div_bounds (q * 65535) (M * E) hME
  have hvlt : q * 65535 / (M * E) < 2 ^ 16 := by
    rw [Nat.div_lt_iff_lt_mul hME]
    calc q * 65535 ≤ (M * E) * 65535 := Nat.mul_le_mul_right _ (by omega)
      _ < 2 ^ 16 * (M * E) := by omega
  refine ⟨q * 65535 / (M * E), ?_, ?_, ?_⟩
  · unfold Rp.duty
    dsimp only
    rw [he, if_neg (by omega), hm, if_neg (by omega), hh, hq, Nat.mod_eq_of_lt (show q < 2 ^ 16 by omega), Nat.mod_eq_of_lt hvlt, if_pos hu]
  · generalize q * 65535 / (M * E) = v at *
    have : (M * E) * (v * g.P) ≤ (M * E) * (g.H * 65535) := by
      calc (M * E) * (v * g.P) = v * (M * E) * g.P := by ring
        _ ≤ q * 65535 * g.P := Nat.mul_le_mul_right _ v1.1
        _ = (q * g.P) * 65535 := by ring
        _ ≤ (M * E * g.H) * 65535 := Nat.mul_le_mul_right _ hqP
        _ = _ := by ring
    exact Nat.le_of_mul_le_mul_left this hME
  · generalize q * 65535 / (M * E) = v at *
    calc g.H * 65535 * (M * E) = (M * E * g.H) * 65535 := by ring
      _ < ((q + 1) * g.P) * 65535 := Nat.mul_lt_mul_of_pos_right hqP' (by decide)
      _ = (q * 65535 + 65535) * g.P := by ring
      _ ≤ ((v + 1) * (M * E) + 65535) * g.P := Nat.mul_le_mul_right _ (by omega)
      _ = (v * (M * E) + M * E + 65535) * g.P := by ring

/-- C102 refuted, rp2040: with the divider 1 of the init, at 125 MHz and 1000 ticks a second, the counter of 16 bits overflows in a tick: 90 % is told as 37 % -/
theorem rp_duty_wrong : (⟨125000000, 1000, 1, true⟩ : Rp).duty ⟨100, 90, 0⟩ 0 125000 = .told 24622 ∧ 90 * 65535 / 100 = 58981 := by
  refine ⟨?_, by decide⟩
  have h := highs_mul (g := ⟨100, 90, 0⟩) ⟨by decide, by decide, by decide⟩ 0 1250
  have h : (⟨100, 90, 0⟩ : Sig).highs 0 125000 = 112500 := h
  simp [Rp.duty, Rp.tick, h]

/-- 90 % at 1 MHz, one tick -/
example : (⟨1000000, 1000, 1, true⟩ : Rp).duty ⟨100, 90, 3⟩ 0 1000 = .told 58981 := by decide +kernel

end Pico.Ipwm
