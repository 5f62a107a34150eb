import Verif.Drivers.SpiProps
/-
When spi_xfer can lose what the peer answered (C69), and the drivers that do not follow the pattern.
-/
namespace Pico.Spi

/-- Reachable, every flag read being exact. -/
inductive Exact (d : Drv) (m : List Byte) : St → Prop where
  | init (old : Nat → Byte) : Exact d m (init old)
  | step {s s' : St} (a : Cmd) : Exact d m s → a ≠ .task false → step d m s a = some s' → Exact d m s'

theorem exact_reach {d : Drv} {m : List Byte} {s : St} (h : Exact d m s) : Reach d m s := by
  induction h with
  | init old => exact .init old
  | step a _ _ hs ih => exact .step a ih hs

/-- **C69e**: WDRBT (atsamx7x, sam3x, atsamx7x_qspi): nothing is ever lost. -/
theorem no_loss_wait {d : Drv} (hw : d.wait = true) (hR : 0 < d.R) {m : List Byte} {s : St} (h : Reach d m s) : s.lost = 0 := by
  induction h with
  | init old => rfl
  | @step s s' a _ hs ih =>
    cases a with
    | call => simp only [step] at hs; split at hs <;> cases hs; exact ih
    | task rdy =>
      simp only [step] at hs
      split at hs
      · cases hs
      · injection hs with hs; subst hs
        unfold task
        dsimp only
        split
        · exact ih
        · split <;> exact ih
        · split
          · split
            · exact ih
            · split <;> exact ih
          · split <;> exact ih
    | shift f =>
      simp only [step, shift] at hs
      split at hs
      · split at hs
        · cases hs
        · split at hs
          · cases hs
          · rename_i hne
            rw [hw] at hne
            have : s.rq = [] := by simpa using hne
            rw [this, if_pos (by simpa using hR)] at hs
            injection hs with hs; subst hs; exact ih
      · cases hs

theorem task_push {d : Drv} {m : List Byte} {s : St} {r : Nat} (hp : s.pc = .tx r) (hg : d.guard r s.bal (m.length - s.done) = true) (hT : s.tq.length < d.T) :
    step d m s (.task true) = some { s with tq := s.tq ++ [(m.drop (s.done + (r + s.bal))).take d.w], bal := s.bal + d.a, pc := if d.burst then .tx r else .rx r true } := by
  simp only [step, hp, task]
  rw [if_neg (by simp), if_pos (by simp [hg, hT])]

theorem shift_count {d : Drv} {f : Frame} {s s' : St} (hs : shift d f s = some s') :
    s'.tq.length + s'.rq.length + s'.lost = s.tq.length + s.rq.length + s.lost ∧ s'.bal = s.bal ∧ s'.pc = s.pc ∧
      (s.tq.length + s.rq.length ≤ d.R → s'.lost = s.lost) := by
  unfold shift at hs
  split at hs
  · cases hs
  · rename_i g t ht
    split at hs
    · cases hs
    · split at hs
      · injection hs with hs; subst hs; simp [ht]; omega
      · rename_i hr
        injection hs with hs; subst hs
        refine ⟨by simp [ht]; omega, rfl, rfl, fun h => ?_⟩
        rw [ht, List.length_cons] at h; omega

/-- **C69e**: gd32vf103, renesas_ra4 (one frame at a time), stm32h7xx (limited by the size of its fifo): the driver never has more frames out than the controller
can keep, nothing is ever lost. -/
theorem no_loss_limited {d : Drv} (hd : Good d) (hg : ∀ r b n, d.guard r b n = true → b + d.w ≤ d.w * d.R) {m : List Byte} (hm : d.w ∣ m.length) {s : St}
    (h : Reach d m s) : s.lost = 0 := by
  suffices H : s.lost = 0 ∧ s.bal ≤ d.w * d.R from H.1
  induction h with
  | init old => exact ⟨rfl, Nat.zero_le _⟩
  | @step s s' a hr hs ih =>
    obtain ⟨k, b, hi⟩ := inv_reach hd hm hr
    cases a with
    | call => simp only [step] at hs; split at hs <;> cases hs; exact ih
    | task rdy =>
      simp only [step] at hs
      split at hs
      · cases hs
      · injection hs with hs; subst hs
        unfold task
        dsimp only
        split
        · exact ih
        · split
          · rename_i hc
            simp only [Bool.and_eq_true] at hc
            refine ⟨ih.1, ?_⟩
            show s.bal + d.a ≤ _
            rw [hd.a]; exact hg _ _ _ hc.1.1
          · exact ih
        · split
          · have : s.bal - d.a ≤ d.w * d.R := by have := ih.2; omega
            split
            · exact ⟨ih.1, this⟩
            · split <;> exact ⟨ih.1, this⟩
          · split <;> exact ih
    | shift f =>
      simp only [step] at hs
      split at hs
      · obtain ⟨h1, h2, h3, h4⟩ := shift_count hs
        refine ⟨?_, by rw [h2]; exact ih.2⟩
        rw [← ih.1]
        apply h4
        have hb : d.w * b ≤ d.w * d.R := by rw [← hi.bal]; exact ih.2
        have : b ≤ d.R := Nat.le_of_mul_le_mul_left hb hd.w
        have := hi.hw
        omega
      · cases hs

theorem single_never_loses {w T R : Nat} (hw : 0 < w) (hR : 0 < R) {m : List Byte} (hm : w ∣ m.length) {s : St} (h : Reach (single w T R) m s) : s.lost = 0 := by
  refine no_loss_limited (good_single hw) (fun r b n hg => ?_) hm h
  simp only [single, beq_iff_eq] at hg
  subst hg
  show 0 + w ≤ w * R
  have := Nat.mul_le_mul_left w hR
  omega

theorem limited_never_loses {w T R depth : Nat} (hw : 0 < w) (hd : depth ≤ w * R) {m : List Byte} (hm : w ∣ m.length) {s : St} (h : Reach (limited w T R depth) m s) :
    s.lost = 0 := by
  refine no_loss_limited (good_limited hw) (fun r b n hg => ?_) hm h
  simp only [limited, Bool.and_eq_true, decide_eq_true_eq] at hg
  show b + w ≤ w * R
  omega

/-- **C69e**, plain loop: with room for more received frames than frames to send, nothing is lost. -/
theorem plain_never_loses_partial {w T R : Nat} (hR : T + 1 ≤ R) {m : List Byte} {s : St} (h : Exact (plain w T R) m s) :
    s.lost = 0 := by
  suffices H : s.lost = 0 ∧ s.tq.length ≤ T ∧ s.tq.length + s.rq.length ≤ T + (match s.pc with | .rx _ true => 1 | _ => 0) from H.1
  induction h with
  | init old => exact ⟨rfl, Nat.zero_le _, Nat.zero_le _⟩
  | @step s s' a hr ha hs ih =>
    obtain ⟨i1, i2, i3⟩ := ih
    cases a with
    | call =>
      simp only [step] at hs; split at hs <;> cases hs
      rename_i hc
      rw [hc.1] at i3
      exact ⟨i1, i2, i3⟩
    | task rdy =>
      cases rdy with
      | false => exact absurd rfl ha
      | true =>
        simp only [step] at hs
        split at hs
        · cases hs
        · injection hs with hs; subst hs
          cases hp : s.pc with
          | idle => rename_i hne; exact absurd hp hne
          | tx r =>
            have i3 : s.tq.length + s.rq.length ≤ T := by simpa [hp] using i3
            simp only [task, hp]
            split
            · rename_i hc
              simp only [Bool.and_eq_true, decide_eq_true_eq] at hc
              have hT : s.tq.length < T := hc.2
              refine ⟨i1, ?_, ?_⟩
              · simp; omega
              · simp [plain]; omega
            · exact ⟨i1, i2, by simp; omega⟩
          | rx r occ =>
            have i3' : s.tq.length + s.rq.length ≤ T + 1 := by
              rw [hp] at i3
              cases occ <;> simp at i3 <;> omega
            simp only [task, hp, show (plain w T R).burst = false from rfl, Bool.false_eq_true, if_false, Bool.not_false, Bool.and_true]
            split
            · rename_i f q hrq _
              rw [hrq] at i3'
              simp only [List.length_cons] at i3'
              split
              · exact ⟨i1, i2, by simp; omega⟩
              · exact ⟨i1, i2, by simp; omega⟩
            · rename_i hno
              have hq : s.rq = [] := by
                cases hq : s.rq with
                | nil => rfl
                | cons f q => exact absurd rfl (hno f q hq)
              split
              · refine ⟨i1, i2, by simp [hq]; omega⟩
              · refine ⟨i1, i2, by simp [hq]; omega⟩
    | shift f =>
      simp only [step] at hs
      split at hs
      · obtain ⟨h1, h2, h3, h4⟩ := shift_count hs
        have hT : s.tq.length + s.rq.length ≤ T + 1 := by
          revert i3; split <;> intro i3 <;> omega
        have e := h4 (by show _ ≤ R; omega)
        refine ⟨by rw [e]; exact i1, ?_, ?_⟩
        · have : s'.tq.length ≤ s.tq.length := by
            unfold shift at hs
            split at hs
            · cases hs
            · rename_i g t ht
              split at hs
              · cases hs
              · split at hs <;> (injection hs with hs; subst hs; simp [ht])
          omega
        · rw [h3]
          have : s'.tq.length + s'.rq.length = s.tq.length + s.rq.length := by omega
          omega
      · cases hs

/-- `i` frames shifted in a row -/
theorem shifts {d : Drv} {m : List Byte} (hwt : d.wait = false) : ∀ (i : Nat) (s : St), Exact d m s → i ≤ s.tq.length → s.rq.length + i ≤ d.R →
    ∃ s', Exact d m s' ∧ s'.tq.length + i = s.tq.length ∧ s'.rq.length = s.rq.length + i ∧ s'.pc = s.pc ∧ s'.bal = s.bal ∧ s'.done = s.done := by
  intro i
  induction i with
  | zero => intro s h _ _; exact ⟨s, h, rfl, rfl, rfl, rfl, rfl⟩
  | succ i ih =>
    intro s h h1 h2
    cases ht : s.tq with
    | nil => rw [ht] at h1; simp at h1
    | cons g t =>
      let f : Frame := List.replicate d.w 0
      have hs : step d m s (.shift f) = some { s with tq := t, wire := s.wire ++ [g], resp := s.resp ++ [f], rq := s.rq ++ [f] } := by
        simp only [step, shift, ht, hwt]
        rw [if_pos (by simp [f]), if_neg (by simp), if_pos (by omega)]
      rw [ht] at h1
      simp only [List.length_cons] at h1
      obtain ⟨s', r1, r2, r3, r4, r5, r6⟩ := ih _ (.step _ h (by simp) hs) (by show i ≤ t.length; omega) (by simp; omega)
      refine ⟨s', r1, ?_, ?_, r4, r5, r6⟩
      · simp only [List.length_cons]
        have : s'.tq.length + i = t.length := r2
        omega
      · have : s'.rq.length = (s.rq ++ [f]).length + i := r3
        simp at this; omega

/-- a shift with no room -/
theorem shift_loses {d : Drv} {m : List Byte} (hwt : d.wait = false) {s : St} (h : Exact d m s) (h1 : 0 < s.tq.length) (h2 : s.rq.length = d.R) :
    ∃ s', Exact d m s' ∧ s'.lost ≠ 0 := by
  cases ht : s.tq with
  | nil => rw [ht] at h1; simp at h1
  | cons g t =>
    let f : Frame := List.replicate d.w 0
    have hs : step d m s (.shift f) = some { s with tq := t, wire := s.wire ++ [g], resp := s.resp ++ [f], lost := s.lost + 1 } := by
      simp only [step, shift, ht, hwt]
      rw [if_pos (by simp [f]), if_neg (by simp), if_neg (by omega)]
    exact ⟨_, .step _ h (by simp) hs, by simp⟩

/-- frames pushed while the controller does nothing -/
theorem plain_fill {w T R : Nat} (hw : 0 < w) {m : List Byte} (old : Nat → Byte) : ∀ j, j ≤ T → w * j ≤ m.length → 0 < m.length →
    ∃ s, Exact (plain w T R) m s ∧ s.pc = .tx 0 ∧ s.done = 0 ∧ s.bal = w * j ∧ s.tq.length = j ∧ s.rq = [] := by
  intro j
  induction j with
  | zero =>
    intro _ _ h0
    refine ⟨{ init old with pc := .tx 0 }, .step .call (.init old) (by simp) ?_, rfl, rfl, rfl, rfl, rfl⟩
    simp [step, init, h0]
  | succ j ih =>
    intro h1 h2 h0
    rw [Nat.mul_succ] at h2
    obtain ⟨s, r1, r2, r3, r4, r5, r6⟩ := ih (by omega) (by omega) h0
    let fr := (m.drop (s.done + (0 + s.bal))).take w
    have e1 : step (plain w T R) m s (.task true) = some { s with tq := s.tq ++ [fr], bal := s.bal + w, pc := .rx 0 true } := by
      refine task_push r2 ?_ (by show s.tq.length < T; omega)
      show decide (0 + s.bal < m.length - s.done) = true
      simp; omega
    have e2 : step (plain w T R) m { s with tq := s.tq ++ [fr], bal := s.bal + w, pc := .rx 0 true } (.task true) =
        some { s with tq := s.tq ++ [fr], bal := s.bal + w, pc := .tx 0 } := by
      simp only [step, task, plain, r6]
      simp
    refine ⟨_, .step _ (.step _ r1 (by simp) e1) (by simp) e2, rfl, r3, ?_, ?_, r6⟩
    · show s.bal + w = _
      rw [r4, Nat.mul_succ]
    · simp [r5]

/-- **C69e, refuted for the plain loop** (pl022, sercom, dspi, pic32mx, tinyavr, f28x) whenever the transmitter, shift register included, can hold as many frames as
the receiver: the task is preempted at the wrong moment and an answer is lost; by `spi_lost_hangs` the transfer never ends. -/
theorem plain_loses {w T R : Nat} (hw : 0 < w) (hR : 0 < R) (hT : R ≤ T) {m : List Byte} (hm : w * (R + 1) ≤ m.length) (old : Nat → Byte) :
    ∃ s, Exact (plain w T R) m s ∧ s.lost ≠ 0 := by
  rw [Nat.mul_succ] at hm
  have hRw : w * 1 ≤ w * R := Nat.mul_le_mul_left w hR
  obtain ⟨s, r1, r2, r3, r4, r5, r6⟩ := plain_fill (T := T) (R := R) hw (m := m) old R hT (by omega) (by omega)
  obtain ⟨s1, q1, q2, q3, q4, q5, q6⟩ := shifts (by rfl) 1 s r1 (by omega) (by rw [r6]; exact Nat.lt_of_lt_of_le (by simp) hR)
  rw [r6] at q3
  let fr := (m.drop (s1.done + (0 + s1.bal))).take w
  have e1 : step (plain w T R) m s1 (.task true) = some { s1 with tq := s1.tq ++ [fr], bal := s1.bal + w, pc := .rx 0 true } := by
    refine task_push (by rw [q4, r2]) ?_ (by show s1.tq.length < T; omega)
    show decide (0 + s1.bal < m.length - s1.done) = true
    simp; omega
  have x2 := Exact.step _ q1 (by simp) e1
  obtain ⟨s2, p1, p2, p3, _, _, _⟩ := shifts (by rfl) (R - 1) _ x2 (by simp; omega) (by show s1.rq.length + _ ≤ R; simp at q3; omega)
  refine shift_loses (by rfl) p1 ?_ ?_
  · have : s2.tq.length + (R - 1) = (s1.tq ++ [fr]).length := p2
    simp at this; omega
  · have : s2.rq.length = s1.rq.length + (R - 1) := p3
    simp at q3
    show s2.rq.length = R
    omega

/-- **C69e, refuted on lgt8fx8p**: while it fills the transmitter it reads nothing. -/
theorem lgt_loses {T R : Nat} (hT : 0 < T) {m : List Byte} (hm : R + 1 ≤ m.length) (old : Nat → Byte) : ∃ s, Exact (lgt T R) m s ∧ s.lost ≠ 0 := by
  have H : ∀ j, j ≤ R → ∃ s, Exact (lgt T R) m s ∧ s.pc = .tx 0 ∧ s.done = 0 ∧ s.bal = j ∧ s.tq = [] ∧ s.rq.length = j := by
    intro j
    induction j with
    | zero =>
      intro _
      refine ⟨{ init old with pc := .tx 0 }, .step .call (.init old) (by simp) ?_, rfl, rfl, rfl, rfl, rfl⟩
      simp only [step, init]
      rw [if_pos ⟨trivial, by omega⟩]
    | succ j ih =>
      intro hj
      obtain ⟨s, r1, r2, r3, r4, r5, r6⟩ := ih (by omega)
      let fr := (m.drop (s.done + (0 + s.bal))).take 1
      have e1 : step (lgt T R) m s (.task true) = some { s with tq := s.tq ++ [fr], bal := s.bal + 1, pc := .tx 0 } := by
        refine task_push r2 ?_ (by rw [r5]; exact hT)
        show decide (m.length - s.done - s.bal ≠ 0) = true
        simp; omega
      obtain ⟨s', p1, p2, p3, p4, p5, p6⟩ := shifts (by rfl) 1 _ (Exact.step _ r1 (by simp) e1) (by simp) (by show s.rq.length + 1 ≤ R; omega)
      refine ⟨s', p1, p4, by rw [p6]; exact r3, by rw [p5]; show s.bal + 1 = _; omega, ?_, by rw [p3]; show s.rq.length + 1 = _; omega⟩
      simp [r5] at p2; exact p2
  obtain ⟨s, r1, r2, r3, r4, r5, r6⟩ := H R (Nat.le_refl _)
  let fr := (m.drop (s.done + (0 + s.bal))).take 1
  have e1 : step (lgt T R) m s (.task true) = some { s with tq := s.tq ++ [fr], bal := s.bal + 1, pc := .tx 0 } := by
    refine task_push r2 ?_ (by rw [r5]; exact hT)
    show decide (m.length - s.done - s.bal ≠ 0) = true
    simp; omega
  exact shift_loses (by rfl) (Exact.step _ r1 (by simp) e1) (by simp) r6

/-! ### drivers that do not count right -/

/-- **C69b, refuted for 16-bit frames of pic32mx and renesas_ra4**: no step ever writes the second byte of a received frame. -/
theorem half_second_byte {d : Drv} {m : List Byte} {s s' : St} (h : Reach (half d) m s) {a : Cmd} (hs : step (half d) m s a = some s') (i : Nat)
    (hi : i % 2 = 1) : s'.buf i = s.buf i := by
  have H : got s % 2 = 0 := by
    clear hs hi
    have H : got s % 2 = 0 ∧ s.done % 2 = 0 := by
      induction h with
      | init old => exact ⟨rfl, rfl⟩
      | @step s s' a _ hs ih =>
        obtain ⟨i1, i2⟩ := ih
        cases a with
        | call =>
          simp only [step] at hs; split at hs <;> cases hs
          exact ⟨by simp [got, i2], i2⟩
        | task rdy =>
          simp only [step] at hs
          split at hs
          · cases hs
          · injection hs with hs; subst hs
            cases hp : s.pc with
            | idle => simp only [task, hp]; exact ⟨i1, i2⟩
            | tx r =>
              simp only [got, hp] at i1
              simp only [task, hp]
              split
              · cases (half d).burst <;> exact ⟨by simp [got]; omega, i2⟩
              · exact ⟨by simp [got]; omega, i2⟩
            | rx r occ =>
              simp only [got, hp] at i1
              simp only [task, hp, show (half d).a = 2 from rfl]
              split
              · split
                · exact ⟨by simp [got]; omega, i2⟩
                · split
                  · exact ⟨by simp [got]; omega, by show (s.done + (r + 2)) % 2 = 0; omega⟩
                  · exact ⟨by simp [got]; omega, i2⟩
              · split
                · exact ⟨by simp [got]; omega, i2⟩
                · exact ⟨by simp [got]; omega, by show (s.done + r) % 2 = 0; omega⟩
        | shift f =>
          simp only [step, shift] at hs
          split at hs
          · split at hs
            · cases hs
            · split at hs
              · cases hs
              · split at hs <;> (injection hs with hs; subst hs; exact ⟨i1, i2⟩)
          · cases hs
    exact H.1
  cases a with
  | call => simp only [step] at hs; split at hs <;> cases hs; rfl
  | task rdy =>
    simp only [step] at hs
    split at hs
    · cases hs
    · injection hs with hs; subst hs
      cases hp : s.pc with
      | idle => simp only [task, hp]
      | tx r => simp only [task, hp]; split <;> rfl
      | rx r occ =>
        simp only [got, hp] at H
        have hne : ∀ f, store 1 (s.done + r) f s.buf i = s.buf i := by
          intro f; unfold store; rw [if_neg (by omega)]
        simp only [task, hp, show (half d).st = 1 from rfl]
        split
        · split
          · exact hne _
          · split <;> exact hne _
        · split <;> rfl
  | shift f =>
    simp only [step, shift] at hs
    split at hs
    · split at hs
      · cases hs
      · split at hs
        · cases hs
        · split at hs <;> (injection hs with hs; subst hs; rfl)
    · cases hs

/-- **C69a, refuted for frames of at most 8 bits of atsamx7x and sam3x**: every other byte of the message is never sent. -/
theorem sam8_skips {T : Nat} {m : List Byte} {s : St} (h : Reach (sam8 T) m s) :
    s.wire ++ s.tq = (List.range (s.wire.length + s.tq.length)).map fun j => (m.drop (2 * j)).take 1 := by
  suffices H : (s.wire ++ s.tq = (List.range (s.wire.length + s.tq.length)).map fun j => (m.drop (2 * j)).take 1) ∧
      got s + s.bal = 2 * (s.wire.length + s.tq.length) ∧ s.rq.length + s.tq.length ≤ s.bal / 2 from H.1
  induction h with
  | init old => exact ⟨rfl, rfl, by simp [init]⟩
  | @step s s' a _ hs ih =>
    obtain ⟨i1, i2, i3⟩ := ih
    cases a with
    | call =>
      simp only [step] at hs; split at hs <;> cases hs
      rename_i hc
      simp only [got, hc.1] at i2
      exact ⟨i1, by simpa [got] using i2, i3⟩
    | task rdy =>
      simp only [step] at hs
      split at hs
      · cases hs
      · injection hs with hs; subst hs
        cases hp : s.pc with
        | idle => simp only [task, hp]; exact ⟨i1, i2, i3⟩
        | tx r =>
          simp only [got, hp] at i2
          simp only [task, hp, sam8, plain, Bool.false_eq_true, if_false]
          split
          · refine ⟨?_, ?_, ?_⟩
            · show s.wire ++ (s.tq ++ [_]) = (List.range (s.wire.length + (s.tq ++ [_]).length)).map _
              rw [← List.append_assoc, i1, List.length_append, List.length_singleton, ← Nat.add_assoc s.wire.length, List.range_succ, List.map_append]
              congr 1
              simp only [List.map_cons, List.map_nil]
              congr 3
              omega
            · simp only [got, List.length_append, List.length_singleton]; omega
            · simp only [List.length_append, List.length_singleton]; omega
          · exact ⟨i1, by simpa [got] using i2, i3⟩
        | rx r occ =>
          simp only [got, hp] at i2
          simp only [task, hp, show (sam8 T).burst = false from rfl, show (sam8 T).a = 2 from rfl, Bool.false_eq_true, if_false]
          split
          · rename_i f q hq
            rw [hq] at i3
            simp only [List.length_cons] at i3
            split
            · exact ⟨i1, by simp only [got]; omega, by show q.length + s.tq.length ≤ (s.bal - 2) / 2; omega⟩
            · exact ⟨i1, by simp only [got]; omega, by show q.length + s.tq.length ≤ (s.bal - 2) / 2; omega⟩
          · split
            · exact ⟨i1, by simpa [got] using i2, i3⟩
            · exact ⟨i1, by simp only [got]; omega, i3⟩
    | shift f =>
      simp only [step, shift] at hs
      split at hs
      · split at hs
        · cases hs
        · rename_i g t ht
          rw [ht] at i1 i2 i3
          simp only [List.length_cons] at i1 i2 i3
          have e : s.wire.length + (t.length + 1) = (s.wire ++ [g]).length + t.length := by simp; omega
          split at hs
          · cases hs
          · split at hs
            · injection hs with hs; subst hs
              refine ⟨?_, ?_, ?_⟩
              · show (s.wire ++ [g]) ++ t = (List.range ((s.wire ++ [g]).length + t.length)).map _
                rw [← e, ← i1]; simp
              · show got s + s.bal = 2 * ((s.wire ++ [g]).length + t.length)
                rw [← e]; exact i2
              · simp only [List.length_append, List.length_singleton]; omega
            · injection hs with hs; subst hs
              refine ⟨?_, ?_, ?_⟩
              · show (s.wire ++ [g]) ++ t = (List.range ((s.wire ++ [g]).length + t.length)).map _
                rw [← e, ← i1]; simp
              · show got s + s.bal = 2 * ((s.wire ++ [g]).length + t.length)
                rw [← e]; exact i2
              · show s.rq.length + t.length ≤ s.bal / 2; omega
      · cases hs

/-- Runs from any state. -/
def runs (d : Drv) (m : List Byte) (s : St) (l : List Cmd) : Option St := l.foldlM (step d m) s

theorem reach_runs {d : Drv} {m : List Byte} : ∀ (l : List Cmd) {s s' : St}, Reach d m s → runs d m s l = some s' → Reach d m s'
  | [], s, s', h, e => by simp [runs] at e; rw [← e]; exact h
  | a :: l, s, s', h, e => by
    simp only [runs, List.foldlM_cons] at e
    cases hs : step d m s a with
    | none => rw [hs] at e; cases e
    | some t => rw [hs] at e; exact reach_runs l (.step a h hs) e

/-- **C69, atsamx7x, sam3x, frames of at most 8 bits**: a one-byte transfer reports two bytes and writes past the end of the buffer. -/
theorem sam8_overflow {T : Nat} (hT : 0 < T) (x f : Byte) (old : Nat → Byte) : ∃ s, Reach (sam8 T) [x] s ∧ s.done = 2 ∧ s.wire = [[x]] ∧ s.buf 0 = f ∧ s.buf 1 = 0 := by
  have e1 : step (sam8 T) [x] (init old) .call = some { init old with pc := .tx 0 } := by simp [step, init]
  have e2 : step (sam8 T) [x] { init old with pc := .tx 0 } (.task true) = some { init old with tq := [[x]], bal := 2, pc := .rx 0 true } := by
    exact task_push (d := sam8 T) (m := [x]) (s := { init old with pc := .tx 0 }) rfl rfl hT
  have e3 : step (sam8 T) [x] { init old with tq := [[x]], bal := 2, pc := .rx 0 true } (.shift [f]) =
      some { init old with bal := 2, pc := .rx 0 true, wire := [[x]], resp := [[f]], rq := [[f]] } := by
    simp [step, shift, sam8, plain, init]
  have e4 : step (sam8 T) [x] { init old with bal := 2, pc := .rx 0 true, wire := [[x]], resp := [[f]], rq := [[f]] } (.task true) =
      some { init old with pc := .tx 2, wire := [[x]], resp := [[f]], buf := store 2 0 [f] old } := by
    simp [step, task, sam8, plain, init]
  have e5 : step (sam8 T) [x] { init old with pc := .tx 2, wire := [[x]], resp := [[f]], buf := store 2 0 [f] old } (.task true) =
      some { init old with pc := .rx 2 false, wire := [[x]], resp := [[f]], buf := store 2 0 [f] old } := by
    simp [step, task, sam8, plain, inside, init]
  have e6 : step (sam8 T) [x] { init old with pc := .rx 2 false, wire := [[x]], resp := [[f]], buf := store 2 0 [f] old } (.task true) =
      some { init old with done := 2, wire := [[x]], resp := [[f]], buf := store 2 0 [f] old } := by
    simp [step, task, sam8, plain, init]
  exact ⟨_, .step _ (.step _ (.step _ (.step _ (.step _ (.step _ (.init old) e1) e2) e3) e4) e5) e6, rfl, rfl, by simp [store], by simp [store]⟩

/-- **C69, gd32vf103, renesas_ra4**: spi_*_init does not set `balance`; if it is not 0 nothing is ever sent and spi_xfer returns -EAGAIN for ever. -/
theorem single_uninit_stuck {w T R : Nat} {m : List Byte} (old : Nat → Byte) {x : Nat} (hx : x ≠ 0) : ∀ (l : List Cmd) {s : St},
    runs (single w T R) m { init old with bal := x } l = some s → s.wire = [] ∧ s.done = 0 := by
  have H : ∀ (l : List Cmd) (s0 s : St), s0.bal = x ∧ s0.tq = [] ∧ s0.rq = [] ∧ s0.wire = [] ∧ got s0 = 0 → runs (single w T R) m s0 l = some s →
      s.wire = [] ∧ s.done = 0 := by
    intro l
    induction l with
    | nil =>
      intro s0 s h e
      simp [runs] at e; subst e
      refine ⟨h.2.2.2.1, ?_⟩
      have := h.2.2.2.2
      unfold got at this
      split at this <;> omega
    | cons a l ih =>
      intro s0 s ⟨h1, h2, h3, h4, h5⟩ e
      simp only [runs, List.foldlM_cons] at e
      cases hs : step (single w T R) m s0 a with
      | none => rw [hs] at e; cases e
      | some t =>
        rw [hs] at e
        refine ih t s ?_ e
        cases a with
        | call =>
          simp only [step] at hs; split at hs <;> cases hs
          rename_i hc
          simp only [got, hc.1] at h5
          exact ⟨h1, h2, h3, h4, by simpa [got] using h5⟩
        | shift f =>
          simp only [step, shift, h2] at hs
          split at hs <;> cases hs
        | task rdy =>
          simp only [step] at hs
          split at hs
          · cases hs
          · injection hs with hs; subst hs
            cases hp : s0.pc with
            | idle => simp only [task, hp]; exact ⟨h1, h2, h3, h4, h5⟩
            | tx r =>
              simp only [got, hp] at h5
              simp only [task, hp, single, h1]
              rw [if_neg (by simp [hx])]
              exact ⟨rfl, h2, h3, h4, by simpa [got] using h5⟩
            | rx r occ =>
              simp only [got, hp] at h5
              simp only [task, hp, h3]
              split
              · exact ⟨h1, h2, rfl, h4, by simpa [got] using h5⟩
              · exact ⟨h1, h2, rfl, h4, by simpa [got] using h5⟩
  intro l s e
  exact H l _ s ⟨rfl, rfl, rfl, rfl, rfl⟩ e

/-! ### demonstrations -/

/-- a message of three bytes over the plain loop, in two calls; the peer answers 7, 8, 9 -/
example : ∃ s, Reach (plain 1 2 4) [1, 2, 3] s ∧ s.done = 3 ∧ s.wire = [[1], [2], [3]] ∧ s.buf 0 = 7 ∧ s.buf 1 = 8 ∧ s.buf 2 = 9 :=
  ⟨_, reach_runs [.call, .task true, .task true, .task true, .shift [7], .task true, .shift [8], .task true, .task true, .task true, .task true, .call, .task true,
    .shift [9], .task true] (.init fun _ => 0) rfl, rfl, rfl, rfl, rfl, rfl⟩

/-- and over lgt8fx8p -/
example : ∃ s, Reach (lgt 4 4) [1, 2] s ∧ s.done = 2 ∧ s.wire = [[1], [2]] ∧ s.buf 0 = 7 ∧ s.buf 1 = 8 :=
  ⟨_, reach_runs [.call, .task true, .task true, .task true, .shift [7], .task true, .task false, .call, .shift [8], .task true, .task true, .task true] (.init fun _ => 0) rfl,
    rfl, rfl, rfl, rfl⟩

end Pico.Spi
