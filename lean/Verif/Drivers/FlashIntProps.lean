import Verif.Drivers.FlashInt
/-
C75: the internal flash drivers
-/
namespace Pico.FlashInt

theorem programmed_zero (a : Nat) (d : Nat → Byte) (m : Mem) : programmed a 0 d m = m := by
  funext x
  unfold programmed
  rw [if_neg (by omega)]

theorem programmed_add (a n k : Nat) (d : Nat → Byte) (m : Mem) :
    programmed (a + n) k (fun i => d (n + i)) (programmed a n d m) = programmed a (n + k) d m := by
  funext x
  unfold programmed
  by_cases h1 : a + n ≤ x ∧ x < a + n + k
  · rw [if_pos h1, if_neg (by omega), if_pos (by omega)]
    show m x &&& d (n + (x - (a + n))) = _
    rw [show n + (x - (a + n)) = x - a from by omega]
  · rw [if_neg h1]
    by_cases h2 : a ≤ x ∧ x < a + n
    · rw [if_pos h2, if_pos (by omega)]
    · rw [if_neg h2, if_neg (by omega)]

namespace Same5x

/-- the accesses the driver handles: quad words (16 bytes, attr.write_unit_len), and no page after a beginning that is not aligned on a page -/
structure Cond (page off N : Nat) : Prop where
  p16 : page % 16 = 0
  ppos : 0 < page
  o16 : off % 16 = 0
  n16 : N % 16 = 0
  cross : off % page = 0 ∨ N < page + (page - off % page)

/-- the unit a call at offset `o` with `n` bytes uses -/
def unit (page o n : Nat) : Nat := if o % page = 0 ∧ page ≤ n then page else 16

theorem unit_le {page o n : Nat} (hn : 16 ≤ n) : unit page o n ≤ n := by unfold unit; split <;> omega
theorem unit_pos {page o n : Nat} (hp : 0 < page) : 0 < unit page o n := by unfold unit; split <;> omega
theorem unit_16 {page o n : Nat} (hp : page % 16 = 0) : unit page o n % 16 = 0 := by unfold unit; split <;> omega

theorem loop_start {page o n k fuel : Nat} {data : Nat → Byte} {s : St} (hn : 16 ≤ n) (ho : o % 16 = 0) (hp : 0 < page) (hb : s.busy = false) :
    writeLoop page o data (fuel + 1) k n s =
      ({ s with busy := true, op := some (.prog (o + k) (unit page o n) (fun i => data (k + i))) }, if k = 0 then .eagain else .ok k) := by
  rw [writeLoop, if_neg (by omega)]
  simp only []
  have hu : (if o % page = 0 ∧ page ≤ n then page else if o % 16 = 0 ∧ 16 ≤ n then 16 else 0) = unit page o n := by
    unfold unit; rw [if_pos (⟨ho, hn⟩ : o % 16 = 0 ∧ 16 ≤ n)]
  rw [hu, if_neg (by have := unit_pos (o := o) (n := n) hp; omega)]
  simp [writeData, hb]

theorem loop_busy {page o n k fuel : Nat} {data : Nat → Byte} {s : St} (hn : 16 ≤ n) (ho : o % 16 = 0) (hp : 0 < page) (hb : s.busy = true) (hop : s.op.isSome) :
    writeLoop page o data (fuel + 1) k n s = (s, if k = 0 then .eagain else .ok k) := by
  rw [writeLoop, if_neg (by omega)]
  simp only []
  have hu : (if o % page = 0 ∧ page ≤ n then page else if o % 16 = 0 ∧ 16 ≤ n then 16 else 0) = unit page o n := by
    unfold unit; rw [if_pos (⟨ho, hn⟩ : o % 16 = 0 ∧ 16 ≤ n)]
  rw [hu, if_neg (by have := unit_pos (o := o) (n := n) hp; omega)]
  simp [writeData, hb, busyStep, hop]

theorem loop_fin {page o n k fuel : Nat} {data : Nat → Byte} {s : St} (hn : 16 ≤ n) (ho : o % 16 = 0) (hp : 0 < page) (hb : s.busy = true) (hop : s.op = none) :
    writeLoop page o data (fuel + 1) k n s =
      if s.err then ({ s with busy := false, err := false }, if k = 0 then .efault else .ok k)
      else writeLoop page o data fuel (k + unit page o n) (n - unit page o n) { s with busy := false } := by
  rw [writeLoop, if_neg (by omega)]
  simp only []
  have hu : (if o % page = 0 ∧ page ≤ n then page else if o % 16 = 0 ∧ 16 ≤ n then 16 else 0) = unit page o n := by
    unfold unit; rw [if_pos (⟨ho, hn⟩ : o % 16 = 0 ∧ 16 ≤ n)]
  rw [hu, if_neg (by have := unit_pos (o := o) (n := n) hp; omega)]
  cases he : s.err <;> simp [writeData, hb, busyStep, hop, he]

/-- a call of flash_write in the three situations -/
theorem write_idle {page o n : Nat} {data : Nat → Byte} {s : St} (hn : 16 ≤ n) (hn16 : n % 16 = 0) (ho : o % 16 = 0) (hp : 0 < page) (hb : s.busy = false) :
    write page o data n s = ({ s with busy := true, op := some (.prog o (unit page o n) data) }, .eagain) := by
  obtain ⟨f, rfl⟩ : ∃ f, n = f + 1 := ⟨n - 1, by omega⟩
  unfold write
  rw [if_neg (by omega), if_neg (by omega), loop_start hn ho hp hb]
  simp

theorem write_busy {page o n : Nat} {data : Nat → Byte} {s : St} (hn : 16 ≤ n) (hn16 : n % 16 = 0) (ho : o % 16 = 0) (hp : 0 < page) (hb : s.busy = true) (hop : s.op.isSome) :
    write page o data n s = (s, .eagain) := by
  obtain ⟨f, rfl⟩ : ∃ f, n = f + 1 := ⟨n - 1, by omega⟩
  unfold write
  rw [if_neg (by omega), if_neg (by omega), loop_busy hn ho hp hb hop]
  simp

theorem write_fin {page o n : Nat} {data : Nat → Byte} {s : St} (hn : 16 ≤ n) (hn16 : n % 16 = 0) (hp16 : page % 16 = 0) (ho : o % 16 = 0) (hp : 0 < page)
    (hb : s.busy = true) (hop : s.op = none) :
    write page o data n s =
      if s.err then ({ s with busy := false, err := false }, .efault)
      else if n - unit page o n = 0 then ({ s with busy := false }, .ok (unit page o n))
      else ({ s with op := some (.prog (o + unit page o n) (unit page o (n - unit page o n)) (fun i => data (unit page o n + i))) }, .ok (unit page o n)) := by
  obtain ⟨f, rfl⟩ : ∃ f, n = f + 1 + 1 := ⟨n - 2, by omega⟩
  have hu := unit_pos (o := o) (n := f + 1 + 1) hp
  have hu16 := unit_16 (o := o) (n := f + 1 + 1) hp16
  unfold write
  rw [if_neg (by omega), if_neg (by omega), loop_fin hn ho hp hb hop]
  cases he : s.err
  · simp only [Bool.false_eq_true, if_false]
    by_cases h0 : f + 1 + 1 - unit page o (f + 1 + 1) = 0
    · rw [if_pos h0, h0, writeLoop, if_pos rfl]
      simp [he]
    · rw [if_neg h0, loop_start (by omega) ho hp rfl]
      have : ¬ unit page o (f + 1 + 1) = 0 := by omega
      simp [this, hb, he]
  · simp

/-- the next call chooses the unit that was started -/
theorem unit_next {page off N d : Nat} (hc : Cond page off N) (hd16 : d % 16 = 0) (hdN : d < N) (hpg : off % page = 0 → d % page = 0 ∨ N - d < page) :
    let u := unit page (off + d) (N - d)
    unit page (off + d) (N - d - u) = unit page (off + (d + u)) (N - (d + u)) ∧ (off % page = 0 → (d + u) % page = 0 ∨ N - (d + u) < page) := by
  intro u
  have hp := hc.ppos
  have e : N - d - u = N - (d + u) := by omega
  rw [e]
  by_cases h : (off + d) % page = 0 ∧ page ≤ N - d
  · have hu : u = page := by show unit page (off + d) (N - d) = _; unfold unit; rw [if_pos h]
    rw [hu]
    constructor
    · unfold unit
      rw [← Nat.add_assoc, Nat.add_mod_right]
    · intro ho
      rcases hpg ho with h' | h'
      · left; rw [Nat.add_mod_right]; exact h'
      · omega
  · have hu : u = 16 := by show unit page (off + d) (N - d) = _; unfold unit; rw [if_neg h]
    rw [hu]
    have hr : ¬ ((off + (d + 16)) % page = 0 ∧ page ≤ N - (d + 16)) := by
      intro ⟨h1, h2⟩
      have hne : (off + d) % page ≠ 0 := fun h' => h ⟨h', by omega⟩
      rcases hc.cross with hx | hx
      · rcases hpg hx with h' | h'
        · exact hne (by rw [Nat.add_mod, hx, h']; simp)
        · omega
      · have hoff : off = page * (off / page) + off % page := (Nat.div_add_mod off page).symm
        have hlt := Nat.mod_lt off hp
        by_cases hr : off % page + (d + 16) < page
        · have : (off + (d + 16)) % page = off % page + (d + 16) := by
            have e2 : off + (d + 16) = page * (off / page) + (off % page + (d + 16)) := by omega
            rw [e2, Nat.mul_add_mod, Nat.mod_eq_of_lt hr]
          omega
        · omega
    have hl : ¬ ((off + d) % page = 0 ∧ page ≤ N - (d + 16)) := by
      intro ⟨h1, h2⟩; exact h ⟨h1, by omega⟩
    constructor
    · unfold unit; rw [if_neg hr, if_neg hl]
    · intro ho
      right
      rcases hpg ho with h' | h'
      · have : (off + d) % page = 0 := by rw [Nat.add_mod, ho, h']; simp
        have : ¬ page ≤ N - d := fun h'' => h ⟨this, h''⟩
        omega
      · omega

/-- what is known of a run: `m` the contents at the beginning -/
structure Inv (page off : Nat) (data : Nat → Byte) (N : Nat) (m : Mem) (c : Cl) : Prop where
  le : c.done ≤ N
  d16 : c.done % 16 = 0
  pg : off % page = 0 → c.done % page = 0 ∨ N - c.done < page
  st : (c.st.busy = false ∧ c.st.op = none ∧ c.st.err = false ∧ c.st.mem = programmed off c.done data m) ∨
    (c.failed = false ∧ c.done < N ∧ c.st.busy = true ∧ c.st.err = false ∧
      c.st.op = some (.prog (off + c.done) (unit page (off + c.done) (N - c.done)) (fun i => data (c.done + i))) ∧ c.st.mem = programmed off c.done data m) ∨
    (c.failed = false ∧ c.done < N ∧ c.st.busy = true ∧ c.st.err = false ∧ c.st.op = none ∧
      c.st.mem = programmed off (c.done + unit page (off + c.done) (N - c.done)) data m) ∨
    (c.failed = false ∧ c.done < N ∧ c.st.busy = true ∧ c.st.err = true ∧ c.st.op = none ∧ c.st.mem = programmed off c.done data m)

theorem inv_start (page off : Nat) (data : Nat → Byte) (N : Nat) (m : Mem) : Inv page off data N m (start m) :=
  ⟨Nat.zero_le _, rfl, fun _ => Or.inl (Nat.zero_mod _), Or.inl ⟨rfl, rfl, rfl, (programmed_zero off data m).symm⟩⟩

theorem inv_step {page off N : Nat} {data : Nat → Byte} {m : Mem} (hc : Cond page off N) {c : Cl} (h : Inv page off data N m c) (e : Ev) :
    Inv page off data N m (step page off data N c e) := by
  obtain ⟨h1, h2, h3, h4⟩ := h
  cases e with
  | fin g =>
    rcases h4 with ⟨a1, a2, a3, a4⟩ | ⟨a0, a1, a2, a3, a4, a5⟩ | ⟨a0, a1, a2, a3, a4, a5⟩ | ⟨a0, a1, a2, a3, a4, a5⟩
    · refine ⟨h1, h2, h3, Or.inl ?_⟩; simp [step, fin, a2, a1, a3, a4]
    · cases g
      · refine ⟨h1, h2, h3, Or.inr (Or.inr (Or.inr ?_))⟩
        simp [step, fin, a4, a0, a1, a2, a3, a5]
      · refine ⟨h1, h2, h3, Or.inr (Or.inr (Or.inl ?_))⟩
        have := programmed_add off c.done (unit page (off + c.done) (N - c.done)) data m
        simp [step, fin, a4, a0, a1, a2, a3, exec, a5, this]
    · refine ⟨h1, h2, h3, Or.inr (Or.inr (Or.inl ?_))⟩; simp [step, fin, a4, a0, a1, a2, a3, a5]
    · refine ⟨h1, h2, h3, Or.inr (Or.inr (Or.inr ?_))⟩; simp [step, fin, a4, a0, a1, a2, a3, a5]
  | call =>
    by_cases hstop : c.failed ∨ c.done = N
    · simp only [step]; rw [if_pos hstop]; exact ⟨h1, h2, h3, h4⟩
    · have hf : c.failed = false := by
        cases hcf : c.failed
        · rfl
        · exact absurd (Or.inl hcf) hstop
      have hlt : c.done < N := by
        have : ¬ c.done = N := fun hh => hstop (Or.inr hh)
        omega
      have hn16 := hc.n16
      have ho16 := hc.o16
      have hrem : 16 ≤ N - c.done := by omega
      have hrem16 : (N - c.done) % 16 = 0 := by omega
      have ho : (off + c.done) % 16 = 0 := by omega
      have hu16 := unit_16 (o := off + c.done) (n := N - c.done) hc.p16
      have hule := unit_le (page := page) (o := off + c.done) hrem
      obtain ⟨n1, n2⟩ := unit_next hc h2 hlt h3
      simp only [step]
      rw [if_neg hstop]
      rcases h4 with ⟨a1, a2, a3, a4⟩ | ⟨a0, a1, a2, a3, a4, a5⟩ | ⟨a0, a1, a2, a3, a4, a5⟩ | ⟨a0, a1, a2, a3, a4, a5⟩
      · rw [write_idle hrem hrem16 ho hc.ppos a1]
        exact ⟨h1, h2, h3, Or.inr (Or.inl ⟨hf, hlt, rfl, a3, rfl, a4⟩)⟩
      · rw [write_busy hrem hrem16 ho hc.ppos a2 (by simp [a4])]
        exact ⟨h1, h2, h3, Or.inr (Or.inl ⟨hf, hlt, a2, a3, a4, a5⟩)⟩
      · rw [write_fin hrem hrem16 hc.p16 ho hc.ppos a2 a4, if_neg (by simp [a3])]
        by_cases hz : N - c.done - unit page (off + c.done) (N - c.done) = 0
        · rw [if_pos hz]
          refine ⟨?_, ?_, n2, Or.inl ⟨rfl, a4, a3, a5⟩⟩
          · show c.done + _ ≤ N; omega
          · show (c.done + _) % 16 = 0; omega
        · rw [if_neg hz]
          refine ⟨?_, ?_, n2, Or.inr (Or.inl ⟨hf, ?_, a2, a3, ?_, a5⟩)⟩
          · show c.done + _ ≤ N; omega
          · show (c.done + _) % 16 = 0; omega
          · show c.done + _ < N; omega
          · show some _ = some _
            rw [n1, Nat.add_assoc off]
            congr 2
            funext i
            rw [Nat.add_assoc]
      · rw [write_fin hrem hrem16 hc.p16 ho hc.ppos a2 a4, if_pos a3]
        exact ⟨h1, h2, h3, Or.inl ⟨rfl, a4, rfl, a5⟩⟩

theorem inv_run {page off N : Nat} {data : Nat → Byte} {m : Mem} (hc : Cond page off N) (l : List Ev) : ∀ c, Inv page off data N m c → Inv page off data N m (run page off data N l c) := by
  induction l with
  | nil => intro c h; exact h
  | cons e t ih => intro c h; exact ih _ (inv_step hc h e)

/-- **C75 (partial), flash_write of drivers/flash/flash-same5x.c**: at any point of any run, the bytes reported are in the flash, what else has been programmed is the
beginning of what remains, nothing outside the range asked has changed; when the whole is reported it is there and the driver is idle.
Missing: accesses that reach a whole page after a beginning that is not aligned on one: `same5x_lost`. -/
theorem same5x_write_partial {page off N : Nat} (data : Nat → Byte) (m : Mem) (hc : Cond page off N) (l : List Ev) :
    let c := run page off data N l (start m)
    c.done ≤ N ∧ (∃ j, c.done ≤ j ∧ j ≤ N ∧ c.st.mem = programmed off j data m) ∧
      (c.done = N → c.st.mem = programmed off N data m ∧ c.st.busy = false) := by
  intro c
  have h : Inv page off data N m c := inv_run hc l _ (inv_start page off data N m)
  obtain ⟨h1, h2, h3, h4⟩ := h
  have hn16 := hc.n16
  refine ⟨h1, ?_, ?_⟩
  · rcases h4 with ⟨a1, a2, a3, a4⟩ | ⟨a0, a1, a2, a3, a4, a5⟩ | ⟨a0, a1, a2, a3, a4, a5⟩ | ⟨a0, a1, a2, a3, a4, a5⟩
    · exact ⟨c.done, Nat.le_refl _, h1, a4⟩
    · exact ⟨c.done, Nat.le_refl _, h1, a5⟩
    · refine ⟨_, Nat.le_add_right _ _, ?_, a5⟩
      have := unit_le (page := page) (o := off + c.done) (n := N - c.done) (by omega)
      omega
    · exact ⟨c.done, Nat.le_refl _, h1, a5⟩
  · intro hN
    rcases h4 with ⟨a1, a2, a3, a4⟩ | ⟨a0, a1, a2, a3, a4, a5⟩ | ⟨a0, a1, a2, a3, a4, a5⟩ | ⟨a0, a1, a2, a3, a4, a5⟩
    · exact ⟨hN ▸ a4, a1⟩
    all_goals omega

/-- the flash has reported no error -/
theorem noerr_step {page off N : Nat} {data : Nat → Byte} {m : Mem} (hc : Cond page off N) {c : Cl} (h : Inv page off data N m c) (hq : c.failed = false ∧ c.st.err = false)
    (e : Ev) (he : e ≠ .fin false) : (step page off data N c e).failed = false ∧ (step page off data N c e).st.err = false := by
  cases e with
  | fin g =>
    cases g
    · exact absurd rfl he
    · refine ⟨hq.1, ?_⟩
      simp only [step, fin]
      split
      · exact hq.2
      · simp [hq.2]
  | call =>
    by_cases hstop : c.failed ∨ c.done = N
    · simp only [step]; rw [if_pos hstop]; exact hq
    · obtain ⟨h1, h2, h3, h4⟩ := h
      have hn16 := hc.n16
      have ho16 := hc.o16
      have hlt : c.done < N := by
        have : ¬ c.done = N := fun hh => hstop (Or.inr hh)
        omega
      have hrem : 16 ≤ N - c.done := by omega
      have hrem16 : (N - c.done) % 16 = 0 := by omega
      have ho : (off + c.done) % 16 = 0 := by omega
      simp only [step]
      rw [if_neg hstop]
      rcases h4 with ⟨a1, a2, a3, a4⟩ | ⟨a0, a1, a2, a3, a4, a5⟩ | ⟨a0, a1, a2, a3, a4, a5⟩ | ⟨a0, a1, a2, a3, a4, a5⟩
      · rw [write_idle hrem hrem16 ho hc.ppos a1]; exact hq
      · rw [write_busy hrem hrem16 ho hc.ppos a2 (by simp [a4])]; exact hq
      · rw [write_fin hrem hrem16 hc.p16 ho hc.ppos a2 a4, if_neg (by simp [a3])]
        by_cases hz : N - c.done - unit page (off + c.done) (N - c.done) = 0
        · rw [if_pos hz]; exact hq
        · rw [if_neg hz]; exact hq
      · rw [hq.2] at a3; cases a3

/-- the driver's progress: it never goes back, and with a finished operation a call goes forward -/
theorem step_mono {page off N : Nat} {data : Nat → Byte} {m : Mem} (hc : Cond page off N) {c : Cl} (h : Inv page off data N m c) (hq : c.failed = false ∧ c.st.err = false) (hlt : c.done < N) :
    c.done < (step page off data N (step page off data N (step page off data N c .call) (.fin true)) .call).done := by
  obtain ⟨h1, h2, h3, h4⟩ := h
  have hn16 := hc.n16
  have ho16 := hc.o16
  have hrem : 16 ≤ N - c.done := by omega
  have hrem16 : (N - c.done) % 16 = 0 := by omega
  have ho : (off + c.done) % 16 = 0 := by omega
  have hstop : ¬ (c.failed ∨ c.done = N) := by simp [hq.1]; omega
  -- a call on a finished operation
  have key : ∀ c' : Cl, c'.failed = false → c'.done = c.done → c'.st.busy = true → c'.st.op = none → c'.st.err = false →
      c.done < (step page off data N c' .call).done := by
    intro c' b1 b2 b3 b4 b5
    simp only [step]
    rw [if_neg (by simp [b1]; omega), b2, write_fin hrem hrem16 hc.p16 ho hc.ppos b3 b4, if_neg (by simp [b5])]
    have := unit_pos (o := off + c.done) (n := N - c.done) hc.ppos
    by_cases hz : N - c.done - unit page (off + c.done) (N - c.done) = 0
    · rw [if_pos hz]
      show c.done < c.done + unit page (off + c.done) (N - c.done)
      omega
    · rw [if_neg hz]
      show c.done < c.done + unit page (off + c.done) (N - c.done)
      omega
  -- done never decreases
  have mono : ∀ (c' : Cl) (e : Ev), c'.done ≤ (step page off data N c' e).done := by
    intro c' e
    cases e with
    | fin g => exact Nat.le_refl _
    | call =>
      simp only [step]
      split
      · exact Nat.le_refl _
      · split
        · exact Nat.le_add_right _ _
        · exact Nat.le_refl _
        · exact Nat.le_refl _
  rcases h4 with ⟨a1, a2, a3, a4⟩ | ⟨a0, a1, a2, a3, a4, a5⟩ | ⟨a0, a1, a2, a3, a4, a5⟩ | ⟨a0, a1, a2, a3, a4, a5⟩
  · have e1 : step page off data N c .call =
        { c with st := { c.st with busy := true, op := some (.prog (off + c.done) (unit page (off + c.done) (N - c.done)) (fun i => data (c.done + i))) } } := by
      simp only [step]
      rw [if_neg hstop, write_idle hrem hrem16 ho hc.ppos a1]
    rw [e1]
    exact key _ hq.1 rfl rfl rfl (by simp [step, fin, hq.2])
  · have e1 : step page off data N c .call = c := by
      simp only [step]
      rw [if_neg hstop, write_busy hrem hrem16 ho hc.ppos a2 (by simp [a4])]
    rw [e1]
    exact key _ hq.1 rfl (by simp [step, fin, a4, a2]) (by simp [step, fin, a4]) (by simp [step, fin, a4, hq.2])
  · exact Nat.lt_of_lt_of_le (key c hq.1 rfl a2 a4 a3) (Nat.le_trans (mono _ (.fin true)) (mono _ .call))
  · rw [hq.2] at a3; cases a3

theorem noerr_run {page off N : Nat} {data : Nat → Byte} {m : Mem} (hc : Cond page off N) (l : List Ev) : ∀ c, Inv page off data N m c → c.failed = false ∧ c.st.err = false →
    (∀ e ∈ l, e ≠ .fin false) → (run page off data N l c).failed = false ∧ (run page off data N l c).st.err = false := by
  induction l with
  | nil => intro c _ hq _; exact hq
  | cons e t ih =>
    intro c h hq hl
    exact ih _ (inv_step hc h e) (noerr_step hc h hq e (hl e (by simp))) (fun e' he' => hl e' (by simp [he']))

/-- **completion**: as long as the flash reports no error, wherever the run is, three steps (a call, the end of an operation, a call) make progress, so repeating them ends -/
theorem same5x_write_completes {page off N : Nat} (data : Nat → Byte) (m : Mem) (hc : Cond page off N) (l : List Ev) (hl : ∀ e ∈ l, e ≠ .fin false) :
    ∃ k, (run page off data N (l ++ (List.replicate k [Ev.call, Ev.fin true, Ev.call]).flatten) (start m)).done = N := by
  have hi := inv_run hc l _ (inv_start page off data N m)
  have hq := noerr_run hc l _ (inv_start page off data N m) ⟨rfl, rfl⟩ hl
  have gen : ∀ r c, Inv page off data N m c → c.failed = false ∧ c.st.err = false → N - c.done ≤ r →
      ∃ k, (run page off data N (List.replicate k [Ev.call, Ev.fin true, Ev.call]).flatten c).done = N := by
    intro r
    induction r with
    | zero => intro c h _ hr; exact ⟨0, by have := h.le; show c.done = N; omega⟩
    | succ r ih =>
      intro c h hq hr
      by_cases hd : c.done = N
      · exact ⟨0, hd⟩
      · have hlt : c.done < N := by have := h.le; omega
        have hp := step_mono hc h hq hlt
        have i1 := inv_step hc h .call
        have i2 := inv_step hc i1 (.fin true)
        have q1 := noerr_step hc h hq .call (by simp)
        have q2 := noerr_step hc i1 q1 (.fin true) (by simp)
        obtain ⟨k, hk⟩ := ih _ (inv_step hc i2 .call) (noerr_step hc i2 q2 .call (by simp)) (by omega)
        refine ⟨k + 1, ?_⟩
        rw [List.replicate_succ, List.flatten_cons]
        exact hk
  obtain ⟨k, hk⟩ := gen _ _ hi hq (Nat.le_refl _)
  refine ⟨k, ?_⟩
  simp only [run, List.foldl_append] at hk ⊢
  exact hk

/-- **the missing case**: 16 bytes at the end of a page then a whole page. The driver starts the first quad word of the page, then counts the whole page as written: the
client is told that everything is written (no error, operations all ended well) and page - 16 bytes never reach the flash. -/
theorem same5x_lost {page off : Nat} (data : Nat → Byte) (m : Mem) (hp16 : page % 16 = 0) (hp : 32 ≤ page) (ho : off % page = page - 16) :
    let c := run page off data (16 + page) [.call, .fin true, .call, .fin true, .call] (start m)
    c.done = 16 + page ∧ c.failed = false ∧ c.st.mem = programmed off 32 data m := by
  have ho16 : off % 16 = 0 := by
    have h := Nat.div_add_mod off page
    obtain ⟨q, hq⟩ : ∃ q, page = 16 * q := ⟨page / 16, by omega⟩
    have : off = 16 * (q * (off / page) + (q - 1)) := by
      rw [Nat.mul_add, ← Nat.mul_assoc, ← hq]; omega
    omega
  have ho2 : (off + 16) % page = 0 := by
    rw [Nat.add_mod, ho]
    by_cases h : page = 16
    · omega
    · rw [Nat.mod_eq_of_lt (by omega : 16 < page), show page - 16 + 16 = page from by omega, Nat.mod_self]
  have u1 : unit page off (16 + page) = 16 := by unfold unit; rw [if_neg]; rw [ho]; omega
  have u2 : unit page off (16 + page - 16) = 16 := by unfold unit; rw [if_neg]; rw [ho]; omega
  have u3 : unit page (off + 16) page = page := by unfold unit; rw [if_pos ⟨ho2, Nat.le_refl _⟩]
  have s1 : step page off data (16 + page) (start m) .call = ⟨⟨true, m, some (.prog off 16 data), false⟩, 0, false⟩ := by
    have e0 : start m = ⟨⟨false, m, none, false⟩, 0, false⟩ := rfl
    rw [e0]
    simp only [step]
    rw [if_neg (by simp; omega), Nat.sub_zero, Nat.add_zero, write_idle (by omega) (by omega) ho16 (by omega) rfl, u1]
    simp
  have s2 : step page off data (16 + page) ⟨⟨true, m, some (.prog off 16 data), false⟩, 0, false⟩ (.fin true) = ⟨⟨true, programmed off 16 data m, none, false⟩, 0, false⟩ := by
    simp [step, fin, exec]
  have s3 : step page off data (16 + page) ⟨⟨true, programmed off 16 data m, none, false⟩, 0, false⟩ .call =
      ⟨⟨true, programmed off 16 data m, some (.prog (off + 16) 16 (fun i => data (16 + i))), false⟩, 16, false⟩ := by
    simp only [step]
    rw [if_neg (by simp; omega), Nat.sub_zero, Nat.add_zero, write_fin (by omega) (by omega) hp16 ho16 (by omega) rfl rfl, u1, u2]
    rw [if_neg (by simp), if_neg (by omega)]
    simp
  have s4 : step page off data (16 + page) ⟨⟨true, programmed off 16 data m, some (.prog (off + 16) 16 (fun i => data (16 + i))), false⟩, 16, false⟩ (.fin true) =
      ⟨⟨true, programmed off 32 data m, none, false⟩, 16, false⟩ := by
    simp [step, fin, exec, programmed_add]
  have s5 : step page off data (16 + page) ⟨⟨true, programmed off 32 data m, none, false⟩, 16, false⟩ .call = ⟨⟨false, programmed off 32 data m, none, false⟩, 16 + page, false⟩ := by
    simp only [step]
    rw [if_neg (by simp; omega), show 16 + page - 16 = page from by omega, write_fin (by omega) (by omega) hp16 (by omega) (by omega) rfl rfl, u3]
    rw [if_neg (by simp), if_pos (by omega)]
  have : run page off data (16 + page) [.call, .fin true, .call, .fin true, .call] (start m) = ⟨⟨false, programmed off 32 data m, none, false⟩, 16 + page, false⟩ := by
    simp only [run, List.foldl_cons, List.foldl_nil]
    rw [s1, s2, s3, s4, s5]
  intro c
  have hc : c = _ := this
  rw [hc]
  exact ⟨rfl, rfl, rfl⟩

/-! flash_erase -/

def eraseRun (page total off : Nat) (l : List Ev) (m : Mem) : St × Option Res := l.foldl (eraseStep page total off) (⟨false, m, none, false⟩, none)

/-- the erase block of an address -/
def blk (page off : Nat) (m : Mem) : Mem := erased (off / (16 * page) * (16 * page)) (16 * page) m

/-- **C75 (partial), flash_erase of drivers/flash/flash-same5x.c**: when it returns 0 the block of 16 pages that contains the sector is erased, until then the contents are as
they were or erased; no other block ever changes. Missing: the sector (attr.erase_unit_len, one page) is not all that is erased (`same5x_erase_wide`). -/
theorem same5x_erase_partial {page total off : Nat} (m : Mem) (l : List Ev) :
    let c := eraseRun page total off l m
    (c.1.mem = m ∨ c.1.mem = blk page off m) ∧ (∀ n, c.2 = some (.ok n) → c.1.mem = blk page off m ∧ off < total ∧ off % page = 0) := by
  have inv : ∀ (l : List Ev) (c : St × Option Res),
      ((c.1.busy = false ∧ c.1.op = none ∧ c.1.err = false ∧ (c.2 = none ∨ c.2 = some .efault ∨ c.2 = some .einval) ∧ c.1.mem = m) ∨
       (off < total ∧ off % page = 0 ∧ c.2 = some .eagain ∧ c.1.busy = true ∧ c.1.err = false ∧ c.1.op = some (.erase off) ∧ c.1.mem = m) ∨
       (off < total ∧ off % page = 0 ∧ c.2 = some .eagain ∧ c.1.busy = true ∧ c.1.err = false ∧ c.1.op = none ∧ c.1.mem = blk page off m) ∨
       (off < total ∧ off % page = 0 ∧ c.2 = some .eagain ∧ c.1.busy = true ∧ c.1.err = true ∧ c.1.op = none ∧ c.1.mem = m) ∨
       (off < total ∧ off % page = 0 ∧ c.2 = some (.ok 0) ∧ c.1.op = none ∧ c.1.mem = blk page off m)) →
      (let c' := l.foldl (eraseStep page total off) c
       (c'.1.mem = m ∨ c'.1.mem = blk page off m) ∧ (∀ n, c'.2 = some (.ok n) → c'.1.mem = blk page off m ∧ off < total ∧ off % page = 0)) := by
    intro l
    induction l with
    | nil =>
      intro c h
      rcases h with ⟨_, _, _, h, hm⟩ | ⟨_, _, h, _, _, _, hm⟩ | ⟨_, _, h, _, _, _, hm⟩ | ⟨_, _, h, _, _, _, hm⟩ | ⟨h1, h2, h, _, hm⟩
      · refine ⟨Or.inl hm, ?_⟩
        intro n hn
        have hn : c.2 = some (.ok n) := hn
        rcases h with h | h | h <;> rw [h] at hn <;> cases hn
      · refine ⟨Or.inl hm, ?_⟩
        intro n hn
        have hn : c.2 = some (.ok n) := hn
        rw [h] at hn; cases hn
      · refine ⟨Or.inr hm, ?_⟩
        intro n hn
        have hn : c.2 = some (.ok n) := hn
        rw [h] at hn; cases hn
      · refine ⟨Or.inl hm, ?_⟩
        intro n hn
        have hn : c.2 = some (.ok n) := hn
        rw [h] at hn; cases hn
      · exact ⟨Or.inr hm, fun n _ => ⟨hm, h1, h2⟩⟩
    | cons e t ih =>
      intro c h
      refine ih _ ?_
      obtain ⟨s, r⟩ := c
      rcases h with ⟨a1, a2, a3, a4, a5⟩ | ⟨x1, x2, a1, a2, a3, a4, a5⟩ | ⟨x1, x2, a1, a2, a3, a4, a5⟩ | ⟨x1, x2, a1, a2, a3, a4, a5⟩ | ⟨x1, x2, a1, a2, a3⟩
      · simp only at a1 a2 a3 a4 a5
        cases e with
        | fin g => left; simpa [eraseStep, fin, a2] using ⟨a1, a3, a4, a5⟩
        | call =>
          rcases a4 with h | h | h
          · subst h
            by_cases b1 : off ≥ total
            · left; simp only [eraseStep, erase]; rw [if_pos b1]; exact ⟨a1, a2, a3, Or.inr (Or.inr rfl), a5⟩
            · by_cases b2 : off % page ≠ 0
              · left; simp only [eraseStep, erase]; rw [if_neg b1, if_pos b2]; exact ⟨a1, a2, a3, Or.inr (Or.inr rfl), a5⟩
              · right; left
                simp only [eraseStep, erase]
                rw [if_neg b1, if_neg b2, if_neg (by simp [a1])]
                exact ⟨by omega, by omega, rfl, rfl, a3, rfl, a5⟩
          · subst h; left; exact ⟨a1, a2, a3, Or.inr (Or.inl rfl), a5⟩
          · subst h; left; exact ⟨a1, a2, a3, Or.inr (Or.inr rfl), a5⟩
      · simp only at a1 a2 a3 a4 a5
        subst a1
        cases e with
        | fin g =>
          cases g
          · right; right; right; left; simp [eraseStep, fin, a4, a2, a3, a5, x1, x2]
          · right; right; left; simp [eraseStep, fin, a4, a2, a3, a5, x1, x2, exec, blk, blockLen]
        | call =>
          right; left
          simp only [eraseStep, erase]
          rw [if_neg (by omega), if_neg (by omega), if_pos a2]
          simp [busyStep, a4, x1, x2, a2, a3, a5]
      · simp only at a1 a2 a3 a4 a5
        subst a1
        cases e with
        | fin g => right; right; left; simp [eraseStep, fin, a4, a2, a3, a5, x1, x2]
        | call =>
          right; right; right; right
          simp only [eraseStep, erase]
          rw [if_neg (by omega), if_neg (by omega), if_pos a2]
          simp [busyStep, a4, x1, x2, a3, a5]
      · simp only at a1 a2 a3 a4 a5
        subst a1
        cases e with
        | fin g => right; right; right; left; simp [eraseStep, fin, a4, a2, a3, a5, x1, x2]
        | call =>
          left
          simp only [eraseStep, erase]
          rw [if_neg (by omega), if_neg (by omega), if_pos a2]
          simp [busyStep, a4, a3, a5]
      · simp only at a1 a2 a3
        subst a1
        right; right; right; right
        cases e with
        | fin g => simp [eraseStep, fin, a2, a3, x1, x2]
        | call => simp [eraseStep, a2, a3, x1, x2]
  exact inv l _ (Or.inl ⟨rfl, rfl, rfl, Or.inl rfl, rfl⟩)

/-- the sector asked is erased by it ... -/
theorem same5x_erase_sector {page off : Nat} (hp : 0 < page) (ho : off % page = 0) (m : Mem) (x : Nat) (h1 : off ≤ x) (h2 : x < off + page) : blk page off m x = 0xff := by
  unfold blk erased
  have hb : 0 < 16 * page := by omega
  have e := Nat.div_add_mod off (16 * page)
  have hlt := Nat.mod_lt off hb
  rw [Nat.mul_comm] at e
  obtain ⟨q, hq⟩ : ∃ q, off = page * q := ⟨off / page, by have := Nat.div_add_mod off page; omega⟩
  have hmod : off % (16 * page) = page * (q % 16) := by rw [hq, Nat.mul_comm 16 page, Nat.mul_mod_mul_left]
  have : page * (q % 16) + page ≤ 16 * page := by
    have : q % 16 + 1 ≤ 16 := by omega
    calc page * (q % 16) + page = page * (q % 16 + 1) := by rw [Nat.mul_add, Nat.mul_one]
      _ ≤ page * 16 := Nat.mul_le_mul_left _ this
      _ = 16 * page := Nat.mul_comm _ _
  rw [if_pos (by omega)]

/-- ... and 15 others with it: erasing the first sector of a block erases the next one -/
theorem same5x_erase_wide {page : Nat} (hp : 0 < page) (b : Nat) (m : Mem) (x : Nat) (h1 : b * (16 * page) + page ≤ x) (h2 : x < b * (16 * page) + 16 * page) :
    blk page (b * (16 * page)) m x = 0xff := by
  unfold blk erased
  rw [Nat.mul_div_cancel _ (by omega : 0 < 16 * page), if_pos (by omega)]

end Same5x

/-! ### flash-gd32vf103.c -/

namespace Gd32

/-- contents after the words `data 0 .. data (n-1)`, from address `a` on -/
def written (a n : Nat) (data : Nat → Byte) (m : Mem) : Mem := fun x => if a ≤ x ∧ x < a + n then data (x - a) else m x

theorem store_eq (a k : Nat) (data : Nat → Byte) (m : Mem) (he : ∀ x, a + k ≤ x → x < a + k + 4 → m x = 0xff) :
    store (a + k) (fun i => data (k + i)) (written a k data m) = written a (k + 4) data m := by
  unfold store
  have hw : ∀ x, a + k ≤ x → x < a + k + 4 → written a k data m x = 0xff := by
    intro x h1 h2
    unfold written
    rw [if_neg (by omega)]
    exact he x h1 h2
  rw [if_pos ⟨hw _ (by omega) (by omega), hw _ (by omega) (by omega), hw _ (by omega) (by omega), hw _ (by omega) (by omega)⟩]
  funext x
  unfold written
  by_cases h : a + k ≤ x ∧ x < a + k + 4
  · rw [if_pos h, if_pos (by omega)]
    show data (k + (x - (a + k))) = _
    rw [show k + (x - (a + k)) = x - a from by omega]
  · rw [if_neg h]
    by_cases h' : a ≤ x ∧ x < a + k
    · rw [if_pos h', if_pos (by omega)]
    · rw [if_neg h', if_neg (by omega)]

theorem loop_spec {offset n : Nat} {data : Nat → Byte} {m : Mem} (he : ∀ x, offset ≤ x → x < offset + n → m x = 0xff) (h4 : n % 4 = 0) :
    ∀ fuel k b, k ≤ n → k % 4 = 0 → ∃ j, k ≤ j ∧ j ≤ n ∧ j % 4 = 0 ∧ writeLoop offset data n fuel k b (written offset k data m) = (written offset j data m, j) := by
  intro fuel
  induction fuel with
  | zero => intro k b hk hk4; exact ⟨k, by omega, hk, hk4, rfl⟩
  | succ f ih =>
    intro k b hk hk4
    rw [writeLoop]
    by_cases h1 : k = n
    · rw [if_pos h1]; exact ⟨k, by omega, hk, hk4, rfl⟩
    · rw [if_neg h1]
      by_cases h2 : b 0
      · rw [if_pos h2]; exact ⟨k, by omega, hk, hk4, rfl⟩
      · rw [if_neg h2, store_eq offset k data m (fun x a b => he x (by omega) (by omega))]
        obtain ⟨j, j1, j2, j3, j4⟩ := ih (k + 4) (fun i => b (i + 1)) (by omega) (by omega)
        exact ⟨j, by omega, j2, j3, j4⟩

/-- **C75 (partial), flash_write of drivers/flash/flash-gd32vf103.c**: in an erased area, whenever the controller is busy, the number returned is the number of bytes
written, from the beginning of the data, and nothing else has changed. Missing: an area that is not erased (`gd32_silent`). -/
theorem gd32_write_partial {total offset n : Nat} (data : Nat → Byte) (b : Nat → Bool) (m : Mem) (he : ∀ x, offset ≤ x → x < offset + n → m x = 0xff) :
    let r := write total offset data n b m
    (∀ k, r.2 = .ok k → 0 < k ∧ k ≤ n ∧ r.1 = written offset k data m) ∧ ((∀ k, r.2 ≠ .ok k) → r.1 = m) := by
  intro r
  have hr : r = write total offset data n b m := rfl
  unfold write at hr
  have hw0 : written offset 0 data m = m := by funext x; unfold written; rw [if_neg (by omega)]
  by_cases h1 : n = 0 ∨ n ≥ total ∨ n % 4 ≠ 0
  · rw [if_pos h1] at hr; rw [hr]
    exact ⟨(by intro k h; cases h), fun _ => rfl⟩
  · rw [if_neg h1] at hr
    by_cases h2 : b 0
    · rw [if_pos h2] at hr; rw [hr]; exact ⟨(by intro k h; cases h), fun _ => rfl⟩
    · rw [if_neg h2] at hr
      obtain ⟨j, j1, j2, j3, j4⟩ := loop_spec (data := data) he (by omega) n 0 (fun i => b (i + 1)) (by omega) rfl
      rw [hw0] at j4
      simp only [j4] at hr
      rw [hr]
      by_cases h0 : j = 0
      · subst h0
        refine ⟨(by intro k h; cases h), fun _ => hw0⟩
      · simp only [h0, if_false]
        refine ⟨?_, fun h => absurd rfl (h j)⟩
        intro k hk
        injection hk with hk
        subst hk
        exact ⟨by omega, j2, rfl⟩

/-- a word that is not erased is not written, and flash_write still counts it: errors are never looked at -/
theorem gd32_silent {total offset : Nat} (data : Nat → Byte) (m : Mem) (ht : 4 < total) (h : m offset ≠ 0xff) :
    write total offset data 4 (fun _ => false) m = (m, .ok 4) := by
  unfold write
  rw [if_neg (by omega)]
  simp only [Bool.false_eq_true, if_false, writeLoop]
  simp [store]
  intro a; exact absurd a h

end Gd32

/-! ### flash-atmel_eefc.c -/

namespace Eefc

theorem fcr_eq (farg fcmd : Nat) : fcr farg fcmd = 0x5a * 2 ^ 24 + (farg % 2 ^ 16 * 2 ^ 8 + fcmd % 2 ^ 8) := by
  unfold fcr
  rw [show farg &&& 0xffff = farg % 2 ^ 16 from Nat.and_two_pow_sub_one_eq_mod farg 16, show fcmd &&& 0xff = fcmd % 2 ^ 8 from Nat.and_two_pow_sub_one_eq_mod fcmd 8,
    Nat.shiftLeft_eq, Nat.shiftLeft_eq, Nat.or_assoc, Nat.mul_comm (farg % 2 ^ 16), ← Nat.two_pow_add_eq_or_of_lt (by omega), Nat.mul_comm (90 &&& 255),
    ← Nat.two_pow_add_eq_or_of_lt (by omega)]
  have : (90 &&& 255 : Nat) = 90 := by decide
  rw [this]

/-- **C75 fails on flash_erase of drivers/flash/flash-atmel_eefc.c**: with 512-byte pages, the pages erased are the ones of the sector only for sector 0 (the byte offset is
used as a page number). -/
theorem eefc_erase_iff {total offset : Nat} (fsr : Bool × Bool × Bool × Bool) (s : St) (hs : s.pending = false) (ho : offset % 8192 = 0) (ht : offset < total) :
    let c := (erase 8192 total offset fsr s).1.cmd
    fcmdOf c = 0x07 ∧ (epaFirst c = offset / 512 ↔ offset = 0) := by
  intro c
  have hor : offset ||| 0x2 = offset + 2 := by
    have := Nat.two_pow_add_eq_or_of_lt (i := 13) (b := 2) (by omega) (offset / 8192)
    have e : 2 ^ 13 * (offset / 8192) = offset := by omega
    rw [e] at this
    exact this.symm
  have hc : c = fcr (offset + 2) 0x07 := by
    show (erase 8192 total offset fsr s).1.cmd = _
    unfold erase
    rw [if_neg (by omega), if_neg (by omega), if_pos (by simp [hs]), hor]
  rw [hc, fcr_eq]
  unfold epaFirst fargOf fcmdOf
  constructor
  · omega
  · constructor <;> intro h <;> omega

/-- **C75 fails on flash_write of drivers/flash/flash-atmel_eefc.c**: whatever the offset, the page programmed is page 0 (the page number is left out of the command), and
success is reported as 0 bytes. -/
theorem eefc_write_page0 {page total offset n : Nat} (data : Nat → Byte) (fsr : Bool × Bool × Bool × Bool) (s : St) (hs : s.pending = false) (hn : 0 < n)
    (ho : offset % page = 0) (ht : offset + n < total) :
    let r := write page total offset data n fsr s
    r.2 = .eagain ∧ fcmdOf r.1.cmd = 0x01 ∧ fargOf r.1.cmd = 0 ∧ ∀ fsr', ∀ k, (write page total offset data n fsr' r.1).2 = .ok k → k = 0 := by
  intro r
  have hr : r = ({ s with latch := s.latch ++ (List.range (min n page)).map (fun i => (offset + i, data i)), cmd := 0x5a <<< 24 ||| 0x01, pending := true }, .eagain) := by
    show write page total offset data n fsr s = _
    unfold write
    rw [if_neg (by omega), if_neg (by omega), if_neg (by omega), if_pos (by simp [hs])]
  rw [hr]
  refine ⟨rfl, (by show fcmdOf (0x5a <<< 24 ||| 0x01) = 1; decide), (by show fargOf (0x5a <<< 24 ||| 0x01) = 0; decide), ?_⟩
  intro f k hk
  unfold write at hk
  rw [if_neg (by omega), if_neg (by omega), if_neg (by omega), if_neg (by simp)] at hk
  simp only [result] at hk
  split at hk
  · cases hk
  split at hk
  · cases hk
  split at hk
  · cases hk
  split at hk
  · injection hk with hk; exact hk.symm
  · cases hk

/-- flash_lock and flash_unlock designate the right page (below 65536) -/
theorem eefc_lock {fcmd page offset : Nat} (fsr : Bool × Bool × Bool × Bool) (s : St) (hs : s.pending = false) (hf : fcmd < 256) (ho : offset % page = 0)
    (h : offset / page < 65536) : fargOf (lock fcmd page offset fsr s).1.cmd = offset / page ∧ fcmdOf (lock fcmd page offset fsr s).1.cmd = fcmd := by
  unfold lock
  rw [if_neg (by omega), if_pos (by simp [hs])]
  simp only [fcr_eq]
  unfold fargOf fcmdOf
  generalize offset / page = x at *
  omega

end Eefc

/-! ### Non-vacuity -/

example : Same5x.Cond 512 1024 1056 := ⟨by omega, by omega, by omega, by omega, Or.inl (by omega)⟩
example : Same5x.Cond 512 1040 512 := ⟨by omega, by omega, by omega, by omega, Or.inr (by omega)⟩
example : (Same5x.eraseRun 512 65536 512 [.call, .call, .fin true, .call] (fun _ => 0)).2 = some (.ok 0) := by decide
example : (Gd32.write 1024 0 (fun i => BitVec.ofNat 8 i) 8 (fun i => i == 2) (fun _ => 0xff)).2 = .ok 4 := by decide

end Pico.FlashInt
