import Verif.Drivers.PwmRunProps
namespace Pico.PwmRun
open Pico Pico.Field

/-- drivers where the outputs of a counter are started and stopped together -/
def Tog (k : Kind) : Prop := k = .tc ∨ k = .avr ∨ k = .ra4 ∨ k = .rp2040 ∨ k = .same5x

/-- the counter of an output -/
def group (k : Kind) (o : Nat) : Nat := match k with | .rp2040 => o / 2 | _ => 0

/-- what the calls ask of a counter: running iff the last pwm_start or pwm_stop of any of its outputs is pwm_start -/
def tog1 (k : Kind) (o : Nat) (b : Bool) (c : Call) : Bool :=
  if group k c.out = group k o then (match c.op with | .start => true | .stop => false | _ => b) else b

theorem cs_start (v sel : Word) : Field.get 3 0 ((((v &&& ~~~(7 : Word)) ||| (0 : Word)) &&& ~~~(0 : Word)) ||| (sel &&& (7 : Word))) = Field.get 3 0 sel := by
  apply BitVec.eq_of_getLsbD_eq
  intro i hi
  rw [get_bit, get_bit]
  by_cases h : i < 3
  · obtain rfl | rfl | rfl : i = 0 ∨ i = 1 ∨ i = 2 := by omega
    · simp
    · simp
    · simp
  · rw [decide_eq_false h, Bool.false_and, Bool.false_and]

theorem cs_stop (v : Word) : Field.get 3 0 ((v &&& ~~~(7 : Word)) ||| (0 : Word)) = 0 := by
  apply BitVec.eq_of_getLsbD_eq
  intro i hi
  rw [get_bit]
  by_cases h : i < 3
  · obtain rfl | rfl | rfl : i = 0 ∨ i = 1 ∨ i = 2 := by omega
    · simp
    · simp
    · simp
  · rw [decide_eq_false h, Bool.false_and]; simp

theorem tog_step (k : Kind) (hk : Tog k) (c : Call) (hc : Ok k c) (m : Regs) (a : Word × Word) (o : Nat) :
    counts k (execAll (code k c.par c.out c.op) (m, a)).1 o = tog1 k o (counts k m o) c := by
  obtain ⟨out, op, par⟩ := c
  obtain ⟨h1, h2, h3⟩ := hc
  simp only at h1 h2 h3 ⊢
  rcases hk with h | h | h | h | h <;> subst h <;> cases op <;>
    simp only [outs] at h1 <;>
    simp (disch := omega) only [code, start, stop, period, duty, orr, andn, List.cons_append, List.nil_append, execAll, exec, counts, tog1, group, reduceCtorEq,
      decide_false, decide_true, Bool.and_false, Bool.and_true, Bool.false_or, Bool.true_or, Bool.false_and, upd_at,
      ↓reduceIte, st_bit, one_at, zero_at, set_bit, clr_bit, h2, shl_one, upd_at, Nat.zero_ne_one, Nat.one_ne_zero, Nat.add_right_cancel_iff, zs, if_false,
      bset_same, bclr_same, cs_start, cs_stop]
  · rw [if_neg (show ¬((5 : Word).getLsbD 1 = true) by decide), if_pos (show (5 : Word).getLsbD 0 = true by decide), upd_at, if_pos rfl]
    exact bset_same 0 _ (by omega)
  · rw [if_pos (show (2 : Word).getLsbD 1 = true by decide), upd_at, if_pos rfl]
    exact bclr_same 0 _
  · exact decide_eq_true h3
  · exact decide_eq_false (fun h => h rfl)
  · simp
  · simp
  · simp [show (117440512 : Word).getLsbD 0 = false from rfl]
  · by_cases e : out / 2 = o / 2
    · rw [if_pos e.symm, st_bit _ _ _ _ (by omega)]; simp [e]
    · rw [if_neg (fun h => e h.symm)]; simp [e]
  · by_cases e : out / 2 = o / 2
    · rw [if_pos e.symm, st_bit _ _ _ _ (by omega)]; simp [e]
    · rw [if_neg (fun h => e h.symm)]; simp [e]
  · simp
  · simp
  · simp
  · rw [if_neg (show ¬(2 = 1) by omega), upd_at, if_neg (show ¬(0 = 1) by omega), upd_at, if_pos rfl, st_bit _ _ _ _ (by omega)]
    simp

/-- **C108**, sam3x_tc, atsamx7x_tc, avr, renesas_ra4_gpt, rp2040, same5x_tc: exactly what is obtained: an output runs iff the last pwm_start or pwm_stop made for it
*or for another output of the same counter* is pwm_start -/
theorem together_exact (k : Kind) (hk : Tog k) (l : List Call) (m : Regs) (a : Word × Word) (hf : Fresh k m) (hv : Valid k l) (o : Nat) :
    runs k (calls k l (m, a)).1 o = l.foldl (tog1 k o) false := by
  have h : ∀ (l : List Call) (m : Regs) (a : Word × Word), Valid k l → counts k (calls k l (m, a)).1 o = l.foldl (tog1 k o) (counts k m o) := by
    intro l
    induction l with
    | nil => intro m a _; rfl
    | cons c l ih =>
      intro m a hv
      have h := ih (execAll (code k c.par c.out c.op) (m, a)).1 (execAll (code k c.par c.out c.op) (m, a)).2 (fun x hx => hv x (List.mem_cons_of_mem _ hx))
      show counts k (calls k l (execAll (code k c.par c.out c.op) (m, a))).1 o = _
      rw [h, tog_step k hk c (hv c List.mem_cons_self) m a o]; rfl
  have h0 : counts k m o = false := by
    rcases hk with h | h | h | h | h <;> subst h <;> simp only [Fresh] at hf <;> simp only [counts]
    · rw [hf 0]; rfl
    · rw [hf 0]; decide
    · rw [hf 0]; rfl
    · rw [hf (o / 2)]; rfl
    · rw [hf 0]; rfl
  unfold runs
  rw [h l m a hv, h0]
  have : ∀ x, enabled k x o = true := by intro x; rcases hk with h | h | h | h | h <;> subst h <;> rfl
  rw [this, Bool.true_and]

/-- **C108** for them, when one output only of each counter is used -/
theorem together_right_partial (k : Kind) (hk : Tog k) (l : List Call) (m : Regs) (a : Word × Word) (hf : Fresh k m) (hv : Valid k l) (o : Nat)
    (h : ∀ c ∈ l, group k c.out = group k o → c.out = o) : runs k (calls k l (m, a)).1 o = said o l := by
  rw [together_exact k hk l m a hf hv o]
  unfold said
  have : ∀ (l : List Call), (∀ c ∈ l, group k c.out = group k o → c.out = o) → ∀ b, l.foldl (tog1 k o) b = l.foldl (said1 o) b := by
    intro l
    induction l with
    | nil => intro _ b; rfl
    | cons c l ih =>
      intro h b
      have e : tog1 k o b c = said1 o b c := by
        unfold tog1 said1
        by_cases e : c.out = o
        · rw [if_pos e, if_pos (by rw [e])]; cases c.op <;> rfl
        · rw [if_neg e, if_neg (fun hg => e (h c List.mem_cons_self hg))]
      show l.foldl (tog1 k o) (tog1 k o b c) = l.foldl (said1 o) (said1 o b c)
      rw [e, ih (fun x hx => h x (List.mem_cons_of_mem _ hx))]
  exact this l h false

/-- **C108, refuted for them**: pwm_stop of an output stops another one that was started; pwm_start of an output starts another one -/
theorem together_wrong (k : Kind) (hk : Tog k) (m : Regs) (a : Word × Word) (hf : Fresh k m) :
    (runs k (calls k [start0, start1, stop0] (m, a)).1 1 = false ∧ said 1 [start0, start1, stop0] = true) ∧
    (runs k (calls k [start0] (m, a)).1 1 = true ∧ said 1 [start0] = false) ∧ ¬ Right k := by
  have h1 : runs k (calls k [start0, start1, stop0] (m, a)).1 1 = false := by
    rw [together_exact k hk _ m a hf (demo_ok k _ (by simp)) 1]
    rcases hk with h | h | h | h | h <;> subst h <;> rfl
  have h2 : runs k (calls k [start0] (m, a)).1 1 = true := by
    rw [together_exact k hk _ m a hf (demo_ok k _ (by simp)) 1]
    rcases hk with h | h | h | h | h <;> subst h <;> rfl
  refine ⟨⟨h1, rfl⟩, ⟨h2, rfl⟩, fun hr => ?_⟩
  have := hr [start0] m a hf (demo_ok k _ (by simp)) 1 (by rcases hk with h | h | h | h | h <;> subst h <;> decide)
  rw [h2] at this
  cases this

/-- the hypotheses are met -/
example (k : Kind) (hk : Tog k) : Fresh k (fun _ => 0) := by rcases hk with h | h | h | h | h <;> subst h <;> exact fun _ => rfl

/-! ### stm32h7xx -/

theorem stm32_step (c : Call) (hc : Ok .stm32 c) (m : Regs) (a : Word × Word) (o : Nat) (ho : o < 5) :
    enabled .stm32 (execAll (code .stm32 c.par c.out c.op) (m, a)).1 o = said1 o (enabled .stm32 m o) c ∧
    counts .stm32 (execAll (code .stm32 c.par c.out c.op) (m, a)).1 o = tog1 .stm32 o (counts .stm32 m o) c := by
  obtain ⟨out, op, par⟩ := c
  obtain ⟨h1, h2, h3⟩ := hc
  simp only [outs] at h1
  constructor
  · cases op <;>
      simp only [code, start, stop, period, duty, orr, andn, List.cons_append, List.nil_append, execAll, exec, enabled, said1, upd_at] <;>
      (by_cases e : out = o
       · subst e
         simp (disch := omega) only [↓reduceIte, st_bit, one_at, zero_at, upd_at, Nat.zero_ne_one, Nat.one_ne_zero, if_false, Nat.mul_comm]
         try simp
       · simp (disch := omega) only [↓reduceIte, st_bit, one_at, zero_at, upd_at, Nat.zero_ne_one, Nat.one_ne_zero, if_false, e]
         try simp
         try (intros; omega))
  · cases op <;>
      simp (disch := omega) only [code, start, stop, period, duty, orr, andn, List.cons_append, List.nil_append, execAll, exec, counts, tog1, group, upd_at,
        ↓reduceIte, st_bit, zero_at, upd_at, Nat.zero_ne_one, Nat.one_ne_zero, if_false]
    · simp
    · simp

/-- **C108, stm32h7xx**: exactly: an output runs iff the last call for it is pwm_start, and the last pwm_start or pwm_stop of all is a pwm_start -/
theorem stm32_exact (l : List Call) (m : Regs) (a : Word × Word) (hf : Fresh .stm32 m) (hv : Valid .stm32 l) (o : Nat) (ho : o < outs .stm32) :
    runs .stm32 (calls .stm32 l (m, a)).1 o = (said o l && l.foldl (tog1 .stm32 o) false) := by
  have h : ∀ (l : List Call) (m : Regs) (a : Word × Word), Valid .stm32 l →
      enabled .stm32 (calls .stm32 l (m, a)).1 o = l.foldl (said1 o) (enabled .stm32 m o) ∧
      counts .stm32 (calls .stm32 l (m, a)).1 o = l.foldl (tog1 .stm32 o) (counts .stm32 m o) := by
    intro l
    induction l with
    | nil => intro m a _; exact ⟨rfl, rfl⟩
    | cons c l ih =>
      intro m a hv
      have h := ih (execAll (code .stm32 c.par c.out c.op) (m, a)).1 (execAll (code .stm32 c.par c.out c.op) (m, a)).2 (fun x hx => hv x (List.mem_cons_of_mem _ hx))
      obtain ⟨e1, e2⟩ := stm32_step c (hv c List.mem_cons_self) m a o ho
      refine ⟨?_, ?_⟩
      · show enabled .stm32 (calls .stm32 l (execAll (code .stm32 c.par c.out c.op) (m, a))).1 o = _
        rw [h.1, e1]; rfl
      · show counts .stm32 (calls .stm32 l (execAll (code .stm32 c.par c.out c.op) (m, a))).1 o = _
        rw [h.2, e2]; rfl
  obtain ⟨h1, h2⟩ := h l m a hv
  simp only [Fresh] at hf
  unfold runs said
  rw [h1, h2, show enabled .stm32 m o = false by simp only [enabled]; rw [hf 0]; exact zero_at _, show counts .stm32 m o = false by simp only [counts]; rw [hf 1]; rfl]

/-- **C108, stm32h7xx, refuted**: pwm_stop of one output stops them all; the next pwm_start, of any, starts again those that were stopped that way -/
theorem stm32_wrong (m : Regs) (a : Word × Word) (hf : Fresh .stm32 m) :
    (runs .stm32 (calls .stm32 [start0, start1, stop0] (m, a)).1 1 = false ∧ said 1 [start0, start1, stop0] = true) ∧ ¬ Right .stm32 := by
  have h1 : runs .stm32 (calls .stm32 [start0, start1, stop0] (m, a)).1 1 = false := by
    rw [stm32_exact _ m a hf (demo_ok _ _ (by simp)) 1 (by decide)]; rfl
  refine ⟨⟨h1, rfl⟩, fun hr => ?_⟩
  have := hr [start0, start1, stop0] m a hf (demo_ok _ _ (by simp)) 1 (by decide)
  rw [h1] at this
  cases this

example : Fresh .stm32 (fun _ => 0) := fun _ => rfl

/-! ### sam3x, atsamx7x -/

theorem sam_step (c : Call) (m : Regs) (a : Word × Word) (o : Nat) (h : runs .sam m o = true) :
    runs .sam (execAll (code .sam c.par c.out c.op) (m, a)).1 o = true := by
  obtain ⟨out, op, par⟩ := c
  simp only [runs, enabled, counts, Bool.and_true] at h ⊢
  cases op <;> simp only [code, start, stop, period, duty, execAll, exec, upd_at, ↓reduceIte, set_bit, h, Bool.true_or]

/-- **C108, sam3x, atsamx7x, refuted**: an output that runs never stops again, whatever the calls (pwm_stop writes PWM_ENA, that only enables; PWM_DIS is never
written), and whatever reading PWM_ENA gives -/
theorem sam_never_stops (l : List Call) (m : Regs) (a : Word × Word) (o : Nat) (h : runs .sam m o = true) : runs .sam (calls .sam l (m, a)).1 o = true := by
  induction l generalizing m a with
  | nil => exact h
  | cons c l ih => exact ih (execAll (code .sam c.par c.out c.op) (m, a)).1 (execAll (code .sam c.par c.out c.op) (m, a)).2 (sam_step c m a o h)

/-- pwm_start starts its output; the others are as before if reading PWM_ENA gives 0 -/
theorem sam_start (m : Regs) (a : Word × Word) (p : Par) (t o : Nat) (_ht : t < outs .sam) (ho : o < outs .sam) :
    runs .sam (execAll (start .sam p t) (m, a)).1 o = (decide (o = t) || p.junk.getLsbD o || runs .sam m o) := by
  simp only [outs] at ho
  simp (disch := omega) only [runs, enabled, counts, Bool.and_true, start, execAll, exec, upd_at, ↓reduceIte, set_bit, clr_bit, one_at, zero_at, Bool.not_false, Bool.and_true]
  cases (m 0).getLsbD o <;> cases decide (o = t) <;> simp

theorem sam_wrong : ¬ Right .sam := by
  intro hr
  have := hr [start0, stop0] (fun _ => 0) (0, 0) (fun _ => rfl) (demo_ok _ _ (by simp)) 0 (by decide)
  have h : runs .sam (calls .sam [start0, stop0] ((fun _ => 0), (0, 0))).1 0 = true := by decide
  rw [h] at this
  cases this

/-! ### ti_epwm -/

theorem ti_bits (v sel : Word) : Field.get 2 0 ((((v &&& ~~~(3 : Word)) ||| (0 : Word)) &&& ~~~(0 : Word)) ||| (sel &&& (3 : Word))) = Field.get 2 0 sel ∧
    Field.get 2 0 ((v &&& ~~~(3 : Word)) ||| (0 : Word)) = 0 := by
  constructor <;> apply BitVec.eq_of_getLsbD_eq <;> intro i hi <;> simp only [get_bit] <;> by_cases h : i < 2
  · obtain rfl | rfl : i = 0 ∨ i = 1 := by omega
    · simp
    · simp
  · rw [decide_eq_false h, Bool.false_and, Bool.false_and]
  · obtain rfl | rfl : i = 0 ∨ i = 1 := by omega
    · simp
    · simp
  · rw [decide_eq_false h, Bool.false_and]; simp

theorem ti_step (c : Call) (hc : Ok .ti c) (m : Regs) (a : Word × Word) (o : Nat) :
    runs .ti (execAll (code .ti c.par c.out c.op) (m, a)).1 o = (decide (c.op = .start ∨ c.op = .stop) || runs .ti m o) := by
  obtain ⟨out, op, par⟩ := c
  obtain ⟨h1, h2, h3⟩ := hc
  cases op <;> simp only [code, start, stop, period, duty, orr, andn, List.cons_append, List.nil_append, execAll, exec, runs, enabled, counts, upd_at, ↓reduceIte,
    (ti_bits _ _).1, (ti_bits _ 0).2, Bool.true_and, reduceCtorEq, or_true, true_or, or_self, decide_true, decide_false, Bool.true_or, Bool.false_or]
  · exact decide_eq_true h3
  · decide

/-- **C108, ti_epwm**: exactly: both outputs run once pwm_start, or pwm_stop, was called: pwm_stop selects counting up (0), not frozen (3) -/
theorem ti_exact (l : List Call) (m : Regs) (a : Word × Word) (hf : Fresh .ti m) (hv : Valid .ti l) (o : Nat) :
    runs .ti (calls .ti l (m, a)).1 o = l.any (fun c => decide (c.op = .start ∨ c.op = .stop)) := by
  have h : ∀ (l : List Call) (m : Regs) (a : Word × Word), Valid .ti l →
      runs .ti (calls .ti l (m, a)).1 o = (l.any (fun c => decide (c.op = .start ∨ c.op = .stop)) || runs .ti m o) := by
    intro l
    induction l with
    | nil => intro m a _; rfl
    | cons c l ih =>
      intro m a hv
      show runs .ti (calls .ti l (execAll (code .ti c.par c.out c.op) (m, a))).1 o = _
      have h := ih (execAll (code .ti c.par c.out c.op) (m, a)).1 (execAll (code .ti c.par c.out c.op) (m, a)).2 (fun x hx => hv x (List.mem_cons_of_mem _ hx))
      rw [h, ti_step c (hv c List.mem_cons_self) m a o, List.any_cons]
      cases decide (c.op = .start ∨ c.op = .stop) <;> cases l.any (fun c => decide (c.op = .start ∨ c.op = .stop)) <;> rfl
  rw [h l m a hv]
  have : runs .ti m o = false := by
    simp only [runs, enabled, counts]; simp only [Fresh] at hf; rw [hf]; decide
  rw [this, Bool.or_false]

/-- **C108, ti_epwm, refuted**: pwm_stop stops nothing, and starts a counter that was frozen -/
theorem ti_wrong (m : Regs) (a : Word × Word) (hf : Fresh .ti m) :
    runs .ti (calls .ti [start0, stop0] (m, a)).1 0 = true ∧ runs .ti (calls .ti [stop0] (m, a)).1 0 = true ∧ ¬ Right .ti := by
  have h1 : runs .ti (calls .ti [start0, stop0] (m, a)).1 0 = true := by rw [ti_exact _ m a hf (demo_ok _ _ (by simp)) 0]; rfl
  have h2 : runs .ti (calls .ti [stop0] (m, a)).1 0 = true := by rw [ti_exact _ m a hf (demo_ok _ _ (by simp)) 0]; rfl
  refine ⟨h1, h2, fun hr => ?_⟩
  have := hr [stop0] m a hf (demo_ok _ _ (by simp)) 0 (by decide)
  rw [h2] at this
  cases this

example : Fresh .ti (fun _ => 131) := rfl

end Pico.PwmRun
