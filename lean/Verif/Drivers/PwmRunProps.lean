import Verif.Drivers.PwmRun
namespace Pico.PwmRun
open Pico Pico.Field

theorem st_bit (a c s : Word) (b : Nat) (_hb : b < 32) : ((a &&& ~~~c) ||| s).getLsbD b = ((a.getLsbD b && !c.getLsbD b) || s.getLsbD b) := by
  simp only [BitVec.getLsbD_or, BitVec.getLsbD_and, BitVec.getLsbD_not]
  have : decide (b < 32) = true := decide_eq_true _hb
  rw [this, Bool.true_and]

theorem one_at (i j : Nat) (h : j < 32) : (one i).getLsbD j = decide (j = i) := one_bit 32 i j h

theorem zero_at (j : Nat) : (0 : Word).getLsbD j = false := by simp

theorem set_bit (a s : Word) (b : Nat) : (a ||| s).getLsbD b = (a.getLsbD b || s.getLsbD b) := BitVec.getLsbD_or

theorem clr_bit (a c : Word) (b : Nat) (hb : b < 32) : (a &&& ~~~c).getLsbD b = (a.getLsbD b && !c.getLsbD b) := by
  rw [BitVec.getLsbD_and, BitVec.getLsbD_not, decide_eq_true hb, Bool.true_and]

theorem shl_one (n : Nat) : (1 : Word) <<< n = one n := rfl

theorem zs (n : Nat) : (n + 1 = 0) = False := eq_false (Nat.succ_ne_zero n)

/-- kinds where outputs are switched one by one -/
def Sep (k : Kind) : Prop := k = .gd32 ∨ k = .emios ∨ k = .pic32 ∨ k = .tinyavr ∨ k = .ch552 ∨ k = .mc9s08 ∨ k = .n76

/-- and pwm_start also starts the counter -/
def timer : Kind → Bool
  | .gd32 | .pic32 | .mc9s08 | .n76 => true
  | _ => false

theorem upd_at {α : Type} (f : Nat → α) (t i : Nat) (x : α) : upd f t x i = if i = t then x else f i := rfl

theorem enabled_step (k : Kind) (hk : Sep k) (c : Call) (hc : Ok k c) (m : Regs) (a : Word × Word) (o : Nat) (ho : o < outs k) :
    enabled k (execAll (code k c.par c.out c.op) (m, a)).1 o = said1 o (enabled k m o) c := by
  obtain ⟨out, op, par⟩ := c
  obtain ⟨h1, h2, h3⟩ := hc
  simp only at h1 h2 h3 ⊢
  rcases hk with h | h | h | h | h | h | h <;> subst h <;> cases op <;>
    simp only [outs] at h1 ho <;>
    simp only [code, start, stop, period, duty, orr, andn, List.cons_append, List.nil_append, execAll, exec, enabled, said1, upd_at] <;>
    (by_cases e : out = o
     · subst e; simp (disch := omega) only [↓reduceIte, st_bit, one_at, zero_at, set_bit, clr_bit, h2, shl_one, upd_at, Nat.zero_ne_one, Nat.one_ne_zero, Nat.add_right_cancel_iff, zs, if_false]
       try simp
     · simp (disch := omega) only [↓reduceIte, st_bit, one_at, zero_at, set_bit, clr_bit, h2, shl_one, upd_at, Nat.zero_ne_one, Nat.one_ne_zero, Nat.add_right_cancel_iff, zs, if_false, e, Ne.symm e]
       try simp
       try (intros; omega))

theorem get_zero_bits {w t : Nat} (a b : Word) (h : ∀ i, i < w → a.getLsbD (t + i) = b.getLsbD (t + i)) : get w t a = get w t b := by
  apply BitVec.eq_of_getLsbD_eq
  intro i _
  rw [get_bit, get_bit]
  by_cases hi : i < w
  · rw [h i hi]
  · rw [decide_eq_false hi, Bool.false_and, Bool.false_and]

/-- SC.CLKS after `SC &= ~CLKS; SC |= CLKS(sel)` -/
theorem clks_start (v sel : Word) : Field.get 2 3 ((((v &&& ~~~(24 : Word)) ||| (0 : Word)) &&& ~~~(0 : Word)) ||| ((sel &&& (3 : Word)) <<< 3)) = Field.get 2 0 sel := by
  apply BitVec.eq_of_getLsbD_eq
  intro i hi
  rw [get_bit, get_bit]
  by_cases h : i < 2
  · obtain rfl | rfl : i = 0 ∨ i = 1 := by omega
    · simp
    · simp
  · rw [decide_eq_false h, Bool.false_and, Bool.false_and]

theorem counts_step (k : Kind) (hk : Sep k) (c : Call) (hc : Ok k c) (m : Regs) (a : Word × Word) (o : Nat) :
    counts k (execAll (code k c.par c.out c.op) (m, a)).1 o = ((timer k && decide (c.op = .start)) || counts k m o) := by
  obtain ⟨out, op, par⟩ := c
  obtain ⟨h1, h2, h3⟩ := hc
  simp only at h1 h2 h3 ⊢
  rcases hk with h | h | h | h | h | h | h <;> subst h <;> cases op <;>
    simp only [outs] at h1 <;>
    simp (disch := omega) only [code, start, stop, period, duty, orr, andn, List.cons_append, List.nil_append, execAll, exec, counts, timer, reduceCtorEq,
      decide_false, decide_true, Bool.and_false, Bool.and_true, Bool.false_or, Bool.true_or, Bool.false_and, upd_at,
      ↓reduceIte, st_bit, one_at, zero_at, set_bit, clr_bit, h2, shl_one, upd_at, Nat.zero_ne_one, Nat.one_ne_zero, Nat.add_right_cancel_iff, zs, if_false]
  · simp
  · simp
  · simp [show (112 : Word).getLsbD 15 = false from rfl]
  · rw [decide_eq_false (show ¬1 = 2 + out by omega)]; simp
  · rw [decide_eq_false (show ¬1 = 2 + out by omega)]; simp
  · rw [clks_start]; exact decide_eq_true h3
  · simp
  · simp
  · simp

/-- started calls so far -/
def begunAny (l : List Call) : Bool := l.any (fun c => decide (c.op = .start))

theorem sep_calls (k : Kind) (hk : Sep k) (l : List Call) : ∀ (m : Regs) (a : Word × Word), Valid k l → ∀ o, o < outs k →
    enabled k (calls k l (m, a)).1 o = l.foldl (said1 o) (enabled k m o) ∧
    counts k (calls k l (m, a)).1 o = ((timer k && begunAny l) || counts k m o) := by
  induction l with
  | nil => intro m a _ o _; refine ⟨rfl, ?_⟩; simp only [calls, begunAny, List.any_nil, Bool.and_false, Bool.false_or]
  | cons c l ih =>
    intro m a hv o ho
    have h := ih (execAll (code k c.par c.out c.op) (m, a)).1 (execAll (code k c.par c.out c.op) (m, a)).2 (fun x hx => hv x (List.mem_cons_of_mem _ hx)) o ho
    have hc := hv c List.mem_cons_self
    refine ⟨?_, ?_⟩
    · show enabled k (calls k l (execAll (code k c.par c.out c.op) (m, a))).1 o = _
      rw [h.1, enabled_step k hk c hc m a o ho]; rfl
    · show counts k (calls k l (execAll (code k c.par c.out c.op) (m, a))).1 o = _
      rw [h.2, counts_step k hk c hc m a o]
      simp only [begunAny, List.any_cons]
      cases timer k <;> cases decide (c.op = .start) <;> simp

theorem said_begun (o : Nat) (l : List Call) : ∀ b, l.foldl (said1 o) b = true → b = true ∨ begunAny l = true := by
  induction l with
  | nil => intro b h; exact Or.inl h
  | cons c l ih =>
    intro b h
    rcases ih _ h with h1 | h1
    · by_cases e : c.op = .start
      · right; simp [begunAny, e]
      · left
        unfold said1 at h1
        by_cases eo : c.out = o
        · rw [if_pos eo] at h1
          cases hop : c.op <;> rw [hop] at h1 e
          · exact absurd rfl e
          · exact Bool.noConfusion h1
          · exact h1
          · exact h1
        · rw [if_neg eo] at h1; exact h1
    · right
      simp only [begunAny, List.any_cons, Bool.or_eq_true] at h1 ⊢
      exact Or.inr h1

/-- **C108**, gd32vf103, nxp_emios, tinyavr_tca, ch552, mc9s08ptxx, n76e003: whatever the calls, an output runs iff the last pwm_start or pwm_stop made for it is
pwm_start -/
theorem pwm_right_partial (k : Kind) (hk : k = .gd32 ∨ k = .emios ∨ k = .tinyavr ∨ k = .ch552 ∨ k = .mc9s08 ∨ k = .n76) : Right k := by
  have hs : Sep k := by rcases hk with h | h | h | h | h | h <;> simp [Sep, h]
  intro l m a hf hv o ho
  obtain ⟨h1, h2⟩ := sep_calls k hs l m a hv o ho
  have h0 : enabled k m o = false := by
    rcases hk with h | h | h | h | h | h <;> subst h <;> simp only [Fresh] at hf <;> simp only [enabled]
    · rw [hf 0]; exact zero_at _
    · exact hf o
    · rw [hf.1]; exact zero_at _
    · rw [hf 0]; exact zero_at _
    · rw [hf.1]
      simp only [outs] at ho
      have : ∀ o, o < 6 → (!(255 : Word).getLsbD o) = false := by decide
      exact this o ho
    · rw [hf.1]
      simp only [outs] at ho
      have : ∀ o, o < 6 → (!(63 : Word).getLsbD o) = false := by decide
      exact this o ho
  rw [h0] at h1
  unfold runs
  rw [h1, h2]
  show (said o l && _) = said o l
  cases hsd : said o l with
  | false => rfl
  | true =>
    rw [Bool.true_and, Bool.or_eq_true]
    have hb : begunAny l = true := (said_begun o l false hsd).resolve_left (by decide)
    rcases hk with h | h | h | h | h | h <;> subst h
    · left; rw [hb]; rfl
    · right; rfl
    · right; exact hf.2
    · right; simp only [Fresh] at hf; simp only [counts]; rw [hf 0]; rfl
    · left; rw [hb]; rfl
    · left; rw [hb]; rfl

def start0 : Call := ⟨0, .start, ⟨1, 1, 0, 0⟩⟩
def start1 : Call := ⟨1, .start, ⟨1, 1, 0, 0⟩⟩
def stop0 : Call := ⟨0, .stop, ⟨1, 1, 0, 0⟩⟩
def stop1 : Call := ⟨1, .stop, ⟨1, 1, 0, 0⟩⟩

theorem demo_ok (k : Kind) (l : List Call) (h : ∀ c ∈ l, c = start0 ∨ c = start1 ∨ c = stop0 ∨ c = stop1) : Valid k l := by
  intro c hc
  have hk : 1 < outs k := by cases k <;> decide
  have h0 : 0 < outs k := by omega
  rcases h c hc with e | e | e | e <;> subst e <;> refine ⟨by first | exact hk | exact h0, rfl, ?_⟩ <;> cases k <;> first | trivial | (show Field.get _ _ (1 : Word) ≠ _; decide)

/-- the hypotheses are met, and the outputs do run: mc9s08, both outputs started, then output 0 stopped -/
example : Fresh .mc9s08 (fun r => if r = 0 then 255 else 0) ∧ Valid .mc9s08 [start0, start1, stop0] ∧ said 0 [start0, start1, stop0] = false ∧
    said 1 [start0, start1, stop0] = true ∧ runs .mc9s08 (calls .mc9s08 [start0, start1, stop0] ((fun r => if r = 0 then 255 else 0), 0, 0)).1 1 = true :=
  ⟨⟨rfl, rfl⟩, demo_ok _ _ (by simp), rfl, rfl, by decide⟩

/-- **C108, pic32mx**: exactly; an output for which pwm_start or pwm_stop was called runs iff the last of these calls is pwm_start -/
theorem pic32_exact (l : List Call) (m : Regs) (a : Word × Word) (hf : Fresh .pic32 m) (hv : Valid .pic32 l) (o : Nat) (ho : o < outs .pic32) :
    runs .pic32 (calls .pic32 l (m, a)).1 o = (l.foldl (said1 o) true && begunAny l) := by
  obtain ⟨h1, h2⟩ := sep_calls .pic32 (by simp [Sep]) l m a hv o ho
  unfold runs
  rw [h1, h2]
  simp only [Fresh] at hf
  rw [show enabled .pic32 m o = true from hf.2 o, show counts .pic32 m o = false by simp only [counts]; rw [hf.1]; rfl, Bool.or_false]
  simp only [timer, Bool.true_and]

/-- an output for which a call was made -/
def about (o : Nat) (l : List Call) : Prop := ∃ c ∈ l, c.out = o ∧ (c.op = .start ∨ c.op = .stop)

theorem fold_about (o : Nat) (l : List Call) (h : about o l) : ∀ b b', l.foldl (said1 o) b = l.foldl (said1 o) b' := by
  induction l with
  | nil => obtain ⟨c, hc, _⟩ := h; cases hc
  | cons c l ih =>
    intro b b'
    by_cases e : c.out = o ∧ (c.op = .start ∨ c.op = .stop)
    · have : said1 o b c = said1 o b' c := by
        unfold said1; rw [if_pos e.1, if_pos e.1]
        rcases e.2 with h | h <;> rw [h]
      show l.foldl (said1 o) (said1 o b c) = l.foldl (said1 o) (said1 o b' c)
      rw [this]
    · apply ih
      obtain ⟨x, hx, h1⟩ := h
      cases hx with
      | head => exact absurd h1 e
      | tail _ hx => exact ⟨x, hx, h1⟩

/-- **C108, pic32mx**: for the outputs for which pwm_start or pwm_stop was called -/
theorem pic32_right_partial (l : List Call) (m : Regs) (a : Word × Word) (hf : Fresh .pic32 m) (hv : Valid .pic32 l) (o : Nat) (ho : o < outs .pic32)
    (h : about o l) : runs .pic32 (calls .pic32 l (m, a)).1 o = said o l := by
  rw [pic32_exact l m a hf hv o ho, fold_about o l h true false]
  show (said o l && begunAny l) = said o l
  cases hs : said o l with
  | false => rfl
  | true => rw [(said_begun o l false hs).resolve_left (by decide)]; rfl

/-- **C108, pic32mx, refuted**: pwm_pic32mx_init turns the output compare on: an output that was never started runs as soon as another one of the same timer
is -/
theorem pic32_wrong (l : List Call) (m : Regs) (a : Word × Word) (hf : Fresh .pic32 m) (hv : Valid .pic32 l) (o : Nat) (ho : o < outs .pic32)
    (h : ∀ c ∈ l, c.out ≠ o) (hs : begunAny l = true) : runs .pic32 (calls .pic32 l (m, a)).1 o = true ∧ said o l = false := by
  have e : ∀ b, l.foldl (said1 o) b = b := by
    clear hv hs
    induction l with
    | nil => intro b; rfl
    | cons c l ih =>
      intro b
      show l.foldl (said1 o) (said1 o b c) = b
      rw [ih (fun x hx => h x (List.mem_cons_of_mem _ hx))]
      unfold said1; rw [if_neg (h c List.mem_cons_self)]
  exact ⟨by rw [pic32_exact l m a hf hv o ho, e true, hs]; rfl, e false⟩

/-- such a case -/
example : Fresh .pic32 (fun r => if r = 0 then 0 else 0x8000) ∧ Valid .pic32 [start0] ∧ (∀ c ∈ [start0], c.out ≠ 1) ∧ begunAny [start0] = true :=
  ⟨⟨rfl, fun o => by simp only [zs, if_false]; rfl⟩, demo_ok _ _ (by simp), by simp [start0], rfl⟩

end Pico.PwmRun
