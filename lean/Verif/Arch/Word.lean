/-
A small 32-bit load/store machine: just what the trap code of the RISC-V, MIPS, PowerPC and Cortex-M
ports uses.  Control and status registers are registers like the others (`mv` stands for the moves to
and from them).  Memory is made of 32-bit cells named by their byte address; all accesses of the trap
code are word accesses at multiples of four from a word-aligned stack pointer, so cells never overlap.
-/
namespace Pico.Ctx

abbrev W := BitVec 32

structure St (R : Type) where
  reg : R → W
  mem : W → W

def upd {A B : Type} [DecidableEq A] (f : A → B) (a : A) (v : B) : A → B :=
  fun x => if x = a then v else f x

theorem upd_same {A B : Type} [DecidableEq A] (f : A → B) (a : A) (v : B) : upd f a v a = v := if_pos rfl
theorem upd_ne {A B : Type} [DecidableEq A] (f : A → B) {a x : A} (v : B) (h : x ≠ a) : upd f a v x = f x :=
  if_neg h

inductive Op (R : Type) where
  /-- `mv d, s`, `or d, s, zero`, `csrr`, `csrw`, `mfc0`, `mtc0`, `mfspr`, ... -/
  | mv (d s : R)
  /-- `li d, k`, `la d, symbol`, `and d, d, zero` -/
  | li (d : R) (k : W)
  | addi (d s : R) (k : W)
  | add (d a b : R)
  | and (d a b : R)
  | or (d a b : R)
  /-- bitwise and with a constant -/
  | andi (d s : R) (k : W)
  /-- bitwise or with a constant -/
  | ori (d s : R) (k : W)
  | slli (d s : R) (k : Nat)
  /-- extract bit `k` -/
  | bit (d s : R) (k : Nat)
  /-- extract `n` bits from bit `k` -/
  | ext (d s : R) (k n : Nat)
  /-- store word `s` at `b + o` -/
  | sw (s b : R) (o : W)
  /-- store zero at `b + o` -/
  | sz (b : R) (o : W)
  | lw (d b : R) (o : W)
  /-- `csrrw a, b, a`: exchange -/
  | swap (a b : R)
  /-- if `a < b` unsigned, skip the next `n` instructions (forward branch) -/
  | bltu (a b : R) (n : Nat)
  /-- if `a = 0`, skip the next `n` instructions -/
  | beqz (a : R) (n : Nat)
  /-- if `a ≠ b`, skip the next `n` instructions -/
  | bne (a b : R) (n : Nat)

variable {R : Type} [DecidableEq R]

def exec : Op R → St R → St R
  | .mv d s, x => { x with reg := upd x.reg d (x.reg s) }
  | .li d k, x => { x with reg := upd x.reg d k }
  | .addi d s k, x => { x with reg := upd x.reg d (x.reg s + k) }
  | .add d a b, x => { x with reg := upd x.reg d (x.reg a + x.reg b) }
  | .and d a b, x => { x with reg := upd x.reg d (x.reg a &&& x.reg b) }
  | .or d a b, x => { x with reg := upd x.reg d (x.reg a ||| x.reg b) }
  | .andi d s k, x => { x with reg := upd x.reg d (x.reg s &&& k) }
  | .ori d s k, x => { x with reg := upd x.reg d (x.reg s ||| k) }
  | .slli d s k, x => { x with reg := upd x.reg d (x.reg s <<< k) }
  | .bit d s k, x => { x with reg := upd x.reg d (if (x.reg s).getLsbD k then 1#32 else 0#32) }
  | .ext d s k n, x => { x with reg := upd x.reg d ((x.reg s >>> k) &&& BitVec.ofNat 32 (2 ^ n - 1)) }
  | .sw s b o, x => { x with mem := upd x.mem (x.reg b + o) (x.reg s) }
  | .sz b o, x => { x with mem := upd x.mem (x.reg b + o) 0#32 }
  | .lw d b o, x => { x with reg := upd x.reg d (x.mem (x.reg b + o)) }
  | .swap a b, x => { x with reg := upd (upd x.reg a (x.reg b)) b (x.reg a) }
  | .bltu _ _ _, x => x
  | .beqz _ _, x => x
  | .bne _ _ _, x => x

/-- number of following instructions a branch skips -/
def skips : Op R → St R → Nat
  | .bltu a b n, x => if (x.reg a).toNat < (x.reg b).toNat then n else 0
  | .beqz a n, x => if x.reg a = 0#32 then n else 0
  | .bne a b n, x => if x.reg a = x.reg b then 0 else n
  | _, _ => 0

/-- run a straight piece of code with forward branches, `k` instructions being skipped first -/
def runFrom : Nat → List (Op R) → St R → St R
  | _, [], x => x
  | k + 1, _ :: l, x => runFrom k l x
  | 0, i :: l, x => runFrom (skips i x) l (exec i x)

def run (l : List (Op R)) (x : St R) : St R := runFrom 0 l x

/-- a sequence of `sw r, o (b)`, written as its list of pairs `(r, o)` -/
def sws (b : R) (l : List (R × W)) : List (Op R) := l.map fun p => Op.sw p.1 b p.2
/-- a sequence of `lw r, o (b)`, written as its list of pairs `(r, o)` -/
def lws (b : R) (l : List (R × W)) : List (Op R) := l.map fun p => Op.lw p.1 b p.2

/-- a sequence of `mv t, r; sw t, o (b)`: special registers stored through a scratch register -/
def swsVia (t b : R) : List (R × W) → List (Op R)
  | [] => []
  | p :: l => .mv t p.1 :: .sw t b p.2 :: swsVia t b l
/-- a sequence of `lw t, o (b); mv r, t`: special registers loaded through a scratch register -/
def lwsVia (t b : R) : List (R × W) → List (Op R)
  | [] => []
  | p :: l => .lw t b p.2 :: .mv p.1 t :: lwsVia t b l

/-! ### What sequences of stores and of loads do -/

/-- register last stored at offset `o` -/
def lastReg : List (R × W) → W → Option R
  | [], _ => none
  | (r, k) :: l, o => match lastReg l o with
    | some r' => some r'
    | none => if o = k then some r else none

/-- offset register `r` is last loaded from -/
def lastOff : List (R × W) → R → Option W
  | [], _ => none
  | (q, k) :: l, r => match lastOff l r with
    | some k' => some k'
    | none => if r = q then some k else none

@[simp] theorem run_nil (x : St R) : run [] x = x := rfl

theorem run_cons (i : Op R) (l : List (Op R)) (x : St R) (h : skips i x = 0) :
    run (i :: l) x = run l (exec i x) := by
  simp [run, runFrom, h]

/-- is it a branch? -/
def Op.isBr : Op R → Bool
  | .bltu _ _ _ | .beqz _ _ | .bne _ _ _ => true
  | _ => false

omit [DecidableEq R] in
theorem skips_zero {i : Op R} (h : i.isBr = false) (x : St R) : skips i x = 0 := by
  cases i <;> simp_all [Op.isBr, skips]

/-- branch-free code composes -/
theorem run_append (l k : List (Op R)) (x : St R) (h : l.all (fun i => !i.isBr) = true) :
    run (l ++ k) x = run k (run l x) := by
  induction l generalizing x with
  | nil => rfl
  | cons i l ih =>
    simp only [List.all_cons, Bool.and_eq_true, Bool.not_eq_eq_eq_not, Bool.not_true] at h
    have h0 := skips_zero h.1 x
    rw [List.cons_append, run_cons _ _ _ h0, run_cons _ _ _ h0]
    exact ih _ h.2

theorem run_sws (b : R) (l : List (R × W)) (k : List (Op R)) (x : St R) :
    run (sws b l ++ k) x = run k (run (sws b l) x) := by
  induction l generalizing x with
  | nil => rfl
  | cons p l ih =>
    simp only [sws, List.map_cons, List.cons_append] at ih ⊢
    rw [run_cons _ _ _ rfl, run_cons _ _ _ rfl]
    exact ih _

theorem run_lws (b : R) (l : List (R × W)) (k : List (Op R)) (x : St R) :
    run (lws b l ++ k) x = run k (run (lws b l) x) := by
  induction l generalizing x with
  | nil => rfl
  | cons p l ih =>
    simp only [lws, List.map_cons, List.cons_append] at ih ⊢
    rw [run_cons _ _ _ rfl, run_cons _ _ _ rfl]
    exact ih _

theorem sws_reg (b : R) (l : List (R × W)) (x : St R) : (run (sws b l) x).reg = x.reg := by
  induction l generalizing x with
  | nil => rfl
  | cons p l ih =>
    simp only [sws, List.map_cons] at ih ⊢
    rw [run_cons _ _ _ rfl, ih]; rfl

theorem sws_mem (b : R) (l : List (R × W)) (x : St R) (a : W) :
    (run (sws b l) x).mem a = match lastReg l (a - x.reg b) with
      | some r => x.reg r
      | none => x.mem a := by
  induction l generalizing x with
  | nil => rfl
  | cons p l ih =>
    simp only [sws, List.map_cons] at ih ⊢
    rw [run_cons _ _ _ rfl, ih]
    simp only [exec, lastReg]
    cases lastReg l (a - x.reg b) with
    | some r => rfl
    | none =>
      simp only [upd]
      by_cases h : a - x.reg b = p.2
      · rw [if_pos h, if_pos (by rw [← h]; grind)]
      · rw [if_neg h, if_neg (by intro h'; exact h (by rw [h']; grind))]

theorem lws_mem (b : R) (l : List (R × W)) (x : St R) : (run (lws b l) x).mem = x.mem := by
  induction l generalizing x with
  | nil => rfl
  | cons p l ih =>
    simp only [lws, List.map_cons] at ih ⊢
    rw [run_cons _ _ _ rfl, ih]; rfl

theorem lws_reg (b : R) (l : List (R × W)) (x : St R) (hb : lastOff l b = none) (r : R) :
    (run (lws b l) x).reg r = match lastOff l r with
      | some o => x.mem (x.reg b + o)
      | none => x.reg r := by
  induction l generalizing x with
  | nil => rfl
  | cons p l ih =>
    simp only [lws, List.map_cons] at ih ⊢
    have hb' : lastOff l b = none ∧ b ≠ p.1 := by
      simp only [lastOff] at hb
      revert hb
      cases lastOff l b with
      | some o => simp
      | none => by_cases h : b = p.1 <;> simp [h]
    rw [run_cons _ _ _ rfl, ih _ hb'.1]
    simp only [exec, lastOff]
    cases lastOff l r with
    | some o => simp only [upd, if_neg hb'.2]
    | none => simp only [upd]; split <;> rfl

theorem lastReg_none {l : List (R × W)} {n : Nat} (h : ∀ p ∈ l, p.2.toNat < n) {k : W}
    (hk : ¬ k.toNat < n) : lastReg l k = none := by
  induction l with
  | nil => rfl
  | cons p l ih =>
    simp only [lastReg, ih fun q hq => h q (List.mem_cons_of_mem _ hq)]
    rw [if_neg]
    intro e
    exact hk (e ▸ h p List.mem_cons_self)

theorem lastReg_append (l k : List (R × W)) (o : W) :
    lastReg (l ++ k) o = match lastReg k o with | some r => some r | none => lastReg l o := by
  induction l with
  | nil => simp only [List.nil_append, lastReg]; cases lastReg k o <;> rfl
  | cons p l ih =>
    simp only [List.cons_append, lastReg, ih]
    cases lastReg k o <;> rfl

theorem lastOff_append (l k : List (R × W)) (r : R) :
    lastOff (l ++ k) r = match lastOff k r with | some o => some o | none => lastOff l r := by
  induction l with
  | nil => simp only [List.nil_append, lastOff]; cases lastOff k r <;> rfl
  | cons p l ih =>
    simp only [List.cons_append, lastOff, ih]
    cases lastOff k r <;> rfl

omit [DecidableEq R] in
theorem swsVia_straight (t b : R) (l : List (R × W)) : (swsVia t b l).all (fun i => !i.isBr) = true := by
  induction l with
  | nil => rfl
  | cons p l ih => simp only [swsVia, List.all_cons, ih]; rfl

omit [DecidableEq R] in
theorem lwsVia_straight (t b : R) (l : List (R × W)) : (lwsVia t b l).all (fun i => !i.isBr) = true := by
  induction l with
  | nil => rfl
  | cons p l ih => simp only [lwsVia, List.all_cons, ih]; rfl

theorem swsVia_reg (t b : R) (l : List (R × W)) (x : St R) (r : R) (hr : r ≠ t) :
    (run (swsVia t b l) x).reg r = x.reg r := by
  induction l generalizing x with
  | nil => rfl
  | cons p l ih =>
    simp only [swsVia]
    rw [run_cons _ _ _ rfl, run_cons _ _ _ rfl, ih]
    simp only [exec, upd, if_neg hr]

theorem swsVia_mem (t b : R) (l : List (R × W)) (x : St R) (hb : b ≠ t) (ht : ∀ p ∈ l, p.1 ≠ t) (a : W) :
    (run (swsVia t b l) x).mem a = match lastReg l (a - x.reg b) with
      | some r => x.reg r
      | none => x.mem a := by
  induction l generalizing x with
  | nil => rfl
  | cons p l ih =>
    simp only [swsVia]
    rw [run_cons _ _ _ rfl, run_cons _ _ _ rfl, ih _ fun q hq => ht q (List.mem_cons_of_mem _ hq)]
    have hp := ht p List.mem_cons_self
    simp only [exec, lastReg, upd_ne _ _ hb, upd_same]
    cases hl : lastReg l (a - x.reg b) with
    | some r =>
      have : r ≠ t := by
        have : ∃ p ∈ l, p.1 = r := by
          clear ih ht hp
          induction l with
          | nil => exact nomatch hl
          | cons q l ih2 =>
            simp only [lastReg] at hl
            cases h2 : lastReg l (a - x.reg b) with
            | some r' =>
              rw [h2] at hl
              obtain ⟨p, hp, hp'⟩ := ih2 (by rw [h2]; exact hl)
              exact ⟨p, List.mem_cons_of_mem _ hp, hp'⟩
            | none =>
              rw [h2] at hl
              simp only [] at hl
              split at hl
              · exact ⟨q, List.mem_cons_self, Option.some.inj hl⟩
              · exact nomatch hl
        obtain ⟨q, hq, rfl⟩ := this
        exact ht q (List.mem_cons_of_mem _ hq)
      simp only [upd_ne _ _ this]
    | none =>
      simp only [upd]
      by_cases h : a - x.reg b = p.2
      · rw [if_pos h, if_pos (by rw [← h]; grind)]
      · rw [if_neg h, if_neg (by intro h'; exact h (by rw [h']; grind))]

theorem lwsVia_mem (t b : R) (l : List (R × W)) (x : St R) : (run (lwsVia t b l) x).mem = x.mem := by
  induction l generalizing x with
  | nil => rfl
  | cons p l ih =>
    simp only [lwsVia]
    rw [run_cons _ _ _ rfl, run_cons _ _ _ rfl, ih]; rfl

theorem lwsVia_reg (t b : R) (l : List (R × W)) (x : St R) (hb : b ≠ t) (hlb : lastOff l b = none) (r : R)
    (hr : r ≠ t) : (run (lwsVia t b l) x).reg r = match lastOff l r with
      | some o => x.mem (x.reg b + o)
      | none => x.reg r := by
  induction l generalizing x with
  | nil => rfl
  | cons p l ih =>
    simp only [lwsVia]
    have hb' : lastOff l b = none ∧ b ≠ p.1 := by
      simp only [lastOff] at hlb
      revert hlb
      cases lastOff l b with
      | some o => simp
      | none => by_cases h : b = p.1 <;> simp [h]
    rw [run_cons _ _ _ rfl, run_cons _ _ _ rfl, ih _ hb'.1]
    simp only [exec, lastOff, upd_same, upd_ne _ _ hb'.2, upd_ne _ _ hb]
    cases lastOff l r with
    | some o => rfl
    | none =>
      simp only [upd]
      split
      · rfl
      · simp only [if_neg hr]

/-! ### Blocks: make room, store a list of registers, special ones through a scratch register -/

/-- `addi sp, sp, -n`, then the stores -/
def saveBlk (t b : R) (n : W) (T Tv : List (R × W)) : List (Op R) :=
  .addi b b (-n) :: (sws b T ++ swsVia t b Tv)
/-- the loads, then `addi sp, sp, n` -/
def restBlk (t b : R) (n : W) (L Lv : List (R × W)) : List (Op R) :=
  lws b L ++ (lwsVia t b Lv ++ [.addi b b n])

omit [DecidableEq R] in
theorem saveBlk_straight (t b : R) (n : W) (T Tv : List (R × W)) :
    (saveBlk t b n T Tv).all (fun i => !i.isBr) = true := by
  have := swsVia_straight t b Tv
  simp only [saveBlk, List.all_cons, List.all_append, this, sws]
  simp [Op.isBr]

omit [DecidableEq R] in
theorem restBlk_straight (t b : R) (n : W) (L Lv : List (R × W)) :
    (restBlk t b n L Lv).all (fun i => !i.isBr) = true := by
  have := lwsVia_straight t b Lv
  simp only [restBlk, List.all_append, this, lws]
  simp [Op.isBr]

theorem saveBlk_eff (t b : R) (n : W) (T Tv : List (R × W)) (x : St R) (hb : b ≠ t)
    (ht : ∀ p ∈ T ++ Tv, p.1 ≠ b ∧ p.1 ≠ t) :
    (run (saveBlk t b n T Tv) x).reg b = x.reg b - n ∧
    (∀ r, r ≠ b → r ≠ t → (run (saveBlk t b n T Tv) x).reg r = x.reg r) ∧
    ∀ a, (run (saveBlk t b n T Tv) x).mem a = match lastReg (T ++ Tv) (a - (x.reg b - n)) with
      | some r => x.reg r
      | none => x.mem a := by
  have hsub : x.reg b + -n = x.reg b - n := by grind
  simp only [saveBlk]
  rw [run_cons _ _ _ rfl, run_sws]
  have hx : ∀ r, (∃ p ∈ T ++ Tv, p.1 = r) → (exec (.addi b b (-n)) x).reg r = x.reg r := by
    rintro r ⟨p, hp, rfl⟩
    simp only [exec, upd_ne _ _ (ht p hp).1]
  have hxb : (exec (.addi b b (-n)) x).reg b = x.reg b - n := by
    simp only [exec, upd_same, hsub]
  have hxm : (exec (.addi b b (-n)) x).mem = x.mem := rfl
  have hxr : ∀ r, r ≠ b → (exec (.addi b b (-n)) x).reg r = x.reg r := fun r hr => by
    simp only [exec, upd_ne _ _ hr]
  generalize exec (.addi b b (-n)) x = z at *
  refine ⟨?_, ?_, ?_⟩
  · rw [swsVia_reg _ _ _ _ _ hb, sws_reg, hxb]
  · intro r hr hr'
    rw [swsVia_reg _ _ _ _ _ hr', sws_reg, hxr r hr]
  · intro a
    rw [swsVia_mem _ _ _ _ hb (fun p hp => (ht p (List.mem_append_right _ hp)).2), sws_reg, hxb, lastReg_append]
    have memOf : ∀ (l : List (R × W)) o r, lastReg l o = some r → ∃ p ∈ l, p.1 = r := by
      intro l o
      induction l with
      | nil => intro r h; exact nomatch h
      | cons q l ih2 =>
        intro r hl
        simp only [lastReg] at hl
        cases h2 : lastReg l o with
        | some r' =>
          rw [h2] at hl
          obtain ⟨p, hp, hp'⟩ := ih2 r' h2
          exact ⟨p, List.mem_cons_of_mem _ hp, hp'.trans (Option.some.inj hl)⟩
        | none =>
          rw [h2] at hl
          simp only [] at hl
          split at hl
          · exact ⟨q, List.mem_cons_self, Option.some.inj hl⟩
          · exact nomatch hl
    cases h1 : lastReg Tv (a - (x.reg b - n)) with
    | some r =>
      obtain ⟨p, hp, hp'⟩ := memOf _ _ _ h1
      simp only []
      exact hx r ⟨p, List.mem_append_right _ hp, hp'⟩
    | none =>
      simp only []
      rw [sws_mem, hxb]
      cases h2 : lastReg T (a - (x.reg b - n)) with
      | some r =>
        obtain ⟨p, hp, hp'⟩ := memOf _ _ _ h2
        simp only []
        exact hx r ⟨p, List.mem_append_left _ hp, hp'⟩
      | none => simp only [hxm]

theorem restBlk_eff (t b : R) (n : W) (L Lv : List (R × W)) (x : St R) (hb : b ≠ t)
    (h1 : lastOff L b = none) (h2 : lastOff Lv b = none) :
    (run (restBlk t b n L Lv) x).mem = x.mem ∧
    (run (restBlk t b n L Lv) x).reg b = x.reg b + n ∧
    ∀ r, r ≠ b → r ≠ t → (run (restBlk t b n L Lv) x).reg r = match lastOff (L ++ Lv) r with
      | some o => x.mem (x.reg b + o)
      | none => x.reg r := by
  simp only [restBlk]
  rw [run_lws, run_append _ _ _ (lwsVia_straight t b Lv)]
  have hz1 : (run (lws b L) x).mem = x.mem := lws_mem b L x
  have hz2 : ∀ r, _ := lws_reg b L x h1
  generalize run (lws b L) x = z at *
  have hw1 := lwsVia_mem t b Lv z
  have hw2 := fun r => lwsVia_reg t b Lv z hb h2 r
  generalize run (lwsVia t b Lv) z = w at *
  rw [run_cons _ _ _ rfl, run_nil]
  have hzb : z.reg b = x.reg b := by rw [hz2, h1]
  have hwb : w.reg b = x.reg b := by rw [hw2 b hb, h2]; exact hzb
  simp only [exec]
  refine ⟨by rw [hw1, hz1], by rw [upd_same, hwb], fun r hr hr' => ?_⟩
  rw [upd_ne _ _ hr, hw2 r hr', lastOff_append, hz1, hzb, hz2]
  cases lastOff Lv r <;> rfl

end Pico.Ctx
