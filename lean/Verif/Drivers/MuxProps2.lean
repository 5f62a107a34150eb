/- C94: proofs, second part -/
import Verif.Drivers.MuxProps
namespace Pico.Mux
open Field

/-! ### rp2040 -/

namespace Rp

theorem f5 (f : Nat) (h : f < 10) : (Field.get 5 0 (BitVec.ofNat 32 f &&& mask 32 5)).toNat = f := by
  have : ∀ f : Fin 10, (Field.get 5 0 (BitVec.ofNat 32 f.val &&& mask 32 5)).toNat = f.val := by decide
  exact this ⟨f, h⟩

/-- **C94, rp2040** -/
theorem serves : drv.Serves 30 Has := by
  constructor
  · intro c p r hp hc
    have h1 : ¬ 30 ≤ p := by omega
    rcases c with _ | ⟨_ | f, _ | (_ | _ | _ | _)⟩ | ⟨_ | f, _ | od⟩ | (_ | f) | _ | _ | _ | _ <;> try exact hc.elim
    · have hc : f < 10 := hc
      simp only [drv, step, if_neg h1, if_neg (show ¬ 10 ≤ f by omega), Call.Does, view, upd_same, f5 f hc, roleOf]
      exact ⟨trivial, trivial, .inl (by decide), nofun⟩
    · have hc : f < 10 := hc
      simp only [drv, step, if_neg h1, if_neg (show ¬ 10 ≤ f by omega), Call.Does, view, upd_same, f5 f hc, roleOf]
      exact ⟨trivial, trivial, .inl (by decide), nofun⟩
    · have hc : f < 10 := hc
      simp only [drv, step, if_neg h1, if_neg (show ¬ 10 ≤ f by omega), Call.Does, view, upd_same, f5 f hc, roleOf]
      exact ⟨trivial, trivial, .inl (by decide)⟩
    · simp only [drv, step, if_neg h1, Call.Does, view, upd_same]
      rw [bclr_ne 2 7 _ (by decide), bset_ne 3 7 _ (by decide), bclr_ne 2 6 _ (by decide), bset_ne 3 6 _ (by decide), bclr_ne 2 3 _ (by decide), bset_same 3 _ (by decide), bclr_same 2]
      exact ⟨trivial, rfl⟩
    · simp only [drv, step, if_neg h1, Call.Does, view, upd_same]
      rw [bclr_ne 3 7 _ (by decide), bset_ne 2 7 _ (by decide), bclr_ne 3 6 _ (by decide), bset_ne 2 6 _ (by decide), bclr_ne 3 2 _ (by decide), bset_same 2 _ (by decide), bclr_same 3]
      exact ⟨trivial, rfl⟩
  · intro c p q r _ hq
    by_cases h1 : 30 ≤ p
    · rcases c with _ | ⟨_ | f, _ | (_ | _ | _ | _)⟩ | ⟨_ | f, _ | od⟩ | (_ | f) | _ | _ | _ | _ <;> simp only [drv, step, if_pos h1]
    · rcases c with _ | ⟨_ | f, _ | (_ | _ | _ | _)⟩ | ⟨_ | f, _ | od⟩ | (_ | f) | _ | _ | _ | _ <;> simp only [drv, step, if_neg h1] <;> (try simp only [view, upd_ne _ _ _ _ hq]) <;>
        (by_cases h2 : 10 ≤ f
         · rw [if_pos h2]
         · simp only [if_neg h2, upd_ne _ _ _ _ hq])
  · intro c p r h
    by_cases h1 : 30 ≤ p
    · rcases c with _ | ⟨_ | f, _ | (_ | _ | _ | _)⟩ | ⟨_ | f, _ | od⟩ | (_ | f) | _ | _ | _ | _ <;> simp only [drv, step, if_pos h1]
    · have h := h.resolve_left h1
      rcases c with _ | ⟨_ | f, _ | (_ | _ | _ | _)⟩ | ⟨_ | f, _ | od⟩ | (_ | f) | _ | _ | _ | _ <;> first
        | exact absurd trivial h
        | rfl
        | (simp only [drv, step, if_neg h1]; rw [if_pos (Nat.le_of_not_lt h)])

/-- mux_rp2040_override and mux_rp2040_set_drive change what they say, of their pin, and nothing of `Pin` -/
theorem override_does (over p : Nat) (r : Rp) (hp : p < 30) (ho : over < 4) :
    (override over p r).1 = 0 ∧ (Field.get 2 8 ((override over p r).2.ctrl p)).toNat = over ∧ (∀ q, q ≠ p → (override over p r).2.ctrl q = r.ctrl q) ∧
    ∀ q, view (override over p r).2 q = view r q := by
  simp only [override, if_neg (show ¬ 30 ≤ p by omega), if_neg (show ¬ 4 ≤ over by omega), upd_same]
  refine ⟨trivial, get_put_nat 2 8 over _ (by decide) ho, fun q hq => upd_ne _ _ _ _ hq, fun q => ?_⟩
  by_cases h : q = p
  · subst h
    simp only [view, upd_same, get_put_other 2 8 5 0 _ _ (by decide)]
  · simp only [view, upd_ne _ _ _ _ h]

theorem drive_does (drive p : Nat) (r : Rp) (hp : p < 30) (ho : drive < 4) :
    (setDrive drive p r).1 = 0 ∧ (Field.get 2 4 ((setDrive drive p r).2.pads p)).toNat = drive ∧ (∀ q, q ≠ p → (setDrive drive p r).2.pads q = r.pads q) ∧
    ∀ q, view (setDrive drive p r).2 q = view r q := by
  simp only [setDrive, if_neg (show ¬ 30 ≤ p by omega), if_neg (show ¬ 4 ≤ drive by omega), upd_same]
  refine ⟨trivial, get_put_nat 2 4 drive _ (by decide) ho, fun q hq => upd_ne _ _ _ _ hq, fun q => ?_⟩
  by_cases h : q = p
  · subst h
    simp only [view, upd_same]
    rw [put_bit 2 4 7 _ _ (by decide), put_bit 2 4 6 _ _ (by decide), put_bit 2 4 3 _ _ (by decide), put_bit 2 4 2 _ _ (by decide)]
  · simp only [view, upd_ne _ _ _ _ h]

/-- the pull is not kept: an input has none, an output is pulled down, whatever was asked before -/
theorem pull_lost (f p : Nat) (r : Rp) (hp : p < 30) (hf : f < 10) :
    (view (step (.input (some f) none) p (step .pullUp p r).2).2 p).pull = .none ∧ (view (step (.output (some f) none) p (step .pullUp p r).2).2 p).pull = .down ∧
    (view (step (.io (some f)) p (step .pullUp p r).2).2 p).pull = .none := by
  simp only [step, if_neg (show ¬ 30 ≤ p by omega), if_neg (show ¬ 10 ≤ f by omega), view, upd_same]
  decide

end Rp

/-! ### nxp_siul2 -/

namespace Siul2

theorem others (imcr : Nat) (c : Call) (p q : Nat) (r : Siul2) (hq : q ≠ p) : view (step imcr c p r).2 q = view r q := by
  have o : ∀ m, view (output m p r).2 q = view r q := by
    intro m; unfold output
    by_cases h1 : 264 ≤ p
    · rw [if_pos h1]
    · rw [if_neg h1]
      by_cases h2 : 6 ≤ m
      · rw [if_pos h2]
      · rw [if_neg h2]; simp only [view, upd_ne _ _ _ _ hq]
  have i : ∀ m, view (input m imcr p r).2 q = view r q := by
    intro m; unfold input
    by_cases h1 : 264 ≤ p
    · rw [if_pos h1]
    · rw [if_neg h1]
      by_cases h2 : 6 ≤ m
      · rw [if_pos h2]
      · rw [if_neg h2]
        by_cases h3 : 512 ≤ imcr
        · rw [if_pos h3]
        · rw [if_neg h3]; simp only [view, upd_ne _ _ _ _ hq]
  rcases c with _ | ⟨_ | f, _ | (_ | _ | _ | _)⟩ | ⟨_ | f, _ | od⟩ | (_ | f) | _ | _ | _ | _ <;> simp only [step]
  · unfold analog; by_cases h1 : 264 ≤ p <;> simp only [h1, if_true, if_false, view, upd_ne _ _ _ _ hq]
  · exact i 0
  · exact i _
  · exact o 0
  · exact o _
  · unfold pullUp; by_cases h1 : 264 ≤ p <;> simp only [h1, if_true, if_false, view, upd_ne _ _ _ _ hq]
  · unfold pullDown; by_cases h1 : 264 ≤ p <;> simp only [h1, if_true, if_false, view, upd_ne _ _ _ _ hq]

/-- **C94, nxp_siul2**: an analog pin, and the pulls -/
theorem analog_does (p : Nat) (r : Siul2) (hp : p < 264) : (analog p r).1 = 0 ∧ Call.analog.Does (view r p) (view (analog p r).2 p) := by
  simp only [analog, if_neg (show ¬ 264 ≤ p by omega), Call.Does, view, upd_same]
  decide

theorem pull_does (p : Nat) (r : Siul2) (hp : p < 264) :
    (pullUp p r).1 = 0 ∧ Call.pullUp.Does (view r p) (view (pullUp p r).2 p) ∧ (pullDown p r).1 = 0 ∧ Call.pullDown.Does (view r p) (view (pullDown p r).2 p) := by
  have or3 : ∀ v : BitVec 32, v ||| 0x30000#32 = bset 17 (bset 16 v) := by
    intro v; simp only [bset, BitVec.or_assoc]; rfl
  simp only [pullUp, pullDown, if_neg (show ¬ 264 ≤ p by omega), Call.Does, view, upd_same, or3]
  rw [get_bset_other 17 4 0 _ (by decide), get_bset_other 16 4 0 _ (by decide), bset_ne 17 22 _ (by decide), bset_ne 16 22 _ (by decide),
    bset_ne 17 25 _ (by decide), bset_ne 16 25 _ (by decide), bset_ne 17 19 _ (by decide), bset_ne 16 19 _ (by decide), bset_ne 17 16 _ (by decide), bset_same 16 _ (by decide), bset_same 17 _ (by decide),
    get_bclr_other 17 4 0 _ (by decide), get_bset_other 16 4 0 _ (by decide), bclr_ne 17 22 _ (by decide), bset_ne 16 22 _ (by decide),
    bclr_ne 17 25 _ (by decide), bset_ne 16 25 _ (by decide), bclr_ne 17 19 _ (by decide), bset_ne 16 19 _ (by decide), bclr_ne 17 16 _ (by decide), bset_same 16 _ (by decide), bclr_same 17]
  simp

/-- what the output word is -/
theorem out_view (m p : Nat) (r : Siul2) (hp : p < 264) (hm : m < 6) :
    (output m p r).1 = 0 ∧ view (output m p r).2 p =
      { role := if (r.mscr p).getLsbD 22 then .analog else if m = 0 then .gpio else .func m, dir := dirOf true ((r.mscr p).getLsbD 19), pull := (view r p).pull, od := false } := by
  simp only [output, if_neg (show ¬ 264 ≤ p by omega), if_neg (show ¬ 6 ≤ m by omega), view, upd_same]
  have b : ∀ (i : Nat) (v : BitVec 32), 4 ≤ i → i < 25 → (orIn 2 28 3#32 (bset 25 (put 4 0 (BitVec.ofNat 32 m) v))).getLsbD i = v.getLsbD i := by
    intro i v h1 h2
    rw [orIn_bit _ _ _ _ _ (by omega), show decide (28 ≤ i) = false by simp; omega, Bool.false_and, Bool.false_and, Bool.or_false, bset_ne _ _ _ (by omega), put_bit _ _ _ _ _ (by omega)]
  rw [b 22 _ (by decide) (by decide), b 19 _ (by decide) (by decide), b 16 _ (by decide) (by decide), b 17 _ (by decide) (by decide), get_orIn_other _ _ _ _ _ _ (by decide),
    get_bset_other _ _ _ _ (by decide), get_put_nat 4 0 m _ (by decide) (by omega), orIn_bit _ _ _ _ _ (by decide), bset_same _ _ (by decide)]
  simp

/-- **C94, nxp_siul2**: an output, when the pin was neither an input nor analog before -/
theorem output_does_partial (f : Option Nat) (p : Nat) (r : Siul2) (hp : p < 264) (hf : ∀ n, f = some n → 1 ≤ n ∧ n < 6) (h19 : (r.mscr p).getLsbD 19 = false) (h22 : (r.mscr p).getLsbD 22 = false)
    (imcr : Nat) : ((drv imcr).step (.output f none) p r).1 = 0 ∧ (Call.output f none).Does ((drv imcr).view r p) ((drv imcr).view ((drv imcr).step (.output f none) p r).2 p) ∧
      (Call.output f none).Keeps ((drv imcr).view r p) ((drv imcr).view ((drv imcr).step (.output f none) p r).2 p) := by
  cases f with
  | none =>
    obtain ⟨h1, h2⟩ := out_view 0 p r hp (by decide)
    simp only [drv, step, h1, h2, Call.Does, Call.Keeps, h19, h22]
    simp [roleOf, dirOf]
    rfl
  | some n =>
    obtain ⟨h1, h2⟩ := out_view n p r hp (hf n rfl).2
    have : n ≠ 0 := by have := (hf n rfl).1; omega
    simp only [drv, step, h1, h2, Call.Does, Call.Keeps, h19, h22, if_neg this]
    simp [roleOf, dirOf]
    rfl

/-- **C94 refuted, nxp_siul2**: the output of a pin that was an input keeps its input buffer, that of a pin that was analog keeps its analog path -/
theorem output_residue (m p : Nat) (r : Siul2) (hp : p < 264) (hm : m < 6) :
    ((r.mscr p).getLsbD 19 = true → (view (output m p r).2 p).dir = .both) ∧ (view (output m p (analog p r).2).2 p).role = .analog := by
  refine ⟨fun h => ?_, ?_⟩
  · rw [(out_view m p r hp hm).2, h]; rfl
  · rw [(out_view m p _ hp hm).2]
    simp only [analog, if_neg (show ¬ 264 ≤ p by omega), upd_same]
    rfl

/-- what an input does: the buffer is on, the function of the register IMCR is the one asked, and no other IMCR changes -/
theorem input_view (m imcr p : Nat) (r : Siul2) (hp : p < 264) (hm : m < 6) (hi : imcr < 512) :
    (input m imcr p r).1 = 0 ∧ view (input m imcr p r).2 p = { view r p with dir := dirOf ((r.mscr p).getLsbD 25) true } ∧
    (Field.get 4 0 ((input m imcr p r).2.imcr imcr)).toNat = m ∧ ∀ j, j ≠ imcr → (input m imcr p r).2.imcr j = r.imcr j := by
  simp only [input, if_neg (show ¬ 264 ≤ p by omega), if_neg (show ¬ 6 ≤ m by omega), if_neg (show ¬ 512 ≤ imcr by omega), view, upd_same]
  rw [bset_ne 19 22 _ (by decide), bset_ne 19 25 _ (by decide), bset_same 19 _ (by decide), bset_ne 19 16 _ (by decide), bset_ne 19 17 _ (by decide), get_bset_other 19 4 0 _ (by decide)]
  refine ⟨trivial, rfl, ?_, fun j hj => upd_ne _ _ _ _ hj⟩
  have : ∀ m : Fin 6, (Field.get 4 0 (BitVec.ofNat 32 m.val &&& mask 32 4)).toNat = m.val := by decide
  exact this ⟨m, hm⟩

/-- **C94, nxp_siul2**: a GPIO input, when the pin was a GPIO and not an output before -/
theorem input_does_partial (imcr p : Nat) (r : Siul2) (hp : p < 264) (hi : imcr < 512) (hr : (view r p).role = .gpio) (h25 : (r.mscr p).getLsbD 25 = false) :
    ((drv imcr).step (.input none none) p r).1 = 0 ∧ (Call.input none none).Does ((drv imcr).view r p) ((drv imcr).view ((drv imcr).step (.input none none) p r).2 p) ∧
      (Call.input none none).Keeps ((drv imcr).view r p) ((drv imcr).view ((drv imcr).step (.input none none) p r).2 p) := by
  obtain ⟨h1, h2, _⟩ := input_view 0 imcr p r hp (by decide) hi
  simp only [drv, step, h1, h2, Call.Does, Call.Keeps, h25, hr]
  simp [roleOf, dirOf]

/-- **C94 refuted, nxp_siul2**: a pin that was an output and becomes an input goes on driving -/
theorem input_residue (m m' imcr p : Nat) (r : Siul2) (hp : p < 264) (hm : m < 6) (hm' : m' < 6) (hi : imcr < 512) :
    (input m' imcr p (output m p r).2).1 = 0 ∧ (view (input m' imcr p (output m p r).2).2 p).dir = .both := by
  obtain ⟨h1, h2, _⟩ := input_view m' imcr p (output m p r).2 hp hm' hi
  refine ⟨h1, ?_⟩
  rw [h2]
  have : ((output m p r).2.mscr p).getLsbD 25 = true := by
    have := congrArg Pin.dir (out_view m p r hp hm).2
    simp only [view] at this
    revert this
    cases ((output m p r).2.mscr p).getLsbD 25 <;> cases ((output m p r).2.mscr p).getLsbD 19 <;> cases (r.mscr p).getLsbD 19 <;> simp [dirOf]
  rw [this]
  rfl

/-- wrong arguments -/
theorem refuses (p : Nat) (r : Siul2) (m imcr : Nat) :
    (264 ≤ p → output m p r = (einval, r) ∧ input m imcr p r = (einval, r) ∧ analog p r = (einval, r) ∧ pullUp p r = (einval, r) ∧ pullDown p r = (einval, r)) ∧
    (6 ≤ m → output m p r = (einval, r) ∧ input m imcr p r = (einval, r)) ∧ (512 ≤ imcr → input m imcr p r = (einval, r)) := by
  refine ⟨fun h => ?_, fun h => ?_, fun h => ?_⟩
  · simp only [output, input, analog, pullUp, pullDown, if_pos h, and_self]
  · by_cases h1 : 264 ≤ p <;> simp only [output, input, h1, if_true, if_false, if_pos h, and_self]
  · by_cases h1 : 264 ≤ p <;> by_cases h2 : 6 ≤ m <;> simp only [input, h1, h2, if_true, if_false, if_pos h]

/-- an instance of the hypotheses of the `_partial` theorems: the registers after a reset -/
example : let r : Siul2 := ⟨fun _ => 0#32, fun _ => 0#32⟩
    (r.mscr 5).getLsbD 19 = false ∧ (r.mscr 5).getLsbD 22 = false ∧ (view r 5).role = .gpio ∧ (r.mscr 5).getLsbD 25 = false := by decide

end Siul2

/-! ### nxp_siu -/

namespace Siu

theorem or3 (v : BitVec 16) : v ||| 3#16 = bset 0 (bset 1 v) := by
  simp only [bset, BitVec.or_assoc]; rfl

/-- **C94, nxp_siu** -/
theorem out_bits (n : Nat) (v : BitVec 16) (hn : n < 4) :
    let w := orIn 2 2 3#16 (orIn 2 6 3#16 (bclr 8 (bset 9 (put 3 10 (BitVec.ofNat 16 n) v))))
    (Field.get 3 10 w).toNat = n ∧ w.getLsbD 9 = true ∧ w.getLsbD 8 = false ∧ w.getLsbD 1 = v.getLsbD 1 ∧ w.getLsbD 0 = v.getLsbD 0 := by
  have g : ∀ (i : Nat) (x : BitVec 16), i < 16 → (i < 2 ∨ 8 ≤ i) → (orIn 2 2 3#16 (orIn 2 6 3#16 x)).getLsbD i = x.getLsbD i := by
    intro i x h h2
    rw [orIn_bit _ _ _ _ _ h, orIn_bit _ _ _ _ _ h]
    have a : (decide (2 ≤ i) && decide (i < 2 + 2)) = false := by rw [Bool.eq_false_iff]; simp only [ne_eq, Bool.and_eq_true, decide_eq_true_eq]; omega
    have b : (decide (6 ≤ i) && decide (i < 6 + 2)) = false := by rw [Bool.eq_false_iff]; simp only [ne_eq, Bool.and_eq_true, decide_eq_true_eq]; omega
    simp [a, b]
  refine ⟨?_, ?_, ?_, ?_, ?_⟩
  · rw [get_orIn_other _ _ _ _ _ _ (by decide), get_orIn_other _ _ _ _ _ _ (by decide), get_bclr_other _ _ _ _ (by decide), get_bset_other _ _ _ _ (by decide), get_put_nat _ _ _ _ (by decide) (by omega)]
  · rw [g 9 _ (by decide) (by decide), bclr_ne _ _ _ (by decide), bset_same _ _ (by decide)]
  · rw [g 8 _ (by decide) (by decide), bclr_same]
  · rw [g 1 _ (by decide) (by decide), bclr_ne _ _ _ (by decide), bset_ne _ _ _ (by decide), put_bit _ _ _ _ _ (by decide)]
  · rw [g 0 _ (by decide) (by decide), bclr_ne _ _ _ (by decide), bset_ne _ _ _ (by decide), put_bit _ _ _ _ _ (by decide)]

theorem in_bits (n : Nat) (v : BitVec 16) (hn : n < 4) :
    let w := bclr 9 (bset 8 (put 3 10 (BitVec.ofNat 16 n) v))
    (Field.get 3 10 w).toNat = n ∧ w.getLsbD 9 = false ∧ w.getLsbD 8 = true ∧ w.getLsbD 1 = v.getLsbD 1 ∧ w.getLsbD 0 = v.getLsbD 0 := by
  refine ⟨?_, ?_, ?_, ?_, ?_⟩
  · rw [get_bclr_other _ _ _ _ (by decide), get_bset_other _ _ _ _ (by decide), get_put_nat _ _ _ _ (by decide) (by omega)]
  · rw [bclr_same]
  · rw [bclr_ne _ _ _ (by decide), bset_same _ _ (by decide)]
  · rw [bclr_ne _ _ _ (by decide), bset_ne _ _ _ (by decide), put_bit _ _ _ _ _ (by decide)]
  · rw [bclr_ne _ _ _ (by decide), bset_ne _ _ _ (by decide), put_bit _ _ _ _ _ (by decide)]

/-- the view after an output, an input -/
theorem out_view (cnt : Nat) (f : Option Nat) (p : Nat) (r : Siu) (hp : p < cnt) (hf : code f < 4) (h0 : f ≠ some 0) : (step cnt (.output f none) p r).1 = 0 ∧
    view (step cnt (.output f none) p r).2 p = { role := if code f = 0 then .gpio else .func (code f), dir := .out, pull := (view r p).pull, od := false } := by
  obtain ⟨a, b, c, d, e⟩ := out_bits (code f) (r.pcr p) hf
  simp only [step, if_neg (show ¬ cnt ≤ p by omega), if_neg (show ¬ (4 ≤ code f ∨ f = some 0) from fun q => q.elim (fun q => by omega) h0), view, upd_same, a, b, c, d, e]
  exact ⟨trivial, rfl⟩

theorem in_view (cnt : Nat) (f : Option Nat) (p : Nat) (r : Siu) (hp : p < cnt) (hf : code f < 4) (h0 : f ≠ some 0) : (step cnt (.input f none) p r).1 = 0 ∧
    view (step cnt (.input f none) p r).2 p = { role := if code f = 0 then .gpio else .func (code f), dir := .inp, pull := (view r p).pull, od := false } := by
  obtain ⟨a, b, c, d, e⟩ := in_bits (code f) (r.pcr p) hf
  simp only [step, if_neg (show ¬ cnt ≤ p by omega), if_neg (show ¬ (4 ≤ code f ∨ f = some 0) from fun q => q.elim (fun q => by omega) h0), view, upd_same, a, b, c, d, e]
  exact ⟨trivial, rfl⟩

/-- **C94, nxp_siu**, for any number of pins -/
theorem serves (cnt : Nat) : (drv cnt).Serves cnt (fun c => Has c) := by
  constructor
  · intro c p r hp hc
    have h1 : ¬ cnt ≤ p := by omega
    rcases c with _ | ⟨_ | f, _ | (_ | _ | _ | _)⟩ | ⟨_ | f, _ | od⟩ | (_ | f) | _ | _ | _ | _ <;> try exact hc.elim
    · obtain ⟨a, b⟩ := in_view cnt none p r hp (by decide) (by decide)
      simp only [drv, a, b, Call.Does]
      simp [roleOf, code]
    · have hc : 1 ≤ f ∧ f < 4 := hc
      obtain ⟨a, b⟩ := in_view cnt (some f) p r hp hc.2 (by simp; omega)
      simp only [drv, a, b, Call.Does]
      simp [roleOf, code, show f ≠ 0 by omega]
    · obtain ⟨a, b⟩ := out_view cnt none p r hp (by decide) (by decide)
      simp only [drv, a, b, Call.Does]
      simp [roleOf, code]
    · have hc : 1 ≤ f ∧ f < 4 := hc
      obtain ⟨a, b⟩ := out_view cnt (some f) p r hp hc.2 (by simp; omega)
      simp only [drv, a, b, Call.Does]
      simp [roleOf, code, show f ≠ 0 by omega]
    · simp only [drv, step, if_neg h1, Call.Does, view, upd_same, or3]
      rw [get_bset_other 0 3 10 _ (by decide), get_bset_other 1 3 10 _ (by decide), bset_ne 0 9 _ (by decide), bset_ne 1 9 _ (by decide), bset_ne 0 8 _ (by decide), bset_ne 1 8 _ (by decide),
        bset_ne 0 1 _ (by decide), bset_same 1 _ (by decide), bset_same 0 _ (by decide)]
      simp
    · simp only [drv, step, if_neg h1, Call.Does, view, upd_same]
      rw [get_bclr_other 0 3 10 _ (by decide), get_bset_other 1 3 10 _ (by decide), bclr_ne 0 9 _ (by decide), bset_ne 1 9 _ (by decide), bclr_ne 0 8 _ (by decide), bset_ne 1 8 _ (by decide),
        bclr_ne 0 1 _ (by decide), bset_same 1 _ (by decide), bclr_same 0]
      simp
  · intro c p q r _ hq
    by_cases h1 : cnt ≤ p
    · rcases c with _ | ⟨_ | f, _ | (_ | _ | _ | _)⟩ | ⟨_ | f, _ | od⟩ | (_ | f) | _ | _ | _ | _ <;> simp only [drv, step, if_pos h1]
    · rcases c with _ | ⟨_ | f, _ | (_ | _ | _ | _)⟩ | ⟨_ | f, _ | od⟩ | (_ | f) | _ | _ | _ | _ <;> simp only [drv, step, if_neg h1] <;> (try simp only [view, upd_ne _ _ _ _ hq])
      · by_cases h2 : 4 ≤ code none ∨ (none : Option Nat) = some 0 <;> simp only [h2, if_true, if_false, upd_ne _ _ _ _ hq]
      · by_cases h2 : 4 ≤ code (some f) ∨ some f = some 0 <;> simp only [h2, if_true, if_false, upd_ne _ _ _ _ hq]
      · by_cases h2 : 4 ≤ code none ∨ (none : Option Nat) = some 0 <;> simp only [h2, if_true, if_false, upd_ne _ _ _ _ hq]
      · by_cases h2 : 4 ≤ code (some f) ∨ some f = some 0 <;> simp only [h2, if_true, if_false, upd_ne _ _ _ _ hq]
  · intro c p r h
    by_cases h1 : cnt ≤ p
    · rcases c with _ | ⟨_ | f, _ | (_ | _ | _ | _)⟩ | ⟨_ | f, _ | od⟩ | (_ | f) | _ | _ | _ | _ <;> simp only [drv, step, if_pos h1]
    · have h := h.resolve_left h1
      rcases c with _ | ⟨_ | f, _ | (_ | _ | _ | _)⟩ | ⟨_ | f, _ | od⟩ | (_ | f) | _ | _ | _ | _ <;> first
        | exact absurd trivial h
        | rfl
        | (have h : ¬ (1 ≤ f ∧ f < 4) := h
           have h' : 4 ≤ code (some f) ∨ some f = some 0 := by
             simp only [Option.some.injEq, code]
             omega
           simp only [drv, step, if_neg h1, if_pos h'])

/-- **C94, nxp_siu**: pulls are kept -/
theorem keeps (cnt : Nat) : (drv cnt).KeepsRest cnt Has := by
  intro c p r hp hc
  rcases c with _ | ⟨_ | f, _ | (_ | _ | _ | _)⟩ | ⟨_ | f, _ | od⟩ | (_ | f) | _ | _ | _ | _ <;> try exact hc.elim
  · obtain ⟨a, b⟩ := in_view cnt none p r hp (by decide) (by decide)
    simp only [drv, b, Call.Keeps]
    exact ⟨fun _ => trivial, rfl⟩
  · have hc : 1 ≤ f ∧ f < 4 := hc
    obtain ⟨a, b⟩ := in_view cnt (some f) p r hp hc.2 (by simp; omega)
    simp only [drv, b, Call.Keeps]
    exact ⟨fun _ => trivial, rfl⟩
  · obtain ⟨a, b⟩ := out_view cnt none p r hp (by decide) (by decide)
    simp only [drv, b, Call.Keeps]
    exact ⟨trivial, fun _ => rfl⟩
  · have hc : 1 ≤ f ∧ f < 4 := hc
    obtain ⟨a, b⟩ := out_view cnt (some f) p r hp hc.2 (by simp; omega)
    simp only [drv, b, Call.Keeps]
    exact ⟨trivial, fun _ => rfl⟩
  all_goals exact trivial

/-- mux_nxp_siu_imux_muxsel: the field asked has the value asked, no other does anything -/
theorem muxsel_does (reg sel value : Nat) (r : Siu) (h1 : reg < 13) (h2 : sel < 16) (h3 : value ≤ 3) :
    (muxsel reg sel value r).1 = 0 ∧ (Field.get 2 (2 * sel) ((muxsel reg sel value r).2.imux reg)).toNat = value ∧
    (∀ s, s ≠ sel → Field.get 2 (2 * s) ((muxsel reg sel value r).2.imux reg) = Field.get 2 (2 * s) (r.imux reg)) ∧
    (∀ j, j ≠ reg → (muxsel reg sel value r).2.imux j = r.imux j) ∧ ∀ q, view (muxsel reg sel value r).2 q = view r q := by
  simp only [muxsel, if_neg (show ¬ 13 ≤ reg by omega), if_neg (show ¬ 16 ≤ sel by omega), if_neg (show ¬ 3 < value by omega), upd_same]
  refine ⟨trivial, ?_, fun s hs => get_put_other _ _ _ _ _ _ (by omega), fun j hj => upd_ne _ _ _ _ hj, fun q => rfl⟩
  rw [Nat.mul_comm 2 sel]
  exact get_put_nat 2 (sel * 2) value _ (by omega) (by omega)

theorem muxsel_refuses (reg sel value : Nat) (r : Siu) (h : 13 ≤ reg ∨ 16 ≤ sel ∨ 3 < value) : muxsel reg sel value r = (einval, r) := by
  by_cases h1 : 13 ≤ reg <;> by_cases h2 : 16 ≤ sel <;> by_cases h3 : 3 < value <;> simp only [muxsel, h1, h2, h3, if_true, if_false]
  omega

end Siu
end Pico.Mux
