/-
The GPIO drivers (C78): theorems.
-/
import Verif.Drivers.Gpio
namespace Pico.Gpio

/-! ### Words with one bit -/

def One (n : Nat) (m : Word) : Prop := n < 32 ∧ ∀ b, b < 32 → m.getLsbD b = decide (b = n)

theorem mask_one (k : Kind) (p : Nat) (hp : p < pins k) : One (bit k p) (mask k p) := by
  cases k <;> simp only [pins] at hp <;> refine ⟨by simp only [bit]; omega, ?_⟩ <;> intro b hb <;> simp only [mask, bit] <;>
  first
  | (have h1 : ∀ c : Nat, c < 32 → ∀ d : Nat, d < 8 → ((1#32 <<< d) &&& 0xff#32).getLsbD c = decide (c = d) := by decide
     exact h1 b hb p hp)
  | (have h1 : ∀ c : Nat, c < 32 → ∀ d : Nat, d < 32 → (1#32 <<< d).getLsbD c = decide (c = d) := by decide
     exact h1 b hb p (by omega))
  | (have h1 : ∀ c : Nat, c < 32 → ∀ d : Nat, d < 32 → (0x80000000#32 >>> d).getLsbD c = decide (c = 31 - d) := by decide
     exact h1 b hb p hp)
  | (have h1 : ∀ c : Nat, c < 32 → ∀ d : Nat, d < 16 → (0x8000#32 >>> d).getLsbD c = decide (c = 15 - d) := by decide
     exact h1 b hb p hp)

theorem and_one (n : Nat) (m a : Word) (h : One n m) : (a &&& m = 0) ↔ a.getLsbD n = false := by
  constructor
  · intro e
    have := congrArg (fun x : Word => x.getLsbD n) e
    simpa [BitVec.getLsbD_and, h.2 n h.1] using this
  · intro e
    apply BitVec.eq_of_getLsbD_eq
    intro i hi
    rw [BitVec.getLsbD_and, h.2 i hi]
    by_cases c : i = n
    · subst c; simp [e]
    · simp [c]

theorem decide_and_one (n : Nat) (m a : Word) (h : One n m) : decide (a &&& m = 0) = !a.getLsbD n := by
  by_cases c : a &&& m = 0
  · simp only [c, decide_true]; rw [(and_one n m a h).1 c]; rfl
  · rw [decide_eq_false c]
    cases d : a.getLsbD n
    · exact absurd ((and_one n m a h).2 d) c
    · rfl

theorem low_half : ∀ c : Nat, c < 32 → (0xffff#32).getLsbD c = decide (c < 16) := by decide

/-- the bits of the output register after writing the mask of a pin to the set/clear register -/
theorem bsr_set (n : Nat) (m o : Word) (h : One n m) (h16 : n < 16) (b : Nat) (hb : b < 32) :
    (bsrOut m o).getLsbD b = (if b = n then true else o.getLsbD b) := by
  have hz : (m >>> 16).getLsbD b = false := by
    rw [BitVec.getLsbD_ushiftRight]
    by_cases c : 16 + b < 32
    · rw [h.2 _ c, decide_eq_false_iff_not]; omega
    · exact BitVec.getLsbD_of_ge _ _ (by omega)
  simp only [bsrOut, BitVec.getLsbD_or, BitVec.getLsbD_and, BitVec.getLsbD_not, hz, h.2 b hb, low_half b hb, hb]
  by_cases c : b = n
  · subst c; simp [h16]
  · simp [c]

theorem bsr_clr (n : Nat) (m o : Word) (h : One n m) (h16 : n < 16) (b : Nat) (hb : b < 32) :
    (bsrOut (m <<< 16) o).getLsbD b = (if b = n then false else o.getLsbD b) := by
  have hz : ((m <<< 16) >>> 16).getLsbD b = decide (b = n) := by
    rw [BitVec.getLsbD_ushiftRight, BitVec.getLsbD_shiftLeft]
    by_cases c : 16 + b < 32
    · rw [show 16 + b - 16 = b by omega, h.2 _ hb]; simp [c]
    · simp only [c, decide_false, Bool.false_and]; symm; rw [decide_eq_false_iff_not]; omega
  have hw : ((m <<< 16) &&& 0xffff#32).getLsbD b = false := by
    rw [BitVec.getLsbD_and, low_half b hb, BitVec.getLsbD_shiftLeft]
    by_cases c : b < 16 <;> simp [c]
  rw [bsrOut, BitVec.getLsbD_or, hw, BitVec.getLsbD_and, BitVec.getLsbD_not, hz]
  by_cases c : b = n <;> simp [c, hb]

theorem bit16 (k : Kind) (p : Nat) (hp : p < pins k) (hk : k = .gd32 ∨ k = .renesas ∨ k = .bsrr) : bit k p < 16 := by
  rcases hk with rfl | rfl | rfl <;> simpa [pins, bit] using hp

/-! ### One task -/

/-- C78: gpio_write drives its pin to the value asked (inverted if asked) and leaves all other pins of the port, for every driver except stm8 -/
theorem gpio_write_partial (k : Kind) (hk : k ≠ .stm8) (invert value : Bool) (pin : Nat) (hp : pin < pins k) (p : Port) (a : Word) (b : Nat) (hb : b < 32) :
    (execAll (write k invert (mask k pin) value) (p, a)).1.out.getLsbD b = if b = bit k pin then value ^^ invert else p.out.getLsbD b := by
  have h := mask_one k pin hp
  have h16 := bit16 k pin hp
  revert h h16
  generalize bit k pin = n
  generalize mask k pin = m
  intro h h16
  cases hv : value ^^ invert
  case false =>
    cases k
    case stm8 => exact absurd rfl hk
    case renesas => simp only [write, hv, Bool.false_eq_true, if_false, execAll, exec]; exact bsr_clr n m _ h (h16 (by simp)) b hb
    case bsrr => simp only [write, hv, Bool.false_eq_true, if_false, execAll, exec]; exact bsr_clr n m _ h (h16 (by simp)) b hb
    all_goals
      simp only [write, hv, Bool.false_eq_true, if_false, execAll, exec, BitVec.getLsbD_and, BitVec.getLsbD_not, h.2 b hb, hb, decide_true, Bool.true_and]
      by_cases c : b = n <;> simp [c]
  case true =>
    cases k
    case stm8 => exact absurd rfl hk
    case renesas => simp only [write, hv, if_true, execAll, exec]; exact bsr_set n m _ h (h16 (by simp)) b hb
    case bsrr => simp only [write, hv, if_true, execAll, exec]; exact bsr_set n m _ h (h16 (by simp)) b hb
    case gd32 => simp only [write, hv, if_true, execAll, exec]; exact bsr_set n m _ h (h16 (by simp)) b hb
    all_goals
      simp only [write, hv, if_true, execAll, exec, BitVec.getLsbD_or, h.2 b hb]
      by_cases c : b = n <;> simp [c]

/-- gpio_write of tinyavr also makes the pin an output; no other driver (and no other pin) changes direction -/
theorem gpio_write_dir (k : Kind) (invert value : Bool) (pin : Nat) (hp : pin < pins k) (p : Port) (a : Word) (b : Nat) (hb : b < 32) :
    (execAll (write k invert (mask k pin) value) (p, a)).1.dir.getLsbD b = if k = .tinyavr ∧ b = bit k pin then true else p.dir.getLsbD b := by
  have h := mask_one k pin hp
  cases hv : value ^^ invert <;> cases k <;> simp only [write, hv, if_true, Bool.false_eq_true, if_false, execAll, exec, BitVec.getLsbD_or, h.2 b hb] <;>
    first
    | (by_cases c : b = bit .tinyavr pin <;> simp [c])
    | simp

/-- stm8: driving a pin high clears the outputs of all the other pins of the port (`ODR = mask` where `|=` is meant) -/
theorem stm8_write (invert value : Bool) (pin : Nat) (hp : pin < 8) (p : Port) (a : Word) (b : Nat) (hb : b < 32) :
    (execAll (write .stm8 invert (mask .stm8 pin) value) (p, a)).1.out.getLsbD b =
      if b = pin then value ^^ invert else (if value ^^ invert then false else p.out.getLsbD b) := by
  have h := mask_one .stm8 pin hp
  have hn : bit .stm8 pin = pin := rfl
  rw [hn] at h
  generalize mask .stm8 pin = m at h ⊢
  cases hv : value ^^ invert <;>
    simp only [write, hv, if_true, Bool.false_eq_true, if_false, execAll, exec, BitVec.getLsbD_and, BitVec.getLsbD_not, h.2 b hb, hb, decide_true, Bool.true_and] <;>
    by_cases c : b = pin <;> simp [c]

theorem renesas_toggle (invert : Bool) (n : Nat) (m : Word) (h : One n m) (p : Port) (a : Word) :
    (execAll (toggle .renesas invert m) (p, a)).1.out = bsrOut (if (!p.out.getLsbD n) ^^ invert then m else m <<< 16) p.out := by
  show bsrOut (if (decide (p.out &&& m = 0)) ^^ invert then m else m <<< 16) p.out = _
  rw [decide_and_one n m p.out h]

/-- C78: gpio_toggle changes its pin and no other, for every driver, except renesas with an inverted pin -/
theorem gpio_toggle_partial (k : Kind) (invert : Bool) (hk : k = .renesas → invert = false) (pin : Nat) (hp : pin < pins k) (p : Port) (a : Word) (b : Nat) (hb : b < 32) :
    (execAll (toggle k invert (mask k pin)) (p, a)).1.out.getLsbD b = if b = bit k pin then !p.out.getLsbD b else p.out.getLsbD b := by
  have h := mask_one k pin hp
  have h16 := bit16 k pin hp
  revert h h16
  generalize bit k pin = n
  generalize mask k pin = m
  intro h h16
  have ha := and_one n m p.out h
  cases k
  case renesas =>
    rw [renesas_toggle invert n m h, hk rfl, Bool.xor_false]
    cases c : p.out.getLsbD n
    · simp only [Bool.not_false, if_true]
      rw [bsr_set n m _ h (h16 (by simp)) b hb]
      by_cases e : b = n
      · subst e; simp [c]
      · simp [e]
    · simp only [Bool.not_true, Bool.false_eq_true, if_false]
      rw [bsr_clr n m _ h (h16 (by simp)) b hb]
      by_cases e : b = n
      · subst e; simp [c]
      · simp [e]
  case pio =>
    simp only [toggle, execAll, exec, ne_eq, ha]
    cases c : p.out.getLsbD n
    · simp only [not_true, if_false, BitVec.getLsbD_or, h.2 b hb]
      by_cases e : b = n
      · subst e; simp [c]
      · simp [e]
    · simp only [Bool.true_eq_false, not_false_iff, if_true, BitVec.getLsbD_and, BitVec.getLsbD_not, h.2 b hb, hb]
      by_cases e : b = n
      · subst e; simp [c]
      · simp [e]
  all_goals
    simp only [toggle, execAll, exec, BitVec.getLsbD_xor, h.2 b hb]
    by_cases c : b = n <;> simp [c]

/-- renesas: with an inverted pin gpio_toggle never changes anything: it writes the level already there -/
theorem renesas_toggle_inverted (pin : Nat) (hp : pin < 16) (p : Port) (a : Word) :
    (execAll (toggle .renesas true (mask .renesas pin)) (p, a)).1.out = p.out := by
  have h := mask_one .renesas pin hp
  apply BitVec.eq_of_getLsbD_eq
  intro b hb
  rw [renesas_toggle true _ _ h, Bool.xor_true, Bool.not_not]
  cases c : p.out.getLsbD (bit .renesas pin)
  · simp only [Bool.false_eq_true, if_false]
    rw [bsr_clr _ _ _ h hp b hb]
    by_cases e : b = bit .renesas pin
    · rw [if_pos e, e, c]
    · rw [if_neg e]
  · simp only [if_true]
    rw [bsr_set _ _ _ h hp b hb]
    by_cases e : b = bit .renesas pin
    · rw [if_pos e, e, c]
    · rw [if_neg e]

/-- C78: gpio_read returns the level of its pin, inverted if asked, whatever the levels of the other pins -/
theorem gpio_read_spec (k : Kind) (invert : Bool) (pin : Nat) (hp : pin < pins k) (inp : Word) :
    (read k invert (mask k pin) inp).2 = (inp.getLsbD (bit k pin) ^^ invert) := by
  simp only [read]
  rw [show decide (inp &&& mask k pin ≠ 0) = !decide (inp &&& mask k pin = 0) by simp only [ne_eq, decide_not], decide_and_one _ _ _ (mask_one k pin hp), Bool.not_not]

/-- a pin connected to itself: what is read is what was written (and the inversion is not seen) -/
theorem gpio_write_read (k : Kind) (hk : k ≠ .stm8) (invert value : Bool) (pin : Nat) (hp : pin < pins k) (p : Port) (a : Word) :
    (read k invert (mask k pin) (execAll (write k invert (mask k pin) value) (p, a)).1.out).2 = value := by
  rw [gpio_read_spec k invert pin hp, gpio_write_partial k hk invert value pin hp p a _ (mask_one k pin hp).1, if_pos rfl]
  cases value <;> cases invert <;> rfl

/-- gpio_read leaves every output level; tinyavr stops driving the pin (its next write drives it again) -/
theorem gpio_read_effect (k : Kind) (invert : Bool) (pin : Nat) (hp : pin < pins k) (inp : Word) (p : Port) (a : Word) (b : Nat) (hb : b < 32) :
    (execAll (read k invert (mask k pin) inp).1 (p, a)).1.out = p.out ∧
    (execAll (read k invert (mask k pin) inp).1 (p, a)).1.dir.getLsbD b = if k = .tinyavr ∧ b = bit k pin then false else p.dir.getLsbD b := by
  have h := mask_one k pin hp
  cases k <;> refine ⟨rfl, ?_⟩ <;> simp only [read, execAll, exec] <;>
    first
    | (simp only [BitVec.getLsbD_and, BitVec.getLsbD_not, h.2 b hb, hb]
       by_cases c : b = bit .tinyavr pin <;> simp [c])
    | simp

/-- C78: what gpio_setup asks for (drivers/include/gpio.h:10-20) is what later writes and reads do: with GPIO_INVERT_ENABLE (2) a written `true` is a low
level and a low level reads `true`, with GPIO_INVERT_DISABLE (1) levels are values, with GPIO_INVERT_IGNORE (0) the polarity is as before; no other selection is accepted -/
theorem gpio_setup_spec (k : Kind) (hk : k ≠ .stm8) (sel : Nat) (before : Bool) (pin : Nat) (hp : pin < pins k) :
    (setup sel before = none ↔ 3 ≤ sel) ∧
    ∀ now, setup sel before = some now → ∀ (value : Bool) (p : Port) (a inp : Word),
      (sel = 2 → (execAll (write k now (mask k pin) value) (p, a)).1.out.getLsbD (bit k pin) = !value ∧ (read k now (mask k pin) inp).2 = !inp.getLsbD (bit k pin)) ∧
      (sel = 1 → (execAll (write k now (mask k pin) value) (p, a)).1.out.getLsbD (bit k pin) = value ∧ (read k now (mask k pin) inp).2 = inp.getLsbD (bit k pin)) ∧
      (sel = 0 → write k now = write k before ∧ read k now = read k before ∧ toggle k now = toggle k before) := by
  constructor
  · unfold setup
    by_cases c0 : sel = 0
    · subst c0; simp
    · by_cases c3 : sel < 3
      · simp [c0, c3]
      · simp [c0, c3]; omega
  · intro now h value p a inp
    rw [gpio_write_partial k hk now value pin hp p a _ (mask_one k pin hp).1, if_pos rfl, gpio_read_spec k now pin hp]
    refine ⟨?_, ?_, ?_⟩ <;> intro e <;> subst e <;> simp [setup] at h <;> subst h <;> simp

/-- a case: inverted at init, switched off, on, left -/
example : setup 2 false = some true ∧ setup 1 true = some false ∧ setup 0 true = some true ∧ setup 3 true = none := by decide

/-! ### Several tasks -/

/-- the access touches no bit of the output but `n`, and what it does to it depends on nothing else -/
def Local (n : Nat) (i : I) : Prop :=
  (∀ p a b, b < 32 → b ≠ n → (exec i p a).1.out.getLsbD b = p.out.getLsbD b) ∧
  (∀ p q a c, p.out.getLsbD n = q.out.getLsbD n → a.getLsbD n = c.getLsbD n →
    (exec i p a).1.out.getLsbD n = (exec i q c).1.out.getLsbD n ∧ (exec i p a).2.getLsbD n = (exec i q c).2.getLsbD n)

/-- operations that may be interleaved with those of other tasks -/
def atomic (k : Kind) (invert : Bool) : Op → Bool
  | .write _ => match k with
    | .pio | .strobe | .pic32 | .tinyavr | .gd32 | .renesas | .bsrr => true
    | _ => false
  | .toggle => match k with
    | .pio | .strobe | .pic32 | .tinyavr => true
    | .renesas => !invert
    | _ => false

theorem local_set (n : Nat) (m : Word) (h : One n m) : Local n (.set m) := by
  refine ⟨?_, ?_⟩
  · intro p a b hb hn; simp [exec, h.2 b hb, hn]
  · intro p q a c h1 h2; exact ⟨by simp [exec, h1], h2⟩

theorem local_clr (n : Nat) (m : Word) (h : One n m) : Local n (.clr m) := by
  refine ⟨?_, ?_⟩
  · intro p a b hb hn; simp only [exec, BitVec.getLsbD_and, BitVec.getLsbD_not, h.2 b hb, hn, hb, decide_true, decide_false, Bool.not_false, Bool.and_true]
  · intro p q a c h1 h2; exact ⟨by simp [exec, h1], h2⟩

theorem local_inv (n : Nat) (m : Word) (h : One n m) : Local n (.inv m) := by
  refine ⟨?_, ?_⟩
  · intro p a b hb hn; simp [exec, h.2 b hb, hn]
  · intro p q a c h1 h2; exact ⟨by simp [exec, h1], h2⟩

theorem local_bsr (n : Nat) (m : Word) (h : One n m) (h16 : n < 16) : Local n (.bsr m) := by
  refine ⟨?_, ?_⟩
  · intro p a b hb hn; simp only [exec]; rw [bsr_set n m _ h h16 b hb, if_neg hn]
  · intro p q a c h1 h2; refine ⟨?_, h2⟩; simp only [exec]; rw [bsr_set n m _ h h16 n h.1, bsr_set n m _ h h16 n h.1, if_pos rfl, if_pos rfl]

theorem local_bsr16 (n : Nat) (m : Word) (h : One n m) (h16 : n < 16) : Local n (.bsr (m <<< 16)) := by
  refine ⟨?_, ?_⟩
  · intro p a b hb hn; simp only [exec]; rw [bsr_clr n m _ h h16 b hb, if_neg hn]
  · intro p q a c h1 h2; refine ⟨?_, h2⟩; simp only [exec]; rw [bsr_clr n m _ h h16 n h.1, bsr_clr n m _ h h16 n h.1, if_pos rfl, if_pos rfl]

theorem local_ld (n : Nat) : Local n .ld := ⟨fun _ _ _ _ _ => rfl, fun _ _ _ _ h1 _ => ⟨h1, h1⟩⟩

theorem local_dir (n : Nat) (m : Word) : Local n (.dirSet m) := ⟨fun _ _ _ _ _ => rfl, fun _ _ _ _ h1 h2 => ⟨h1, h2⟩⟩

theorem local_flip (n : Nat) (m : Word) (h : One n m) : Local n (.flip m) := by
  refine ⟨?_, ?_⟩
  · intro p a b hb hn
    simp only [exec]
    by_cases c : a &&& m ≠ 0
    · rw [if_pos c]; simp only [BitVec.getLsbD_and, BitVec.getLsbD_not, h.2 b hb, hn, hb, decide_true, decide_false, Bool.not_false, Bool.and_true]
    · rw [if_neg c]; simp [h.2 b hb, hn]
  · intro p q a c h1 h2
    refine ⟨?_, h2⟩
    simp only [exec, ne_eq, and_one n m _ h, h2]
    cases d : c.getLsbD n <;> simp [h1]

theorem local_flipInv (n : Nat) (m : Word) (i : Bool) (h : One n m) (h16 : n < 16) : Local n (.flipInv i m) := by
  refine ⟨?_, ?_⟩
  · intro p a b hb hn
    simp only [exec]
    cases (decide (a &&& m = 0)) ^^ i
    · simp only [Bool.false_eq_true, if_false]; rw [bsr_clr n m _ h h16 b hb, if_neg hn]
    · simp only [if_true]; rw [bsr_set n m _ h h16 b hb, if_neg hn]
  · intro p q a c h1 h2
    refine ⟨?_, h2⟩
    simp only [exec, decide_and_one n m _ h, h2]
    cases (!c.getLsbD n) ^^ i
    · simp only [Bool.false_eq_true, if_false]; rw [bsr_clr n m _ h h16 n h.1, bsr_clr n m _ h h16 n h.1, if_pos rfl, if_pos rfl]
    · simp only [if_true]; rw [bsr_set n m _ h h16 n h.1, bsr_set n m _ h h16 n h.1, if_pos rfl, if_pos rfl]

theorem code_local (k : Kind) (invert : Bool) (o : Op) (t : Nat) (ht : t < pins k) (ho : atomic k invert o = true) :
    ∀ i ∈ code k invert (mask k t) o, Local (bit k t) i := by
  have h := mask_one k t ht
  have h16 := bit16 k t ht
  have l1 := local_set _ _ h
  have l2 := local_clr _ _ h
  have l3 := local_inv _ _ h
  have l4 := local_flip _ _ h
  have l5 := local_ld (bit k t)
  have l6 := local_dir (bit k t) (mask k t)
  have l7 := fun x => local_bsr _ _ h (h16 x)
  have l8 := fun x => local_bsr16 _ _ h (h16 x)
  have l9 := fun x i => local_flipInv _ _ i h (h16 x)
  have one : ∀ x : I, Local (bit k t) x → ∀ i ∈ [x], Local (bit k t) i := by
    intro x hx i hi; rw [List.mem_singleton] at hi; rw [hi]; exact hx
  have two : ∀ x y : I, Local (bit k t) x → Local (bit k t) y → ∀ i ∈ [x, y], Local (bit k t) i := by
    intro x y hx hy i hi
    rcases List.mem_cons.1 hi with h | h
    · rw [h]; exact hx
    · exact one y hy i h
  cases o with
  | write v =>
    have hw : ∀ x y : I, Local (bit k t) x → Local (bit k t) y → Local (bit k t) (if v ^^ invert then x else y) := by
      intro x y hx hy; cases v ^^ invert
      · exact hy
      · exact hx
    cases k <;> first | (simp only [atomic, Bool.false_eq_true] at ho; done) | skip
    case pio => exact one _ (hw _ _ l1 l2)
    case strobe => exact one _ (hw _ _ l1 l2)
    case pic32 => exact one _ (hw _ _ l1 l2)
    case gd32 => exact one _ (hw _ _ (l7 (by simp)) l2)
    case renesas => exact one _ (hw _ _ (l7 (by simp)) (l8 (by simp)))
    case bsrr => exact one _ (hw _ _ (l7 (by simp)) (l8 (by simp)))
    case tinyavr => exact two _ _ (hw _ _ l1 l2) l6
  | toggle =>
    cases k <;> first | (simp only [atomic, Bool.false_eq_true] at ho; done) | skip
    case pio => exact two _ _ l5 l4
    case strobe => exact one _ l3
    case pic32 => exact one _ l3
    case tinyavr => exact two _ _ l3 l6
    case renesas => exact two _ _ l5 (l9 (by simp) _)

theorem code_effect (k : Kind) (invert : Bool) (o : Op) (t : Nat) (ht : t < pins k) (ho : atomic k invert o = true) (p : Port) (a : Word) :
    (execAll (code k invert (mask k t) o) (p, a)).1.out.getLsbD (bit k t) = level1 invert (p.out.getLsbD (bit k t)) o := by
  have hb := (mask_one k t ht).1
  cases o with
  | write v =>
    simp only [code, level1]
    rw [gpio_write_partial k (by rintro rfl; simp [atomic] at ho) invert v t ht p a _ hb, if_pos rfl]
  | toggle =>
    simp only [code, level1]
    rw [gpio_toggle_partial k invert (by rintro rfl; simpa [atomic] using ho) t ht p a _ hb, if_pos rfl]

theorem execAll_congr (n : Nat) (l : List I) : (∀ i ∈ l, Local n i) → ∀ p q : Port, ∀ a c : Word, p.out.getLsbD n = q.out.getLsbD n → a.getLsbD n = c.getLsbD n →
    (execAll l (p, a)).1.out.getLsbD n = (execAll l (q, c)).1.out.getLsbD n := by
  induction l with
  | nil => intro _ p q a c h1 _; exact h1
  | cons i l ih =>
    intro hl p q a c h1 h2
    have hi := (hl i (by simp)).2 p q a c h1 h2
    exact ih (fun j hj => hl j (by simp [hj])) _ _ _ _ hi.1 hi.2

structure Inv (k : Kind) (invert : Nat → Bool) (p0 : Port) (s : Sys) : Prop where
  loc : ∀ t, ∀ i ∈ s.todo t, Local (bit k t) i
  out : ∀ t, pins k ≤ t → s.todo t = []
  lev : ∀ t, t < pins k → (execAll (s.todo t) (s.port, s.acc t)).1.out.getLsbD (bit k t) = level (invert t) (p0.out.getLsbD (bit k t)) (s.ops t)

theorem bit_inj (k : Kind) (t u : Nat) (ht : t < pins k) (hu : u < pins k) (h : bit k t = bit k u) : t = u := by
  cases k <;> simp only [pins, bit] at * <;> omega

/-- the operations begun are all interruptible ones -/
def allowed (k : Kind) (invert : Nat → Bool) : Ev → Prop
  | .begin t o => atomic k (invert t) o = true
  | .go _ => True

theorem inv_step (k : Kind) (invert : Nat → Bool) (p0 : Port) (s : Sys) (e : Ev) (he : allowed k invert e) (hs : Inv k invert p0 s) : Inv k invert p0 (step k invert s e) := by
  cases e with
  | begin t o =>
    simp only [step]
    by_cases c : t < pins k ∧ s.todo t = []
    · rw [if_pos c]
      refine ⟨?_, ?_, ?_⟩
      · intro u i hi
        simp only [upd] at hi
        by_cases e : u = t
        · subst e; rw [if_pos rfl] at hi; exact code_local k (invert u) o u c.1 he i hi
        · rw [if_neg e] at hi; exact hs.loc u i hi
      · intro u hu
        simp only [upd]
        rw [if_neg (by omega)]; exact hs.out u hu
      · intro u hu
        simp only [upd]
        by_cases e : u = t
        · subst e
          rw [if_pos rfl, if_pos rfl, code_effect k (invert u) o u hu he]
          have h0 := hs.lev u hu
          rw [c.2] at h0
          simp only [execAll] at h0
          rw [h0, level, level, List.foldl_append]; rfl
        · rw [if_neg e, if_neg e]; exact hs.lev u hu
    · rw [if_neg c]; exact hs
  | go t =>
    cases ht : s.todo t with
    | nil => rw [show step k invert s (.go t) = s by simp [step, ht]]; exact hs
    | cons i l =>
      have hp : t < pins k := by
        apply Decidable.byContradiction
        intro c
        have := hs.out t (by omega)
        rw [ht] at this; cases this
      have hstep : step k invert s (.go t) = { s with port := (exec i s.port (s.acc t)).1, todo := upd s.todo t l, acc := upd s.acc t (exec i s.port (s.acc t)).2 } := by simp [step, ht]
      rw [hstep]
      have hi := hs.loc t i (by rw [ht]; simp)
      refine ⟨?_, ?_, ?_⟩
      · intro u j hj
        simp only [upd] at hj
        by_cases e : u = t
        · subst e; rw [if_pos rfl] at hj; exact hs.loc u j (by rw [ht]; simp [hj])
        · rw [if_neg e] at hj; exact hs.loc u j hj
      · intro u hu
        simp only [upd]
        rw [if_neg (by omega)]; exact hs.out u hu
      · intro u hu
        simp only [upd]
        by_cases e : u = t
        · subst e
          rw [if_pos rfl, if_pos rfl]
          have h0 := hs.lev u hu
          rw [ht] at h0
          exact h0
        · rw [if_neg e, if_neg e, ← hs.lev u hu]
          apply execAll_congr _ _ (hs.loc u) _ _ _ _ _ rfl
          exact hi.1 _ _ _ (mask_one k u hu).1 (fun h => e (bit_inj k u t hu hp h))

/-- C78: several tasks drive pins of one port, each its own; whatever the way their accesses interleave, a pin whose task has no operation under way
is at the level its own operations ask for. For the drivers with set, clear, invert registers (pio, strobe, pic32, tinyavr), for renesas (toggle of pins
not inverted), and, as long as no task toggles, gd32 and bsrr. -/
theorem gpio_tasks_partial (k : Kind) (invert : Nat → Bool) (p : Port) (acc : Nat → Word) (l : List Ev) (hl : ∀ e ∈ l, allowed k invert e)
    (t : Nat) (ht : t < pins k) (hend : (run k invert l (start p acc)).todo t = []) :
    (run k invert l (start p acc)).port.out.getLsbD (bit k t) = level (invert t) (p.out.getLsbD (bit k t)) ((run k invert l (start p acc)).ops t) := by
  have h : ∀ l : List Ev, (∀ e ∈ l, allowed k invert e) → ∀ s, Inv k invert p s → Inv k invert p (run k invert l s) := by
    intro l
    induction l with
    | nil => intro _ s hs; exact hs
    | cons e l ih => intro hl s hs; exact ih (fun x hx => hl x (by simp [hx])) _ (inv_step k invert p s e (hl e (by simp)) hs)
  have hi := h l hl (start p acc) ⟨by intro t i hi; simp [start] at hi, fun _ _ => rfl, fun _ _ => rfl⟩
  have := hi.lev t ht
  rw [hend] at this
  exact this

/-- the hypotheses are met: two tasks of a pio, interleaved; pin 3 ends low, pin 5 (inverted) high -/
example : let s := run .pio (fun t => t == 5) [.begin 3 .toggle, .go 3, .begin 5 (.write false), .go 5, .go 3, .begin 3 .toggle, .go 3, .go 3] (start ⟨0, 0⟩ (fun _ => 0))
    s.todo 3 = [] ∧ s.todo 5 = [] ∧ s.ops 3 = [.toggle, .toggle] ∧ s.port.out = 0x20#32 := by decide

/-- begin, then all accesses up to `j` -/
def whole (t : Nat) (o : Op) : List Ev := [.begin t o, .go t, .go t]

/-- a driver whose operation reads the register and writes it back -/
def rmw : Kind → Op → Prop
  | .avr, _ | .siu, _ | .siul2, _ | .sfr, _ => True
  | .gd32, .toggle | .bsrr, .toggle | .stm8, .toggle => True
  | _, _ => False

theorem rmw_code (k : Kind) (o : Op) (invert : Bool) (n : Nat) (m : Word) (h : rmw k o) (hm : One n m) :
    ∃ i, code k invert m o = [.ld, i] ∧ ∀ p a b, b < 32 → b ≠ n → (exec i p a).1.out.getLsbD b = a.getLsbD b := by
  cases o with
  | write v =>
    cases k <;> first | exact h.elim | skip
    all_goals
      cases hv : v ^^ invert <;> simp only [code, write, hv, if_true, Bool.false_eq_true, if_false] <;> refine ⟨_, rfl, ?_⟩ <;> intro p a b hb hn <;>
        simp only [exec, BitVec.getLsbD_and, BitVec.getLsbD_or, BitVec.getLsbD_not, hm.2 b hb, hn, hb, decide_true, decide_false, Bool.not_false, Bool.and_true, Bool.or_false]
  | toggle =>
    cases k <;> first | exact h.elim | skip
    all_goals
      simp only [code, toggle]; refine ⟨_, rfl, ?_⟩; intro p a b hb hn; simp only [exec, BitVec.getLsbD_xor, hm.2 b hb, hn, decide_false, Bool.xor_false]

theorem step_begin (k : Kind) (invert : Nat → Bool) (s : Sys) (t : Nat) (o : Op) (ht : t < pins k) (h : s.todo t = []) :
    step k invert s (.begin t o) = { s with todo := upd s.todo t (code k (invert t) (mask k t) o), ops := upd s.ops t (s.ops t ++ [o]) } := by
  simp only [step]; rw [if_pos ⟨ht, h⟩]

theorem step_go (k : Kind) (invert : Nat → Bool) (s : Sys) (t : Nat) (i : I) (l : List I) (h : s.todo t = i :: l) :
    step k invert s (.go t) = { s with port := (exec i s.port (s.acc t)).1, todo := upd s.todo t l, acc := upd s.acc t (exec i s.port (s.acc t)).2 } := by
  simp [step, h]

theorem step_idle (k : Kind) (invert : Nat → Bool) (s : Sys) (t : Nat) (h : s.todo t = []) : step k invert s (.go t) = s := by simp [step, h]

theorem upd_same {α : Type} (f : Nat → α) (t : Nat) (x : α) : upd f t x t = x := by simp [upd]
theorem upd_ne {α : Type} (f : Nat → α) (t u : Nat) (x : α) (h : u ≠ t) : upd f t x u = f u := by simp [upd, h]

/-- C78, missing part: with the drivers that read the register and write it back (avr, nxp_siu, nxp_siul2, 8051, n76e003, mc9s08ptxx; toggle of gd32, stm32, ch32, stm8)
the operation of task u, done whole between the two accesses of task t on another pin, is lost: pin u is as before, whatever was asked.
(On 8051 a compiler may choose an instruction that does both accesses.) -/
theorem gpio_lost (k : Kind) (invert : Nat → Bool) (t u : Nat) (ht : t < pins k) (hu : u < pins k) (htu : t ≠ u) (o1 o2 : Op) (h1 : rmw k o1)
    (p : Port) (acc : Nat → Word) :
    (code k (invert u) (mask k u) o2).length ≤ 2 ∧
    (run k invert ([.begin t o1, .go t] ++ whole u o2 ++ [.go t]) (start p acc)).todo t = [] ∧
    (run k invert ([.begin t o1, .go t] ++ whole u o2 ++ [.go t]) (start p acc)).todo u = [] ∧
    (run k invert ([.begin t o1, .go t] ++ whole u o2 ++ [.go t]) (start p acc)).ops u = [o2] ∧
    (run k invert ([.begin t o1, .go t] ++ whole u o2 ++ [.go t]) (start p acc)).port.out.getLsbD (bit k u) = p.out.getLsbD (bit k u) := by
  obtain ⟨i, hi, hpres⟩ := rmw_code k o1 (invert t) _ (mask k t) h1 (mask_one k t ht)
  have hb := (mask_one k u hu).1
  have hne : bit k u ≠ bit k t := fun h => htu (bit_inj k u t hu ht h).symm
  have hut : ¬ u = t := fun h => htu h.symm
  have hcode : ∃ c : I, code k (invert u) (mask k u) o2 = [c] ∨ ∃ d : I, code k (invert u) (mask k u) o2 = [c, d] := by
    cases o2 with
    | write v => cases hv : v ^^ invert u <;> cases k <;> simp [code, write, hv]
    | toggle => cases k <;> simp [code, toggle]
  -- task t has read the register
  let s1 := step k invert (step k invert (start p acc) (.begin t o1)) (.go t)
  have e1 : s1 = { port := p, todo := upd (upd (fun _ => []) t [.ld, i]) t [i], acc := upd acc t p.out, ops := upd (fun _ => []) t ([] ++ [o1]) } := by
    show step k invert (step k invert (start p acc) (.begin t o1)) (.go t) = _
    rw [step_begin k invert _ t o1 ht rfl, hi, step_go k invert _ t .ld [i] (upd_same _ _ _)]; rfl
  have t1 : s1.todo t = [i] := by rw [e1]; exact upd_same _ _ _
  have t2 : s1.todo u = [] := by rw [e1]; show upd (upd _ _ _) _ _ u = _; rw [upd_ne _ _ _ _ hut, upd_ne _ _ _ _ hut]
  have t3 : s1.acc t = p.out := by rw [e1]; exact upd_same _ _ _
  have t4 : s1.ops u = [] := by rw [e1]; show upd (fun _ => []) t ([] ++ [o1]) u = []; rw [upd_ne _ _ _ _ hut]
  -- task u does its operation
  let s2 := step k invert (step k invert (step k invert s1 (.begin u o2)) (.go u)) (.go u)
  have r : s2.todo t = [i] ∧ s2.todo u = [] ∧ s2.acc t = p.out ∧ s2.ops u = [o2] ∧ (code k (invert u) (mask k u) o2).length ≤ 2 := by
    show (step k invert (step k invert (step k invert s1 (.begin u o2)) (.go u)) (.go u)).todo t = _ ∧ (step k invert (step k invert (step k invert s1 (.begin u o2)) (.go u)) (.go u)).todo u = _ ∧
      (step k invert (step k invert (step k invert s1 (.begin u o2)) (.go u)) (.go u)).acc t = _ ∧ (step k invert (step k invert (step k invert s1 (.begin u o2)) (.go u)) (.go u)).ops u = _ ∧ _
    rw [step_begin k invert s1 u o2 hu t2]
    obtain ⟨c, hc⟩ := hcode
    rcases hc with hc | ⟨d, hc⟩
    · rw [hc, step_go k invert ⟨s1.port, upd s1.todo u [c], s1.acc, upd s1.ops u (s1.ops u ++ [o2])⟩ u c [] (upd_same _ _ _), step_idle k invert _ u (upd_same _ _ _)]
      refine ⟨?_, upd_same _ _ _, ?_, ?_, by simp⟩
      · show upd (upd _ _ _) _ _ t = _; rw [upd_ne _ _ _ _ htu, upd_ne _ _ _ _ htu]; exact t1
      · show upd _ _ _ t = _; rw [upd_ne _ _ _ _ htu]; exact t3
      · show upd _ _ _ u = _; rw [upd_same, t4]; rfl
    · rw [hc, step_go k invert ⟨s1.port, upd s1.todo u [c, d], s1.acc, upd s1.ops u (s1.ops u ++ [o2])⟩ u c [d] (upd_same _ _ _), step_go k invert _ u d [] (upd_same _ _ _)]
      refine ⟨?_, upd_same _ _ _, ?_, ?_, by simp⟩
      · show upd (upd (upd _ _ _) _ _) _ _ t = _; rw [upd_ne _ _ _ _ htu, upd_ne _ _ _ _ htu, upd_ne _ _ _ _ htu]; exact t1
      · show upd (upd _ _ _) _ _ t = _; rw [upd_ne _ _ _ _ htu, upd_ne _ _ _ _ htu]; exact t3
      · show upd _ _ _ u = _; rw [upd_same, t4]; rfl
  obtain ⟨r1, r2, r3, r4, r5⟩ := r
  -- task t writes back what it has read
  have e3 : run k invert ([.begin t o1, .go t] ++ whole u o2 ++ [.go t]) (start p acc) = step k invert s2 (.go t) := rfl
  rw [e3, step_go k invert s2 t i [] r1]
  refine ⟨r5, upd_same _ _ _, ?_, r4, ?_⟩
  · show upd _ _ _ u = _; rw [upd_ne _ _ _ _ hut]; exact r2
  · show (exec i s2.port (s2.acc t)).1.out.getLsbD (bit k u) = _
    rw [hpres _ _ _ hb hne, r3]

/-- e.g. avr: a task raises pin 1 while an interrupt routine raises pin 0: pin 0 stays low -/
example : let s := run .avr (fun _ => false) ([.begin 1 (.write true), .go 1] ++ whole 0 (.write true) ++ [.go 1]) (start ⟨0, 0⟩ (fun _ => 0))
    s.ops 0 = [.write true] ∧ s.todo 0 = [] ∧ s.port.out = 2#32 := by decide

/-- stm8 write: the other pins are cleared whatever the schedule; gpio_toggle of an inverted renesas pin does nothing: so level is not reached -/
theorem gpio_wrong : (∃ p : Port, (execAll (write .stm8 false (mask .stm8 1) true) (p, 0)).1.out.getLsbD 0 ≠ p.out.getLsbD 0) ∧
    (∃ p : Port, (execAll (toggle .renesas true (mask .renesas 1)) (p, 0)).1.out.getLsbD 1 ≠ !p.out.getLsbD 1) :=
  ⟨⟨⟨1, 0⟩, by decide⟩, ⟨⟨0, 0⟩, by decide⟩⟩

end Pico.Gpio
