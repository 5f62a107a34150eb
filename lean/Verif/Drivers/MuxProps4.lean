/- C94: proofs, last part: same5x, ti_f28x, renesas_ra4, the two-bit modes; instances of `last_wins` -/
import Verif.Drivers.MuxProps3
import Verif.Drivers.MuxProps2
namespace Pico.Mux
open Field

/-! ### same5x -/

namespace Sa

theorem pmux_same (n p : Nat) (r : Sa) (hn : n < 16) : (Field.get 4 (4 * (p % 2)) ((setPmux n p r).pmux (p / 2))).toNat = n := by
  unfold setPmux
  by_cases h : p % 2 = 1
  · rw [if_pos h, h]
    show (Field.get 4 4 (upd _ _ _ _)).toNat = n
    rw [upd_same]
    exact get_put_nat 4 4 n _ (by omega) (by omega)
  · rw [if_neg h, show p % 2 = 0 by omega]
    show (Field.get 4 0 (upd _ _ _ _)).toNat = n
    rw [upd_same]
    exact get_put_nat 4 0 n _ (by omega) (by omega)

theorem pmux_other (n p q : Nat) (r : Sa) (hq : q ≠ p) : Field.get 4 (4 * (q % 2)) ((setPmux n p r).pmux (q / 2)) = Field.get 4 (4 * (q % 2)) (r.pmux (q / 2)) := by
  unfold setPmux
  by_cases h : p % 2 = 1
  · rw [if_pos h]
    show Field.get 4 (4 * (q % 2)) (upd _ _ _ _) = _
    by_cases e : q / 2 = p / 2
    · rw [e, upd_same, get_put_other _ _ _ _ _ _ (by omega)]
    · rw [upd_ne _ _ _ _ e]
  · rw [if_neg h]
    show Field.get 4 (4 * (q % 2)) (upd _ _ _ _) = _
    by_cases e : q / 2 = p / 2
    · rw [e, upd_same, get_put_other _ _ _ _ _ _ (by omega)]
    · rw [upd_ne _ _ _ _ e]

theorem pmux_rest (n p : Nat) (r : Sa) : (setPmux n p r).dir = r.dir ∧ (setPmux n p r).out = r.out ∧ (setPmux n p r).pincfg = r.pincfg := by
  unfold setPmux
  by_cases h : p % 2 = 1
  · simp only [if_pos h, and_self]
  · simp only [if_neg h, and_self]

/-- **C94, same5x**: a peripheral function, as input or as output, is given to the pin, which is configured as asked from any state -/
theorem func_does (c : Call) (p : Nat) (r : Sa) (hp : p < 32) (hc : Has c) :
    (step c p r).1 = 0 ∧ c.Does (view r p) (view (step c p r).2 p) := by
  have h1 : ¬ 32 ≤ p := by omega
  rcases c with _ | ⟨_ | f, _ | pl⟩ | ⟨_ | f, _ | od⟩ | (_ | f) | _ | _ | _ | _ <;> try exact hc.elim
  all_goals
    have hf : f < 14 := hc
    have h2 : ¬ 14 ≤ f := by omega
    have e := pmux_same f p r (by omega)
    simp only [step, if_neg h1, if_neg h2, Call.Does, view, upd_same, e, roleOf]
    simp

/-- **C94, same5x**: every other pin is as it was, whatever the call -/
theorem others (c : Call) (p q : Nat) (r : Sa) (hq : q ≠ p) : view (step c p r).2 q = view r q := by
  by_cases h1 : 32 ≤ p
  · rcases c with _ | ⟨_ | f, _ | pl⟩ | ⟨_ | f, _ | od⟩ | (_ | f) | _ | _ | _ | _ <;> simp only [step, if_pos h1]
  · rcases c with _ | ⟨_ | f, _ | pl⟩ | ⟨_ | f, _ | od⟩ | (_ | f) | _ | _ | _ | _ <;> simp only [step, if_neg h1]
    · simp only [view, bclr_ne _ _ _ hq]
    · by_cases h2 : 14 ≤ f
      · rw [if_pos h2]
      · obtain ⟨e1, e2, e3⟩ := pmux_rest f p r
        simp only [if_neg h2, view, e1, e2, e3, pmux_other f p q r hq, upd_ne _ _ _ _ hq, bclr_ne _ _ _ hq]
    · simp only [view, bset_ne _ _ _ hq]
    · by_cases h2 : 14 ≤ f
      · rw [if_pos h2]
      · obtain ⟨e1, e2, e3⟩ := pmux_rest f p r
        simp only [if_neg h2, view, e1, e2, e3, pmux_other f p q r hq, upd_ne _ _ _ _ hq, bset_ne _ _ _ hq]
    · simp only [view, upd_ne _ _ _ _ hq]
    · simp only [view, upd_ne _ _ _ _ hq]

/-- a wrong pin, a wrong function: -EINVAL, nothing changes -/
theorem refuses (f p : Nat) (c : Call) (r : Sa) (h : 32 ≤ p ∨ (14 ≤ f ∧ (c = .input (some f) none ∨ c = .output (some f) none))) : step c p r = (einval, r) := by
  by_cases h1 : 32 ≤ p
  · rcases c with _ | ⟨_ | f, _ | pl⟩ | ⟨_ | f, _ | od⟩ | (_ | f) | _ | _ | _ | _ <;> simp only [step, if_pos h1]
  · obtain ⟨hf, e | e⟩ := h.resolve_left h1
    · subst e; simp only [step, if_neg h1, if_pos hf]
    · subst e; simp only [step, if_neg h1, if_pos hf]

/-- **C94, same5x, partial**: GPIO calls are served on a pin no function was given to, and for an input only when the input buffer is already on -/
theorem gpio_does_partial (p : Nat) (r : Sa) (hp : p < 32) (h0 : (r.pincfg p).getLsbD 0 = false) :
    ((r.pincfg p).getLsbD 1 = false → Call.Does (.output none none) (view r p) (view (step (.output none none) p r).2 p)) ∧
    ((r.pincfg p).getLsbD 1 = true → Call.Does (.input none none) (view r p) (view (step (.input none none) p r).2 p)) := by
  have h1 : ¬ 32 ≤ p := by omega
  constructor
  · intro h
    simp only [step, if_neg h1, Call.Does, view, h0, h, bset_same p r.dir hp, roleOf, Siul2.dirOf]
    simp
  · intro h
    simp only [step, if_neg h1, Call.Does, view, h0, h, bclr_same, roleOf, Siul2.dirOf]
    simp

/-- **C94 refuted for same5x**: mux_same5x_input and mux_same5x_output for GPIO return 0 and leave the pin to the peripheral it was given to -/
theorem gpio_keeps_func (p : Nat) (hp : p < 32) (r : Sa) (h : (r.pincfg p).getLsbD 0 = true) (c : Call) (hc : c = .input none none ∨ c = .output none none) :
    (step c p r).1 = 0 ∧ (view (step c p r).2 p).role = (view r p).role ∧ ∃ n, (view r p).role = .func n := by
  have h1 : ¬ 32 ≤ p := by omega
  rcases hc with rfl | rfl <;> simp only [step, if_neg h1, view, h, if_true] <;> exact ⟨trivial, trivial, _, rfl⟩

/-- from reset, a GPIO input has its input buffer off: the pin always reads 0 -/
theorem gpio_input_off (p : Nat) (hp : p < 32) (r : Sa) (h : r.pincfg p = 0#8) : (step (.input none none) p r).1 = 0 ∧ (view (step (.input none none) p r).2 p).dir = .none := by
  have h1 : ¬ 32 ≤ p := by omega
  simp only [step, if_neg h1, view, h, bclr_same]
  exact ⟨trivial, rfl⟩

/-- mux_same5x_pull_up and mux_same5x_pull_down are the same function: the pull is down when OUT is 0, up when it is 1 -/
theorem pulls_alike (p : Nat) (hp : p < 32) (r : Sa) :
    step .pullUp p r = step .pullDown p r ∧ (step .pullUp p r).1 = 0 ∧ (view (step .pullUp p r).2 p).pull = if r.out.getLsbD p then .up else .down := by
  have h1 : ¬ 32 ≤ p := by omega
  simp only [step, if_neg h1, view, upd_same, bset_same 2 (r.pincfg p) (by decide), if_true, and_self]

/-- so from reset pull_up pulls down -/
example : (view (step .pullUp 5 ⟨0, 0, fun _ => 0, fun _ => 0⟩).2 5).pull = .down := by decide
/-- PA05 given to the function D (3), then PA04 to A (0): PMUX[2] shared -/
example : view (step (.output (some 0) none) 4 (step (.input (some 3) none) 5 ⟨0, 0, fun _ => 0xff, fun _ => 0⟩).2).2 5 = ⟨.func 3, .periph, .none, false⟩ := by decide

end Sa

/-! ### ti_f28x -/

namespace Ti

theorem mux_same (g m p : Nat) (r : Ti) (hp : p < 32) (hg : g < 4) (hm : m < 4) (b : Bool) (hd : r.dir.getLsbD p = b) :
    view (setMux g m p r) p = ⟨if m = 0 then .gpio else .func (4 * g + m), if m = 0 then (if b then .out else .inp) else .periph, if r.pud.getLsbD p then .none else .up, false⟩ := by
  unfold setMux
  by_cases h : p < 16
  · have e1 : ∀ (k : Nat) (v : BitVec 32), k < 4 → (Field.get 2 (2 * p) (put 2 (p * 2) (BitVec.ofNat 32 k) v)).toNat = k := by
      intro k v hk; rw [Nat.mul_comm 2 p]; exact get_put_nat 2 (p * 2) k v (by omega) (by omega)
    simp only [if_pos h, view, e1 _ _ hg, e1 _ _ hm, hd]
  · have e1 : ∀ (k : Nat) (v : BitVec 32), k < 4 → (Field.get 2 (2 * (p - 16)) (put 2 ((p - 16) * 2) (BitVec.ofNat 32 k) v)).toNat = k := by
      intro k v hk; rw [Nat.mul_comm 2 (p - 16)]; exact get_put_nat 2 ((p - 16) * 2) k v (by omega) (by omega)
    simp only [if_neg h, view, e1 _ _ hg, e1 _ _ hm, hd]

theorem mux_other (g m p q : Nat) (r : Ti) (hp : p < 32) (hq : q ≠ p) : view (setMux g m p r) q = view r q := by
  unfold setMux
  by_cases h : p < 16
  · rw [if_pos h]
    by_cases hh : q < 16
    · simp only [view, if_pos hh, get_put_other _ _ _ _ _ _ (show 2 * q + 2 ≤ p * 2 ∨ p * 2 + 2 ≤ 2 * q by omega)]
    · simp only [view, if_neg hh]
  · rw [if_neg h]
    by_cases hh : q < 16
    · simp only [view, if_pos hh]
    · simp only [view, if_neg hh, get_put_other _ _ _ _ _ _ (show 2 * (q - 16) + 2 ≤ (p - 16) * 2 ∨ (p - 16) * 2 + 2 ≤ 2 * (q - 16) by omega)]

theorem view_dir_other (q : Nat) (r : Ti) (d : BitVec 32) (h : d.getLsbD q = r.dir.getLsbD q) : view { r with dir := d } q = view r q := by
  simp only [view, h]

/-- **C94, ti_f28x** -/
theorem serves : drv.Serves 32 Has := by
  constructor
  · intro c p r hp hc
    have h1 : ¬ 32 ≤ p := by omega
    rcases c with _ | ⟨_ | f, _ | pl⟩ | ⟨_ | f, _ | od⟩ | (_ | f) | _ | _ | _ | _ <;> try exact hc.elim
    · simp only [drv, step, input, if_neg h1, Call.Does]
      have e := mux_same 0 0 p { r with dir := bclr p r.dir } hp (by decide) (by decide) false (bclr_same _ _)
      simp [e, roleOf]
    · obtain ⟨h2, h3⟩ : f < 16 ∧ f % 4 ≠ 0 := hc
      have e := mux_same (f / 4) (f % 4) p { r with dir := bclr p r.dir } hp (by omega) (by omega) false (bclr_same _ _)
      simp only [drv, step, input, if_neg h1, if_neg h3, if_neg (show ¬ 4 ≤ f / 4 by omega), if_neg (show ¬ 4 ≤ f % 4 by omega), Call.Does, e, roleOf, show 4 * (f / 4) + f % 4 = f by omega]
      simp
    · simp only [drv, step, output, if_neg h1, Call.Does]
      have e := mux_same 0 0 p { r with dir := bset p r.dir } hp (by decide) (by decide) true (bset_same _ _ hp)
      simp [e, roleOf]
    · obtain ⟨h2, h3⟩ : f < 16 ∧ f % 4 ≠ 0 := hc
      have e := mux_same (f / 4) (f % 4) p { r with dir := bset p r.dir } hp (by omega) (by omega) true (bset_same _ _ hp)
      simp only [drv, step, output, if_neg h1, if_neg h3, if_neg (show ¬ 4 ≤ f / 4 by omega), if_neg (show ¬ 4 ≤ f % 4 by omega), Call.Does, e, roleOf, show 4 * (f / 4) + f % 4 = f by omega]
      simp
    · simp only [drv, step, pullUp, if_neg h1, Call.Does, view, bclr_same]
      simp
  · intro c p q r _ hq
    have ob : ∀ g m, view (output g m p r).2 q = view r q := by
      intro g m
      unfold output
      by_cases h1 : 32 ≤ p
      · rw [if_pos h1]
      rw [if_neg h1]
      by_cases h2 : 4 ≤ g
      · rw [if_pos h2]
      rw [if_neg h2]
      by_cases h3 : 4 ≤ m
      · rw [if_pos h3]
      rw [if_neg h3]
      show view (setMux g m p _) q = _
      rw [mux_other _ _ _ _ _ (by omega) hq]
      exact view_dir_other q r _ (bset_ne _ _ _ hq)
    have ib : ∀ g m, view (input g m p r).2 q = view r q := by
      intro g m
      unfold input
      by_cases h1 : 32 ≤ p
      · rw [if_pos h1]
      rw [if_neg h1]
      by_cases h2 : 4 ≤ g
      · rw [if_pos h2]
      rw [if_neg h2]
      by_cases h3 : 4 ≤ m
      · rw [if_pos h3]
      rw [if_neg h3]
      show view (setMux g m p _) q = _
      rw [mux_other _ _ _ _ _ (by omega) hq]
      exact view_dir_other q r _ (bclr_ne _ _ _ hq)
    rcases c with _ | ⟨_ | f, _ | pl⟩ | ⟨_ | f, _ | od⟩ | (_ | f) | _ | _ | _ | _ <;> simp only [drv, step]
    · exact ib 0 0
    · by_cases h : f % 4 = 0
      · rw [if_pos h]
      · rw [if_neg h]; exact ib _ _
    · exact ob 0 0
    · by_cases h : f % 4 = 0
      · rw [if_pos h]
      · rw [if_neg h]; exact ob _ _
    · unfold pullUp
      by_cases h1 : 32 ≤ p
      · rw [if_pos h1]
      · simp only [if_neg h1, view, bclr_ne _ _ _ hq]
  · intro c p r h
    have o1 : 32 ≤ p → ∀ g m, output g m p r = (einval, r) := fun h1 g m => by rw [output, if_pos h1]
    have i1 : 32 ≤ p → ∀ g m, input g m p r = (einval, r) := fun h1 g m => by rw [input, if_pos h1]
    rcases c with _ | ⟨_ | f, _ | pl⟩ | ⟨_ | f, _ | od⟩ | (_ | f) | _ | _ | _ | _ <;> simp only [drv, step]
    · exact i1 (h.resolve_right (fun h => h trivial)) 0 0
    · by_cases h4 : f % 4 = 0
      · rw [if_pos h4]
      · rw [if_neg h4]
        by_cases h1 : 32 ≤ p
        · exact i1 h1 _ _
        · have h2 : ¬ (f < 16 ∧ f % 4 ≠ 0) := h.resolve_left h1
          rw [input, if_neg h1, if_pos (show 4 ≤ f / 4 by omega)]
    · exact o1 (h.resolve_right (fun h => h trivial)) 0 0
    · by_cases h4 : f % 4 = 0
      · rw [if_pos h4]
      · rw [if_neg h4]
        by_cases h1 : 32 ≤ p
        · exact o1 h1 _ _
        · have h2 : ¬ (f < 16 ∧ f % 4 ≠ 0) := h.resolve_left h1
          rw [output, if_neg h1, if_pos (show 4 ≤ f / 4 by omega)]
    · rw [pullUp, if_pos (h.resolve_right (fun h => h trivial))]

/-- **C94, ti_f28x**: the pull is kept -/
theorem keeps : drv.KeepsRest 32 Has := by
  intro c p r hp hc
  have h1 : ¬ 32 ≤ p := by omega
  have k : ∀ g m (s : Ti), (view (setMux g m p s) p).pull = (view s p).pull ∧ (view (setMux g m p s) p).od = (view s p).od := by
    intro g m s
    unfold setMux
    by_cases h : p < 16
    · simp only [if_pos h, view, and_self]
    · simp only [if_neg h, view, and_self]
  rcases c with _ | ⟨_ | f, _ | pl⟩ | ⟨_ | f, _ | od⟩ | (_ | f) | _ | _ | _ | _ <;> try exact hc.elim
  · simp only [drv, step, input, if_neg h1, Call.Keeps]
    exact ⟨fun _ => (k 0 0 _).1, (k 0 0 _).2⟩
  · obtain ⟨h2, h3⟩ : f < 16 ∧ f % 4 ≠ 0 := hc
    simp only [drv, step, input, if_neg h1, if_neg h3, if_neg (show ¬ 4 ≤ f / 4 by omega), if_neg (show ¬ 4 ≤ f % 4 by omega), Call.Keeps]
    exact ⟨fun _ => (k _ _ _).1, (k _ _ _).2⟩
  · simp only [drv, step, output, if_neg h1, Call.Keeps]
    exact ⟨(k 0 0 _).1, fun _ => (k 0 0 _).2⟩
  · obtain ⟨h2, h3⟩ : f < 16 ∧ f % 4 ≠ 0 := hc
    simp only [drv, step, output, if_neg h1, if_neg h3, if_neg (show ¬ 4 ≤ f / 4 by omega), if_neg (show ¬ 4 ≤ f % 4 by omega), Call.Keeps]
    exact ⟨(k _ _ _).1, fun _ => (k _ _ _).2⟩
  · trivial

/-- the qualification of the input `p` (manual 8.3, GPxQSEL1/2) -/
def qsel (r : Ti) (p : Nat) : Nat := if p < 16 then (Field.get 2 (2 * p) r.qsel1).toNat else (Field.get 2 (2 * (p - 16)) r.qsel2).toNat

/-- **C94, ti_f28x**: mux_ti_f28x_set_qsel sets the qualification of that pin only, and nothing of `Pin` -/
theorem qsel_does (q p : Nat) (r : Ti) (hp : p < 32) (hq : q < 4) :
    (setQsel q p r).1 = 0 ∧ qsel (setQsel q p r).2 p = q ∧ (∀ p', p' ≠ p → qsel (setQsel q p r).2 p' = qsel r p') ∧ ∀ p', view (setQsel q p r).2 p' = view r p' := by
  have h1 : ¬ 32 ≤ p := by omega
  have h2 : ¬ 4 ≤ q := by omega
  simp only [setQsel, if_neg h1, if_neg h2]
  refine ⟨trivial, ?_, ?_, ?_⟩
  · by_cases h : p < 16
    · simp only [if_pos h, qsel]
      rw [Nat.mul_comm 2 p]; exact get_put_nat 2 (p * 2) q _ (by omega) (by omega)
    · simp only [if_neg h, qsel]
      rw [Nat.mul_comm 2 (p - 16)]; exact get_put_nat 2 ((p - 16) * 2) q _ (by omega) (by omega)
  · intro p' hp'
    by_cases h : p < 16
    · simp only [if_pos h, qsel]
      by_cases hh : p' < 16
      · simp only [if_pos hh, get_put_other _ _ _ _ _ _ (show 2 * p' + 2 ≤ p * 2 ∨ p * 2 + 2 ≤ 2 * p' by omega)]
      · simp only [if_neg hh]
    · simp only [if_neg h, qsel]
      by_cases hh : p' < 16
      · simp only [if_pos hh]
      · simp only [if_neg hh, get_put_other _ _ _ _ _ _ (show 2 * (p' - 16) + 2 ≤ (p - 16) * 2 ∨ (p - 16) * 2 + 2 ≤ 2 * (p' - 16) by omega)]
  · intro p'
    by_cases h : p < 16
    · simp only [if_pos h, view]
    · simp only [if_neg h, view]

/-- GPIO18 given to function 7 (GMUX 1, MUX 3) as output -/
example : view (drv.run [(.output (some 7) none, 18), (.pullUp, 18), (.input none none, 2)] ⟨0, 0, 0, 0, 0, 0xffffffff, 0, 0⟩) 18 = ⟨.func 7, .periph, .up, false⟩ := by decide

end Ti

/-! ### renesas_ra4 -/

namespace Ra

/-- the accesses between enable_write and disable_write reach the register, whatever the protection was, and leave it closed -/
theorem guarded_eq (i : Nat) (f : BitVec 32 → BitVec 32) (r : Ra) : guarded i f r = ⟨upd r.pfs i f, true, false⟩ := by
  obtain ⟨a, b, c⟩ := r
  cases b <;> cases c <;> rfl

/-- PMR and the function number -/
theorem psel (n : Nat) (h : n < 32) : let v : BitVec 32 := 0x10000#32 ||| ((BitVec.ofNat 32 n &&& mask 32 5) <<< 24)
    v.getLsbD 15 = false ∧ v.getLsbD 16 = true ∧ v.getLsbD 2 = false ∧ (Field.get 5 24 v).toNat = n := by
  have k : ∀ n : Fin 32, (let v : BitVec 32 := 0x10000#32 ||| ((BitVec.ofNat 32 n.val &&& mask 32 5) <<< 24)
    v.getLsbD 15 = false ∧ v.getLsbD 16 = true ∧ v.getLsbD 2 = false ∧ (Field.get 5 24 v).toNat = n.val) := by decide +kernel
  exact k ⟨n, h⟩

/-- **C94, renesas_ra4**: for each port -/
theorem serves (port : Nat) : (drv port).Serves 16 Has := by
  constructor
  · intro c p r hp hc
    have h1 : ¬ 16 ≤ p := by omega
    rcases c with _ | ⟨_ | f, _ | pl⟩ | ⟨_ | f, _ | od⟩ | (_ | f) | _ | _ | _ | _ <;> try exact hc.elim
    · simp only [drv, step, if_neg h1, guarded_eq, Call.Does, view, upd_same]
      decide
    · simp only [drv, step, if_neg h1, guarded_eq, Call.Does, view, upd_same]
      decide
    · simp only [drv, step, if_neg h1, guarded_eq, Call.Does, view, upd_same]
      decide
    · have hf : f < 32 := hc
      obtain ⟨e1, e2, e3, e4⟩ := psel f hf
      simp only [drv, step, if_neg h1, if_neg (show ¬ 32 ≤ f by omega), guarded_eq, Call.Does, view, upd_same, e1, e2, e4, roleOf]
      simp
    · have e : ∀ j, j ≠ 4 → (bset 4 (r.pfs (port * 16 + p))).getLsbD j = (r.pfs (port * 16 + p)).getLsbD j := fun j hj => bset_ne _ _ _ hj
      have g : Field.get 5 24 (bset 4 (r.pfs (port * 16 + p))) = Field.get 5 24 (r.pfs (port * 16 + p)) := by
        apply BitVec.eq_of_getLsbD_eq
        intro i _
        rw [get_bit, get_bit, e _ (by omega)]
      simp only [drv, step, if_neg h1, guarded_eq, Call.Does, view, upd_same, e 15 (by decide), e 16 (by decide), e 2 (by decide), e 6 (by decide), g, bset_same 4 (r.pfs (port * 16 + p)) (by decide)]
      simp
  · intro c p q r hq hqp
    by_cases h1 : 16 ≤ p
    · rcases c with _ | ⟨_ | f, _ | pl⟩ | ⟨_ | f, _ | od⟩ | (_ | f) | _ | _ | _ | _ <;> simp only [drv, step, if_pos h1]
    · have hi : port * 16 + q ≠ port * 16 + p := by omega
      rcases c with _ | ⟨_ | f, _ | pl⟩ | ⟨_ | f, _ | od⟩ | (_ | f) | _ | _ | _ | _ <;> simp only [drv, step, if_neg h1]
      · simp only [guarded_eq, view, upd_ne _ _ _ _ hi]
      · simp only [guarded_eq, view, upd_ne _ _ _ _ hi]
      · simp only [guarded_eq, view, upd_ne _ _ _ _ hi]
      · by_cases h2 : 32 ≤ f
        · rw [if_pos h2]
        · simp only [if_neg h2, guarded_eq, view, upd_ne _ _ _ _ hi]
      · simp only [guarded_eq, view, upd_ne _ _ _ _ hi]
  · intro c p r h
    by_cases h1 : 16 ≤ p
    · rcases c with _ | ⟨_ | f, _ | pl⟩ | ⟨_ | f, _ | od⟩ | (_ | f) | _ | _ | _ | _ <;> simp only [drv, step, if_pos h1]
    · have h := h.resolve_left h1
      rcases c with _ | ⟨_ | f, _ | pl⟩ | ⟨_ | f, _ | od⟩ | (_ | f) | _ | _ | _ | _ <;> first
        | exact absurd trivial h
        | rfl
        | (simp only [drv, step, if_neg h1]; rw [if_pos (Nat.le_of_not_lt h)])

/-- **C94, renesas_ra4**: no call touches a pin of another port -/
theorem other_ports (port port' : Nat) (c : Call) (p q : Nat) (r : Ra) (hne : port' ≠ port) (hq : q < 16) : view port' (step port c p r).2 q = view port' r q := by
  by_cases h1 : 16 ≤ p
  · rcases c with _ | ⟨_ | f, _ | pl⟩ | ⟨_ | f, _ | od⟩ | (_ | f) | _ | _ | _ | _ <;> simp only [step, if_pos h1]
  · have hi : port' * 16 + q ≠ port * 16 + p := by omega
    rcases c with _ | ⟨_ | f, _ | pl⟩ | ⟨_ | f, _ | od⟩ | (_ | f) | _ | _ | _ | _ <;> simp only [step, if_neg h1]
    · simp only [guarded_eq, view, upd_ne _ _ _ _ hi]
    · simp only [guarded_eq, view, upd_ne _ _ _ _ hi]
    · simp only [guarded_eq, view, upd_ne _ _ _ _ hi]
    · by_cases h2 : 32 ≤ f
      · rw [if_pos h2]
      · simp only [if_neg h2, guarded_eq, view, upd_ne _ _ _ _ hi]
    · simp only [guarded_eq, view, upd_ne _ _ _ _ hi]

/-- a call that is served leaves the registers write-protected: a write that comes later without the unlocking sequence does nothing -/
theorem protected_after (port : Nat) (c : Call) (p : Nat) (r : Ra) (hp : p < 16) (hc : Has c) (i : Nat) (f : BitVec 32 → BitVec 32) :
    (writePfs i f (step port c p r).2).pfs = (step port c p r).2.pfs := by
  have h1 : ¬ 16 ≤ p := by omega
  rcases c with _ | ⟨_ | g, _ | pl⟩ | ⟨_ | g, _ | od⟩ | (_ | g) | _ | _ | _ | _ <;> try exact hc.elim
  · simp only [step, if_neg h1, guarded_eq, writePfs]; rfl
  · simp only [step, if_neg h1, guarded_eq, writePfs]; rfl
  · simp only [step, if_neg h1, guarded_eq, writePfs]; rfl
  · have hg : g < 32 := hc
    simp only [step, if_neg h1, if_neg (show ¬ 32 ≤ g by omega), guarded_eq, writePfs]; rfl
  · simp only [step, if_neg h1, guarded_eq, writePfs]; rfl

/-- **C94 refuted for renesas_ra4**: the calls that give a role take the pull away (`=` and not `|=`) -/
theorem pull_lost (port p : Nat) (r : Ra) (hp : p < 16) (c : Call) (hc : c = .input none none ∨ c = .output none none ∨ c = .analog) :
    (view port (step port .pullUp p r).2 p).pull = .up ∧ (view port (step port c p (step port .pullUp p r).2).2 p).pull = .none := by
  have h1 : ¬ 16 ≤ p := by omega
  constructor
  · simp only [step, if_neg h1, guarded_eq, view, upd_same, bset_same 4 (r.pfs (port * 16 + p)) (by decide)]; rfl
  · rcases hc with rfl | rfl | rfl <;> simp only [step, if_neg h1, guarded_eq, view, upd_same] <;> rfl

/-- P409 given to the function 9, the registers protected before -/
example : view 4 ((drv 4).run [(.io (some 9), 9), (.output none none, 8)] ⟨fun _ => 0, true, false⟩) 9 = ⟨.func 9, .periph, .none, false⟩ := by decide

end Ra

/-! ### 8051, n76e003, ch552 -/

namespace Two

theorem setBit_bit (b : Bool) (p : Nat) (v : BitVec 8) (hp : p < 8) (q : Nat) : (setBit b p v).getLsbD q = if q = p then b else v.getLsbD q := by
  have e : ∀ q, q < 8 → (1#8 <<< p).getLsbD q = decide (q = p) := by
    have k : ∀ (p q : Fin 8), (1#8 <<< p.val).getLsbD q.val = decide (q.val = p.val) := by decide +kernel
    exact fun q hq => k ⟨p, hp⟩ ⟨q, hq⟩
  by_cases hq : q < 8
  · cases b
    · simp only [setBit, Bool.false_eq_true, if_false, BitVec.or_zero, BitVec.zero_xor, BitVec.getLsbD_and, BitVec.getLsbD_not, e q hq, hq]
      by_cases h : q = p <;> simp [h]
    · simp only [setBit, if_true, BitVec.xor_self, BitVec.getLsbD_and, BitVec.getLsbD_not, BitVec.getLsbD_or, e q hq, hq]
      by_cases h : q = p <;> simp [h]
  · rw [BitVec.getLsbD_of_ge _ _ (by omega), BitVec.getLsbD_of_ge _ _ (by omega), if_neg (by omega)]

/-- **C94, 8051, n76e003, ch552**: on every port but 2, the pin has the mode asked, every other pin of every port the mode it had -/
theorem mode_does (count port p m : Nat) (r : Two) (hp : p < 8) (hm : m < 4) (hc : port < count) (h2 : port ≠ 2) :
    (setMode count port p m r).1 = 0 ∧ (setMode count port p m r).2.mode port p = m ∧
    ∀ port' q, (port', q) ≠ (port, p) → (setMode count port p m r).2.mode port' q = r.mode port' q := by
  rw [setMode, if_neg (show ¬ 8 ≤ p by omega), if_neg (show ¬ 4 ≤ m by omega), if_neg (show ¬ count ≤ port by omega), if_neg h2]
  refine ⟨rfl, ?_, ?_⟩
  · simp only [mode, upd_same, setBit_bit _ _ _ hp, if_true]
    have : m = 0 ∨ m = 1 ∨ m = 2 ∨ m = 3 := by omega
    rcases this with h | h | h | h <;> subst h <;> rfl
  · intro port' q hne
    by_cases e : port' = port
    · have hq : q ≠ p := fun h => hne (by rw [e, h])
      subst e
      simp only [mode, upd_same, setBit_bit _ _ _ hp, if_neg hq]
    · simp only [mode, upd_ne _ _ _ _ e]

/-- a wrong pin or mode: -EINVAL, nothing changes -/
theorem refuses (count port p m : Nat) (r : Two) (h : 8 ≤ p ∨ 4 ≤ m) : setMode count port p m r = (einval, r) := by
  unfold setMode
  by_cases h1 : 8 ≤ p
  · rw [if_pos h1]
  · rw [if_neg h1, if_pos (h.resolve_left h1)]

/-- **C94 refuted for 8051, n76e003, ch552**: a mode asked for a pin of port 2 is accepted and does nothing -/
theorem port2_nothing (count p m : Nat) (r : Two) (hp : p < 8) (hm : m < 4) (hc : 2 < count) : setMode count 2 p m r = (0, r) := by
  rw [setMode, if_neg (show ¬ 8 ≤ p by omega), if_neg (show ¬ 4 ≤ m by omega), if_neg (show ¬ count ≤ 2 by omega), if_pos rfl]

/-- P1.3 open drain, from the reset value of an STC (quasi-bidirectional) -/
example : (setMode 4 1 3 3 ⟨fun _ => 0, fun _ => 0⟩).2.mode 1 3 = 3 := by decide

end Two

/-! ### an instance of `last_wins` -/

/-- PB6 of an stm32h7xx: used as an input, then given to the function 4 with the pull-up before; PB7 and PA.. configured after -/
example : Call.Does (.io (some 4)) (Stm.drv.view (Stm.drv.run [(.input none none, 6), (.pullUp, 6)] ⟨0xffffffff, 0, 0, 0, 0⟩) 6)
    (Stm.drv.view (Stm.drv.run ([(.input none none, 6), (.pullUp, 6)] ++ (.io (some 4), 6) :: [(.io (some 4), 7), (.openDrain, 7)]) ⟨0xffffffff, 0, 0, 0, 0⟩) 6) :=
  Drv.last_wins Stm.drv 16 Stm.Has Stm.serves _ _ _ _ _ (by decide) (by show (4 : Nat) < 16; decide) (by decide)

end Pico.Mux
