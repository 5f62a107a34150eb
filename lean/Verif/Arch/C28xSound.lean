import Verif.Arch.C28xPort
/-
The c28x port: the theorems (C54-C57).
-/
namespace Pico.C28x

open Pico.Ctx8 (upd upd_same upd_ne)
open R

/-- handle of the context of a task interrupted in state `s` -/
def handle (c : Cfg) (s : St) : W := ev s.sp + BitVec.ofNat 16 (size c)

theorem ok_cells {c : Cfg} {s : St} (h : Ok c s) (y : W) (hy : ¬ (y - s.sp).toNat < size c) :
    (store (store s.mem (if s.sp.toNat % 2 = 0 then ev s.sp else ev s.sp + 2) (words hw s.reg)) (ev s.sp + 16)
      (words (both c) (vals s))) y = s.mem y := by
  have hsz := both_length c
  have hs72 := size_lt c
  have h16 : 36 ≤ size c := by unfold size; split <;> omega
  have hyl := (y - s.sp).isLt
  have e1 : ∀ k : Nat, k < 65536 → (y - (s.sp + BitVec.ofNat 16 k)).toNat = ((y - s.sp).toNat + (65536 - k)) % 65536 := by
    intro k hk
    rw [show y - (s.sp + BitVec.ofNat 16 k) = (y - s.sp) - BitVec.ofNat 16 k by grind, BitVec.toNat_sub, BitVec.toNat_ofNat,
      Nat.mod_eq_of_lt hk]
    omega
  by_cases hp : s.sp.toNat % 2 = 0
  · rw [if_pos hp, ev_even hp]
    rw [store_out, store_out]
    · rw [words_length]; show ¬ (y - s.sp).toNat < 14; omega
    · rw [words_length, show s.sp + 16 = s.sp + BitVec.ofNat 16 16 from rfl, e1 16 (by omega)]; omega
  · rw [if_neg hp, ev_odd (by omega)]
    rw [store_out, store_out]
    · rw [words_length, show s.sp - 1 + 2 = s.sp + BitVec.ofNat 16 1 by show _ = s.sp + 1#16; grind, e1 1 (by omega)]
      show ¬ _ < 14; omega
    · rw [words_length, show s.sp - 1 + 16 = s.sp + BitVec.ofNat 16 15 by show _ = s.sp + 15#16; grind, e1 15 (by omega)]; omega

theorem arg_eq (c : Cfg) (k : Kind) (s : St) : (port c).arg ((port c).enter k s) = handle c s := by
  obtain ⟨v, _, h2, _⟩ := rest_eff c k s
  show (enter c k s).reg (ar 4) = _
  rw [h2, (trap_save c s).2.2]; rfl

/-- **C54, c28x**: saving a context writes nothing below the stack pointer of the task, whether it is odd or even, nor beyond `size`
words above it, except the variable that holds the stack pointer set aside. -/
theorem c28x_below (c : Cfg) (k : Kind) (s : St) (h : Ok c s) (y : W) (hy : ¬ (y - s.sp).toNat < size c) (hb : y ≠ c.b) :
    (enter c k s).mem y = s.mem y := by
  obtain ⟨v, h1, _⟩ := rest_eff c k s
  rw [h1, upd_ne _ _ hb, (trap_save c s).2.1]
  exact ok_cells h y hy

/-- what memory holds when C is called -/
theorem enter_loads (c : Cfg) (k : Kind) (s : St) (hb : ¬ (c.b - ev s.sp).toNat < size c) :
    load (enter c k s).mem (ev s.sp + 16) (2 * (both c).length) = words (both c) (vals s) ∧
    load (enter c k s).mem (if vals s st1 &&& spa ≠ 0 then ev s.sp else ev s.sp + 2) 14 = words hw s.reg := by
  have hsz := both_length c
  have hs72 := size_lt c
  have h36 : 36 ≤ size c := by unfold size; split <;> omega
  obtain ⟨v, h1, _⟩ := rest_eff c k s
  have apart : ∀ i : Nat, i < size c → ev s.sp + BitVec.ofNat 16 i ≠ c.b := fun i hi e1 => hb (by
    rw [← e1, add_sub_toNat _ _ (by omega)]; exact hi)
  have a16 : ∀ i : Nat, ev s.sp + 16 + BitVec.ofNat 16 i = ev s.sp + BitVec.ofNat 16 (16 + i) := fun i => by
    rw [BitVec.ofNat_add]; exact (show ∀ x y : W, x + 16 + y = x + (16#16 + y) by intros; grind) _ _
  have a2 : ∀ i : Nat, ev s.sp + 2 + BitVec.ofNat 16 i = ev s.sp + BitVec.ofNat 16 (2 + i) := fun i => by
    rw [BitVec.ofNat_add]; exact (show ∀ x y : W, x + 2 + y = x + (2#16 + y) by intros; grind) _ _
  have hA : (if vals s st1 &&& spa ≠ 0 then ev s.sp else ev s.sp + 2) = if s.sp.toNat % 2 = 0 then ev s.sp else ev s.sp + 2 := by
    by_cases hp : s.sp.toNat % 2 = 0
    · rw [if_pos ((vals_spa s).2 hp), if_pos hp]
    · rw [if_neg (fun h => hp ((vals_spa s).1 h)), if_neg hp]
  rw [hA, h1, (trap_save c s).2.1]
  have hbefore : ∀ i, i < 16 → ¬ (ev s.sp + BitVec.ofNat 16 i - (ev s.sp + 16)).toNat < (words (both c) (vals s)).length := by
    intro i hi
    rw [words_length, show ev s.sp + BitVec.ofNat 16 i - (ev s.sp + 16) = BitVec.ofNat 16 i - 16#16 by
      exact (show ∀ x y : W, x + y - (x + 16) = y - 16#16 by intros; grind) _ _, BitVec.toNat_sub, BitVec.toNat_ofNat]
    rw [show (BitVec.ofNat 16 i).toNat = i by rw [BitVec.toNat_ofNat]; omega]
    omega
  constructor
  · rw [load_congr _ (store (store s.mem (if s.sp.toNat % 2 = 0 then ev s.sp else ev s.sp + 2) (words hw s.reg)) (ev s.sp + 16)
      (words (both c) (vals s))) _ _ (fun i hi => upd_ne _ _ (by rw [a16]; exact apart _ (by omega)))]
    have hl := words_length (both c) (vals s)
    conv => lhs; rw [← hl]
    exact load_store _ _ _ (by omega)
  · have hl : (words hw s.reg).length = 14 := by rw [words_length]; rfl
    have hcell : ∀ i, i < 14 → ∃ j, j < 16 ∧ (if s.sp.toNat % 2 = 0 then ev s.sp else ev s.sp + 2) + BitVec.ofNat 16 i =
        ev s.sp + BitVec.ofNat 16 j := by
      intro i hi
      by_cases hp : s.sp.toNat % 2 = 0
      · rw [if_pos hp]; exact ⟨i, by omega, rfl⟩
      · rw [if_neg hp]; exact ⟨2 + i, by omega, a2 i⟩
    rw [load_congr _ (store s.mem (if s.sp.toNat % 2 = 0 then ev s.sp else ev s.sp + 2) (words hw s.reg)) _ _ (fun i hi => by
      obtain ⟨j, hj, e⟩ := hcell i hi
      rw [e, upd_ne _ _ (apart j (by omega)), store_out _ _ _ _ (hbefore j hj)])]
    conv => lhs; rw [← hl]
    exact load_store _ _ _ (by omega)

/-- what is owed to a task, but for the halves of the floating-point registers -/
def owed (c : Cfg) (s : St) : (R → W) × W := (fun r => if vis c r then s.reg (swp r) else 0, s.sp)

theorem back_vals (c : Cfg) (s : St) : back c (vals s) s.reg = (owed c s).1 := by
  funext r
  unfold back owed
  by_cases hv : vis c r = true
  · simp only [hv, if_true]
    by_cases hr : r ∈ halves hw
    · rw [if_pos hr]
      congr 1
      exact ((show ∀ r ∈ halves hw, swp r = r by decide) r hr).symm
    · rw [if_neg hr]
      unfold vals
      rw [if_neg]
      intro e
      have : r = st1 := by rw [← swp_swp r, e]; rfl
      exact hr (by rw [this]; decide)
  · simp [hv]

theorem enter_holds (c : Cfg) (k : Kind) (s : St) (hb : ¬ (c.b - ev s.sp).toNat < size c) :
    (port c).Holds (handle c s) (owed c s) (enter c k s) := by
  obtain ⟨h1, h2⟩ := enter_loads c k s hb
  have heq : (ev s.sp).toNat % 2 = 0 := by rw [ev_toNat]; omega
  have := holds_of c (enter c k s) (ev s.sp) (vals s) s.reg heq hb h1 h2
  have hsp : (if vals s st1 &&& spa ≠ 0 then ev s.sp else ev s.sp + 1) = s.sp := by
    by_cases hp : s.sp.toNat % 2 = 0
    · rw [if_pos ((vals_spa s).2 hp), ev_even hp]
    · rw [if_neg (fun h => hp ((vals_spa s).1 h)), ev_odd (by omega)]; grind
  rw [hsp, back_vals] at this
  exact this

theorem frame_b {c : Cfg} {s : St} {k : Kind} (hio : ∀ y, (port c).frame ((port c).arg ((port c).enter k s)) y → ¬ (port c).io y) :
    ¬ (c.b - ev s.sp).toNat < size c := by
  intro h
  refine hio c.b ?_ rfl
  rw [arg_eq]
  show (c.b - (handle c s - BitVec.ofNat 16 (size c))).toNat < size c
  rw [show handle c s - BitVec.ofNat 16 (size c) = ev s.sp by unfold handle; grind]
  exact h

theorem pops2_mem : ∀ (L : List (R × R)) (s : St), (pops2 L s).mem = s.mem := by
  intro L; induction L with
  | nil => exact fun _ => rfl
  | cons p L ih => exact fun s => ih (pop2 p s)

theorem unsave_mem (f : Bool) (s : St) : (iret (unsave f s)).mem = s.mem := by
  have h0 : (iret (unsave f s)).mem = (pops2 hw.reverse (nasp (pops2 core.reverse ((if f then pops2 fpuPop else id) s)))).mem := rfl
  rw [h0, pops2_mem]
  have hn : ∀ x : St, (nasp x).mem = x.mem := by intro x; unfold nasp; split <;> rfl
  rw [hn, pops2_mem]
  cases f
  · rfl
  · exact pops2_mem _ _

theorem leave_mem (c : Cfg) (e : St) : (leave c e).mem = upd e.mem c.b e.sp := by
  obtain ⟨t, ht⟩ : ∃ t : St, t = { set dp c.page e with mem := upd e.mem c.b ((set dp c.page e).reg (ar 4)) } := ⟨_, rfl⟩
  have he : leave c e = iret (unsave c.f (swap c.b c.page t)) := by rw [ht]; rfl
  rw [he, unsave_mem, (swap_eff c.b c.page t).2.1, ht]
  funext y
  by_cases hy : y = c.b
  · rw [hy, upd_same, upd_same]; rfl
  · rw [upd_ne _ _ hy, upd_ne _ _ hy]; exact upd_ne _ _ hy

/-- the three other duties, with or without floating point -/
theorem c28x_rest (c : Cfg) :
    (∀ k s y, Ok c s → ¬ (port c).frame ((port c).arg ((port c).enter k s)) y → ¬ (port c).io y → (port c).mem ((port c).enter k s) y = (port c).mem s y) ∧
    (∀ k e y, (port c).cok k e → ¬ (port c).io y → (port c).mem ((port c).leave k e) y = (port c).mem e y) ∧
    (∀ k s, Ok c s → (port c).csp k ((port c).enter k s) = (port c).ksp s) ∧
    ∀ k e, (port c).cok k e → (port c).ksp ((port c).leave k e) = (port c).csp k e := by
  refine ⟨fun k s y hok hf hio => ?_, fun k e y _ hio => ?_, fun k s hok => ?_, fun k e _ => ?_⟩
  · obtain ⟨v, h1, _⟩ := rest_eff c k s
    have hs72 := size_lt c
    show (enter c k s).mem y = s.mem y
    rw [h1, upd_ne _ _ hio, (trap_save c s).2.1]
    -- out of the frame
    have hf' : ¬ (y - ev s.sp).toNat < size c := by
      intro h; apply hf; rw [arg_eq]
      show (y - (handle c s - BitVec.ofNat 16 (size c))).toNat < size c
      rw [show handle c s - BitVec.ofNat 16 (size c) = ev s.sp by unfold handle; grind]; exact h
    have hsz := both_length c
    have h36 : 36 ≤ size c := by unfold size; split <;> omega
    have hyl := (y - ev s.sp).isLt
    have e1 : ∀ k : Nat, k < 65536 → (y - (ev s.sp + BitVec.ofNat 16 k)).toNat = ((y - ev s.sp).toNat + (65536 - k)) % 65536 := by
      intro k hk
      rw [show y - (ev s.sp + BitVec.ofNat 16 k) = (y - ev s.sp) - BitVec.ofNat 16 k by grind, BitVec.toNat_sub, BitVec.toNat_ofNat,
        Nat.mod_eq_of_lt hk]
      omega
    rw [store_out, store_out]
    · rw [words_length]
      show ¬ _ < 14
      split
      · omega
      · rw [show ev s.sp + 2 = ev s.sp + BitVec.ofNat 16 2 from rfl, e1 2 (by omega)]; omega
    · rw [words_length, show ev s.sp + 16 = ev s.sp + BitVec.ofNat 16 16 from rfl, e1 16 (by omega)]; omega
  · show (leave c e).mem y = e.mem y
    rw [leave_mem]; exact upd_ne _ _ hio
  · obtain ⟨v, _, _, h3, _⟩ := rest_eff c k s
    show (enter c k s).sp = s.mem c.b
    rw [h3, (trap_save c s).2.1]
    exact ok_cells hok c.b hok
  · show (leave c e).mem c.b = e.sp
    rw [leave_mem, upd_same]

/-- **C54, c28x** without floating-point unit: `switch_invisible` applies, for any number of tasks and any history. -/
theorem c28x_sound (c : Cfg) (hf : c.f = false) : (port c).Sound (Ok c) where
  restores := fun k s _ hio => by
    have h := enter_holds c k s (frame_b hio)
    rw [arg_eq]
    have he : owed c s = (port c).resume k ((port c).ctx s) := by
      show owed c s = ctx c s
      unfold owed ctx
      congr 1
      funext r
      cases r <;> simp [vis, swp, hf]
    rw [he] at h
    exact h
  saves_only_frame := (c28x_rest c).1
  leaves_memory := (c28x_rest c).2.1
  kernel_stack := (c28x_rest c).2.2

/-- **C54, c28x, with floating-point unit**: what a task finds when it comes back: its context, the two halves of every floating-point
register exchanged. -/
theorem c28x_fpu_partial (c : Cfg) (k : Kind) (s : St)
    (hio : ∀ y, (port c).frame ((port c).arg ((port c).enter k s)) y → ¬ (port c).io y) :
    (port c).Holds ((port c).arg ((port c).enter k s)) (owed c s) ((port c).enter k s) := by
  rw [arg_eq]; exact enter_holds c k s (frame_b hio)

/-- **C54, c28x, refuted with a floating-point unit**: as soon as the halves of one floating-point register differ, the task does not get its
context back, whatever the scheduler does. -/
theorem c28x_fpu_wrong (c : Cfg) (hf : c.f = true) (k k' : Kind) (s e : St) (n : Fin 8) (w : Bool) (hne : s.reg (fp n false w) ≠ s.reg (fp n true w))
    (hio : ∀ y, (port c).frame ((port c).arg ((port c).enter k s)) y → ¬ (port c).io y)
    (hr : (port c).ret e = (port c).arg ((port c).enter k s))
    (hm : ∀ y, (port c).frame ((port c).arg ((port c).enter k s)) y → (port c).mem e y = (port c).mem ((port c).enter k s) y) :
    (port c).ctx ((port c).leave k' e) ≠ (port c).ctx s := by
  have h := (c28x_fpu_partial c k s hio).2 k' e trivial hr hm
  rw [h]
  intro he
  have h2 := congrFun (congrArg Prod.fst he) (fp n true w)
  have h3 : (if vis c (fp n true w) then s.reg (swp (fp n true w)) else 0) = if vis c (fp n true w) then s.reg (fp n true w) else 0 := h2
  rw [if_pos (show vis c (fp n true w) = true from hf), if_pos (show vis c (fp n true w) = true from hf)] at h3
  exact hne h3

/-! ### system calls -/

/-- **C56, c28x**: with an even stack pointer (which the compiler keeps at calls), picoRTOS_syscall gets the handle of the context in XAR4, the
request (AL of the caller) in AL and the argument (XAR4 of the caller) in XAR5, interrupts masked. -/
theorem c28x_syscall_args (c : Cfg) (s : St) (heven : s.sp.toNat % 2 = 0) (hb : ¬ (c.b - s.sp).toNat < size c) :
    let t := enter c .syscall s
    t.reg (ar 4) = s.sp + BitVec.ofNat 16 (size c) ∧ t.reg (arh 4) = 0 ∧ t.reg al = s.reg al ∧
    t.reg (ar 5) = s.reg (ar 4) ∧ t.reg (arh 5) = s.reg (arh 4) ∧ t.reg st1 &&& 1 = 1 := by
  have hsz := both_length c
  have hs72 := size_lt c
  have hev := ev_even heven
  have h36 : 36 ≤ size c := by unfold size; split <;> omega
  obtain ⟨r1, r2, r3⟩ := trap_save c s
  obtain ⟨v, g1, g2, g3, g4, g5⟩ := rest_eff c .syscall s
  obtain ⟨g6, g7, g8, g9⟩ := g4 rfl
  rw [hev] at r3
  have hAL : (save c.f (trap s)).mem (s.sp + BitVec.ofNat 16 2) = s.reg al := by
    rw [r2, hev, if_pos heven, store_out, store_in]
    · rfl
    · rw [words_length]; decide
    · rw [words_length]; decide
    · rw [words_length, show s.sp + BitVec.ofNat 16 2 - (s.sp + 16) = BitVec.ofNat 16 (65536 - 14) by
        show s.sp + 2#16 - (s.sp + 16) = 65522#16; grind, BitVec.toNat_ofNat]
      omega
  have hcore : ∀ i : Nat, i < 20 → (save c.f (trap s)).mem (s.sp + 16 + BitVec.ofNat 16 i) = (words core (vals s)).getD i 0 := by
    intro i hi
    rw [r2, hev, store_in _ _ _ _ (by rw [words_length]; omega) (by rw [words_length]; omega)]
    unfold both
    rw [words_append, List.getD_eq_getElem?_getD, List.getElem?_append_left (by rw [words_length]; show i < 20; exact hi),
      ← List.getD_eq_getElem?_getD]
  have k1 : s.sp + BitVec.ofNat 16 (size c) - (if c.f then 70 else 34) = s.sp + BitVec.ofNat 16 2 := by
    unfold size
    cases c.f
    · show s.sp + 36#16 - 34 = s.sp + 2#16; grind
    · show s.sp + 72#16 - 70 = s.sp + 2#16; grind
  have k2 : s.sp + BitVec.ofNat 16 (size c) - (if c.f then 44 else 8) = s.sp + 16 + BitVec.ofNat 16 12 := by
    unfold size
    cases c.f
    · show s.sp + 36#16 - 8 = s.sp + 16 + 12#16; grind
    · show s.sp + 72#16 - 44 = s.sp + 16 + 12#16; grind
  have k3 : ev (s.sp + 16 + BitVec.ofNat 16 12) = s.sp + 16 + BitVec.ofNat 16 12 := ev_even (by
    rw [show s.sp + 16 + BitVec.ofNat 16 12 = s.sp + BitVec.ofNat 16 28 by show s.sp + 16 + 12#16 = s.sp + 28#16; grind, toNat_add_lit]; omega)
  simp only []
  refine ⟨by rw [g2, r3], g6, ?_, ?_, ?_, ?_⟩
  · rw [g7, r3, k1, hAL]
  · rw [g8, r3, k2, k3, hcore 12 (by omega)]; rfl
  · rw [g9, r3, k2, k3, show s.sp + 16 + BitVec.ofNat 16 12 + 1 = s.sp + 16 + BitVec.ofNat 16 13 by
      show s.sp + 16 + 12#16 + 1 = s.sp + 16 + 13#16; grind, hcore 13 (by omega)]; rfl
  · rw [g5, r1]
    unfold vals
    rw [if_pos rfl, if_pos heven]
    generalize s.reg st1 = x
    have h1 : ∀ i, i < 16 → ((((x ||| 0x3) &&& ~~~ 0xe0) ||| spa) &&& 1 : W).getLsbD i = (1 : W).getLsbD i := by
      intro i hi
      by_cases h0 : i = 0
      · subst h0; simp [spa]
      · simp [h0]
    exact BitVec.eq_of_getLsbD_eq h1

/-- **C56, c28x**: interrupts are enabled or not for the task as they were when it was interrupted (bit 0 of ST1, part of its context). -/
theorem c28x_interrupt_enable (c : Cfg) (s : St) : (owed c s).1 st1 = s.reg st1 := rfl

/-! ### platform interrupts -/

/-- **C57, c28x**: Default_Handler (lines 200-216) saves the context as the tick does; when the function it calls returns, on the stack it
was called on, with the saved context and the variable `stack` intact, the task finds its context again (the halves of the
floating-point registers exchanged, if there are any). -/
theorem c28x_isr_resumes (c : Cfg) (s e : St) (hb : ¬ (c.b - ev s.sp).toNat < size c)
    (hsp : e.mem c.b = handle c s) (hm : ∀ y, (y - ev s.sp).toNat < size c → e.mem y = (enter c .tick s).mem y) :
    ctx c (isrLeave c e) = owed c s ∧ ∀ y, y ≠ c.b → (isrLeave c e).mem y = e.mem y := by
  have h := (enter_holds c .tick s hb).2 .tick
  -- the same end as `leave`, from a state where AR4 is the variable's value
  obtain ⟨e', he'⟩ : ∃ e' : St, e' = { e with reg := upd e.reg (ar 4) (handle c s) } := ⟨_, rfl⟩
  have h' := h e' trivial (by show e'.reg (ar 4) = _; rw [he']; exact upd_same e.reg (ar 4) _) (fun y hy => by
    show e'.mem y = (enter c .tick s).mem y
    rw [he']
    have : (y - (handle c s - BitVec.ofNat 16 (size c))).toNat < size c := hy
    rw [show handle c s - BitVec.ofNat 16 (size c) = ev s.sp by unfold handle; grind] at this
    exact hm y this)
  have hctx : ctx c (leave c e') = ctx c (isrLeave c e) := by
    have e1 : leave c e' = iret (unsave c.f (swap c.b c.page { set dp c.page e' with mem := upd e'.mem c.b ((set dp c.page e').reg (ar 4)) })) := rfl
    have e2 : isrLeave c e = iret (unsave c.f (swap c.b c.page e)) := rfl
    have hmem : upd e'.mem c.b ((set dp c.page e').reg (ar 4)) = e.mem := by
      rw [set_ne _ _ (by decide), he']
      show upd e.mem c.b (upd e.reg (ar 4) (handle c s) (ar 4)) = _
      rw [upd_same, ← hsp]
      funext y
      by_cases hy : y = c.b
      · rw [hy, upd_same]
      · rw [upd_ne _ _ hy]
    rw [hmem] at e1
    have l1 := enter_loads c .tick s hb
    have hsz := both_length c
    have hs72 := size_lt c
    have apart : ∀ i : Nat, i < size c → ev s.sp + BitVec.ofNat 16 i ≠ c.b := fun i hi e1 => hb (by
      rw [← e1, add_sub_toNat _ _ (by omega)]; exact hi)
    have key : ∀ x : St, x.mem = e.mem → x.sp = e.sp → ctx c (iret (unsave c.f (swap c.b c.page x))) =
        (back c (vals s) s.reg, if vals s st1 &&& spa ≠ 0 then ev s.sp else ev s.sp + 1) := by
      intro x hx hxs
      obtain ⟨w1, w2, _⟩ := swap_eff c.b c.page x
      generalize swap c.b c.page x = u at *
      have hrd : ∀ i : Nat, i < size c → u.mem (ev s.sp + BitVec.ofNat 16 i) = (enter c .tick s).mem (ev s.sp + BitVec.ofNat 16 i) := by
        intro i hi
        rw [w2, upd_ne _ _ (apart i hi), hx, hm _ (by rw [add_sub_toNat _ _ (by omega)]; exact hi)]
      obtain ⟨_, r2, r3⟩ := unsave_eff c u (ev s.sp) (vals s) s.reg (by rw [ev_toNat]; omega) (by rw [w1, hx, hsp]; rfl)
        (by
          rw [← l1.1]
          refine load_congr _ _ _ _ fun i hi => ?_
          rw [show ev s.sp + 16 + BitVec.ofNat 16 i = ev s.sp + BitVec.ofNat 16 (16 + i) by
            rw [BitVec.ofNat_add]; exact (show ∀ x y : W, x + 16 + y = x + (16#16 + y) by intros; grind) _ _]
          exact hrd _ (by omega))
        (by
          rw [← l1.2]
          refine load_congr _ _ _ _ fun i hi => ?_
          split
          · exact hrd _ (by omega)
          · rw [show ev s.sp + 2 + BitVec.ofNat 16 i = ev s.sp + BitVec.ofNat 16 (2 + i) by
              rw [BitVec.ofNat_add]; exact (show ∀ x y : W, x + 2 + y = x + (2#16 + y) by intros; grind) _ _]
            exact hrd _ (by omega))
      unfold ctx
      rw [r2]
      congr 1
      funext r
      exact r3 r
    rw [e1, e2, key e rfl rfl]
    exact key _ rfl (by rw [he']; rfl)
  refine ⟨hctx.symm.trans h', fun y hy => ?_⟩
  show (iret (unsave c.f (swap c.b c.page e))).mem y = _
  rw [unsave_mem, (swap_eff c.b c.page e).2.1, upd_ne _ _ hy]

end Pico.C28x
