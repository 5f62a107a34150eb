import Verif.Arch.Stm8
/-
The STM8 port: context switches are invisible (C54), how tasks start (C55), what reaches the scheduler (C56) and
platform interrupts (C57).
-/
namespace Pico.Ctx8.Stm8
open R

theorem trap_eff (s : St R) : Pushed s (hwRegs.map s.reg) (trap s) ∧
    (trap s).reg = upd s.reg cc (s.reg cc ||| 0x28) := by
  have p1 : Pushed s (hwRegs.map s.reg) (pushes hwRegs s) := (Pushed.refl s).pushes _
  have r1 := pushes_reg hwRegs s
  unfold trap
  generalize pushes hwRegs s = x at p1 r1
  exact ⟨p1.regs _, by show upd x.reg cc (x.reg cc ||| 0x28) = _; rw [r1]⟩

/-- SWAP_STACK exchanges the stack pointer and the one set aside -/
theorem swap_eff (b : Addr) (s : St R) : (swap b s).sp = cat (s.mem b) (s.mem (b + 1)) ∧
    cat ((swap b s).reg xh) ((swap b s).reg xl) = s.sp ∧
    cat ((swap b s).mem b) ((swap b s).mem (b + 1)) = s.sp ∧
    (∀ x, x ≠ b → x ≠ b + 1 → (swap b s).mem x = s.mem x) ∧
    ∀ r, r ∉ [xh, xl, yh, yl] → (swap b s).reg r = s.reg r := by
  have hb : b ≠ b + 1 := by grind
  refine ⟨?_, ?_, ?_, ?_, ?_⟩
  · simp [swap, run, ldwXSp, ldwYMem, ldwSpY, ldwMemX, upd]
  · simp [swap, run, ldwXSp, ldwYMem, ldwSpY, ldwMemX, upd, cat_hi_lo]
  · simp [swap, run, ldwXSp, ldwYMem, ldwSpY, ldwMemX, upd, cat_hi_lo]
  · intro x h1 h2
    simp [swap, run, ldwXSp, ldwYMem, ldwSpY, ldwMemX, upd, h1]
    exact fun h => absurd h h2
  · intro r hr
    simp only [List.mem_cons, List.not_mem_nil, or_false, not_or] at hr
    obtain ⟨h1, h2, h3, h4⟩ := hr
    simp [swap, run, ldwXSp, ldwYMem, ldwSpY, ldwMemX, upd, h1, h2, h3, h4]

/-- the beginning of every handler -/
theorem save_eff (b : Addr) (s t : St R) (hok : Ok b s) (h : Pushed s (hwRegs.map s.reg) t) :
    (swap b t).sp = cat (s.mem b) (s.mem (b + 1)) ∧ cat ((swap b t).reg xh) ((swap b t).reg xl) = s.sp - 9#16 ∧
    cat ((swap b t).mem b) ((swap b t).mem (b + 1)) = s.sp - 9#16 ∧
    (∀ x, x ≠ b → x ≠ b + 1 → (swap b t).mem x = t.mem x) ∧
    (∀ x, x ≠ b → x ≠ b + 1 → ¬ (s.sp - x).toNat < size → (swap b t).mem x = s.mem x) ∧
    ∀ r, r ∉ [xh, xl, yh, yl] → (swap b t).reg r = t.reg r := by
  obtain ⟨w1, w2, w3, w4, w5⟩ := swap_eff b t
  have hsp : t.sp = s.sp - 9#16 := h.sp
  have ho : ∀ x, ¬ (s.sp - x).toNat < size → t.mem x = s.mem x := fun x hx => h.out x hx
  rw [ho b hok.1, ho (b + 1) hok.2] at w1
  rw [hsp] at w2 w3
  exact ⟨w1, w2, w3, w4, fun x h1 h2 h3 => (w4 x h1 h2).trans (ho x h3), w5⟩

theorem enter_eff (b : Addr) (k : Kind) (s : St R) (hok : Ok b s) :
    (enter b k s).sp = cat (s.mem b) (s.mem (b + 1)) ∧
    cat ((enter b k s).reg xh) ((enter b k s).reg xl) = s.sp - 9#16 ∧
    (∀ r ∈ hwRegs, s.sp - BitVec.ofNat 16 (hwRegs.idxOf r) ≠ b → s.sp - BitVec.ofNat 16 (hwRegs.idxOf r) ≠ b + 1 →
      (enter b k s).mem (s.sp - BitVec.ofNat 16 (hwRegs.idxOf r)) = s.reg r) ∧
    (∀ x, x ≠ b → x ≠ b + 1 → ¬ (s.sp - x).toNat < size → (enter b k s).mem x = s.mem x) ∧
    (enter b k s).reg cc = (s.reg cc ||| 0x28) &&& 0xfe ∧
    (k = .syscall → (enter b k s).reg a = s.reg a ∧
      cat ((enter b k s).reg yh) ((enter b k s).reg yl) = s.sp + 3) := by
  obtain ⟨p, hr⟩ := trap_eff s
  have hc : ∀ r ∈ hwRegs, (trap s).mem (s.sp - BitVec.ofNat 16 (hwRegs.idxOf r)) = s.reg r :=
    fun r h => p.cell (by decide) r h
  have e1 : enter b .syscall s = addwY 12 (ldwYX (rcf (swap b (trap s)))) := rfl
  have e2 : enter b .tick s = ldAY (ldwYMem awu (rcf (swap b (trap s)))) := rfl
  obtain ⟨w1, w2, w3, w4, w5, w6⟩ := save_eff b s (trap s) hok p
  have ha := w6 a (by decide)
  have hcc := w6 cc (by decide)
  rw [hr] at ha hcc
  generalize trap s = t at p hc w1 w2 w3 w4 w5 e1 e2 ha hcc
  generalize swap b t = u at w1 w2 w3 w4 w5 e1 e2 ha hcc
  have k1 : (rcf u).reg cc = (s.reg cc ||| 0x28) &&& 0xfe := by
    show upd u.reg cc (u.reg cc &&& 0xfe) cc = _
    rw [upd_same, hcc, upd_same]
  have k2 : ∀ r, r ≠ cc → (rcf u).reg r = u.reg r := fun r h => upd_ne _ _ h
  have k3 : (rcf u).mem = u.mem := rfl
  have k4 : (rcf u).sp = u.sp := rfl
  have ka : (rcf u).reg a = s.reg a := by
    rw [k2 a (by decide), ha, upd_ne _ _ (by decide)]
  have kx : cat ((rcf u).reg xh) ((rcf u).reg xl) = s.sp - 9#16 := by rw [k2 xh (by decide), k2 xl (by decide), w2]
  rw [← k3] at w4 w5
  rw [← k4] at w1
  generalize rcf u = v at *
  cases k with
  | syscall =>
    have f1 : (enter b .syscall s).mem = v.mem := by rw [e1]; rfl
    refine ⟨by rw [e1]; exact w1, ?_, ?_, ?_, ?_, fun _ => ⟨?_, ?_⟩⟩
    · rw [e1]; simpa [addwY, ldwYX, upd] using kx
    · intro r h1 h2 h3
      rw [f1, w4 _ h2 h3]; exact hc r h1
    · intro x h1 h2 h3
      rw [f1]; exact w5 x h1 h2 h3
    · rw [e1]; simpa [addwY, ldwYX, upd] using k1
    · rw [e1]; simpa [addwY, ldwYX, upd] using ka
    · rw [e1]
      simp only [addwY, ldwYX, upd]
      simp only [if_true, reduceCtorEq, if_false]
      rw [cat_hi_lo, kx]; grind
  | tick =>
    have f1 : (enter b .tick s).mem = v.mem := by rw [e2]; rfl
    refine ⟨by rw [e2]; exact w1, ?_, ?_, ?_, ?_, fun h => absurd h (by decide)⟩
    · rw [e2]; simpa [ldAY, ldwYMem, upd] using kx
    · intro r h1 h2 h3
      rw [f1, w4 _ h2 h3]; exact hc r h1
    · intro x h1 h2 h3
      rw [f1]; exact w5 x h1 h2 h3
    · rw [e2]; simpa [ldAY, ldwYMem, upd] using k1

/-- offset of a register in the frame -/
def off (r : R) : Addr := 9#16 - BitVec.ofNat 16 (hwRegs.idxOf r)

theorem mem_hw (r : R) : r ∈ hwRegs := by cases r <;> decide

theorem iret_eff (s : St R) : (iret s).mem = s.mem ∧ (iret s).sp = s.sp + 9#16 ∧
    ∀ r, (iret s).reg r = s.mem (s.sp + off r) := by
  refine ⟨pops_mem _ s, pops_sp _ s, fun r => ?_⟩
  have h4 := fun i hi => pops_in hwRegs.reverse (by decide) i hi s
  have hm : r ∈ hwRegs.reverse := List.mem_reverse.2 (mem_hw r)
  have hi := List.idxOf_lt_length_of_mem hm
  have := h4 _ hi
  rw [List.getElem_idxOf] at this
  unfold iret
  rw [this]
  congr 1
  have : off r = 1 + BitVec.ofNat 16 (hwRegs.reverse.idxOf r) := by cases r <;> decide
  rw [this]; grind

/-- SWAP_STACK and `iret` -/
theorem back_eff (b : Addr) (s : St R) :
    (∀ x, x ≠ b → x ≠ b + 1 → (iret (swap b s)).mem x = s.mem x) ∧
    (iret (swap b s)).sp = cat (s.mem b) (s.mem (b + 1)) + 9#16 ∧
    cat ((iret (swap b s)).mem b) ((iret (swap b s)).mem (b + 1)) = s.sp ∧
    ∀ r, cat (s.mem b) (s.mem (b + 1)) + off r ≠ b → cat (s.mem b) (s.mem (b + 1)) + off r ≠ b + 1 →
      (iret (swap b s)).reg r = s.mem (cat (s.mem b) (s.mem (b + 1)) + off r) := by
  obtain ⟨w1, w2, w3, w4, w5⟩ := swap_eff b s
  generalize swap b s = t at *
  obtain ⟨i1, i2, i3⟩ := iret_eff t
  refine ⟨fun x h1 h2 => by rw [i1, w4 x h1 h2], by rw [i2, w1], by rw [i1, w3], fun r h1 h2 => ?_⟩
  rw [i3, w1, w4 _ h1 h2]

theorem leave_eff (b : Addr) (k : Kind) (e : St R) :
    (∀ x, x ≠ b → x ≠ b + 1 → (leave b k e).mem x = e.mem x) ∧
    (leave b k e).sp = cat (e.reg xh) (e.reg xl) + 9#16 ∧
    cat ((leave b k e).mem b) ((leave b k e).mem (b + 1)) = e.sp ∧
    ∀ r, cat (e.reg xh) (e.reg xl) + off r ≠ b → cat (e.reg xh) (e.reg xl) + off r ≠ b + 1 →
      (leave b k e).reg r = e.mem (cat (e.reg xh) (e.reg xl) + off r) := by
  have he : leave b k e = iret (swap b (ldwMemX b e)) := rfl
  have hb : b ≠ b + 1 := by grind
  have m1 : cat ((ldwMemX b e).mem b) ((ldwMemX b e).mem (b + 1)) = cat (e.reg xh) (e.reg xl) := by
    show cat (upd (upd e.mem b _) (b + 1) _ b) (upd (upd e.mem b _) (b + 1) _ (b + 1)) = _
    rw [upd_same, upd_ne _ _ hb, upd_same]
  have m2 : ∀ x, x ≠ b → x ≠ b + 1 → (ldwMemX b e).mem x = e.mem x := by
    intro x h1 h2
    show upd (upd e.mem b _) (b + 1) _ x = _
    rw [upd_ne _ _ h2, upd_ne _ _ h1]
  have m3 : (ldwMemX b e).sp = e.sp := rfl
  rw [he]
  generalize ldwMemX b e = y at *
  obtain ⟨b1, b2, b3, b4⟩ := back_eff b y
  rw [m1] at b2 b4
  refine ⟨fun x h1 h2 => by rw [b1 x h1 h2, m2 x h1 h2], b2, by rw [b3, m3], fun r h1 h2 => ?_⟩
  rw [b4 r h1 h2, m2 _ h1 h2]

theorem off_lt (r : R) : (off r + (-1#16)).toNat < (9#16).toNat := by cases r <;> decide

theorem frameEff (b : Addr) :
    FrameEff (port b) (Ok b) (-1#16) 9#16 9#16 (fun _ => true) off (fun _ => id) where
  mem := rfl
  ctx := rfl
  frame := rfl
  off_lt := fun r _ => off_lt r
  resume_sp := fun _ _ => rfl
  resume_hidden := fun _ _ _ h => absurd h (by decide)
  enter_arg := fun k s hok => (enter_eff b k s hok).2.1
  enter_cell := fun k s r hok _ hio => by
    have hin : (s.sp - 9#16 + off r - (s.sp - 9#16) + (-1#16)).toNat < (9#16).toNat := by
      rw [show s.sp - 9#16 + off r - (s.sp - 9#16) = off r by grind]
      exact off_lt r
    have h1 := hio _ hin
    rw [show s.sp - 9#16 + off r = s.sp - BitVec.ofNat 16 (hwRegs.idxOf r) by unfold off; grind] at h1 ⊢
    show id ((enter b k s).mem _) = if true = true then s.reg r else 0
    rw [if_pos rfl, id]
    exact (enter_eff b k s hok).2.2.1 r (mem_hw r) (fun h => h1 (Or.inl h)) (fun h => h1 (Or.inr h))
  enter_out := fun k s x hok hf hio => by
    refine (enter_eff b k s hok).2.2.2.1 x (fun h => hio (Or.inl h)) (fun h => hio (Or.inr h)) fun h => hf ?_
    exact (frame_below 9 (by decide) s.sp x).2 h
  enter_csp := fun k s hok => (enter_eff b k s hok).1
  leave_sp := fun k e _ => (leave_eff b k e).2.1
  leave_reg := fun k e r _ _ hio => by
    have hin : ((port b).ret e + off r - (port b).ret e + (-1#16)).toNat < (9#16).toNat := by
      rw [show (port b).ret e + off r - (port b).ret e = off r by grind]
      exact off_lt r
    have h1 := hio _ hin
    exact (leave_eff b k e).2.2.2 r (fun h => h1 (Or.inl h)) (fun h => h1 (Or.inr h))
  leave_mem := fun k e x _ hx => (leave_eff b k e).1 x (fun h => hx (Or.inl h)) (fun h => hx (Or.inr h))
  leave_ksp := fun k e _ => (leave_eff b k e).2.2.1

/-- **C54 on STM8** -/
theorem stm8_sound (b : Addr) : (port b).Sound (Ok b) := (frameEff b).sound

/-! ## C56 -/

/-- **C56 on STM8, the part that holds**: picoRTOS_syscall gets the stack pointer under which the task's context is saved
(in X) and the system call number (in A); interrupts are masked while C runs. -/
theorem stm8_syscall_args_partial (b : Addr) (s : St R) (hok : Ok b s) :
    let t := enter b .syscall s
    cat (t.reg xh) (t.reg xl) = s.sp - 9 ∧ t.reg a = s.reg a ∧ t.reg cc &&& 0x28 = 0x28 := by
  obtain ⟨-, h2, -, -, h5, h6⟩ := enter_eff b .syscall s hok
  refine ⟨h2, (h6 rfl).1, ?_⟩
  rw [h5]
  generalize s.reg cc = v
  revert v; decide

/-- **... and the part that does not**: the third argument is the address `sp + 3`, whatever `priv` (in X) the task gave
to arch_syscall.  It is right only if `priv` points at the variable that the caller of arch_syscall has at the bottom of
its frame (above the return address). -/
theorem stm8_syscall_priv (b : Addr) (s : St R) (hok : Ok b s) :
    cat ((enter b .syscall s).reg yh) ((enter b .syscall s).reg yl) = s.sp + 3 := ((enter_eff b .syscall s hok).2.2.2.2.2 rfl).2

/-- two calls that differ by their argument only are the same to the scheduler -/
theorem stm8_priv_lost (b : Addr) : ¬ ∀ s : St R, Ok b s →
    cat ((enter b .syscall s).reg yh) ((enter b .syscall s).reg yl) = cat (s.reg xh) (s.reg xl) := by
  intro h
  have hk : Ok b ⟨fun _ => 0, b + 100, fun _ => 0⟩ := by
    refine ⟨?_, ?_⟩
    · show ¬ (b + 100 - b).toNat < size
      rw [show b + 100 - b = 100 by grind]; decide
    · show ¬ (b + 100 - (b + 1)).toNat < size
      rw [show b + 100 - (b + 1) = 99 by grind]; decide
  have hk' : Ok b ⟨upd (fun _ => 0) xl 1, b + 100, fun _ => 0⟩ := hk
  have h1 := h _ hk
  have h2 := h _ hk'
  rw [stm8_syscall_priv b _ hk] at h1
  rw [stm8_syscall_priv b _ hk'] at h2
  have := h1.symm.trans h2
  revert this
  simp [upd, cat]

/-- the interrupt mask of the task resumed is the one it had -/
theorem stm8_interrupt_enable (b : Addr) (k : Kind) (s e : St R) (hok : Ok b s)
    (hio : ∀ x, (s.sp - x).toNat < size → ¬ (port b).io x)
    (hx : cat (e.reg xh) (e.reg xl) = s.sp - 9#16) (hm : ∀ x, (s.sp - x).toNat < size → e.mem x = (enter b k s).mem x) :
    (leave b k e).reg cc = s.reg cc := by
  have h := (stm8_sound b).restores k s hok (by
    intro x hf
    rw [show (port b).arg ((port b).enter k s) = s.sp - 9#16 from (enter_eff b k s hok).2.1] at hf
    exact hio x ((frame_below 9 (by decide) s.sp x).1 hf))
  have h2 := h.2 k e trivial (hx.trans (enter_eff b k s hok).2.1.symm) (by
    intro x hf
    rw [show (port b).arg ((port b).enter k s) = s.sp - 9#16 from (enter_eff b k s hok).2.1] at hf
    exact hm x ((frame_below 9 (by decide) s.sp x).1 hf))
  have := congrFun (congrArg Prod.fst h2) cc
  exact this

/-! ## C55 -/

/-- **C55 on STM8**: arch_prepare_stack writes nine bytes, all within the stack, and leaves there the context of a call of
`fn` with `priv` in X; the stack pointer of the task is `stack + count - 2` (the last byte of the stack is not used).
All interrupts but those of software priority 3 (the reset value) are masked in a task that has just started (CC = 0). -/
theorem stm8_first (b stack : Addr) (count : Nat) (h1 : 17 ≤ count) (h2 : count ≤ 65536) (fn priv : Addr) (s : St R)
    (hio : ∀ x, (x - stack).toNat < count → ¬ (port b).io x) :
    let y := prepare stack count fn priv s.mem
    (∀ x, ¬ (x - stack).toNat < count → y.1 x = s.mem x) ∧
    ∃ x : (R → Byte) × Addr, (port b).Holds y.2 x { s with mem := y.1 } ∧ x.2 = stack + BitVec.ofNat 16 count - 2 ∧
      cat (x.1 pch) (x.1 pcl) = fn ∧ x.1 pce = 0 ∧ cat (x.1 xh) (x.1 xl) = priv ∧ x.1 cc = 0 := by
  have hcount : (BitVec.ofNat 16 count).toNat = count % 65536 := BitVec.toNat_ofNat ..
  have key : ∀ i : Addr, i.toNat < 9 → (stack + (BitVec.ofNat 16 count - 10) + i - stack).toNat < count := by
    intro i hi
    rw [show stack + (BitVec.ofNat 16 count - 10) + i - stack = BitVec.ofNat 16 count - 10#16 + i by grind]
    rw [BitVec.toNat_add, BitVec.toNat_sub, hcount, show (10#16).toNat = 10 from rfl]
    omega
  refine ⟨?_, ?_⟩
  · intro x hx
    have hne : ∀ i : Addr, i.toNat < 9 → x ≠ stack + (BitVec.ofNat 16 count - 10) + i := fun i hi e => hx (e ▸ key i hi)
    have h0 := hne 0 (by decide)
    rw [show stack + (BitVec.ofNat 16 count - 10) + 0 = stack + (BitVec.ofNat 16 count - 10) by grind] at h0
    unfold prepare
    simp only []
    rw [upd_ne _ _ (hne 8 (by decide)), upd_ne _ _ (hne 7 (by decide)), upd_ne _ _ (hne 6 (by decide)),
      upd_ne _ _ (hne 5 (by decide)), upd_ne _ _ (hne 4 (by decide)), upd_ne _ _ (hne 3 (by decide)),
      upd_ne _ _ (hne 2 (by decide)), upd_ne _ _ (hne 1 (by decide)), upd_ne _ _ h0]
  · obtain ⟨p, hp⟩ : ∃ p, p = stack + (BitVec.ofNat 16 count - 10) := ⟨_, rfl⟩
    have hm : ∀ i : Addr, i.toNat < 9 → (prepare stack count fn priv s.mem).1 (p + i) =
        [0, 0, hi priv, lo priv, 0, 0, 0, hi fn, lo fn].getD i.toNat 0 := by
      intro i hi
      unfold prepare
      simp only []
      rw [← hp]
      have hh : ∀ j : Addr, (p + i = p + j ↔ i = j) := fun j => ⟨fun h => by grind, fun h => by rw [h]⟩
      have h0 : (p + i = p ↔ i = 0) := ⟨fun h => by grind, fun h => by rw [h]; grind⟩
      simp only [upd, hh, h0]
      have : i = 0 ∨ i = 1 ∨ i = 2 ∨ i = 3 ∨ i = 4 ∨ i = 5 ∨ i = 6 ∨ i = 7 ∨ i = 8 := by
        have hc : i.toNat = 0 ∨ i.toNat = 1 ∨ i.toNat = 2 ∨ i.toNat = 3 ∨ i.toNat = 4 ∨ i.toNat = 5 ∨ i.toNat = 6 ∨
          i.toNat = 7 ∨ i.toNat = 8 := by omega
        rcases hc with h | h | h | h | h | h | h | h | h
        · exact Or.inl (BitVec.eq_of_toNat_eq h)
        · exact Or.inr (Or.inl (BitVec.eq_of_toNat_eq h))
        · exact Or.inr (Or.inr (Or.inl (BitVec.eq_of_toNat_eq h)))
        · exact Or.inr (Or.inr (Or.inr (Or.inl (BitVec.eq_of_toNat_eq h))))
        · exact Or.inr (Or.inr (Or.inr (Or.inr (Or.inl (BitVec.eq_of_toNat_eq h)))))
        · exact Or.inr (Or.inr (Or.inr (Or.inr (Or.inr (Or.inl (BitVec.eq_of_toNat_eq h))))))
        · exact Or.inr (Or.inr (Or.inr (Or.inr (Or.inr (Or.inr (Or.inl (BitVec.eq_of_toNat_eq h)))))))
        · exact Or.inr (Or.inr (Or.inr (Or.inr (Or.inr (Or.inr (Or.inr (Or.inl (BitVec.eq_of_toNat_eq h))))))))
        · exact Or.inr (Or.inr (Or.inr (Or.inr (Or.inr (Or.inr (Or.inr (Or.inr (BitVec.eq_of_toNat_eq h))))))))
      rcases this with rfl | rfl | rfl | rfl | rfl | rfl | rfl | rfl | rfl <;> rfl
    have h2 : (prepare stack count fn priv s.mem).2 = p - 1 := by rw [hp]; rfl
    rw [h2]
    have hf : ∀ r, (prepare stack count fn priv s.mem).1 (p - 1 + off r) =
        [0, 0, hi priv, lo priv, 0, 0, 0, hi fn, lo fn].getD (off r - 1).toNat 0 := by
      intro r
      rw [show p - 1 + off r = p + (off r - 1) by grind]
      exact hm _ (by cases r <;> decide)
    refine ⟨(fun r => (prepare stack count fn priv s.mem).1 (p - 1 + off r), p - 1 + 9#16), ?_, ?_, ?_, ?_, ?_, ?_⟩
    · refine (frameEff b).holds _ _ _ ?_ rfl (fun r _ => rfl) (fun r h => absurd h (by decide))
      intro x hx
      refine hio x ?_
      have hk := key (x - (p - 1) + (-1#16)) hx
      rwa [← hp, show p + (x - (p - 1) + (-1#16)) = x by grind] at hk
    · show p - 1 + 9#16 = _
      rw [hp]; grind
    · simp only [hf]
      show cat (hi fn) (lo fn) = fn
      exact cat_hi_lo fn
    · simp only [hf]; rfl
    · simp only [hf]
      show cat (hi priv) (lo priv) = priv
      exact cat_hi_lo priv
    · simp only [hf]; rfl

/-- **C55, starting the scheduler**: arch_start_first_task brings in the context it is given (in X) and sets the caller's
stack aside for the kernel. -/
theorem stm8_start (b : Addr) (m e : St R) (h : Addr) (x : (R → Byte) × Addr) (hH : (port b).Holds h x m)
    (hr : cat (e.reg xh) (e.reg xl) = h) (hm : ∀ i, (port b).frame h i → e.mem i = m.mem i) :
    (port b).ctx (start b e) = x ∧ (port b).ksp (start b e) = e.sp := by
  have hs : start b e = leave b .syscall e := rfl
  rw [hs]
  exact ⟨hH.2 .syscall e trivial hr hm, (leave_eff b .syscall e).2.2.1⟩

/-! ## C57 -/

/-- what picoRTOS_register_interrupt stored for `irq` (picoRTOS_port.c:107-113): function and argument -/
def registered (table : Addr) (mem : Addr → Byte) (irq : Byte) : Addr × Addr :=
  let e := table + BitVec.ofNat 16 (4 * irq.toNat)
  (cat (mem e) (mem (e + 1)), cat (mem (e + 2)) (mem (e + 3)))

theorem addr1 (x n o : Addr) : x - n + o - (x - n) = o := by grind
theorem addr2 (x n : Addr) : x - n + n = x := by grind
theorem addr3 (x n i : Addr) : x - n + (n - i) = x - i := by grind

theorem shl2 (irq : Byte) (h : irq.toNat < 64) : cat 0 (irq <<< 2) = BitVec.ofNat 16 (4 * irq.toNat) := by
  apply BitVec.eq_of_toNat_eq
  simp only [cat, BitVec.toNat_ofNat, BitVec.toNat_shiftLeft, Nat.shiftLeft_eq, show (0 : Byte).toNat = 0 from rfl]
  omega

/-- the dispatcher up to the call -/
theorem isr_eff (b table : Addr) (irq : Byte) (hirq : irq.toNat < 64) (s : St R) (hok : Ok b s)
    (hout : ∀ i : Nat, i < 4 → let x := table + BitVec.ofNat 16 (4 * irq.toNat) + BitVec.ofNat 16 i
      ¬ (s.sp - x).toNat < size ∧ x ≠ b ∧ x ≠ b + 1 ∧ ¬ (cat (s.mem b) (s.mem (b + 1)) - x).toNat < 2)
    (hb : ¬ (cat (s.mem b) (s.mem (b + 1)) - b).toNat < 2 ∧ ¬ (cat (s.mem b) (s.mem (b + 1)) - (b + 1)).toNat < 2) :
    let t := run [trap, li a irq, swap b, rcf, index table, ldwYX, ldwYY, ldwXX2] s
    t.sp = cat (s.mem b) (s.mem (b + 1)) ∧
    cat (t.reg yh) (t.reg yl) = (registered table s.mem irq).1 ∧ cat (t.reg xh) (t.reg xl) = (registered table s.mem irq).2 ∧
    cat (t.mem b) (t.mem (b + 1)) = s.sp - 9#16 ∧
    ∀ r ∈ hwRegs, let x := s.sp - BitVec.ofNat 16 (hwRegs.idxOf r)
      x ≠ b → x ≠ b + 1 → ¬ (cat (s.mem b) (s.mem (b + 1)) - x).toNat < 2 → t.mem x = s.reg r := by
  obtain ⟨p, hr⟩ := trap_eff s
  have hc : ∀ r ∈ hwRegs, (trap s).mem (s.sp - BitVec.ofNat 16 (hwRegs.idxOf r)) = s.reg r :=
    fun r h => p.cell (by decide) r h
  have e1 : run [trap, li a irq, swap b, rcf, index table, ldwYX, ldwYY, ldwXX2] s =
    ldwXX2 (ldwYY (ldwYX (index table (rcf (swap b (li a irq (trap s))))))) := rfl
  simp only []
  rw [e1]
  clear e1
  have p' : Pushed s (hwRegs.map s.reg) (li a irq (trap s)) := p
  have hc' : ∀ r ∈ hwRegs, (li a irq (trap s)).mem (s.sp - BitVec.ofNat 16 (hwRegs.idxOf r)) = s.reg r := hc
  have ra : (li a irq (trap s)).reg a = irq := upd_same (trap s).reg a irq
  generalize li a irq (trap s) = t at *
  obtain ⟨w1, w2, w3, w4, w5, w6⟩ := save_eff b s t hok p'
  have ha := w6 a (by decide)
  rw [ra] at ha
  generalize swap b t = u at *
  have k2 : (rcf u).reg a = irq := (upd_ne u.reg (u.reg cc &&& 0xfe) (show a ≠ cc by decide)).trans ha
  have k3 : (rcf u).mem = u.mem := rfl
  have k4 : (rcf u).sp = u.sp := rfl
  rw [← k3] at w3 w4 w5
  rw [← k4] at w1
  generalize rcf u = v at *
  clear k3 k4 w6 w2 ha
  obtain ⟨q, hq⟩ : ∃ q, q = cat (s.mem b) (s.mem (b + 1)) := ⟨_, rfl⟩
  rw [← hq] at w1 hb hout ⊢
  have hlt : ∀ x, ¬ (q - x).toNat < 2 → x ≠ q ∧ x ≠ q - 1 := by
    intro x hx
    refine ⟨fun h => hx ?_, fun h => hx ?_⟩
    · rw [h, show q - q = 0 by grind]; decide
    · rw [h, show q - (q - 1) = 1 by grind]; decide
  have i1 : ∀ x, ¬ (q - x).toNat < 2 → (index table v).mem x = v.mem x := by
    intro x hx
    obtain ⟨n1, n2⟩ := hlt x hx
    show upd (upd v.mem v.sp _) (v.sp - 1) 0 x = _
    rw [w1, upd_ne _ _ n2, upd_ne _ _ n1]
  have i2 : cat ((index table v).reg xh) ((index table v).reg xl) = table + BitVec.ofNat 16 (4 * irq.toNat) := by
    have hn : v.sp ≠ v.sp - 1 := by grind
    have e : (index table v).reg = upd (upd (upd v.reg a (v.reg a <<< 2)) xh (hi (table +
        cat (upd (upd v.mem v.sp (v.reg a <<< 2)) (v.sp - 1) 0 (v.sp - 1)) (upd (upd v.mem v.sp (v.reg a <<< 2)) (v.sp - 1) 0 v.sp))))
        xl (lo (table + cat (upd (upd v.mem v.sp (v.reg a <<< 2)) (v.sp - 1) 0 (v.sp - 1))
          (upd (upd v.mem v.sp (v.reg a <<< 2)) (v.sp - 1) 0 v.sp))) := rfl
    rw [e, upd_same (a := xl), upd_ne _ _ (show xh ≠ xl by decide), upd_same (a := xh), cat_hi_lo, upd_same, upd_ne _ _ hn, upd_same, k2, shl2 irq hirq]
  have i3 : (index table v).sp = q := w1
  generalize index table v = z at *
  have j1 : (ldwXX2 (ldwYY (ldwYX z))).mem = z.mem := rfl
  have j2 : (ldwXX2 (ldwYY (ldwYX z))).sp = z.sp := rfl
  have hz : ∀ i : Nat, i < 4 → z.mem (table + BitVec.ofNat 16 (4 * irq.toNat) + BitVec.ofNat 16 i) =
      s.mem (table + BitVec.ofNat 16 (4 * irq.toNat) + BitVec.ofNat 16 i) := by
    intro i hi
    obtain ⟨o1, o2, o3, o4⟩ := hout i hi
    rw [i1 _ o4, w5 _ o2 o3 o1]
  have z0 := hz 0 (by decide)
  have z1 := hz 1 (by decide)
  have z2 := hz 2 (by decide)
  have z3 := hz 3 (by decide)
  rw [show ∀ x : Addr, x + BitVec.ofNat 16 0 = x by intro x; simp] at z0
  refine ⟨?_, ?_, ?_, ?_, ?_⟩
  · rw [j2, i3]
  · have : cat ((ldwXX2 (ldwYY (ldwYX z))).reg yh) ((ldwXX2 (ldwYY (ldwYX z))).reg yl) =
        cat (z.mem (cat (z.reg xh) (z.reg xl))) (z.mem (cat (z.reg xh) (z.reg xl) + 1)) := by
      simp [ldwXX2, ldwYY, ldwYX, upd]
    rw [this, i2, z0]
    exact congrArg _ z1
  · have : cat ((ldwXX2 (ldwYY (ldwYX z))).reg xh) ((ldwXX2 (ldwYY (ldwYX z))).reg xl) =
        cat (z.mem (cat (z.reg xh) (z.reg xl) + 2)) (z.mem (cat (z.reg xh) (z.reg xl) + 2 + 1)) := by
      simp [ldwXX2, ldwYY, ldwYX, upd]
    rw [this, i2, show table + BitVec.ofNat 16 (4 * irq.toNat) + 2 + 1 = table + BitVec.ofNat 16 (4 * irq.toNat) + BitVec.ofNat 16 3 by
      rw [BitVec.add_assoc]; rfl, z3]
    exact congrArg (fun w => cat w _) z2
  · rw [j1, i1 _ hb.1, i1 _ hb.2, w3]
  · intro r h h1 h2 h3
    rw [j1, i1 _ h3, w4 _ h1 h2]
    exact hc' r h

/-- what the dispatcher needs: the entry of the table is neither on the task's stack nor on the top of the kernel's, and
not `_bsp`; `_bsp` is not on the kernel's stack either -/
structure IsrOk (b table : Addr) (irq : Byte) (s : St R) : Prop where
  ok : Ok b s
  small : irq.toNat < 64
  out : ∀ i : Nat, i < 4 → let x := table + BitVec.ofNat 16 (4 * irq.toNat) + BitVec.ofNat 16 i
      ¬ (s.sp - x).toNat < size ∧ x ≠ b ∧ x ≠ b + 1 ∧ ¬ (cat (s.mem b) (s.mem (b + 1)) - x).toNat < 2
  bsp : ¬ (cat (s.mem b) (s.mem (b + 1)) - b).toNat < 2 ∧ ¬ (cat (s.mem b) (s.mem (b + 1)) - (b + 1)).toNat < 2

theorem callY_eff (r : Addr) (t : St R) :
    (callY r t).reg pch = t.reg yh ∧ (callY r t).reg pcl = t.reg yl ∧ (callY r t).reg xh = t.reg xh ∧
    (callY r t).reg xl = t.reg xl ∧ (callY r t).sp = t.sp - 2#16 ∧
    (callY r t).mem t.sp = lo r ∧ (callY r t).mem (t.sp - 1) = hi r ∧
    ∀ x, ¬ (t.sp - x).toNat < 2 → (callY r t).mem x = t.mem x := by
  have e : callY r t = li pce 0 (mv pcl yl (mv pch yh (pushvs [lo r, hi r] t))) := rfl
  have h1 := pushvs_reg [lo r, hi r] t
  have h2 := pushvs_sp [lo r, hi r] t
  have h3 := pushvs_out [lo r, hi r] (s := t)
  have h4 := pushvs_in [lo r, hi r] 0 (by simp) (by simp) t
  have h5 := pushvs_in [lo r, hi r] 1 (by simp) (by simp) t
  rw [e]
  generalize pushvs [lo r, hi r] t = u at *
  refine ⟨?_, ?_, ?_, ?_, h2, ?_, h5, h3⟩
  · simp [li, mv, upd, h1]
  · simp [li, mv, upd, h1]
  · simp [li, mv, upd, h1]
  · simp [li, mv, upd, h1]
  · rwa [show t.sp - BitVec.ofNat 16 0 = t.sp by simp] at h4

/-- **C57 on STM8**: the function registered for the interrupt is entered, with the argument registered for it, on the
kernel's stack; without one the handler stops (`none`). -/
theorem stm8_isr (b table epilogue : Addr) (irq : Byte) (s : St R) (h : IsrOk b table irq s) :
    match isrCall b table epilogue irq s with
    | none => (registered table s.mem irq).1 = 0
    | some y => (registered table s.mem irq).1 ≠ 0 ∧
        cat (y.reg pch) (y.reg pcl) = (registered table s.mem irq).1 ∧
        cat (y.reg xh) (y.reg xl) = (registered table s.mem irq).2 ∧
        y.sp + 2 = cat (s.mem b) (s.mem (b + 1)) := by
  obtain ⟨h1, h2, h3, -⟩ := isr_eff b table irq h.small s h.ok h.out h.bsp
  unfold isrCall
  simp only []
  generalize run [trap, li a irq, swap b, rcf, index table, ldwYX, ldwYY, ldwXX2] s = t at *
  by_cases hz : t.reg yh = 0 ∧ t.reg yl = 0
  · rw [if_pos hz]
    simp only []
    rw [← h2, hz.1, hz.2]; rfl
  · rw [if_neg hz]
    simp only []
    obtain ⟨c1, c2, c3, c4, c5, -⟩ := callY_eff epilogue t
    generalize callY epilogue t = y at *
    refine ⟨fun h0 => hz ?_, by rw [c1, c2, h2], by rw [c3, c4, h3], by rw [c5, h1]; grind⟩
    rw [h0] at h2
    have e1 := hi_cat (t.reg yh) (t.reg yl)
    have e2 := lo_cat (t.reg yh) (t.reg yl)
    rw [h2] at e1 e2
    exact ⟨e1.symm.trans (by decide), e2.symm.trans (by decide)⟩

/-- **... and then the interrupted task is resumed exactly as it was**, whatever the function does (`e` is the state in
which it returns) as long as it gives back the stack pointer as it found it and leaves the saved context, `_bsp` and
its return address alone. -/
theorem stm8_isr_resumes (b table epilogue : Addr) (irq : Byte) (s y e : St R) (h : IsrOk b table irq s)
    (hf : ∀ x, (s.sp - x).toNat < size → x ≠ b ∧ x ≠ b + 1 ∧ ¬ (cat (s.mem b) (s.mem (b + 1)) - x).toNat < 2)
    (hy : isrCall b table epilogue irq s = some y) (h1 : e.sp = y.sp)
    (h2 : ∀ x, (s.sp - x).toNat < size ∨ x = b ∨ x = b + 1 ∨ (cat (s.mem b) (s.mem (b + 1)) - x).toNat < 2 → e.mem x = y.mem x) :
    (port b).ctx (isrRet b epilogue e) = (port b).ctx s ∧ (port b).ksp (isrRet b epilogue e) = (port b).ksp s := by
  obtain ⟨k1, k2, k3, k4, k5⟩ := isr_eff b table irq h.small s h.ok h.out h.bsp
  unfold isrCall at hy
  simp only [] at hy
  generalize run [trap, li a irq, swap b, rcf, index table, ldwYX, ldwYY, ldwXX2] s = t at *
  have hyt : y = callY epilogue t := by
    by_cases hz : t.reg yh = 0 ∧ t.reg yl = 0
    · rw [if_pos hz] at hy; exact absurd hy (by simp)
    · rw [if_neg hz] at hy; exact (Option.some.inj hy).symm
  obtain ⟨-, -, -, -, c5, c6, c7, c8⟩ := callY_eff epilogue t
  rw [← hyt] at c5 c6 c7 c8
  obtain ⟨q, hq⟩ : ∃ q, q = cat (s.mem b) (s.mem (b + 1)) := ⟨_, rfl⟩
  have hbsp := h.bsp
  rw [← hq] at k1 k5 hf h2 hbsp
  rw [k1] at c5 c6 c7 c8
  have q0 : (q - q).toNat < 2 := by rw [show q - q = 0 by grind]; decide
  have q1 : (q - (q - 1)).toNat < 2 := by rw [show q - (q - 1) = 1 by grind]; decide
  have p1 := pops_mem [pch, pcl] e
  have p2 := pops_sp [pch, pcl] e
  have p4 := pops_in [pch, pcl] (by decide) 0 (by decide) e
  have p5 := pops_in [pch, pcl] (by decide) 1 (by decide) e
  rw [h1, c5] at p2 p4 p5
  have hpc : cat ((pops [pch, pcl] e).reg pch) ((pops [pch, pcl] e).reg pcl) = epilogue := by
    change (pops [pch, pcl] e).reg pch = _ at p4
    change (pops [pch, pcl] e).reg pcl = _ at p5
    rw [p4, p5,
      show q - 2#16 + 1 + BitVec.ofNat 16 0 = q - 1 by grind, show q - 2#16 + 1 + BitVec.ofNat 16 1 = q by grind,
      h2 _ (Or.inr (Or.inr (Or.inr q0))), h2 _ (Or.inr (Or.inr (Or.inr q1))), c6, c7, cat_hi_lo]
  unfold isrRet
  simp only []
  rw [if_pos hpc]
  clear hpc p4 p5
  generalize pops [pch, pcl] e = z at *
  have e1 : run [swap b, iret] z = iret (swap b z) := rfl
  rw [e1]
  obtain ⟨b1, b2, b3, b4⟩ := back_eff b z
  have zm : cat (z.mem b) (z.mem (b + 1)) = s.sp - 9#16 := by
    rw [p1, h2 _ (Or.inr (Or.inl rfl)), h2 _ (Or.inr (Or.inr (Or.inl rfl))), c8 _ hbsp.1, c8 _ hbsp.2, k4]
  rw [zm] at b2 b4
  refine ⟨Prod.ext (funext fun r => ?_) ?_, ?_⟩
  · show (if true = true then (iret (swap b z)).reg r else 0) = if true = true then s.reg r else 0
    rw [if_pos rfl, if_pos rfl]
    have hi := (off_lt r)
    have hx : s.sp - 9#16 + off r = s.sp - BitVec.ofNat 16 (hwRegs.idxOf r) := by unfold off; exact addr3 _ _ _
    have hin : (s.sp - (s.sp - 9#16 + off r)).toNat < size := by
      refine (frame_below 9 (by decide) s.sp _).1 ?_
      show (s.sp - 9#16 + off r - (s.sp - 9#16) + (-1#16)).toNat < _
      rw [addr1]
      exact off_lt r
    obtain ⟨f1, f2, f3⟩ := hf _ hin
    rw [b4 r f1 f2, p1, h2 _ (Or.inl hin), c8 _ f3]
    rw [hx] at f1 f2 f3 ⊢
    exact k5 r (mem_hw r) f1 f2 f3
  · show (iret (swap b z)).sp = s.sp
    rw [b2, addr2]
  · show cat ((iret (swap b z)).mem b) ((iret (swap b z)).mem (b + 1)) = cat (s.mem b) (s.mem (b + 1))
    rw [b3, p2, ← hq]
    exact addr2 _ _

/-! ### A concrete machine -/

/-- a task deep in its stack, `_bsp` at 0x100, the kernel's stack at 0x3f0, the table at 0x102 with a function at 0x8123
for interrupt 5 -/
def demo : St R where
  reg := fun r => match r with | a => 1 | xl => 0x42 | cc => 0x20 | _ => 7
  sp := 0x2f0
  mem := upd (upd (upd (upd (fun _ => 0x55) 0x100 0x03) 0x101 0xf0) 0x116 0x81) 0x117 0x23

theorem demo_ok : IsrOk 0x100 0x102 5 demo where
  ok := by unfold Ok; decide
  small := by decide
  out := by decide
  bsp := by decide

example : (registered 0x102 demo.mem 5).1 = 0x8123 := by decide

end Pico.Ctx8.Stm8
