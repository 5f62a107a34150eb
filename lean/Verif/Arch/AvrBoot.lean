import Verif.Arch.AvrProps
/-
Starting tasks, system calls and platform interrupts on the AVR port.
-/
namespace Pico.Ctx8.Avr
open R

/-! ### System calls -/

/-- **C56 on AVR**: picoRTOS_syscall gets the task's stack pointer (r25:r24) and the two arguments the task gave to
arch_syscall (r25:r24 and r23:r22 of the task, now r23:r22 and r21:r20), and runs on the kernel's stack. -/
theorem avr_syscall_args (c : Cfg) (s : St R) :
    let e := enter c .syscall s
    cat (e.reg (g 25)) (e.reg (g 24)) = s.sp - BitVec.ofNat 16 (size c) ∧
    cat (e.reg (g 23)) (e.reg (g 22)) = cat (s.reg (g 25)) (s.reg (g 24)) ∧
    cat (e.reg (g 21)) (e.reg (g 20)) = cat (s.reg (g 23)) (s.reg (g 22)) ∧
    e.sp = cat (s.reg gp2) (s.reg gp1) := by
  obtain ⟨-, h1, h2, h3, h4, h5, h6⟩ := enter_syscall_eff c s
  simp only []
  rw [h3, h4, h5, h6]
  exact ⟨h2, rfl, rfl, h1⟩

/-- **Bringing a task in enables interrupts.** -/
theorem avr_interrupt_enable (c : Cfg) (kst : Addr → Prop) (k : Kind) (e : St R) (hc : (port c kst).cok k e) :
    (leave c k e).reg sreg &&& 0x80 = 0x80 := by
  rw [(leave_eff c kst k e hc).2.2.2 sreg rfl]
  unfold dec
  rw [if_pos rfl]
  generalize e.mem _ = v
  revert v; decide

/-! ### The first context of a task -/

/-- pushing the bytes of `fn`, picoRTOS_portasm.S:120-125 -/
def pushFn (c : Cfg) : St R → St R :=
  if c.pc3 = true then run [pushes [g 18, g 19], li (g 19) 0, pushes [g 19]] else pushes [g 18, g 19]

/-- arch_save_first_context(sp in r25:r24, fn in r23:r22, priv in r21:r20) up to `ret`,
picoRTOS_portasm.S:110-134 -/
def first (c : Cfg) : St R → St R :=
  run [pushes [g 19, g 18], mv gp2 (g 25), mv gp1 (g 24), mv (g 19) (g 23), mv (g 18) (g 22), swap, pushFn c,
    mv (g 25) (g 21), mv (g 24) (g 20), step1, step2, swap, mv (g 25) gp2, mv (g 24) gp1, pops [g 18, g 19]]

/-- **C55 on AVR**: the context prepared for a task is that of a call of `fn` with argument `priv`, with the stack at
`sp` (r25:r24 at entry) and interrupts enabled; the handle returned is `sp - size`; nothing is written but the frame and
two bytes of the caller's stack. -/
theorem avr_first (c : Cfg) (kst : Addr → Prop) (s : St R)
    (hk : kst s.sp ∧ kst (s.sp - 1))
    (hio : ∀ a, (cat (s.reg (g 25)) (s.reg (g 24)) - a).toNat < size c → ¬ (port c kst).io a) :
    let y := first c s
    let top := cat (s.reg (g 25)) (s.reg (g 24))
    cat (y.reg (g 25)) (y.reg (g 24)) = top - BitVec.ofNat 16 (size c) ∧ y.sp = s.sp ∧
    (∀ a, ¬ (top - a).toNat < size c → ¬ kst a → y.mem a = s.mem a) ∧
    ∃ x : (R → Byte) × Addr, (port c kst).Holds (top - BitVec.ofNat 16 (size c)) x y ∧ x.2 = top ∧
      x.1 pcl = s.reg (g 22) ∧ x.1 pch = s.reg (g 23) ∧ x.1 pce = 0 ∧
      x.1 (g 24) = s.reg (g 20) ∧ x.1 (g 25) = s.reg (g 21) ∧ x.1 (g 1) = s.reg (g 1) ∧
      x.1 sreg = s.reg sreg ||| 0x80 := by
  have q1 : Pushed s ([g 19, g 18].map s.reg) (pushes [g 19, g 18] s) := (Pushed.refl s).pushes _
  have q2 := pushes_reg [g 19, g 18] s
  have he : first c s = pops [g 18, g 19] (mv (g 24) gp1 (mv (g 25) gp2 (swap (step2 (step1 (mv (g 24) (g 20) (mv (g 25) (g 21)
      (pushFn c (swap (mv (g 18) (g 22) (mv (g 19) (g 23) (mv gp1 (g 24) (mv gp2 (g 25) (pushes [g 19, g 18] s))))))))))))))
      := rfl
  simp only []
  rw [he]
  clear he
  generalize pushes [g 19, g 18] s = s1 at q1 q2
  obtain ⟨s2, h2⟩ : ∃ s2, s2 = mv (g 18) (g 22) (mv (g 19) (g 23) (mv gp1 (g 24) (mv gp2 (g 25) s1))) := ⟨_, rfl⟩
  have a1 : s2.mem = s1.mem := by rw [h2]; rfl
  have a2 : s2.sp = s1.sp := by rw [h2]; rfl
  have a3 : s2.reg gp2 = s.reg (g 25) := by rw [h2]; simp [mv, upd, q2]
  have a4 : s2.reg gp1 = s.reg (g 24) := by rw [h2]; simp [mv, upd, q2]
  have a5 : s2.reg (g 19) = s.reg (g 23) := by rw [h2]; simp [mv, upd, q2]
  have a6 : s2.reg (g 18) = s.reg (g 22) := by rw [h2]; simp [mv, upd, q2]
  have a7 : ∀ r, r ∉ [g 18, g 19, gp1, gp2] → s2.reg r = s.reg r := by
    intro r hr
    simp only [List.mem_cons, List.not_mem_nil, or_false, not_or] at hr
    obtain ⟨z1, z2, z3, z4⟩ := hr
    rw [h2]; simp [mv, upd, q2, z1, z2, z3, z4]
  rw [← h2]
  clear h2
  obtain ⟨b1, b2, b3, b4, b5⟩ := swap_eff s2
  generalize swap s2 = s3 at b1 b2 b3 b4 b5
  have b6 : s3.reg (g 18) = s.reg (g 22) := by rw [b5 _ (by decide), a6]
  have b7 : s3.reg (g 19) = s.reg (g 23) := by rw [b5 _ (by decide), a5]
  have b8 : ∀ r, r ∉ [g 18, g 19, g 22, g 23, g 24, g 25, gp1, gp2] → s3.reg r = s.reg r := by
    intro r hr
    rw [b5 _ (fun h => hr (by clear hr; revert r; decide)), a7 _ (fun h => hr (by clear hr; revert r; decide))]
  -- the program counter
  have c1 : Pushed s3 ((pcRegs c).map (upd (upd (upd s.reg pcl (s.reg (g 22))) pch (s.reg (g 23))) pce 0)) (pushFn c s3) ∧
      ∀ r, r ≠ g 19 → (pushFn c s3).reg r = s3.reg r := by
    unfold pushFn pcRegs
    have d1 := (Pushed.refl s3).pushes [g 18, g 19]
    have d2 := pushes_reg [g 18, g 19] s3
    cases c.pc3
    · refine ⟨?_, fun r _ => congrFun d2 r⟩
      have e : [g 18, g 19].map s3.reg = [s.reg (g 22), s.reg (g 23)] := by simp [b6, b7]
      rw [e] at d1
      exact d1
    · simp only [if_pos]
      rw [run_cons, run_cons, run_cons, run_nil]
      have e : [g 18, g 19].map s3.reg = [s.reg (g 22), s.reg (g 23)] := by simp [b6, b7]
      rw [e] at d1
      generalize pushes [g 18, g 19] s3 = x at d1 d2
      have d3 : Pushed s3 _ (li (g 19) 0 x) := d1.regs _
      have d4 := d3.pushes [g 19]
      have d5 : [g 19].map (li (g 19) 0 x).reg = [0] := by simp [li, upd]
      rw [d5] at d4
      refine ⟨d4, fun r hr => ?_⟩
      rw [pushes_reg, ← d2]
      exact upd_ne _ _ hr
  obtain ⟨c1, c2⟩ := c1
  generalize pushFn c s3 = s4 at c1 c2
  obtain ⟨s5, h5⟩ : ∃ s5, s5 = mv (g 24) (g 20) (mv (g 25) (g 21) s4) := ⟨_, rfl⟩
  have e1 : s5.reg (g 25) = s.reg (g 21) := by
    rw [h5, ← b8 (g 21) (by decide), ← c2 (g 21) (by decide)]; simp [mv, upd]
  have e2 : s5.reg (g 24) = s.reg (g 20) := by
    rw [h5, ← b8 (g 20) (by decide), ← c2 (g 20) (by decide)]; simp [mv, upd]
  have e3 : ∀ r, r ≠ g 24 → r ≠ g 25 → s5.reg r = s4.reg r := by
    intro r z1 z2; rw [h5]; simp [mv, upd, z1, z2]
  have e4 : Pushed s3 ((pcRegs c).map (upd (upd (upd s.reg pcl (s.reg (g 22))) pch (s.reg (g 23))) pce 0)) s5 := by
    rw [h5]; exact c1
  rw [← h5]
  clear h5
  have f1 := e4.pushes [g 28, g 29]
  have f2 : (step1 s5).reg = s5.reg := pushes_reg _ _
  obtain ⟨f3, f4⟩ := step2_eff s3 (step1 s5) _ f1
  rw [f2] at f3 f4
  generalize step2 (step1 s5) = s7 at f3 f4
  -- what the frame holds
  have hV : Pushed s3 ((slots c).map (upd (upd (upd s5.reg pcl (s.reg (g 22))) pch (s.reg (g 23))) pce 0)) s7 := by
    have e : (slots c).map (upd (upd (upd s5.reg pcl (s.reg (g 22))) pch (s.reg (g 23))) pce 0) =
        (pcRegs c).map (upd (upd (upd s.reg pcl (s.reg (g 22))) pch (s.reg (g 23))) pce 0) ++ [g 28, g 29].map s5.reg ++
        (s5.reg (g 0) :: s5.reg sreg :: step2Regs.tail.map s5.reg) := by
      unfold slots
      rw [List.map_append, List.append_assoc]
      have l1 : (pcRegs c).map (upd (upd (upd s5.reg pcl (s.reg (g 22))) pch (s.reg (g 23))) pce 0) =
          (pcRegs c).map (upd (upd (upd s.reg pcl (s.reg (g 22))) pch (s.reg (g 23))) pce 0) := by
        unfold pcRegs
        cases c.pc3 <;> simp [upd]
      have l2 : ([g 28, g 29, g 0, sreg] ++ step2Regs.tail).map
          (upd (upd (upd s5.reg pcl (s.reg (g 22))) pch (s.reg (g 23))) pce 0) =
          ([g 28, g 29, g 0, sreg] ++ step2Regs.tail).map s5.reg := by
        refine List.map_congr_left fun r hr => ?_
        rw [upd_ne _ _ ((by decide : ∀ r ∈ [g 28, g 29, g 0, sreg] ++ step2Regs.tail, r ≠ pce) r hr),
          upd_ne _ _ ((by decide : ∀ r ∈ [g 28, g 29, g 0, sreg] ++ step2Regs.tail, r ≠ pch) r hr),
          upd_ne _ _ ((by decide : ∀ r ∈ [g 28, g 29, g 0, sreg] ++ step2Regs.tail, r ≠ pcl) r hr)]
      rw [l1, l2, List.map_append]
      rfl
    rw [e]; exact f3
  have hg2 : s7.reg gp2 = hi s2.sp := by
    rw [f4 _ (by decide), e3 _ (by decide) (by decide), c2 _ (by decide), b3]
  have hg1 : s7.reg gp1 = lo s2.sp := by
    rw [f4 _ (by decide), e3 _ (by decide) (by decide), c2 _ (by decide), b4]
  obtain ⟨k1, k2, k3, k4, -⟩ := swap_eff s7
  generalize swap s7 = s8 at k1 k2 k3 k4
  have hsp7 := pushed_sp c _ s3 s7 hV
  have htop : s3.sp = cat (s.reg (g 25)) (s.reg (g 24)) := by rw [b1, a3, a4]
  rw [htop] at hsp7
  obtain ⟨s9, h9⟩ : ∃ s9, s9 = mv (g 24) gp1 (mv (g 25) gp2 s8) := ⟨_, rfl⟩
  have m1 : s9.mem = s8.mem := by rw [h9]; rfl
  have m2 : s9.sp = s8.sp := by rw [h9]; rfl
  have m3 : s9.reg (g 25) = s8.reg gp2 := by rw [h9]; simp [mv, upd]
  have m4 : s9.reg (g 24) = s8.reg gp1 := by rw [h9]; simp [mv, upd]
  rw [← h9]
  have n1 := pops_mem [g 18, g 19] s9
  have n2 := pops_sp [g 18, g 19] s9
  have n3 := fun r h => pops_out [g 18, g 19] r h s9
  generalize pops [g 18, g 19] s9 = y at n1 n2 n3
  have hsp1 : s1.sp = s.sp - 2 := by
    rw [q1.2, pushvs_sp]; rfl
  have hym : y.mem = s7.mem := by rw [n1, m1, k2]
  refine ⟨?_, ?_, ?_, ?_⟩
  · rw [n3 _ (by decide), n3 _ (by decide), m3, m4, k3, k4, cat_hi_lo, hsp7]
  · rw [n2, m2, k1, hg1, hg2, cat_hi_lo, a2, hsp1]
    show s.sp - 2 + 2#16 = s.sp
    grind
  · intro a ha hka
    rw [hym, pushed_out c _ s3 s7 hV a (by rw [htop]; exact ha), b2, a1, q1.1]
    refine pushvs_out _ _ _ fun h => hka ?_
    change (s.sp - a).toNat < 2 at h
    rcases (show (s.sp - a).toNat = 0 ∨ (s.sp - a).toNat = 1 by omega) with h0 | h0
    · have : s.sp - a = 0#16 := BitVec.eq_of_toNat_eq h0
      rw [show a = s.sp by grind]; exact hk.1
    · have : s.sp - a = 1#16 := BitVec.eq_of_toNat_eq h0
      rw [show a = s.sp - 1 by grind]; exact hk.2
  · refine ⟨(fun r => if vis c r = true then dec r (upd (upd (upd s5.reg pcl (s.reg (g 22))) pch (s.reg (g 23))) pce 0 r) else 0,
      cat (s.reg (g 25)) (s.reg (g 24))), ?_, rfl, ?_, ?_, ?_, ?_, ?_, ?_, ?_⟩
    · refine (frameEff c kst).holds _ _ _ (fun a h => hio a ((frame_iff c _ a).1 h)) (by simp only []; grind) (fun r hv => ?_)
        (fun r hv => by simp [hv])
      simp only [if_pos hv]
      congr 1
      rw [hym, ← htop, show s3.sp - BitVec.ofNat 16 (size c) + off c r = s3.sp - BitVec.ofNat 16 ((slots c).idxOf r) by
        unfold off; grind]
      exact cell c _ s3 s7 hV r ((slots_vis c r).1 hv)
    · simp [vis, dec, upd]
    · simp [vis, dec, upd]
    · simp [dec, upd]
    · simp only [vis, if_pos]
      simp [dec, upd, e2]
    · simp only [vis, if_pos]
      simp [dec, upd, e1]
    · simp only [vis, if_pos]
      rw [← b8 (g 1) (by decide), ← c2 (g 1) (by decide), ← e3 (g 1) (by decide) (by decide)]
      simp [dec, upd]
    · simp only [vis, if_pos]
      rw [← b8 sreg (by decide), ← c2 sreg (by decide), ← e3 sreg (by decide) (by decide)]
      simp [dec, upd]

/-- the size announced for the smallest stack (arch/avr/picoRTOS_types.h:18-25) holds the first context: with the stack
pointer given by arch_prepare_stack (picoRTOS_port.c:48-49), `stack + count - 1`, the frame is within the stack -/
theorem avr_first_fits (c : Cfg) (stack : Addr) (count : Nat) (h : size c + 6 ≤ count) (h16 : count ≤ 65536) (a : Addr)
    (ha : (stack + BitVec.ofNat 16 count - 1 - a).toNat < size c) : (a - stack).toNat < count := by
  have h1 := size_le c
  rw [show stack + BitVec.ofNat 16 count - 1 - a = BitVec.ofNat 16 count - 1#16 - (a - stack) by grind] at ha
  generalize a - stack = d at *
  have := d.isLt
  have e : (BitVec.ofNat 16 count).toNat = count % 65536 := BitVec.toNat_ofNat ..
  rw [BitVec.toNat_sub, BitVec.toNat_sub, e, show (1#16).toNat = 1 from rfl] at ha
  omega

/-- arch_start_first_task(sp in r25:r24), picoRTOS_portasm.S:140-144 -/
def start (c : Cfg) : St R → St R := run [mv gp2 (g 25), mv gp1 (g 24), swap, restore c]

/-- **C55, starting the scheduler**: arch_start_first_task brings in the context it is given, and sets the caller's stack
aside for the kernel. -/
theorem avr_start (c : Cfg) (kst : Addr → Prop) (m e : St R) (h : Addr) (x : (R → Byte) × Addr)
    (hH : (port c kst).Holds h x m) (hr : cat (e.reg (g 25)) (e.reg (g 24)) = h)
    (hm : ∀ a, (port c kst).frame h a → e.mem a = m.mem a) :
    (port c kst).ctx (start c e) = x ∧ (port c kst).ksp (start c e) = e.sp := by
  have hs : start c e = leave c .syscall e := rfl
  have hc : (port c kst).cok .syscall e := fun h => absurd h (by decide)
  rw [hs]
  exact ⟨hH.2 .syscall e hc hr hm, (leave_eff c kst .syscall e hc).2.2.1⟩

/-! ### Platform interrupts -/

/-- what picoRTOS_register_interrupt stored for `irq` (picoRTOS_port.c:92-99): function and argument -/
def registered (table : Addr) (mem : Addr → Byte) (irq : Nat) : Addr × Addr :=
  let e := table + 4 * BitVec.ofNat 16 (irq - 1)
  (cat (mem (e + 1)) (mem e), cat (mem (e + 3)) (mem (e + 2)))

/-- **C57 on AVR**: the function registered for the interrupt is called (its address is in Z) with the argument given,
on the kernel's stack; the task's context is saved.  `i` is the index of the vector: __vector_{i+1} serves interrupt
i + 1 (picoRTOS_portasm.S:200-211). -/
theorem avr_isr (c : Cfg) (table : Addr) (irq : Nat) (s : St R)
    (hout : ∀ i : Nat, i < 4 → ¬ (s.sp - (table + 4 * BitVec.ofNat 16 (irq - 1) + BitVec.ofNat 16 i)).toNat < size c) :
    let y := isrCall c (table + 4 * BitVec.ofNat 16 (irq - 1)) s
    cat (y.reg (g 31)) (y.reg (g 30)) = (registered table s.mem irq).1 ∧
    cat (y.reg (g 25)) (y.reg (g 24)) = (registered table s.mem irq).2 ∧
    y.sp + pcSize c = cat (s.reg gp2) (s.reg gp1) ∧
    cat (y.reg gp2) (y.reg gp1) = s.sp - BitVec.ofNat 16 (size c) := by
  obtain ⟨t, u, p, h1, h2, h3, h4, h5, h6, h7, h8, -⟩ := isrCall_eff c _ s hout
  simp only []
  rw [h3, pushvs_reg, pushvs_sp, retBytes_length, h4, h5, h6, h7, h8, h2]
  exact ⟨rfl, rfl, by grind, rfl⟩

/-- The function is entered with the zero register (r1) of the interrupted task: C code compiled by avr-gcc takes it
for 0, but a task interrupted between a `mul` and the `clr r1` that follows has the high byte of the product there. -/
theorem avr_isr_r1 (c : Cfg) (table : Addr) (irq : Nat) (s : St R)
    (hout : ∀ i : Nat, i < 4 → ¬ (s.sp - (table + 4 * BitVec.ofNat 16 (irq - 1) + BitVec.ofNat 16 i)).toNat < size c) :
    (isrCall c (table + 4 * BitVec.ofNat 16 (irq - 1)) s).reg (g 1) = s.reg (g 1) := by
  obtain ⟨t, u, p, h1, h2, h3, h4, h5, h6, h7, h8, h9⟩ := isrCall_eff c _ s hout
  rw [h3, pushvs_reg, h9]

/-- **... and then the interrupted task is resumed where it was**: whatever the function does (`e` is the state in which it
returns), as long as it gives back the stack pointer and GPIOR1, GPIOR2 as it found them and leaves the saved context
and the return address alone. -/
theorem avr_isr_resumes (c : Cfg) (kst : Addr → Prop) (entry : Addr) (s e : St R)
    (hout : ∀ i : Nat, i < 4 → ¬ (s.sp - (entry + BitVec.ofNat 16 i)).toNat < size c)
    (hroom : ∀ i : Nat, i < 3 → kst (cat (s.reg gp2) (s.reg gp1) - BitVec.ofNat 16 i))
    (hio : ∀ a, (s.sp - a).toNat < size c → ¬ kst a)
    (h1 : e.sp = (isrCall c entry s).sp) (h2 : e.reg gp1 = (isrCall c entry s).reg gp1)
    (h3 : e.reg gp2 = (isrCall c entry s).reg gp2)
    (h4 : ∀ a, (s.sp - a).toNat < size c ∨ (cat (s.reg gp2) (s.reg gp1) - a).toNat < 3 →
      e.mem a = (isrCall c entry s).mem a) :
    let y := retE c e
    (∀ r, vis c r = true → r ≠ sreg → y.reg r = s.reg r) ∧ y.reg sreg = s.reg sreg ||| 0x80 ∧ y.sp = s.sp ∧
    y.mem = e.mem ∧ cat (y.reg gp2) (y.reg gp1) = cat (s.reg gp2) (s.reg gp1) := by
  obtain ⟨t, u, p, k1, k2, k3, -, -, -, -, k8, -⟩ := isrCall_eff c entry s hout
  rw [k3] at h1 h2 h3 h4
  rw [pushvs_reg] at h2 h3
  rw [pushvs_sp, retBytes_length, k2] at h1
  have hl : (retBytes c).length = (pcRegs c).length := by unfold retBytes pcRegs; cases c.pc3 <;> rfl
  have hl3 : (retBytes c).length ≤ 3 := by unfold retBytes; cases c.pc3 <;> simp
  have p1 := pops_mem (pcRegs c).reverse e
  have p2 := pops_sp (pcRegs c).reverse e
  have p3 := fun r h => pops_out (pcRegs c).reverse r h e
  have p4 := fun i hi => pops_in (pcRegs c).reverse (by unfold pcRegs; cases c.pc3 <;> decide) i hi e
  have hret : ∀ i (hi : i < (retBytes c).length), e.mem (cat (s.reg gp2) (s.reg gp1) - BitVec.ofNat 16 i) = (retBytes c)[i] := by
    intro i hi
    rw [h4 _ (Or.inr (by
      rw [show ∀ x y : Addr, x - (x - y) = y by intros; grind, BitVec.toNat_ofNat]; omega)), ← k2]
    exact pushvs_in _ i (by omega) hi u
  have hpc : (pops (pcRegs c).reverse e).reg pcl = c.el ∧ (pops (pcRegs c).reverse e).reg pch = c.eh ∧
      (c.pc3 = true → (pops (pcRegs c).reverse e).reg pce = c.ee) := by
    generalize pops (pcRegs c).reverse e = z at p4
    rw [h1] at p4
    generalize cat (s.reg gp2) (s.reg gp1) = K at p4 hret
    unfold pcSize at p4
    unfold pcRegs at p4
    unfold retBytes at hret
    cases h3 : c.pc3
    · rw [h3] at p4 hret
      have q0 := p4 0 (by decide)
      have q1 := p4 1 (by decide)
      refine ⟨?_, ?_, fun h => absurd h (by decide)⟩
      · have := hret 0 (by simp)
        refine Eq.trans q1 (Eq.trans ?_ this)
        congr 1
        show K - 2 + 1 + 1#16 = K - 0#16
        grind
      · have := hret 1 (by simp)
        refine Eq.trans q0 (Eq.trans ?_ this)
        congr 1
        show K - 2 + 1 + 0#16 = K - 1#16
        grind
    · rw [h3] at p4 hret
      have q0 := p4 0 (by decide)
      have q1 := p4 1 (by decide)
      have q2 := p4 2 (by decide)
      refine ⟨?_, ?_, fun _ => ?_⟩
      · have := hret 0 (by simp)
        refine Eq.trans q2 (Eq.trans ?_ this)
        congr 1
        show K - 3 + 1 + 2#16 = K - 0#16
        grind
      · have := hret 1 (by simp)
        refine Eq.trans q1 (Eq.trans ?_ this)
        congr 1
        show K - 3 + 1 + 1#16 = K - 1#16
        grind
      · have := hret 2 (by simp)
        refine Eq.trans q0 (Eq.trans ?_ this)
        congr 1
        show K - 3 + 1 + 0#16 = K - 2#16
        grind
  simp only []
  unfold retE
  simp only []
  rw [if_pos hpc]
  have g1 := p3 gp1 (by unfold pcRegs; cases c.pc3 <;> decide)
  have g2 := p3 gp2 (by unfold pcRegs; cases c.pc3 <;> decide)
  generalize pops (pcRegs c).reverse e = z at p1 p2 g1 g2
  have hll : BitVec.ofNat 16 (pcRegs c).reverse.length = pcSize c := by
    unfold pcRegs pcSize; cases c.pc3 <;> rfl
  obtain ⟨a1, a2, a3, a4⟩ := swap_restore_eff c z
  rw [show run [swap, restore c] z = restore c (swap z) from rfl]
  have hcat : cat (z.reg gp2) (z.reg gp1) = s.sp - BitVec.ofNat 16 (size c) := by rw [g1, g2, h2, h3, k8]
  rw [hcat] at a2
  have hval : ∀ r, vis c r = true → (restore c (swap z)).reg r = dec r (val s r) := by
    intro r hv
    rw [a4 r hv, hcat, p1, show s.sp - BitVec.ofNat 16 (size c) + off c r = s.sp - BitVec.ofNat 16 ((slots c).idxOf r) by
      unfold off; grind]
    have hin : (s.sp - (s.sp - BitVec.ofNat 16 ((slots c).idxOf r))).toNat < size c := by
      rw [show ∀ x y : Addr, x - (x - y) = y by intros; grind, BitVec.toNat_ofNat]
      exact Nat.lt_of_le_of_lt (Nat.mod_le _ _) (idx_lt c r hv)
    rw [h4 _ (Or.inl hin), pushvs_out, k1, cell c _ s t p r ((slots_vis c r).1 hv)]
    rw [k2]
    intro h
    refine hio _ hin ?_
    generalize s.sp - BitVec.ofNat 16 ((slots c).idxOf r) = a at h
    have := hroom (cat (s.reg gp2) (s.reg gp1) - a).toNat (by omega)
    rwa [BitVec.ofNat_toNat, BitVec.setWidth_eq, show ∀ x y : Addr, x - (x - y) = y by intros; grind] at this
  refine ⟨fun r hv hr => ?_, ?_, ?_, ?_, ?_⟩
  · rw [hval r hv, dec_val, upd_ne _ _ hr]
  · rw [hval sreg rfl, dec_val, upd_same]
  · rw [a2]; grind
  · rw [a1, p1]
  · rw [a3, p2, h1, hll]; grind

/-! ### The hypotheses are met -/

def demoCfg (pc3 : Bool) : Cfg := ⟨pc3, 0x134, 0x0500, 0x10, 0x02, 0, none⟩

/-- a task interrupted with its stack at 0x400, the kernel's at 0x8f0, the tick handler (0x500) in the table -/
def demo : St R where
  reg := fun | gp2 => 0x08 | gp1 => 0xf0 | g 1 => 7 | g 24 => 3 | sreg => 0x82 | pcl => 0x44 | _ => 5
  sp := 0x400
  mem := fun a => if a = 0x135 then 5 else 0

def demoKst (a : Addr) : Prop := 0x800 ≤ a.toNat

theorem demo_ok (b : Bool) : Ok (demoCfg b) demoKst demo where
  el := by cases b <;> decide
  eh := by cases b <;> decide
  out := by intro i h; rcases (show i = 0 ∨ i = 1 ∨ i = 2 ∨ i = 3 by omega) with rfl | rfl | rfl | rfl <;> cases b <;> decide
  room := by
    intro i h
    show 0x800 ≤ _
    rcases (show i = 0 ∨ i = 1 ∨ i = 2 by omega) with rfl | rfl | rfl <;> decide

end Pico.Ctx8.Avr
