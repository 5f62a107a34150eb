import Verif.Arch.Avr
/-
The AVR port is sound: what the trap code saves is what it restores.
-/
namespace Pico.Ctx8.Avr
open R

theorem run_cons (f : St R → St R) (l : List (St R → St R)) (s : St R) : run (f :: l) s = run l (f s) := rfl
theorem run_nil (s : St R) : run [] s = s := rfl

/-- the registers as the handlers see them: I cleared -/
def val (s : St R) : R → Byte := upd s.reg sreg (s.reg sreg &&& 0x7f)

/-- registers in the order in which they are saved -/
def slots (c : Cfg) : List R := pcRegs c ++ ([g 28, g 29, g 0, sreg] ++ step2Regs.tail)

/-- SWAP_STACK exchanges the stack pointer and the one set aside -/
theorem swap_eff (s : St R) : (swap s).sp = cat (s.reg gp2) (s.reg gp1) ∧ (swap s).mem = s.mem ∧
    (swap s).reg gp2 = hi s.sp ∧ (swap s).reg gp1 = lo s.sp ∧
    ∀ r, r ∉ [g 22, g 23, g 24, g 25, gp1, gp2] → (swap s).reg r = s.reg r := by
  refine ⟨?_, rfl, ?_, ?_, fun r hr => ?_⟩
  · simp [swap, run, mv, inSph, inSpl, outSph, outSpl, upd, hi_cat]
  · simp [swap, run, mv, inSph, inSpl, outSph, outSpl, upd]
  · simp [swap, run, mv, inSph, inSpl, outSph, outSpl, upd]
  · simp only [List.mem_cons, List.not_mem_nil, or_false, not_or] at hr
    obtain ⟨h1, h2, h3, h4, h5, h6⟩ := hr
    simp [swap, run, mv, inSph, inSpl, outSph, outSpl, upd, h1, h2, h3, h4, h5, h6]

/-- SAVE_CONTEXT_IRQ_STEP2 before SWAP_STACK -/
theorem step2_eff (s t : St R) (l : List Byte) (h : Pushed s l t) :
    Pushed s (l ++ (t.reg (g 0) :: t.reg sreg :: step2Regs.tail.map t.reg)) (step2 t) ∧
    ∀ r, r ≠ g 0 → (step2 t).reg r = t.reg r := by
  have p1 := h.pushes [g 0]
  have r1 := pushes_reg [g 0] t
  unfold step2
  rw [run_cons, run_cons, run_cons, run_nil]
  generalize pushes [g 0] t = x at p1 r1
  have p2 : Pushed s (l ++ [t.reg (g 0)]) (mv (g 0) sreg x) := p1.regs _
  have p3 := p2.pushes step2Regs
  have r3 : (mv (g 0) sreg x).reg = upd t.reg (g 0) (t.reg sreg) := by show upd x.reg _ (x.reg sreg) = _; rw [r1]
  rw [r3] at p3
  have e : step2Regs.map (upd t.reg (g 0) (t.reg sreg)) = t.reg sreg :: step2Regs.tail.map t.reg := by
    rw [show step2Regs = g 0 :: step2Regs.tail from rfl, List.map_cons, upd_same]
    exact congrArg _ (List.map_congr_left fun r hr => upd_ne _ _ ((by decide : ∀ r ∈ step2Regs.tail, r ≠ g 0) r hr))
  rw [e, List.append_assoc] at p3
  refine ⟨p3, fun r hr => ?_⟩
  rw [pushes_reg, r3, upd_ne _ _ hr]

/-- the hardware (or the call) and the first step -/
theorem step1_eff (c : Cfg) (s : St R) :
    Pushed s ((pcRegs c ++ [g 28, g 29]).map (val s)) (step1 (cli (pushes (pcRegs c) s))) ∧
    (step1 (cli (pushes (pcRegs c) s))).reg = val s := by
  have p1 : Pushed s ((pcRegs c).map s.reg) (pushes (pcRegs c) s) := (Pushed.refl s).pushes _
  have r1 := pushes_reg (pcRegs c) s
  generalize pushes (pcRegs c) s = x at p1 r1
  have p2 : Pushed s ((pcRegs c).map s.reg) (cli x) := p1.regs _
  have r2 : (cli x).reg = val s := by show upd x.reg sreg (x.reg sreg &&& _) = _; rw [r1]; rfl
  generalize cli x = y at p2 r2
  have p3 := p2.pushes [g 28, g 29]
  rw [r2] at p3
  have e : (pcRegs c).map s.reg = (pcRegs c).map (val s) := by
    refine List.map_congr_left fun r hr => ?_
    have : r ≠ sreg := by
      unfold pcRegs at hr
      split at hr <;> revert r <;> decide
    exact (upd_ne _ _ this).symm
  rw [e, ← List.map_append] at p3
  exact ⟨p3, by rw [← r2]; exact pushes_reg _ _⟩

/-- the saves of both handlers: what is between the two steps changes r28 and r29 only -/
theorem save_eff (c : Cfg) (s : St R) (M : St R → St R)
    (hM : ∀ x : St R, (M x).mem = x.mem ∧ (M x).sp = x.sp ∧ ∀ r, r ≠ g 28 → r ≠ g 29 → (M x).reg r = x.reg r) :
    Pushed s ((slots c).map (val s)) (step2 (M (step1 (cli (pushes (pcRegs c) s))))) ∧
    ∀ r, r ≠ g 0 → (step2 (M (step1 (cli (pushes (pcRegs c) s))))).reg r =
      (M (step1 (cli (pushes (pcRegs c) s)))).reg r := by
  obtain ⟨p, hr⟩ := step1_eff c s
  generalize step1 (cli (pushes (pcRegs c) s)) = x at p hr
  obtain ⟨h1, h2, h3⟩ := hM x
  have p' : Pushed s ((pcRegs c ++ [g 28, g 29]).map (val s)) (M x) := ⟨h1.trans p.1, h2.trans p.2⟩
  obtain ⟨q, hq⟩ := step2_eff s (M x) _ p'
  refine ⟨?_, hq⟩
  rw [h3 _ (by decide) (by decide), h3 _ (by decide) (by decide), hr] at q
  have e : step2Regs.tail.map (M x).reg = step2Regs.tail.map (val s) := by
    refine List.map_congr_left fun r hr' => ?_
    rw [h3 r ((by decide : ∀ r ∈ step2Regs.tail, r ≠ g 28) r hr') ((by decide : ∀ r ∈ step2Regs.tail, r ≠ g 29) r hr'), hr]
  rw [e] at q
  have e2 : (slots c).map (val s) = (pcRegs c ++ [g 28, g 29]).map (val s) ++
      (val s (g 0) :: val s sreg :: step2Regs.tail.map (val s)) := by
    unfold slots
    rw [List.map_append, List.map_append, List.map_append, List.append_assoc]
    rfl
  rw [e2]; exact q

theorem slots_length (c : Cfg) : (slots c).length = size c := by
  unfold slots size pcRegs
  cases c.pc3 <;> rfl

theorem slots_vis (c : Cfg) : ∀ r, vis c r = true ↔ r ∈ slots c := by
  intro r
  unfold slots pcRegs vis
  cases h : c.pc3
  · cases r with
    | g i => revert i; decide
    | _ => decide
  · cases r with
    | g i => revert i; decide
    | _ => decide

/-- where a register is saved, from the stack pointer of the interrupted task -/
theorem cell (c : Cfg) (V : R → Byte) (s t : St R) (h : Pushed s ((slots c).map V) t) (r : R) (hr : r ∈ slots c) :
    t.mem (s.sp - BitVec.ofNat 16 ((slots c).idxOf r)) = V r := by
  have hi := List.idxOf_lt_length_of_mem hr
  have hl : (slots c).length ≤ 36 := by rw [slots_length]; unfold size; split <;> omega
  rw [h.1, pushvs_in _ _ (by rw [List.length_map]; omega) (by rw [List.length_map]; exact hi), List.getElem_map,
    List.getElem_idxOf]

theorem pushed_sp (c : Cfg) (V : R → Byte) (s t : St R) (h : Pushed s ((slots c).map V) t) :
    t.sp = s.sp - BitVec.ofNat 16 (size c) := by
  rw [h.2, pushvs_sp, List.length_map, slots_length]

theorem pushed_out (c : Cfg) (V : R → Byte) (s t : St R) (h : Pushed s ((slots c).map V) t) (a : Addr)
    (ha : ¬ (s.sp - a).toNat < size c) : t.mem a = s.mem a := by
  rw [h.1]
  exact pushvs_out _ _ _ (by rw [List.length_map, slots_length]; exact ha)

/-- system call: the registers are saved, C runs on its own stack and gets the task's stack pointer and the two
arguments of arch_syscall -/
theorem enter_syscall_eff (c : Cfg) (s : St R) :
    (∃ t, Pushed s ((slots c).map (val s)) t ∧ (enter c .syscall s).mem = t.mem) ∧
    (enter c .syscall s).sp = cat (s.reg gp2) (s.reg gp1) ∧
    cat ((enter c .syscall s).reg (g 25)) ((enter c .syscall s).reg (g 24)) = s.sp - BitVec.ofNat 16 (size c) ∧
    (enter c .syscall s).reg (g 23) = s.reg (g 25) ∧ (enter c .syscall s).reg (g 22) = s.reg (g 24) ∧
    (enter c .syscall s).reg (g 21) = s.reg (g 23) ∧ (enter c .syscall s).reg (g 20) = s.reg (g 22) := by
  obtain ⟨p, hr⟩ := save_eff c s id (fun _ => ⟨rfl, rfl, fun _ _ _ => rfl⟩)
  have h1 := (step1_eff c s).2
  have he : enter c .syscall s = run [mv (g 29) gp2, mv (g 28) gp1, lddY (g 21) 7, lddY (g 20) 8, lddY (g 23) 5,
      lddY (g 22) 6, mv (g 25) (g 29), mv (g 24) (g 28)] (swap (step2 (id (step1 (cli (pushes (pcRegs c) s)))))) := by
    unfold enter
    simp only [run_cons]
    rfl
  have g2 := hr gp2 (by decide)
  have g1 := hr gp1 (by decide)
  simp only [id] at g2 g1
  rw [h1] at g1 g2
  rw [he]
  simp only [id] at p g1 g2 ⊢
  generalize step2 (step1 (cli (pushes (pcRegs c) s))) = t at p g1 g2
  obtain ⟨w1, w2, w3, w4, -⟩ := swap_eff t
  generalize swap t = u at w1 w2 w3 w4
  have hsp := pushed_sp c _ s t p
  have e : cat (u.reg gp2) (u.reg gp1) = t.sp := by rw [w3, w4, cat_hi_lo]
  have hv : ∀ r, r ≠ sreg → val s r = s.reg r := fun r h => upd_ne _ _ h
  have hc : ∀ r, r ∈ slots c → r ≠ sreg → ∀ q : Addr, BitVec.ofNat 16 (size c) - BitVec.ofNat 16 ((slots c).idxOf r) = q →
      u.mem (t.sp + q) = s.reg r := by
    intro r h h' q hq
    rw [w2, hsp, ← hq, show s.sp - BitVec.ofNat 16 (size c) + (BitVec.ofNat 16 (size c) - BitVec.ofNat 16 ((slots c).idxOf r))
      = s.sp - BitVec.ofNat 16 ((slots c).idxOf r) by grind, cell c _ s t p r h, hv r h']
  have hin : ∀ r ∈ [g 22, g 23, g 24, g 25], r ∈ slots c := fun r h => (slots_vis c r).1 (by
    revert r; unfold vis; simp)
  refine ⟨⟨t, p, ?_⟩, ?_, ?_, ?_, ?_, ?_, ?_⟩
  · exact w2
  · show u.sp = _
    rw [w1, g2, g1]; rfl
  · rw [← hsp, ← e]
    simp [run, mv, lddY, upd]
  · simp only [run, mv, lddY, upd]
    simp
    rw [e]
    exact hc (g 25) (hin _ (by decide)) (by decide) 5 (by unfold size slots pcRegs; cases c.pc3 <;> decide)
  · simp only [run, mv, lddY, upd]
    simp
    rw [e]
    exact hc (g 24) (hin _ (by decide)) (by decide) 6 (by unfold size slots pcRegs; cases c.pc3 <;> decide)
  · simp only [run, mv, lddY, upd]
    simp
    rw [e]
    exact hc (g 23) (hin _ (by decide)) (by decide) 7 (by unfold size slots pcRegs; cases c.pc3 <;> decide)
  · simp only [run, mv, lddY, upd]
    simp
    rw [e]
    exact hc (g 22) (hin _ (by decide)) (by decide) 8 (by unfold size slots pcRegs; cases c.pc3 <;> decide)

/-- the bytes of the return address of `icall`, in push order -/
def retBytes (c : Cfg) : List Byte := if c.pc3 = true then [c.el, c.eh, c.ee] else [c.el, c.eh]

theorem retBytes_length (c : Cfg) : BitVec.ofNat 16 (retBytes c).length = pcSize c := by
  unfold retBytes pcSize; split <;> rfl

theorem ldi_reg (entry : Addr) (x : St R) :
    (ldi entry x).reg = upd (upd x.reg (g 28) (lo entry)) (g 29) (hi entry) := rfl

/-- an interrupt: the registers are saved, the function found at `entry` is called on the kernel's stack, with its
argument and a return address -/
theorem isrCall_eff (c : Cfg) (entry : Addr) (s : St R)
    (hout : ∀ i : Nat, i < 4 → ¬ (s.sp - (entry + BitVec.ofNat 16 i)).toNat < size c) :
    ∃ t u : St R, Pushed s ((slots c).map (val s)) t ∧ u.mem = t.mem ∧ u.sp = cat (s.reg gp2) (s.reg gp1) ∧
      isrCall c entry s = pushvs (retBytes c) u ∧
      u.reg (g 30) = s.mem entry ∧ u.reg (g 31) = s.mem (entry + 1) ∧
      u.reg (g 24) = s.mem (entry + 2) ∧ u.reg (g 25) = s.mem (entry + 3) ∧
      cat (u.reg gp2) (u.reg gp1) = s.sp - BitVec.ofNat 16 (size c) ∧ u.reg (g 1) = s.reg (g 1) := by
  obtain ⟨p, hr⟩ := save_eff c s (ldi entry) (fun x => ⟨rfl, rfl, fun r h1 h2 => by
    rw [ldi_reg, upd_ne _ _ h2, upd_ne _ _ h1]⟩)
  have h1 := (step1_eff c s).2
  have he : isrCall c entry s = callE c (run [lddY (g 30) 0, lddY (g 31) 1, lddY (g 24) 2, lddY (g 25) 3]
        (swap (step2 (ldi entry (step1 (cli (pushes (pcRegs c) s))))))) := by
    unfold isrCall
    simp only [run_cons, run_nil]
  rw [he]
  generalize step1 (cli (pushes (pcRegs c) s)) = x at p hr h1
  have y29 : (step2 (ldi entry x)).reg (g 29) = hi entry := by
    rw [hr _ (by decide), ldi_reg, upd_same]
  have y28 : (step2 (ldi entry x)).reg (g 28) = lo entry := by
    rw [hr _ (by decide), ldi_reg, upd_ne _ _ (by decide), upd_same]
  have gg : ∀ r, r = gp1 ∨ r = gp2 ∨ r = g 1 → (step2 (ldi entry x)).reg r = s.reg r := by
    intro r h
    have hne : r ≠ g 0 ∧ r ≠ g 28 ∧ r ≠ g 29 ∧ r ≠ sreg := by rcases h with rfl | rfl | rfl <;> decide
    rw [hr _ hne.1, ldi_reg, upd_ne _ _ hne.2.2.1, upd_ne _ _ hne.2.1, h1]
    exact upd_ne _ _ hne.2.2.2
  generalize step2 (ldi entry x) = t at p y28 y29 gg
  obtain ⟨w1, w2, w3, w4, w5⟩ := swap_eff t
  have v28 := w5 (g 28) (by decide)
  have v29 := w5 (g 29) (by decide)
  have v1 := w5 (g 1) (by decide)
  rw [y28] at v28
  rw [y29] at v29
  generalize swap t = v at w1 w2 w3 w4 v28 v29 v1
  have hY : cat (v.reg (g 29)) (v.reg (g 28)) = entry := by rw [v28, v29, cat_hi_lo]
  have hm : ∀ i : Nat, i < 4 → v.mem (entry + BitVec.ofNat 16 i) = s.mem (entry + BitVec.ofNat 16 i) := fun i h => by
    rw [w2, pushed_out c _ s t p _ (hout i h)]
  refine ⟨t, run [lddY (g 30) 0, lddY (g 31) 1, lddY (g 24) 2, lddY (g 25) 3] v, p, w2, ?_, rfl, ?_, ?_, ?_, ?_, ?_, ?_⟩
  · show v.sp = _
    rw [w1, gg gp1 (Or.inl rfl), gg gp2 (Or.inr (Or.inl rfl))]
  · simp [run, lddY, upd]; rw [hY]; have := hm 0 (by omega); simpa using this
  · simp [run, lddY, upd]; rw [hY]; exact hm 1 (by omega)
  · simp [run, lddY, upd]; rw [hY]; exact hm 2 (by omega)
  · simp [run, lddY, upd]; rw [hY]; exact hm 3 (by omega)
  · simp [run, lddY, upd]; rw [w3, w4, cat_hi_lo]; exact pushed_sp c _ s t p
  · simp [run, lddY, upd]; rw [v1]; exact gg _ (Or.inr (Or.inr rfl))

/-- tick: the registers are saved, C runs on its own stack (with a return address on it) and gets the task's stack
pointer -/
theorem enter_tick_eff (c : Cfg) (kst : Addr → Prop) (s : St R) (hok : Ok c kst s) :
    ∃ t u : St R, Pushed s ((slots c).map (val s)) t ∧ u.mem = t.mem ∧ u.sp = cat (s.reg gp2) (s.reg gp1) ∧
      (∀ a, c.ack ≠ some a → (enter c .tick s).mem a = (pushvs (retBytes c) u).mem a) ∧
      (enter c .tick s).sp = (pushvs (retBytes c) u).sp ∧
      cat ((enter c .tick s).reg (g 25)) ((enter c .tick s).reg (g 24)) = s.sp - BitVec.ofNat 16 (size c) := by
  obtain ⟨t, u, p, hu, hs, he, z0, z1, -, -, hg, -⟩ := isrCall_eff c c.entry s hok.out
  rw [hok.el] at z0
  rw [hok.eh] at z1
  have hcr : (pushvs (retBytes c) u).reg = u.reg := pushvs_reg _ _
  unfold enter
  simp only []
  rw [he, hcr, z0, z1, cat_hi_lo, if_pos rfl]
  refine ⟨t, u, p, hu, hs, fun a ha => ?_, ?_, ?_⟩
  · generalize pushvs (retBytes c) u = z
    show (ackTimer c z).mem a = z.mem a
    unfold ackTimer
    split
    · rename_i b hb
      exact upd_ne _ _ (fun h => ha (by rw [hb, h]))
    · rfl
  · generalize pushvs (retBytes c) u = z
    show (ackTimer c z).sp = z.sp
    unfold ackTimer
    split <;> rfl
  · generalize pushvs (retBytes c) u = z at hcr
    have a1 : (ackTimer c z).reg gp1 = z.reg gp1 := by
      unfold ackTimer
      split
      · exact upd_ne z.reg 1 (show gp1 ≠ g 24 by decide)
      · rfl
    have a2 : (ackTimer c z).reg gp2 = z.reg gp2 := by
      unfold ackTimer
      split
      · exact upd_ne z.reg 1 (show gp2 ≠ g 24 by decide)
      · rfl
    have : ∀ q : St R, cat ((run [mv (g 25) gp2, mv (g 24) gp1] q).reg (g 25)) ((run [mv (g 25) gp2, mv (g 24) gp1] q).reg (g 24))
        = cat (q.reg gp2) (q.reg gp1) := by intro q; simp [run, mv, upd]
    rw [run_cons, this, a1, a2, hcr, hg]

/-! ## Coming back -/

/-- the registers popped by RESTORE_CONTEXT after `out SREG, r0`, and by `reti` -/
def lastRegs (c : Cfg) : List R := [g 0, g 29, g 28] ++ (pcRegs c).reverse

/-- what RESTORE_CONTEXT (after SWAP_STACK) and `reti` give to every register of the task -/
theorem restore_eff (c : Cfg) (s : St R) :
    (restore c s).mem = s.mem ∧ (restore c s).sp = s.sp + BitVec.ofNat 16 (size c) ∧
    (∀ r, r = gp1 ∨ r = gp2 → (restore c s).reg r = s.reg r) ∧
    ∀ r, r ∈ slots c → (restore c s).reg r = (if r = sreg then (· ||| 0x80) else id)
      (s.mem (s.sp + (BitVec.ofNat 16 (size c) - BitVec.ofNat 16 ((slots c).idxOf r)))) := by
  have h1 := pops_mem restRegs s
  have h2 := pops_sp restRegs s
  have h3 := pops_out restRegs (s := s)
  have h4 := fun i hi => pops_in restRegs (by decide) i hi s
  have he : restore c s = sei (pops (lastRegs c) (mv sreg (g 0) (pops restRegs s))) := rfl
  rw [he]
  generalize pops restRegs s = x at h1 h2 h3 h4
  have k1 := pops_mem (lastRegs c) (mv sreg (g 0) x)
  have k2 := pops_sp (lastRegs c) (mv sreg (g 0) x)
  have k3 := pops_out (lastRegs c) (s := mv sreg (g 0) x)
  have k4 := fun i hi => pops_in (lastRegs c) (by unfold lastRegs pcRegs; cases c.pc3 <;> decide) i hi (mv sreg (g 0) x)
  generalize pops (lastRegs c) (mv sreg (g 0) x) = y at k1 k2 k3 k4
  have hmv : (mv sreg (g 0) x).reg = upd x.reg sreg (x.reg (g 0)) := rfl
  rw [hmv] at k3
  change y.mem = x.mem at k1
  change y.sp = x.sp + _ at k2
  change ∀ i hi, y.reg (lastRegs c)[i] = x.mem (x.sp + 1 + _) at k4
  have hs : (sei y).reg = upd y.reg sreg (y.reg sreg ||| 0x80) := rfl
  have hl : BitVec.ofNat 16 restRegs.length + BitVec.ofNat 16 (lastRegs c).length = BitVec.ofNat 16 (size c) := by
    unfold lastRegs pcRegs size; cases c.pc3 <;> rfl
  have sn : sreg ∉ lastRegs c := by unfold lastRegs pcRegs; cases c.pc3 <;> decide
  refine ⟨?_, ?_, ?_, ?_⟩
  · show y.mem = _
    rw [k1, h1]
  · show y.sp = _
    rw [k2, h2]; rw [← hl]; grind
  · intro r hr
    have e1 : r ≠ sreg := by rcases hr with rfl | rfl <;> decide
    have e2 : r ∉ restRegs := by rcases hr with rfl | rfl <;> decide
    have e3 : r ∉ lastRegs c := by
      unfold lastRegs pcRegs
      rcases hr with rfl | rfl <;> cases c.pc3 <;> decide
    rw [hs, upd_ne _ _ e1, k3 _ e3, upd_ne _ _ e1, h3 _ e2]
  · intro r hr
    by_cases e1 : r = sreg
    · rw [e1, if_pos rfl, hs, upd_same, k3 _ sn, upd_same]
      have := h4 29 (by decide)
      rw [show restRegs[29] = g 0 from rfl] at this
      rw [this]
      show _ ||| _ = _ ||| _
      congr 2
      have : BitVec.ofNat 16 (size c) - BitVec.ofNat 16 ((slots c).idxOf sreg) = 1 + BitVec.ofNat 16 29 := by
        unfold size slots pcRegs; cases c.pc3 <;> decide
      rw [this]; grind
    · rw [if_neg e1, hs, upd_ne _ _ e1]
      by_cases e2 : r ∈ lastRegs c
      · have hi := List.idxOf_lt_length_of_mem e2
        have := k4 _ hi
        rw [List.getElem_idxOf] at this
        rw [this, h1, h2]
        show s.mem _ = s.mem _
        congr 1
        have : BitVec.ofNat 16 (size c) - BitVec.ofNat 16 ((slots c).idxOf r) =
            BitVec.ofNat 16 restRegs.length + 1 + BitVec.ofNat 16 ((lastRegs c).idxOf r) := by
          clear hi this k3 k4 h3 h4
          revert r
          unfold lastRegs size slots pcRegs
          cases c.pc3 <;> decide
        rw [this]; grind
      · have e3 : r ∈ restRegs := by
          revert r
          unfold lastRegs slots pcRegs
          cases c.pc3 <;> decide
        rw [k3 _ e2, upd_ne _ _ e1]
        have hi := List.idxOf_lt_length_of_mem e3
        have := h4 _ hi
        rw [List.getElem_idxOf] at this
        rw [this]
        show s.mem _ = s.mem _
        congr 1
        have : BitVec.ofNat 16 (size c) - BitVec.ofNat 16 ((slots c).idxOf r) =
            1 + BitVec.ofNat 16 (restRegs.idxOf r) := by
          clear hi this
          revert r
          unfold lastRegs size slots pcRegs
          cases c.pc3 <;> decide
        rw [this]; grind

/-- how a register is restored from its saved byte -/
def dec (r : R) : Byte → Byte := if r = sreg then (· ||| 0x80) else id

/-- offset of a register in the frame -/
def off (c : Cfg) (r : R) : Addr := BitVec.ofNat 16 (size c) - BitVec.ofNat 16 ((slots c).idxOf r)

/-- SWAP_STACK, RESTORE_CONTEXT, `reti` -/
theorem swap_restore_eff (c : Cfg) (x : St R) :
    (restore c (swap x)).mem = x.mem ∧ (restore c (swap x)).sp = cat (x.reg gp2) (x.reg gp1) + BitVec.ofNat 16 (size c) ∧
    cat ((restore c (swap x)).reg gp2) ((restore c (swap x)).reg gp1) = x.sp ∧
    ∀ r, vis c r = true → (restore c (swap x)).reg r = dec r (x.mem (cat (x.reg gp2) (x.reg gp1) + off c r)) := by
  obtain ⟨w1, w2, w3, w4, -⟩ := swap_eff x
  generalize swap x = y at w1 w2 w3 w4
  obtain ⟨r1, r2, r3, r4⟩ := restore_eff c y
  refine ⟨r1.trans w2, by rw [r2, w1], ?_, fun r hr => ?_⟩
  · rw [r3 _ (Or.inr rfl), r3 _ (Or.inl rfl), w3, w4, cat_hi_lo]
  · rw [r4 r ((slots_vis c r).1 hr), w1, w2]; rfl

theorem leave_eff (c : Cfg) (kst : Addr → Prop) (k : Kind) (e : St R) (hc : (port c kst).cok k e) :
    (leave c k e).mem = e.mem ∧
    (leave c k e).sp = cat (e.reg (g 25)) (e.reg (g 24)) + BitVec.ofNat 16 (size c) ∧
    cat ((leave c k e).reg gp2) ((leave c k e).reg gp1) = (port c kst).csp k e ∧
    ∀ r, vis c r = true →
      (leave c k e).reg r = dec r (e.mem (cat (e.reg (g 25)) (e.reg (g 24)) + off c r)) := by
  have hx : ∀ x : St R, (mv gp1 (g 24) (mv gp2 (g 25) x)).reg gp2 = x.reg (g 25) ∧
      (mv gp1 (g 24) (mv gp2 (g 25) x)).reg gp1 = x.reg (g 24) := by
    intro x; constructor <;> simp [mv, upd]
  obtain ⟨x1, x2⟩ := hx e
  cases k with
  | syscall =>
    have he : leave c .syscall e = restore c (swap (mv gp1 (g 24) (mv gp2 (g 25) e))) := rfl
    rw [he]
    obtain ⟨y, hy⟩ : ∃ y, y = mv gp1 (g 24) (mv gp2 (g 25) e) := ⟨_, rfl⟩
    have ym : y.mem = e.mem := by rw [hy]; rfl
    have ys : y.sp = e.sp := by rw [hy]; rfl
    rw [← hy] at x1 x2 ⊢
    obtain ⟨a1, a2, a3, a4⟩ := swap_restore_eff c y
    rw [x1, x2, ym] at a4
    rw [x1, x2] at a2
    exact ⟨a1.trans ym, a2, a3.trans ys, a4⟩
  | tick =>
    obtain ⟨c1, c2, c3⟩ := hc rfl
    have he : leave c .tick e = retE c (mv gp1 (g 24) (mv gp2 (g 25) e)) := rfl
    rw [he]
    obtain ⟨y, hy⟩ : ∃ y, y = mv gp1 (g 24) (mv gp2 (g 25) e) := ⟨_, rfl⟩
    have ym : y.mem = e.mem := by rw [hy]; rfl
    have ys : y.sp = e.sp := by rw [hy]; rfl
    rw [← hy] at x1 x2 ⊢
    have p1 := pops_mem (pcRegs c).reverse y
    have p2 := pops_sp (pcRegs c).reverse y
    have p3 := fun r h => pops_out (pcRegs c).reverse r h y
    have p4 := fun i hi => pops_in (pcRegs c).reverse (by unfold pcRegs; cases c.pc3 <;> decide) i hi y
    have hpc : (pops (pcRegs c).reverse y).reg pcl = c.el ∧ (pops (pcRegs c).reverse y).reg pch = c.eh ∧
        (c.pc3 = true → (pops (pcRegs c).reverse y).reg pce = c.ee) := by
      generalize pops (pcRegs c).reverse y = z at p4
      unfold pcSize at c1 c2
      unfold pcRegs at p4
      cases h3 : c.pc3
      · rw [h3] at c1 c2 p4
        have q0 := p4 0 (by decide)
        have q1 := p4 1 (by decide)
        rw [ym, ys] at q0 q1
        refine ⟨?_, ?_, fun h => absurd h (by decide)⟩
        · rw [← c1]; refine Eq.trans q1 ?_; congr 1; rw [BitVec.add_assoc]; rfl
        · rw [← c2]; refine Eq.trans q0 ?_; congr 1
          show e.sp + 1 + 0#16 = e.sp + 2 - 1
          grind
      · rw [h3] at c1 c2 p4
        have q0 := p4 0 (by decide)
        have q1 := p4 1 (by decide)
        have q2 := p4 2 (by decide)
        rw [ym, ys] at q0 q1 q2
        refine ⟨?_, ?_, fun _ => ?_⟩
        · rw [← c1]; refine Eq.trans q2 ?_; congr 1; rw [BitVec.add_assoc]; rfl
        · rw [← c2]; refine Eq.trans q1 ?_; congr 1
          show e.sp + 1 + 1#16 = e.sp + 3 - 1
          grind
        · rw [← c3 h3]; refine Eq.trans q0 ?_; congr 1
          show e.sp + 1 + 0#16 = e.sp + 1
          grind
    unfold retE
    simp only []
    rw [if_pos hpc]
    have g1 := p3 gp1 (by unfold pcRegs; cases c.pc3 <;> decide)
    have g2 := p3 gp2 (by unfold pcRegs; cases c.pc3 <;> decide)
    generalize pops (pcRegs c).reverse y = z at p1 p2 g1 g2
    have hl : BitVec.ofNat 16 (pcRegs c).reverse.length = pcSize c := by
      unfold pcRegs pcSize; cases c.pc3 <;> rfl
    obtain ⟨a1, a2, a3, a4⟩ := swap_restore_eff c z
    rw [show run [swap, restore c] z = restore c (swap z) from rfl]
    rw [g1, g2, x1, x2, p1, ym] at a4
    rw [g1, g2, x1, x2] at a2
    refine ⟨a1.trans (p1.trans ym), a2, ?_, a4⟩
    rw [a3, p2, ys, hl]
    rfl

theorem size_le (c : Cfg) : size c ≤ 36 := by unfold size; split <;> omega

theorem idx_lt (c : Cfg) (r : R) (h : vis c r = true) : (slots c).idxOf r < size c := by
  rw [← slots_length]
  exact List.idxOf_lt_length_of_mem ((slots_vis c r).1 h)

theorem off_toNat (c : Cfg) (r : R) (h : vis c r = true) : (off c r + (-1#16)).toNat < (BitVec.ofNat 16 (size c)).toNat := by
  have h1 := size_le c
  have h2 := idx_lt c r h
  unfold off
  rw [BitVec.toNat_add, BitVec.toNat_sub, BitVec.toNat_ofNat, BitVec.toNat_ofNat, Nat.mod_eq_of_lt (show size c < 2 ^ 16 by omega),
    Nat.mod_eq_of_lt (show (slots c).idxOf r < 2 ^ 16 by omega), show (-1#16).toNat = 65535 by decide]
  omega

/-- the frame is the bytes just below the stack pointer of the interrupted task -/
theorem frame_iff (c : Cfg) (p a : Addr) :
    (a - (p - BitVec.ofNat 16 (size c)) + (-1#16)).toNat < (BitVec.ofNat 16 (size c)).toNat ↔ (p - a).toNat < size c := by
  have h1 := size_le c
  rw [show a - (p - BitVec.ofNat 16 (size c)) + (-1#16) = BitVec.ofNat 16 (size c) - (p - a) - 1#16 by grind]
  generalize p - a = d
  have := d.isLt
  have e : (BitVec.ofNat 16 (size c)).toNat = size c := by
    rw [BitVec.toNat_ofNat, Nat.mod_eq_of_lt (by omega)]
  rw [BitVec.toNat_sub, BitVec.toNat_sub, e, show (1#16).toNat = 1 by decide]
  omega

theorem dec_val (s : St R) (r : R) : dec r (val s r) = upd s.reg sreg (s.reg sreg ||| 0x80) r := by
  unfold dec val
  by_cases h : r = sreg
  · rw [h, if_pos rfl, upd_same, upd_same]
    generalize s.reg sreg = v
    revert v; decide
  · rw [if_neg h, upd_ne _ _ h, upd_ne _ _ h]; rfl

theorem frameEff (c : Cfg) (kst : Addr → Prop) :
    FrameEff (port c kst) (Ok c kst) (-1#16) (BitVec.ofNat 16 (size c)) (BitVec.ofNat 16 (size c)) (vis c) (off c) dec where
  mem := rfl
  ctx := rfl
  frame := rfl
  off_lt := off_toNat c
  resume_sp := fun _ _ => rfl
  resume_hidden := fun k x r h h0 => by
    show upd x.1 sreg _ r = 0
    rw [upd_ne _ _ (fun e => by rw [e] at h; exact absurd h (by simp [vis])), h0]
  enter_arg := fun k s hok => by
    cases k with
    | syscall => exact (enter_syscall_eff c s).2.2.1
    | tick => obtain ⟨t, u, -, -, -, -, -, h⟩ := enter_tick_eff c kst s hok; exact h
  enter_cell := fun k s r hok hv hio => by
    have hcell : ∀ t, Pushed s ((slots c).map (val s)) t →
        dec r (t.mem (s.sp - BitVec.ofNat 16 (size c) + off c r)) = ((port c kst).resume k ((port c kst).ctx s)).1 r := by
      intro t p
      rw [show s.sp - BitVec.ofNat 16 (size c) + off c r = s.sp - BitVec.ofNat 16 ((slots c).idxOf r) by
        unfold off; grind, cell c _ s t p r ((slots_vis c r).1 hv), dec_val]
      show _ = upd (fun r => if vis c r = true then s.reg r else 0) sreg ((if vis c sreg = true then s.reg sreg else 0) ||| 0x80) r
      unfold upd
      split
      · rfl
      · exact (if_pos hv).symm
    cases k with
    | syscall =>
      obtain ⟨⟨t, p, hm⟩, -⟩ := enter_syscall_eff c s
      show dec r ((enter c .syscall s).mem _) = _
      rw [hm]; exact hcell t p
    | tick =>
      obtain ⟨t, u, p, hu, hsp, hm, -, -⟩ := enter_tick_eff c kst s hok
      have hin : (s.sp - BitVec.ofNat 16 (size c) + off c r - (s.sp - BitVec.ofNat 16 (size c)) + (-1#16)).toNat <
          (BitVec.ofNat 16 (size c)).toNat := by
        rw [show s.sp - BitVec.ofNat 16 (size c) + off c r - (s.sp - BitVec.ofNat 16 (size c)) = off c r by grind]
        exact off_toNat c r hv
      have h1 := hio _ hin
      show dec r ((enter c .tick s).mem _) = _
      rw [hm _ (fun h => h1 (Or.inr h)), pushvs_out, hu]
      · exact hcell t p
      · intro h2
        refine h1 (Or.inl ?_)
        rw [hsp] at h2
        generalize s.sp - BitVec.ofNat 16 (size c) + off c r = a at h2
        have hl : (retBytes c).length ≤ 3 := by unfold retBytes; split <;> simp
        have := hok.room (cat (s.reg gp2) (s.reg gp1) - a).toNat (by omega)
        rwa [BitVec.ofNat_toNat, BitVec.setWidth_eq, show ∀ x y : Addr, x - (x - y) = y by intros; grind] at this
  enter_out := fun k s a hok hf hio => by
    rw [frame_iff] at hf
    cases k with
    | syscall =>
      obtain ⟨⟨t, p, hm⟩, -⟩ := enter_syscall_eff c s
      show (enter c .syscall s).mem a = _
      rw [hm]; exact pushed_out c _ s t p a hf
    | tick =>
      obtain ⟨t, u, p, hu, hsp, hm, -, -⟩ := enter_tick_eff c kst s hok
      show (enter c .tick s).mem a = _
      rw [hm _ (fun h => hio (Or.inr h)), pushvs_out, hu]
      · exact pushed_out c _ s t p a hf
      · intro h2
        refine hio (Or.inl ?_)
        rw [hsp] at h2
        have hl : (retBytes c).length ≤ 3 := by unfold retBytes; split <;> simp
        have := hok.room (cat (s.reg gp2) (s.reg gp1) - a).toNat (by omega)
        rwa [BitVec.ofNat_toNat, BitVec.setWidth_eq, show ∀ x y : Addr, x - (x - y) = y by intros; grind] at this
  enter_csp := fun k s hok => by
    cases k with
    | syscall => exact (enter_syscall_eff c s).2.1
    | tick =>
      obtain ⟨t, u, -, -, hsp, -, h, -⟩ := enter_tick_eff c kst s hok
      show (enter c .tick s).sp + pcSize c = _
      rw [h, pushvs_sp, retBytes_length, hsp]
      show _ = cat (s.reg gp2) (s.reg gp1)
      grind
  leave_sp := fun k e hc => (leave_eff c kst k e hc).2.1
  leave_reg := fun k e r hc hv _ => (leave_eff c kst k e hc).2.2.2 r hv
  leave_mem := fun k e a hc _ => congrFun (leave_eff c kst k e hc).1 a
  leave_ksp := fun k e hc => (leave_eff c kst k e hc).2.2.1

/-- **C54 on AVR**: TC0 or RTC tick, 2- or 3-byte program counter. -/
theorem avr_sound (c : Cfg) (kst : Addr → Prop) : (port c kst).Sound (Ok c kst) := (frameEff c kst).sound

end Pico.Ctx8.Avr
