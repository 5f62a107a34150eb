import Verif.Arch.Mcs51Port
/-
The 8051 port: the first context of a task, the start of the scheduler (C55), and a state that meets the hypotheses.
-/
namespace Pico.Ctx51

open Pico.Ctx8 (Byte Addr upd upd_same upd_ne hi lo cat cat_hi_lo hi_cat lo_cat)
open R

attribute [local irreducible] save2 restore1

/-- the registers arch_save_first_context writes out -/
def args : List R := [r1, r2, r3, r4, r5, r6]

/-- `f` writes `v` at dptr and moves dptr to the next byte, if the registers of `args` hold `K` -/
def Put (K : R → Byte) (f : St → St) (v : Byte) : Prop :=
  ∀ t : St, (∀ r ∈ args, t.reg r = K r) → (f t).xram = upd t.xram (dptr t) v ∧ dptr (f t) = dptr t + 1 ∧ (f t).sp = t.sp ∧
    (f t).iram = t.iram ∧ (f t).ea = t.ea ∧ (∀ r ∈ args, (f t).reg r = K r)

theorem movx_inc (t : St) : (incDptr (movxSt t)).xram = upd t.xram (dptr t) (t.reg a) ∧ dptr (incDptr (movxSt t)) = dptr t + 1 :=
  ⟨rfl, dptr_setDptr _ _⟩

theorem args_ne {r : R} (h : r ∈ args) : r ≠ a ∧ r ≠ dpl ∧ r ≠ dph := by
  revert h; cases r <;> decide

theorem put_imm (K : R → Byte) (v : Byte) : Put K (movxPut v) v := by
  intro t hK
  obtain ⟨h1, h2⟩ := movx_inc (set a v t)
  have hd : dptr (set a v t) = dptr t := set_dptr _ _ _ (by decide) (by decide)
  have ha : (set a v t).reg a = v := set_same _ _ _
  rw [hd, ha] at h1; rw [hd] at h2
  refine ⟨h1, h2, rfl, rfl, rfl, fun r hr => ?_⟩
  obtain ⟨n1, n2, n3⟩ := args_ne hr
  show (setDptr _ _).reg r = _
  rw [setDptr_reg _ _ _ n3 n2]
  show upd t.reg a v r = _
  rw [upd_ne _ _ n1]; exact hK r hr

theorem put_reg (K : R → Byte) (q : R) (hq : q ∈ args) : Put K (movxPutR q) (K q) := by
  intro t hK
  have := put_imm K (K q) t hK
  rw [← hK q hq] at this ⊢
  exact this

theorem puts (K : R → Byte) : ∀ (l : List ((St → St) × Byte)) (t : St), (∀ p ∈ l, Put K p.1 p.2) → (∀ r ∈ args, t.reg r = K r) →
    l.length < 65536 →
    (run (l.map Prod.fst) t).xram = store t.xram (dptr t) (l.map Prod.snd) ∧
    dptr (run (l.map Prod.fst) t) = dptr t + BitVec.ofNat 16 l.length ∧ (run (l.map Prod.fst) t).sp = t.sp ∧
    (run (l.map Prod.fst) t).iram = t.iram ∧ (run (l.map Prod.fst) t).ea = t.ea := by
  intro l
  induction l with
  | nil =>
    intro t _ _ _
    refine ⟨?_, ?_, rfl, rfl, rfl⟩
    · funext y; unfold store; simp [run]
    · simp [run]
  | cons p l ih =>
    intro t hp hK hl
    rw [List.length_cons] at hl
    obtain ⟨h1, h2, h3, h4, h5, h6⟩ := hp p (List.mem_cons_self ..) t hK
    obtain ⟨i1, i2, i3, i4, i5⟩ := ih (p.1 t) (fun q hq => hp q (List.mem_cons_of_mem _ hq)) h6 (by omega)
    refine ⟨?_, ?_, i3.trans h3, i4.trans h4, i5.trans h5⟩
    · show (run (l.map Prod.fst) (p.1 t)).xram = _
      rw [i1, h1, h2, store_cons _ _ _ _ (by rw [List.length_map]; omega), List.map_cons]
    · show dptr (run (l.map Prod.fst) (p.1 t)) = _
      rw [i2, h2, List.length_cons, BitVec.ofNat_add]
      exact (show ∀ x y : Addr, x + 1 + y = x + (y + 1#16) by intros; grind) _ _

theorem run_append (l m : List (St → St)) (s : St) : run (l ++ m) s = run m (run l s) := by
  induction l generalizing s with
  | nil => rfl
  | cons f l ih => exact ih (f s)

/-- what the new task finds in its registers -/
def firstReg (fh fl ph pl : Byte) : R → Byte
  | pch => fh | pcl => fl | dph => ph | dpl => pl | a => 65
  | r1 => 1 | r2 => 2 | r3 => 3 | r4 => 4 | r5 => 5 | r6 => 6 | r7 => 7
  | _ => 0

/-- the writes of arch_save_first_context, and their values -/
def writes (K : R → Byte) : List ((St → St) × Byte) := [(movxPut 0, 0), (movxPut 7, 7), (movxPut 6, 6), (movxPut 5, 5), (movxPut 4, 4),
  (movxPut 3, 3), (movxPut 2, 2), (movxPut 1, 1), (movxPut 0, 0), (movxPut 0, 0), (movxPutR r2, K r2), (movxPutR r1, K r1), (movxPut 65, 65),
  (movxPutR r4, K r4), (movxPutR r3, K r3), (movxPutR r6, K r6), (movxPutR r5, K r5)]

theorem writes_put (K : R → Byte) : ∀ p ∈ writes K, Put K p.1 p.2 := by
  intro p hp
  simp only [writes, List.mem_cons, List.not_mem_nil, or_false] at hp
  rcases hp with rfl | rfl | rfl | rfl | rfl | rfl | rfl | rfl | rfl | rfl | rfl | rfl | rfl | rfl | rfl | rfl | rfl
  all_goals first
    | exact put_imm _ _
    | exact put_reg _ _ (by decide)

def up7 (s : St) : St := { s with sp := s.sp + 7, reg := upd s.reg a (s.sp + 7) }

section
attribute [local irreducible] run movxPut movxPutR
theorem first_split (s : St) (K : R → Byte) :
    first s = run (([drop, drop, pop r4, pop r3, drop, pop r2, pop r1] ++ (writes K).map Prod.fst) ++ [up7, ret]) s := rfl
end

/-- the bytes arch_save_first_context writes -/
theorem first_eff (c : Cfg) (s : St) (rh rl fh fl pb ph pl : Byte) (rest : List Byte)
    (hs : stk c.z s = rh :: rl :: fh :: fl :: pb :: ph :: pl :: rest) :
    (first s).xram = store s.xram (dptr s) (order.map (firstReg fh fl ph pl) ++ [s.reg r6, s.reg r5]) ∧
    dptr (first s) = dptr s + 17 ∧ (first s).reg pch = rh ∧ (first s).reg pcl = rl ∧ (first s).ea = s.ea ∧
    stk c.z (first s) = fh :: fl :: pb :: ph :: pl :: rest := by
  -- the arguments
  obtain ⟨_, d1⟩ := stk_cons hs
  obtain ⟨_, d2⟩ := stk_cons (d1 (drop s) rfl rfl)
  have e2 := d2 (drop (drop s)) rfl rfl
  obtain ⟨x4, d3⟩ := stk_cons e2
  obtain ⟨x3, d4⟩ := stk_cons (d3 (pop r4 (drop (drop s))) rfl rfl)
  obtain ⟨_, d5⟩ := stk_cons (d4 (pop r3 (pop r4 (drop (drop s)))) rfl rfl)
  obtain ⟨x2, d6⟩ := stk_cons (d5 (drop (pop r3 (pop r4 (drop (drop s))))) rfl rfl)
  obtain ⟨x1, _⟩ := stk_cons (d6 (pop r2 (drop (pop r3 (pop r4 (drop (drop s)))))) rfl rfl)
  obtain ⟨t, ht⟩ : ∃ t : St, t = pop r1 (pop r2 (drop (pop r3 (pop r4 (drop (drop s)))))) := ⟨_, rfl⟩
  have tr : ∀ r, t.reg r = upd (upd (upd (upd s.reg r4 fh) r3 fl) r2 ph) r1 pl r := by
    intro r
    rw [ht, ← x4, ← x3, ← x2, ← x1]; rfl
  have t1 : t.reg r1 = pl := by rw [tr]; rfl
  have t2 : t.reg r2 = ph := by rw [tr]; rfl
  have t3 : t.reg r3 = fl := by rw [tr]; rfl
  have t4 : t.reg r4 = fh := by rw [tr]; rfl
  have t5 : t.reg r5 = s.reg r5 := by rw [tr]; rfl
  have t6 : t.reg r6 = s.reg r6 := by rw [tr]; rfl
  have td : dptr t = dptr s := by unfold dptr; rw [tr, tr]; rfl
  have tx : t.xram = s.xram := by rw [ht]; rfl
  have te : t.ea = s.ea := by rw [ht]; rfl
  have ti : t.iram = s.iram := by rw [ht]; rfl
  have tp : t.sp = s.sp - 7 := by
    rw [ht]
    exact (show ∀ x : Byte, x - 1 - 1 - 1 - 1 - 1 - 1 - 1 = x - 7 by intro x; grind) _
  -- the writes
  have hl : ∀ p ∈ writes t.reg, Put t.reg p.1 p.2 := writes_put t.reg
  obtain ⟨a1, a2, a3, a4, a5⟩ := puts t.reg (writes t.reg) t hl (fun _ _ => rfl) (by show 17 < 65536; omega)
  have hf : first s = ret (up7 (run ((writes t.reg).map Prod.fst) t)) := by
    have hpre : run [drop, drop, pop r4, pop r3, drop, pop r2, pop r1] s = t := by rw [ht]; rfl
    rw [first_split s t.reg, run_append, run_append, hpre]
    generalize run ((writes t.reg).map Prod.fst) t = u
    rfl
  have a1' : (run ((writes t.reg).map Prod.fst) t).xram = store s.xram (dptr s) (order.map (firstReg fh fl ph pl) ++ [s.reg r6, s.reg r5]) := by
    rw [a1, tx, td]
    congr 1
    show [0, 7, 6, 5, 4, 3, 2, 1, 0, 0, t.reg r2, t.reg r1, 65, t.reg r4, t.reg r3, t.reg r6, t.reg r5] = _
    rw [t1, t2, t3, t4, t5, t6]; rfl
  have a2' : dptr (run ((writes t.reg).map Prod.fst) t) = dptr s + 17 := by rw [a2, td]; rfl
  clear hl a1
  generalize run ((writes t.reg).map Prod.fst) t = u at *
  obtain ⟨v, hv⟩ : ∃ v : St, v = { u with sp := u.sp + 7, reg := upd u.reg a (u.sp + 7) } := ⟨_, rfl⟩
  have vd : dptr v = dptr u := by
    rw [hv]; exact set_dptr a _ u (by decide) (by decide)
  have vs : stk c.z v = rh :: rl :: fh :: fl :: pb :: ph :: pl :: rest := by
    rw [← hs]
    refine stk_congr ?_ ?_
    · rw [hv]; show u.sp + 7 = _; rw [a3, tp]
      exact (show ∀ x : Byte, x - 7 + 7 = x by intro x; grind) _
    · rw [hv]; show u.iram = _; rw [a4, ti]
  obtain ⟨p1, p2, p3⟩ := pops_eff (z := c.z) (fun r => if r = pch then rh else rl) (fh :: fl :: pb :: ph :: pl :: rest) [pch, pcl] v
    (by decide) (by rw [vs]; rfl)
  have hfv : first s = pops [pch, pcl] v := by rw [hf, hv]; rfl
  rw [hfv]
  refine ⟨?_, ?_, ?_, ?_, ?_, p1⟩
  · rw [p3.1, hv]; exact a1'
  · unfold dptr at vd a2' ⊢
    rw [p2, p2, if_neg (by decide), if_neg (by decide), vd, a2']
  · rw [p2, if_pos (by decide)]; rfl
  · rw [p2, if_pos (by decide)]; rfl
  · rw [p3.2, hv]; show u.ea = _; rw [a5, te]

/-- the task as it starts: its entry point, the two low bytes of its argument (the third, which tells the address space, is 0), and
a stack that holds the address of its block and nothing else -/
def firstCtx (p : Addr) (fh fl ph pl : Byte) : Ctx :=
  ⟨fun r => if vis r then firstReg fh fl ph pl r else 0, [hi p, lo p], true⟩

/-- **C55, 8051**: the stack prepared for a task holds a context that starts it at its entry point with the two low bytes of its argument,
on an empty stack, interrupts enabled; 17 bytes are written (ARCH_INITIAL_STACK_COUNT), from the start of its stack up; and
the function returns to its caller the end of the block.  Provided that the compiler has left in r5 and r6 the address it passes in
dptr, which its calling convention does not ask for: see `mcs51_first_wrong`. -/
theorem mcs51_first_partial (c : Cfg) (s : St) (p : Addr) (rh rl fh fl pb ph pl : Byte) (rest : List Byte)
    (hp : dptr s = p) (h5 : s.reg r5 = lo p) (h6 : s.reg r6 = hi p)
    (hs : stk c.z s = rh :: rl :: fh :: fl :: pb :: ph :: pl :: rest) :
    (port c).Holds (p, p + 17) (firstCtx p fh fl ph pl) (first s) ∧ dptr (first s) = p + 17 ∧
    cat ((first s).xram (p + 17 - 2)) ((first s).xram (p + 17 - 1)) = p ∧
    (∀ y, ¬ (y - p).toNat < 17 → (first s).xram y = s.xram y) ∧
    (first s).reg pch = rh ∧ (first s).reg pcl = rl ∧ stk c.z (first s) = fh :: fl :: pb :: ph :: pl :: rest := by
  obtain ⟨h1, h2, h3, h4, _, h7⟩ := first_eff c s rh rl fh fl pb ph pl rest hs
  have h17 : (p + 17 - p).toNat = 17 := add_sub_toNat p 17 (by omega)
  have hlen : (order.map (firstReg fh fl ph pl) ++ [s.reg r6, s.reg r5]).length = 17 := by simp [order_length]
  rw [hp] at h1 h2
  refine ⟨?_, h2, ?_, ?_, h3, h4, h7⟩
  · refine holds_of (first s) p (p + 17) (firstReg fh fl ph pl) [hi p, lo p] ?_ (by omega)
    rw [h17, h1]
    conv => lhs; rw [← hlen]
    rw [load_store _ _ _ (by omega), h5, h6]
  · have e1 : p + 17 - 2 = p + BitVec.ofNat 16 15 := (show ∀ x : Addr, x + 17 - 2 = x + 15#16 by intro x; grind) p
    have e2 : p + 17 - 1 = p + BitVec.ofNat 16 16 := (show ∀ x : Addr, x + 17 - 1 = x + 16#16 by intro x; grind) p
    rw [h1, e1, e2, store_in _ _ _ _ (by omega) (by omega), store_in _ _ _ _ (by omega) (by omega),
      getD_append_r _ _ _ (by simp [order_length]), getD_append_r _ _ _ (by simp [order_length])]
    simp [order_length, h5, h6, cat_hi_lo]
  · intro y hy
    rw [h1]
    exact store_out _ _ _ _ (by rw [hlen]; exact hy)

/-- **C55, 8051, refuted without r5 and r6**: the address of the block, on which the start and every switch of the task
rely, is taken from them and not from dptr. -/
theorem mcs51_first_wrong (c : Cfg) (s : St) (p : Addr) (rh rl fh fl pb ph pl : Byte) (rest : List Byte)
    (hp : dptr s = p) (hne : cat (s.reg r6) (s.reg r5) ≠ p)
    (hs : stk c.z s = rh :: rl :: fh :: fl :: pb :: ph :: pl :: rest) (e : St) (hd : dptr e = dptr (first s))
    (hx : e.xram = (first s).xram) : ((port c).ret e).1 = cat (s.reg r6) (s.reg r5) ∧ ((port c).ret e).1 ≠ p := by
  obtain ⟨h1, h2, _⟩ := first_eff c s rh rl fh fl pb ph pl rest hs
  have hlen : (order.map (firstReg fh fl ph pl) ++ [s.reg r6, s.reg r5]).length = 17 := by simp [order_length]
  have : ((port c).ret e).1 = cat (s.reg r6) (s.reg r5) := by
    show cat (e.xram (dptr e - 2)) (e.xram (dptr e - 1)) = _
    rw [hd, hx, h1, h2, hp]
    have e1 : p + 17 - 2 = p + BitVec.ofNat 16 15 := (show ∀ x : Addr, x + 17 - 2 = x + 15#16 by intro x; grind) p
    have e2 : p + 17 - 1 = p + BitVec.ofNat 16 16 := (show ∀ x : Addr, x + 17 - 1 = x + 16#16 by intro x; grind) p
    rw [e1, e2, store_in _ _ _ _ (by omega) (by omega), store_in _ _ _ _ (by omega) (by omega),
      getD_append_r _ _ _ (by simp [order_length]), getD_append_r _ _ _ (by simp [order_length])]
    simp [order_length]
  exact ⟨this, this ▸ hne⟩

/-- The first context fits in the stack of the task (arch_prepare_stack asserts `ARCH_MIN_STACK_COUNT` bytes, more than 17). -/
theorem mcs51_first_fits (c : Cfg) (stack : Addr) (count : Nat) (h : 17 ≤ count) (y : Addr)
    (hy : (port c).frame (stack, stack + 17) (y, 0)) : (y - stack).toNat < count := by
  have : (y - stack).toNat < (stack + 17 - stack).toNat := hy
  rw [show (stack + 17 - stack).toNat = 17 from add_sub_toNat stack 17 (by omega)] at this
  omega

/-- **C55, 8051**: arch_start_first_task (lines 229-232) starts the context held by the block whose end it is given. -/
theorem mcs51_start (c : Cfg) (m e : St) (p : Addr) (fh fl ph pl : Byte)
    (hh : (port c).Holds (p, p + 17) (firstCtx p fh fl ph pl) m) (hr : (port c).ret e = (p, p + 17))
    (hm : ∀ y, (y - p).toNat < 17 → e.xram y = m.xram y) :
    ctx c.z (leaveSys c e) = firstCtx p fh fl ph pl := by
  refine hh.2 .syscall e (fun h => by cases h) hr (fun y hy => hm y.1 ?_)
  have : (y.1 - p).toNat < (p + 17 - p).toNat := hy
  rwa [show (p + 17 - p).toNat = 17 from add_sub_toNat p 17 (by omega)] at this

/-! ### the hypotheses can be met -/

def demoSt : St := ⟨fun _ => 0, 0x2a, fun x => if x = 0x21 then 0x00 else if x = 0x22 then 0x01 else 7, fun _ => 0, true⟩
def demoCfg : Cfg := ⟨0x20, 0x300, 0x1234, fun r => r⟩

example : Ok demoCfg demoSt ∧ base demoCfg.z demoSt = 0x100 ∧ (port demoCfg).cok .tick demoSt := by
  refine ⟨⟨?_, ?_⟩, ?_, fun _ => rfl⟩
  · show 2 ≤ ((0x2a : Byte) - 0x20).toNat; decide
  · show ((0x2a : Byte) - 0x20).toNat + 19 < 256; decide
  · decide

/-- a call of arch_save_first_context(0x0200, 0x1234, 0x01abcd) from 0x4567 -/
def demoCall : St := ⟨fun r => if r = dph ∨ r = r6 then 2 else 0, 0x28,
  fun x => if x = 0x28 then 0x45 else if x = 0x27 then 0x67 else if x = 0x26 then 0x12 else if x = 0x25 then 0x34 else
    if x = 0x24 then 0x01 else if x = 0x23 then 0xab else if x = 0x22 then 0xcd else 9, fun _ => 0, false⟩

example : dptr demoCall = 0x200 ∧ demoCall.reg r5 = lo 0x200 ∧ demoCall.reg r6 = hi 0x200 ∧
    stk demoCfg.z demoCall = [0x45, 0x67, 0x12, 0x34, 0x01, 0xab, 0xcd, 9] := by decide

end Pico.Ctx51
