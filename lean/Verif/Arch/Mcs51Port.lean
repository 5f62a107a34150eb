import Verif.Arch.Mcs51Props
/-
The 8051 port: what tasks are owed (C54-C57).
-/
namespace Pico.Ctx51

open Pico.Ctx8 (Byte Addr upd upd_same upd_ne hi lo cat cat_hi_lo hi_cat lo_cat)
open Pico.Ctx (Sys Switch keeps)
open R

attribute [local irreducible] save2 restore1

/-- the registers of a saved context, topmost first -/
def order : List R := saved.reverse ++ [pch, pcl]

theorem order_nodup : order.Nodup := by decide
theorem order_length : order.length = 15 := by decide
theorem mem_order {r : R} (h : vis r = true) : r ∈ order := by cases r <;> revert h <;> decide
theorem bp_order : bp ∉ order := by decide

/-- the bytes of the stack once the registers are on it -/
def image (z : Byte) (s : St) : List Byte := order.map s.reg ++ stk z s

theorem image_length (z : Byte) (s : St) : (image z s).length = 15 + depth z s := by
  simp [image, order_length, stk_length]

/-- the address held by the first two bytes of a stack -/
def bottom (l : List Byte) : Addr := cat (l.getD (l.length - 2) 0) (l.getD (l.length - 1) 0)

theorem getD_append_r (p l : List Byte) (i : Nat) (h : p.length ≤ i) : (p ++ l).getD i 0 = l.getD (i - p.length) 0 := by
  rw [List.getD_eq_getElem?_getD, List.getElem?_append_right h, ← List.getD_eq_getElem?_getD]

theorem getD_append_l (p l : List Byte) (i : Nat) (h : i < p.length) : (p ++ l).getD i 0 = p.getD i 0 := by
  rw [List.getD_eq_getElem?_getD, List.getElem?_append_left h, ← List.getD_eq_getElem?_getD]

theorem bottom_append (p l : List Byte) (h : 2 ≤ l.length) : bottom (p ++ l) = bottom l := by
  unfold bottom
  rw [List.length_append]
  congr 1
  · rw [getD_append_r _ _ _ (by omega)]; congr 1; omega
  · rw [getD_append_r _ _ _ (by omega)]; congr 1; omega

theorem stk_getD (z : Byte) (s : St) (i : Nat) (h : i < depth z s) : (stk z s).getD i 0 = s.iram (s.sp - BitVec.ofNat 8 i) := by
  simp [stk, List.getD_eq_getElem?_getD, h]

theorem sp_eq (z : Byte) (s : St) : s.sp = z + BitVec.ofNat 8 (depth z s) := by
  unfold depth
  rw [BitVec.ofNat_toNat, BitVec.setWidth_eq]; grind

theorem base_bottom {z : Byte} {s : St} (h : 2 ≤ depth z s) : base z s = bottom (stk z s) := by
  unfold base bottom
  rw [stk_length, stk_getD z s _ (by omega), stk_getD z s _ (by omega)]
  have e1 : s.sp - BitVec.ofNat 8 (depth z s - 1) = z + 1 := by
    conv => lhs; lhs; rw [sp_eq z s, show depth z s = (depth z s - 1) + 1 by omega, BitVec.ofNat_add]
    exact (show ∀ x y : Byte, x + (y + 1#8) - y = x + 1 by intros; grind) _ _
  have e2 : s.sp - BitVec.ofNat 8 (depth z s - 2) = z + 2 := by
    conv => lhs; lhs; rw [sp_eq z s, show depth z s = (depth z s - 2) + 2 by omega, BitVec.ofNat_add]
    exact (show ∀ x y : Byte, x + (y + 2#8) - y = x + 2 by intros; grind) _ _
  rw [e1, e2]

theorem base_image {z : Byte} {s t : St} (h : 2 ≤ depth z s) (pre : List Byte) (ht : stk z t = pre ++ stk z s) :
    base z t = base z s := by
  have hl : depth z t = pre.length + depth z s := by rw [← stk_length, ht, List.length_append, stk_length]
  rw [base_bottom h, base_bottom (by omega), ht, bottom_append _ _ (by rw [stk_length]; exact h)]

/-- an interrupt or a call, then SAVE_CONTEXT_STEP1 -/
theorem push_all {c : Cfg} (s : St) (h : Ok c s) (f : St → St) (hf : ∀ t, (f t).sp = t.sp ∧ (f t).iram = t.iram ∧ (f t).xram = t.xram)
    (hr : ∀ t, (f t).reg = t.reg) :
    stk c.z (save1 (f (call s))) = image c.z s ∧ (save1 (f (call s))).xram = s.xram ∧
    (∀ r, r ≠ psw → (save1 (f (call s))).reg r = s.reg r) ∧ (save1 (f (call s))).ea = (f (call s)).ea := by
  have hroom := h.room
  obtain ⟨a1, a2, a3⟩ := pushes_eff (z := c.z) [pcl, pch] s (by simp; omega)
  obtain ⟨f1, f2, f3⟩ := hf (call s)
  have hs : stk c.z (f (call s)) = s.reg pch :: s.reg pcl :: stk c.z s := by
    rw [stk_congr f1 f2]; exact a1
  have hreg : (f (call s)).reg = s.reg := (hr _).trans a2
  have hd : depth c.z (f (call s)) = depth c.z s + 2 := by
    rw [← stk_length, hs, ← stk_length]; rfl
  obtain ⟨b1, b2, b3⟩ := pushes_eff (z := c.z) saved (f (call s)) (by rw [hd]; simp [saved]; omega)
  refine ⟨?_, ?_, ?_, ?_⟩
  · show stk c.z (set psw 0 (pushes saved (f (call s)))) = _
    rw [show stk c.z (set psw 0 (pushes saved (f (call s)))) = stk c.z (pushes saved (f (call s))) from stk_congr rfl rfl, b1, hs, hreg]
    unfold image order
    simp
  · show (pushes saved (f (call s))).xram = _
    rw [b3.1, f3]; exact a3.1
  · intro r hr
    show upd (pushes saved (f (call s))).reg psw 0 r = _
    rw [upd_ne _ _ hr, b2, hreg]
  · exact b3.2

/-- a context is saved: `t` is the state after SAVE_CONTEXT_STEP2 in a state whose stack is the image of `s` -/
theorem save2_image {c : Cfg} (s t : St) (h : Ok c s) (ht : stk c.z t = image c.z s) :
    (save2 c.z t).xram = store t.xram (base c.z s) (image c.z s) ∧
    dptr (save2 c.z t) = base c.z s + BitVec.ofNat 16 (image c.z s).length ∧ base c.z (save2 c.z t) = base c.z s ∧
    (save2 c.z t).ea = t.ea ∧ (∀ r, r ≠ a → r ≠ dpl → r ≠ dph → r ≠ r0 → r ≠ b → (save2 c.z t).reg r = t.reg r) := by
  have hb : base c.z t = base c.z s := base_image h.deep (order.map s.reg) ht
  have hd : depth c.z t = (image c.z s).length := by rw [← stk_length, ht]
  obtain ⟨a1, a2, a3, a4, a5, a6⟩ := save2_eff (z := c.z) t (by rw [hd, image_length]; omega)
  refine ⟨?_, ?_, ?_, a5, a6⟩
  · rw [a4, hb, ht]
  · rw [a3, hb, hd]
  · rw [← hb]; unfold base; rw [a2]

theorem enter_eff {c : Cfg} (k : Kind) (s : St) (h : Ok c s) :
    ((port c).enter k s).xram = store s.xram (base c.z s) (image c.z s) ∧
    dptr ((port c).enter k s) = base c.z s + BitVec.ofNat 16 (image c.z s).length ∧
    base c.z ((port c).enter k s) = base c.z s := by
  cases k with
  | tick =>
    obtain ⟨a1, a2, a3, a4⟩ := push_all s h id (fun _ => ⟨rfl, rfl, rfl⟩) (fun _ => rfl)
    have he : (port c).enter .tick s = (fun v : St => save2 c.z { v with reg := c.ack v.reg }) (save1 (id (call s))) := rfl
    generalize save1 (id (call s)) = u at *
    obtain ⟨t, ht⟩ : ∃ t : St, t = { u with reg := c.ack u.reg } := ⟨_, rfl⟩
    have h1 : stk c.z t = image c.z s := (stk_congr (by rw [ht]) (by rw [ht])).trans a1
    have h2 : t.xram = s.xram := by rw [ht]; exact a2
    obtain ⟨b1, b2, b3, _⟩ := save2_image s t h h1
    have he : (port c).enter .tick s = save2 c.z t := by rw [ht]; exact he
    rw [he]
    exact ⟨by rw [b1, h2], b2, b3⟩
  | syscall =>
    obtain ⟨a1, a2, a3, a4⟩ := push_all s h (setEa false) (fun _ => ⟨rfl, rfl, rfl⟩) (fun _ => rfl)
    have he : (port c).enter .syscall s = save2 c.z (save1 (setEa false (call s))) := rfl
    generalize save1 (setEa false (call s)) = t at *
    obtain ⟨b1, b2, b3, _⟩ := save2_image s t h a1
    rw [he]
    exact ⟨by rw [b1, a2], b2, b3⟩

theorem run3 (f g h : St → St) (s : St) : run [f, g, h] s = h (g (f s)) := rfl

/-- a context is brought in -/
theorem leave_eff {c : Cfg} (k : Kind) (e : St) (V : R → Byte) (L : List Byte) (hc : (port c).cok k e) (bs h : Addr)
    (hr : (port c).ret e = (bs, h)) (hl : load e.xram bs (h - bs).toNat = order.map V ++ L) (hn : (h - bs).toNat < 256) :
    (port c).ctx ((port c).leave k e) = ⟨fun r => if vis r then V r else 0, L, true⟩ ∧ ((port c).leave k e).xram = e.xram ∧
    ((port c).leave k e).reg bp = e.reg bp := by
  have hh : dptr e = h := congrArg Prod.snd hr
  have hb : cat (e.xram (dptr e - 2)) (e.xram (dptr e - 1)) = bs := congrArg Prod.fst hr
  have hlen : (h - bs).toNat = 15 + L.length := by
    have := congrArg List.length hl
    rw [load_length, List.length_append, List.length_map, order_length] at this
    exact this
  obtain ⟨r1, r2, r3⟩ := restore1_eff (z := c.z) e bs (h - bs).toNat (by omega) hn (by rw [hh]; exact eq_add_of_sub bs h)
    (by rw [← hb, lo_cat]) (by rw [← hb, hi_cat])
  rw [hl] at r1
  have hpop : ∀ t : St, stk c.z t = (order.map V ++ L) → SameRest e t → t.reg bp = e.reg bp → ∀ v : Bool,
      ctx c.z (ret (setEa v (pops saved.reverse t))) = ⟨fun r => if vis r then V r else 0, L, v⟩ ∧
      (ret (setEa v (pops saved.reverse t))).xram = e.xram ∧ (ret (setEa v (pops saved.reverse t))).reg bp = e.reg bp ∧
      (ret (pops saved.reverse t)).ea = e.ea ∧ ret (setEa v (pops saved.reverse t)) = setEa v (ret (pops saved.reverse t)) := by
    intro t h1 h2 h3 v
    have hst : stk c.z t = saved.reverse.map V ++ ([pch, pcl].map V ++ L) := by
      rw [h1]; unfold order; rw [List.map_append, List.append_assoc]
    obtain ⟨p1, p2, p3⟩ := pops_eff V _ saved.reverse t (by decide) hst
    generalize pops saved.reverse t = u at *
    obtain ⟨q1, q2, q3⟩ := pops_eff (z := c.z) V L [pch, pcl] (setEa v u) (by decide) (by
      rw [show stk c.z (setEa v u) = stk c.z u from stk_congr rfl rfl]; exact p1)
    obtain ⟨w1, w2, w3⟩ := pops_eff (z := c.z) V L [pch, pcl] u (by decide) p1
    refine ⟨?_, ?_, ?_, ?_, rfl⟩
    · unfold ctx
      show Ctx.mk _ (stk c.z (pops [pch, pcl] (setEa v u))) (pops [pch, pcl] (setEa v u)).ea = _
      rw [q1, q3.2]
      show Ctx.mk _ L v = _
      congr 1
      funext r
      by_cases hv : vis r = true
      · rw [if_pos hv, if_pos hv]
        show (pops [pch, pcl] (setEa v u)).reg r = V r
        rw [q2]
        have hm := mem_order hv
        unfold order at hm
        rw [List.mem_append] at hm
        by_cases e1 : r ∈ [pch, pcl]
        · rw [if_pos e1]
        · rw [if_neg e1]
          show u.reg r = V r
          rw [p2, if_pos (hm.resolve_right e1)]
      · rw [if_neg hv, if_neg hv]
    · show (pops [pch, pcl] (setEa v u)).xram = _
      rw [q3.1]; show u.xram = _; rw [p3.1, h2.1]
    · show (pops [pch, pcl] (setEa v u)).reg bp = _
      rw [q2, if_neg (by decide)]; show u.reg bp = _; rw [p2, if_neg (by decide), h3]
    · show (pops [pch, pcl] u).ea = _
      rw [w3.2, p3.2, h2.2]
  obtain ⟨z1, z2, z3, z4, z5⟩ := hpop (restore1 c.z e) r1 r2 r3 true
  cases k with
  | syscall => exact ⟨z1, z2, z3⟩
  | tick =>
    have hea : e.ea = true := hc rfl
    have heq : (port c).leave .tick e = ret (setEa true (pops saved.reverse (restore1 c.z e))) := by
      rw [z5]
      show ret (pops saved.reverse (restore1 c.z e)) = _
      unfold setEa
      have : (ret (pops saved.reverse (restore1 c.z e))).ea = true := z4.trans hea
      generalize ret (pops saved.reverse (restore1 c.z e)) = q at *
      rw [← this]
    rw [heq]
    exact ⟨z1, z2, z3⟩

/-- a block of external RAM that holds a context -/
theorem holds_of {c : Cfg} (m : St) (bs h : Addr) (V : R → Byte) (L : List Byte)
    (hl : load m.xram bs (h - bs).toNat = order.map V ++ L) (hn : (h - bs).toNat < 256) :
    (port c).Holds (bs, h) ⟨fun r => if vis r then V r else 0, L, true⟩ m := by
  refine ⟨fun _ _ => id, fun k e hc hr hm => ?_⟩
  refine (leave_eff k e V L hc bs h hr ?_ hn).1
  rw [← hl]
  apply load_congr
  intro i hi
  have hx := hm (bs + BitVec.ofNat 16 i, 0) (by
    show (bs + BitVec.ofNat 16 i - bs).toNat < (h - bs).toNat
    rw [add_sub_toNat _ _ (by omega)]; exact hi)
  exact hx

theorem arg_eq {c : Cfg} (k : Kind) (s : St) (h : Ok c s) :
    (port c).arg ((port c).enter k s) = (base c.z s, base c.z s + BitVec.ofNat 16 (image c.z s).length) := by
  obtain ⟨_, h2, h3⟩ := enter_eff k s h
  show (base c.z _, dptr _) = _
  rw [h2, h3]

theorem image_small {c : Cfg} {s : St} (h : Ok c s) : (image c.z s).length < 256 := by
  rw [image_length]; have := h.room; omega

/-- **C54, 8051**: the handlers save and restore the registers, the stack and the program counter of a task, whichever
handler takes it out and whichever brings it in; `switch_invisible` applies, for any number of tasks and any history.
Except for the frame pointer of the compiler: see `mcs51_bp_wrong`. -/
theorem mcs51_sound_partial (c : Cfg) : (port c).Sound (Ok c) where
  restores := fun k s hok _ => by
    rw [arg_eq k s hok]
    obtain ⟨h1, _, _⟩ := enter_eff k s hok
    have hl := image_small hok
    have := holds_of (c := c) ((port c).enter k s) (base c.z s) (base c.z s + BitVec.ofNat 16 (image c.z s).length) s.reg (stk c.z s)
      (by rw [h1, add_sub_toNat _ _ (by omega), load_store _ _ _ (by omega)]; rfl) (by rw [add_sub_toNat _ _ (by omega)]; exact hl)
    exact this
  saves_only_frame := fun k s x hok hf _ => by
    rw [arg_eq k s hok] at hf
    obtain ⟨h1, _, _⟩ := enter_eff k s hok
    have hl := image_small hok
    show ((port c).enter k s).xram x.1 = s.xram x.1
    rw [h1]
    refine store_out _ _ _ _ fun hlt => hf ?_
    show (x.1 - base c.z s).toNat < (base c.z s + _ - base c.z s).toNat
    rw [add_sub_toNat _ _ (by omega)]; exact hlt
  leaves_memory := fun k e x hc _ => by
    -- whatever it reads, the code that brings a context in writes no external RAM
    have hpx : ∀ (L : List R) (t : St), (pops L t).xram = t.xram := by
      intro L; induction L with
      | nil => exact fun _ => rfl
      | cons r L ih => exact fun t => ih (pop r t)
    have hdx : ∀ t : St, (pushXDptr t).xram = t.xram := fun t => (decDptr_eff t).2.2.2.2.1
    have hlx : ∀ (n : Nat) (t : St), (restoreLoop n t).xram = t.xram := by
      intro n; induction n with
      | zero => exact fun _ => rfl
      | succ n ih =>
        intro t
        have hb : (restoreBody t).xram = t.xram := hdx t
        unfold restoreLoop
        dsimp only
        split
        · rw [ih]; exact hb
        · split
          · rw [ih]; exact hb
          · exact hb
    have hrx : (restore1 c.z e).xram = e.xram := by
      unfold restore1
      rw [hlx]
      show (pushXDptr (mov r6 a (pushXDptr { e with sp := c.z }))).xram = _
      rw [hdx]; show (pushXDptr { e with sp := c.z }).xram = _
      rw [hdx]
    cases k with
    | tick =>
      show (pops [pch, pcl] (pops saved.reverse (restore1 c.z e))).xram x.1 = e.xram x.1
      rw [hpx, hpx, hrx]
    | syscall =>
      show (pops [pch, pcl] (setEa true (pops saved.reverse (restore1 c.z e)))).xram x.1 = e.xram x.1
      rw [hpx]
      show (pops saved.reverse (restore1 c.z e)).xram x.1 = _
      rw [hpx, hrx]
  kernel_stack := ⟨fun _ _ _ => rfl, fun _ _ _ => rfl⟩

/-- The scheduler keeps the upper end of the block only.  As long as the block is intact, the code finds the other end in it. -/
theorem mcs51_ret (c : Cfg) (k : Kind) (s e : St) (hok : Ok c s)
    (hd : dptr e = ((port c).arg ((port c).enter k s)).2)
    (hm : ∀ x, (port c).frame ((port c).arg ((port c).enter k s)) x → (port c).mem e x = (port c).mem ((port c).enter k s) x) :
    (port c).ret e = (port c).arg ((port c).enter k s) := by
  rw [arg_eq k s hok] at hd hm ⊢
  obtain ⟨h1, _, _⟩ := enter_eff k s hok
  have hl := image_small hok
  have hl2 := image_length c.z s
  have hcell : ∀ i, i < (image c.z s).length → e.xram (base c.z s + BitVec.ofNat 16 i) = (image c.z s).getD i 0 := by
    intro i hi
    have := hm (base c.z s + BitVec.ofNat 16 i, 0) (by
      show (base c.z s + _ - base c.z s).toNat < (base c.z s + _ - base c.z s).toNat
      rw [add_sub_toNat _ _ (by omega), add_sub_toNat _ _ (by omega)]; exact hi)
    have h2 : e.xram (base c.z s + BitVec.ofNat 16 i) = ((port c).enter k s).xram (base c.z s + BitVec.ofNat 16 i) := this
    rw [h2, h1, store_in _ _ _ _ hi (by omega)]
  show (cat (e.xram (dptr e - 2)) (e.xram (dptr e - 1)), dptr e) = _
  have hd' : dptr e = base c.z s + BitVec.ofNat 16 (image c.z s).length := hd
  rw [hd']
  generalize hn : (image c.z s).length = n at *
  have e1 : base c.z s + BitVec.ofNat 16 n - 1 = base c.z s + BitVec.ofNat 16 (n - 1) := by
    conv => lhs; rw [show n = (n - 1) + 1 by omega, BitVec.ofNat_add]
    exact (show ∀ x y : Addr, x + (y + 1#16) - 1 = x + y by intros; grind) _ _
  have e2 : base c.z s + BitVec.ofNat 16 n - 2 = base c.z s + BitVec.ofNat 16 (n - 2) := by
    conv => lhs; rw [show n = (n - 2) + 2 by omega, BitVec.ofNat_add]
    exact (show ∀ x y : Addr, x + (y + 2#16) - 2 = x + y by intros; grind) _ _
  rw [e1, e2, hcell _ (by omega), hcell _ (by omega)]
  have hb : bottom (image c.z s) = base c.z s := by
    rw [base_bottom hok.deep]; exact bottom_append _ _ (by rw [stk_length]; exact hok.deep)
  unfold bottom at hb
  rw [hn] at hb
  rw [hb]

/-! ### system calls -/

theorem pushAt0_eff {z : Byte} (s : St) (i : Nat) (h : i < depth z s) (hd : depth z s < 255) (h0 : s.reg r0 = s.sp - BitVec.ofNat 8 i) :
    stk z (pushAt0 s) = (stk z s).getD i 0 :: stk z s ∧ (pushAt0 s).sp = s.sp + 1 ∧ SameRest s (pushAt0 s) ∧
    (∀ r, r ≠ a → (pushAt0 s).reg r = s.reg r) ∧ depth z (pushAt0 s) = depth z s + 1 := by
  have hv : (movAt a r0 s).reg a = s.iram (s.sp - BitVec.ofNat 8 i) := by
    rw [← h0]; exact set_same _ _ _
  have hp : pushAt0 s = pushv (s.iram (s.sp - BitVec.ofNat 8 i)) (movAt a r0 s) := by
    show pushv ((movAt a r0 s).reg a) (movAt a r0 s) = _
    rw [hv]
  rw [hp, stk_getD z s i h]
  refine ⟨?_, rfl, ⟨rfl, rfl⟩, fun r hr => upd_ne _ _ hr, depth_pushv _ hd⟩
  rw [stk_pushv _ (show depth z (movAt a r0 s) < 255 from hd)]
  congr 1

theorem reserve_eff {z : Byte} (s : St) : dptr (reserve z s) = base z s + BitVec.ofNat 16 (depth z s) ∧ (reserve z s).sp = s.sp ∧
    (reserve z s).iram = s.iram ∧ SameRest s (reserve z s) := by
  have hd : dptr (dptrFromSp z s) = base z s := by
    unfold dptr dptrFromSp base
    simp only [run, set, movAt, upd, if_true]
    simp (decide := true)
  have hc : cat 0 (s.sp - z) = BitVec.ofNat 16 (depth z s) := by unfold cat depth; simp
  refine ⟨?_, rfl, rfl, rfl, rfl⟩
  unfold reserve
  simp only []
  rw [dptr_setDptr, set_dptr _ _ _ (by decide) (by decide), hd, set_same]
  show base z s + cat 0 (s.sp - z) = _
  rw [hc]

theorem image_getD {z : Byte} {s : St} (i : Nat) (h : i < 15) : (image z s).getD i 0 = s.reg (order.getD i a) := by
  unfold image
  rw [getD_append_l _ _ _ (by simp [order_length]; omega)]
  simp [List.getD_eq_getElem?_getD, List.getElem?_map, order_length, h]

theorem image_getD_stk {z : Byte} {s : St} (i : Nat) : (image z s).getD (15 + i) 0 = (stk z s).getD i 0 := by
  unfold image
  rw [getD_append_r _ _ _ (by simp [order_length])]
  simp [order_length]

/-- **C56, 8051**: a task that calls arch_syscall with its request in `dpl` and its argument on the stack, as the compiler does,
calls picoRTOS_syscall with the end its context will have, that request and that argument, interrupts disabled. -/
theorem mcs51_syscall_args (c : Cfg) (s : St) (h : Ok c s) (h3 : 3 ≤ depth c.z s) (p2 p1 p0 : Byte) (rest : List Byte)
    (hs : stk c.z s = p2 :: p1 :: p0 :: rest) :
    dptr (enterSys c s) = base c.z s + BitVec.ofNat 16 (image c.z s).length ∧
    stk c.z (enterSys c s) = s.reg dpl :: p2 :: p1 :: p0 :: image c.z s ∧ (enterSys c s).ea = false ∧ (enterSys c s).xram = s.xram := by
  have hroom := h.room
  have hil := image_length c.z s
  obtain ⟨a1, a2, a3, a4⟩ := push_all s h (setEa false) (fun _ => ⟨rfl, rfl, rfl⟩) (fun _ => rfl)
  have a5 : (save1 (setEa false (call s))).ea = false := a4
  have he : enterSys c s = pushAt0 ((fun s => set r0 (s.reg r0 + 4) s) (pushAt0 ((fun s => set r0 (s.reg r0 + 1) s) (pushAt0
    ((fun s => set r0 (s.reg r0 + 1) s) (pushAt0 ((fun s => set r0 (s.sp + 0xef) s)
      (reserve c.z (save1 (setEa false (call s))))))))))) := rfl
  generalize save1 (setEa false (call s)) = t at *
  obtain ⟨b1, b2, b3, b4⟩ := reserve_eff (z := c.z) t
  have td : depth c.z t = (image c.z s).length := by rw [← stk_length, a1]
  have b5 : base c.z t = base c.z s := base_image h.deep (order.map s.reg) a1
  have us : stk c.z (reserve c.z t) = image c.z s := (stk_congr b2 b3).trans a1
  have ud : dptr (reserve c.z t) = base c.z s + BitVec.ofNat 16 (image c.z s).length := by rw [b1, b5, td]
  have ue : (reserve c.z t).ea = false := b4.2.trans a5
  have ux : (reserve c.z t).xram = s.xram := b4.1.trans a2
  generalize reserve c.z t = u at *
  have udep : depth c.z u = 15 + depth c.z s := by rw [← stk_length, us, hil]
  have key : ∀ (v : Byte) (w : St), stk c.z (set r0 v w) = stk c.z w ∧ depth c.z (set r0 v w) = depth c.z w ∧ dptr (set r0 v w) = dptr w ∧
      (set r0 v w).sp = w.sp ∧ SameRest w (set r0 v w) ∧ (set r0 v w).reg r0 = v := fun v w =>
    ⟨stk_congr rfl rfl, rfl, set_dptr _ _ _ (by decide) (by decide), rfl, ⟨rfl, rfl⟩, set_same _ _ _⟩
  have pd : ∀ w : St, (∀ r, r ≠ a → (pushAt0 w).reg r = w.reg r) → dptr (pushAt0 w) = dptr w := by
    intro w hw; unfold dptr; rw [hw dph (by decide), hw dpl (by decide)]
  -- p0
  obtain ⟨k1, k2, k3, k4, k5, k6⟩ := key (u.sp + 0xef) u
  obtain ⟨m1, m2, m3, m4, m5⟩ := pushAt0_eff (z := c.z) (set r0 (u.sp + 0xef) u) 17 (by rw [k2]; omega) (by rw [k2]; omega)
    (by rw [k6, k4]; exact (show ∀ x : Byte, x + 0xef = x - BitVec.ofNat 8 17 by intro x; show x + 239#8 = x - 17#8; grind) _)
  rw [k1, us] at m1
  have md := (pd _ m4).trans k3
  have m6 := (m4 r0 (by decide)).trans k6
  rw [k4] at m2; rw [k2] at m5
  have m3' : SameRest u (pushAt0 (set r0 (u.sp + 0xef) u)) := m3
  have he' : enterSys c s = pushAt0 ((fun s => set r0 (s.reg r0 + 4) s) (pushAt0 ((fun s => set r0 (s.reg r0 + 1) s) (pushAt0
    ((fun s => set r0 (s.reg r0 + 1) s) (pushAt0 (set r0 (u.sp + 0xef) u))))))) := he
  generalize pushAt0 (set r0 (u.sp + 0xef) u) = w at *
  -- p1
  obtain ⟨n1, n2, n3, n4, n5, n6⟩ := key (w.reg r0 + 1) w
  obtain ⟨o1, o2, o3, o4, o5⟩ := pushAt0_eff (z := c.z) (set r0 (w.reg r0 + 1) w) 17 (by rw [n2]; omega) (by rw [n2]; omega)
    (by rw [n6, n4, m6, m2]; exact (show ∀ x : Byte, x + 0xef + 1 = x + 1 - BitVec.ofNat 8 17 by intro x; show x + 239#8 + 1 = x + 1 - 17#8; grind) _)
  rw [n1, m1] at o1
  have od := (pd _ o4).trans n3
  have o6 := (o4 r0 (by decide)).trans n6
  rw [n4] at o2; rw [n2] at o5
  have o3' : SameRest w (pushAt0 (set r0 (w.reg r0 + 1) w)) := o3
  have he'' : enterSys c s = pushAt0 ((fun s => set r0 (s.reg r0 + 4) s) (pushAt0 ((fun s => set r0 (s.reg r0 + 1) s)
    (pushAt0 (set r0 (w.reg r0 + 1) w))))) := he'
  generalize pushAt0 (set r0 (w.reg r0 + 1) w) = x at *
  -- p2
  obtain ⟨q1, q2, q3, q4, q5, q6⟩ := key (x.reg r0 + 1) x
  obtain ⟨v1, v2, v3, v4, v5⟩ := pushAt0_eff (z := c.z) (set r0 (x.reg r0 + 1) x) 17 (by rw [q2]; omega) (by rw [q2]; omega)
    (by rw [q6, q4, o6, o2, m6, m2]; exact (show ∀ x : Byte, x + 0xef + 1 + 1 = x + 1 + 1 - BitVec.ofNat 8 17 by
        intro x; show x + 239#8 + 1 + 1 = x + 1 + 1 - 17#8; grind) _)
  rw [q1, o1] at v1
  have vd := (pd _ v4).trans q3
  have v6 := (v4 r0 (by decide)).trans q6
  rw [q4] at v2; rw [q2] at v5
  have v3' : SameRest x (pushAt0 (set r0 (x.reg r0 + 1) x)) := v3
  have he3 : enterSys c s = pushAt0 ((fun s => set r0 (s.reg r0 + 4) s) (pushAt0 (set r0 (x.reg r0 + 1) x))) := he''
  generalize pushAt0 (set r0 (x.reg r0 + 1) x) = y at *
  -- dpl
  obtain ⟨g1, g2, g3, g4, g5, g6⟩ := key (y.reg r0 + 4) y
  obtain ⟨l1, l2, l3, l4, l5⟩ := pushAt0_eff (z := c.z) (set r0 (y.reg r0 + 4) y) 14 (by rw [g2]; omega) (by rw [g2]; omega)
    (by rw [g6, g4, v6, v2, o6, o2, m6, m2]; exact (show ∀ x : Byte, x + 0xef + 1 + 1 + 4 = x + 1 + 1 + 1 - BitVec.ofNat 8 14 by
        intro x; show x + 239#8 + 1 + 1 + 4 = x + 1 + 1 + 1 - 14#8; grind) _)
  rw [g1, v1] at l1
  have ld := (pd _ l4).trans g3
  have he4 : enterSys c s = pushAt0 (set r0 (y.reg r0 + 4) y) := he3
  have l3' : SameRest y (pushAt0 (set r0 (y.reg r0 + 4) y)) := l3
  have i0 : (image c.z s).getD 17 0 = p0 := by rw [show 17 = 15 + 2 from rfl, image_getD_stk, hs]; rfl
  have i1 : (image c.z s).getD 16 0 = p1 := by rw [show 16 = 15 + 1 from rfl, image_getD_stk, hs]; rfl
  have i2 : (image c.z s).getD 15 0 = p2 := by rw [show 15 = 15 + 0 from rfl, image_getD_stk, hs]; rfl
  have i3 : (image c.z s).getD 11 0 = s.reg dpl := by rw [image_getD 11 (by omega)]; rfl
  rw [he4]
  refine ⟨?_, ?_, ?_, ?_⟩
  · rw [ld, vd, od, md, ud]
  · rw [l1]
    simp only [List.getD_cons_succ, i0, i1, i2, i3]
  · rw [l3'.2, v3'.2, o3'.2, m3'.2, ue]
  · rw [l3'.1, v3'.1, o3'.1, m3'.1, ux]

/-- **C54, 8051, system calls**: arch_syscall saves the context of its caller after picoRTOS_syscall has returned.  If the C code
has left the stack of its caller alone, the effect is that of saving it before: the block holds the image of the
caller, the rest of external RAM is as C left it, and so is the pointer to the next task. -/
theorem mcs51_late_save (c : Cfg) (s e : St) (h : Ok c s) (q3 q2 q1 q0 : Byte)
    (hs : stk c.z e = q3 :: q2 :: q1 :: q0 :: image c.z s) :
    (lateSave c e).xram = store e.xram (base c.z s) (image c.z s) ∧ dptr (lateSave c e) = dptr e := by
  obtain ⟨t, ht⟩ : ∃ t : St, t = { e with sp := e.sp + 0xfc } := ⟨_, rfl⟩
  have h1 : stk c.z t = image c.z s := by
    obtain ⟨_, a1⟩ := stk_cons hs
    obtain ⟨_, a2⟩ := stk_cons (a1 (drop e) rfl rfl)
    obtain ⟨_, a3⟩ := stk_cons (a2 (drop (drop e)) rfl rfl)
    obtain ⟨_, a4⟩ := stk_cons (a3 (drop (drop (drop e))) rfl rfl)
    refine a4 t ?_ (by rw [ht]; rfl)
    rw [ht]
    exact (show ∀ x : Byte, x + 0xfc = x - 1 - 1 - 1 - 1 by intro x; show x + 252#8 = _; grind) _
  have hx : t.xram = e.xram := by rw [ht]
  have hl : t.reg dpl = e.reg dpl ∧ t.reg dph = e.reg dph := by rw [ht]; exact ⟨rfl, rfl⟩
  obtain ⟨u, hu⟩ : ∃ u : St, u = mov r6 dph (mov r5 dpl t) := ⟨_, rfl⟩
  have h2 : stk c.z u = image c.z s := by rw [hu]; exact h1
  have u5 : u.reg r5 = e.reg dpl := by
    rw [hu, mov_reg_ne _ _ _ _ (by decide), mov_same]; exact hl.1
  have u6 : u.reg r6 = e.reg dph := by
    rw [hu, mov_same, mov_reg_ne _ _ _ _ (by decide)]; exact hl.2
  have ux : u.xram = e.xram := by rw [hu]; exact hx
  have hls : lateSave c e = mov dph r6 (mov dpl r5 (save2 c.z u)) := by rw [hu, ht]; rfl
  obtain ⟨b1, b2, b3, b4, b5⟩ := save2_image s u h h2
  have v5 := (b5 r5 (by decide) (by decide) (by decide) (by decide) (by decide)).trans u5
  have v6 := (b5 r6 (by decide) (by decide) (by decide) (by decide) (by decide)).trans u6
  generalize save2 c.z u = v at *
  rw [hls]
  refine ⟨by show v.xram = _; rw [b1, ux], ?_⟩
  unfold dptr
  rw [mov_same, mov_reg_ne _ _ _ _ (show r6 ≠ dpl by decide), mov_reg_ne _ _ _ _ (show dpl ≠ dph by decide), mov_same, v5, v6]

variable {τ : Type}

/-- **C54, 8051**: a system call is a switch in the sense of the specification, with `lateSave c e` for the state C ends in, `e` being the
state in which picoRTOS_syscall returns: C may have done anything except writing to the stack of its caller and to the
contexts of the other tasks. -/
theorem mcs51_syscall_is_switch [DecidableEq τ] (c : Cfg) (x : Sys St (Addr × Addr) Ctx τ) (e : St) (n : τ) (h : Addr × Addr) (v : Ctx)
    (fit : Ok c x.m) (q3 q2 q1 q0 : Byte) (hs : stk c.z e = q3 :: q2 :: q1 :: q0 :: image c.z x.m)
    (deep : ∀ y, (port c).frame ((port c).arg ((port c).enter .syscall x.m)) y →
      ∀ t h' c', t ≠ x.cur → x.parked t = some (h', c') → ¬ (port c).frame h' y)
    (hk : ∀ t h' c', t ≠ x.cur → x.parked t = some (h', c') → ∀ y, (port c).frame h' y → e.xram y.1 = x.m.xram y.1)
    (hp : x.trapped (port c) .syscall n = some (h, v)) (hr : (port c).ret (lateSave c e) = h) :
    Switch (port c) (Ok c) x .syscall (lateSave c e) n v
      { cur := n, m := leaveSys c (lateSave c e), parked := fun t => if t = n then none else x.trapped (port c) .syscall t } := by
  refine ⟨fit, fun y hy => ⟨fun hf => hf, deep y hy⟩, (fun hk => by cases hk), ⟨h, hp, hr⟩, ?_, rfl⟩
  obtain ⟨l1, _⟩ := mcs51_late_save c x.m e fit q3 q2 q1 q0 hs
  obtain ⟨e1, _, _⟩ := enter_eff (c := c) .syscall x.m fit
  have hl := image_small fit
  intro t h' c' ht y hy
  show (lateSave c e).xram y.1 = ((port c).enter .syscall x.m).xram y.1
  rw [l1, e1]
  by_cases hin : (y.1 - base c.z x.m).toNat < (image c.z x.m).length
  · unfold store; rw [if_pos hin, if_pos hin]
  · rw [store_out _ _ _ _ hin, store_out _ _ _ _ hin]
    by_cases htc : t = x.cur
    · exfalso
      unfold Sys.trapped at ht
      rw [if_pos htc] at ht
      injection ht with ht
      have h1 : h' = (port c).arg ((port c).enter .syscall x.m) := (congrArg Prod.fst ht).symm
      rw [h1, arg_eq _ _ fit] at hy
      apply hin
      have : (y.1 - base c.z x.m).toNat < (base c.z x.m + _ - base c.z x.m).toNat := hy
      rwa [add_sub_toNat _ _ (by omega)] at this
    · unfold Sys.trapped at ht
      rw [if_neg htc] at ht
      exact hk t h' c' htc ht y hy

/-- **C54, 8051, refuted for the frame pointer of the compiler**: `_bp` is not part of the context.  A task that comes back finds the one
the task before it (or C) left. -/
theorem mcs51_bp_wrong (c : Cfg) (k : Kind) (s e : St) (h : Ok c s) (hc : (port c).cok k e)
    (hr : (port c).ret e = (port c).arg ((port c).enter k s))
    (hm : ∀ x, (port c).frame ((port c).arg ((port c).enter k s)) x → (port c).mem e x = (port c).mem ((port c).enter k s) x) :
    ((port c).leave k e).reg bp = e.reg bp := by
  rw [arg_eq k s h] at hr hm
  obtain ⟨h1, _, _⟩ := enter_eff k s h
  have hl := image_small h
  refine (leave_eff k e s.reg (stk c.z s) hc _ _ hr ?_ (by rw [add_sub_toNat _ _ (by omega)]; exact hl)).2.2
  rw [add_sub_toNat _ _ (by omega)]
  conv => rhs; rw [show order.map s.reg ++ stk c.z s = image c.z s from rfl, ← load_store s.xram (base c.z s) (image c.z s) (by omega), ← h1]
  apply load_congr
  intro i hi
  have := hm (base c.z s + BitVec.ofNat 16 i, 0) (by
      show (base c.z s + _ - base c.z s).toNat < (base c.z s + _ - base c.z s).toNat
      rw [add_sub_toNat _ _ (by omega), add_sub_toNat _ _ (by omega)]; exact hi)
  exact this

/-! ### platform interrupts -/

/-- **C57, 8051**: an interrupt enters the function registered for it with the two low bytes of its argument; the third one, which
tells a compiler pointer's address space, is always 0. -/
theorem mcs51_isr (c : Cfg) (vn : Byte) (s : St) (h : Ok c s) :
    let t := isrCall c vn s
    let x := fun i => s.xram (entry c vn + i)
    cat (t.reg pch) (t.reg pcl) = cat (x 1) (x 0) ∧ dptr t = cat (x 3) (x 2) ∧ t.reg b = 0 ∧
    stk c.z t = hi c.back :: lo c.back :: image c.z s ∧ t.xram = s.xram ∧ t.ea = s.ea := by
  have hroom := h.room
  have hil := image_length c.z s
  obtain ⟨a1, a2, a3, a4⟩ := push_all s h id (fun _ => ⟨rfl, rfl, rfl⟩) (fun _ => rfl)
  have a5 : (save1 (call s)).ea = s.ea := by
    have : (call s).ea = s.ea := (pushes_eff (z := c.z) [pcl, pch] s (by simp; omega)).2.2.2
    exact a4.trans this
  have a1' : stk c.z (save1 (call s)) = image c.z s := a1
  have a2' : (save1 (call s)).xram = s.xram := a2
  have he0 : isrCall c vn s = (fun m : St => ret (run [push r3, push r4, mov dpl r5, mov dph r6, set b 0] (pushv (hi c.back) (pushv (lo c.back)
    (run [setDptr (entry c vn), movxLd, mov r3 a, incDptr, movxLd, mov r4 a, incDptr, movxLd, mov r5 a, incDptr, movxLd, mov r6 a] m)))))
    (save1 (call s)) := rfl
  clear a1 a2 a3 a4
  generalize save1 (call s) = m at *
  obtain ⟨w, hw⟩ : ∃ w : St, w = run [setDptr (entry c vn), movxLd, mov r3 a, incDptr, movxLd, mov r4 a, incDptr,
    movxLd, mov r5 a, incDptr, movxLd, mov r6 a] m := ⟨_, rfl⟩
  have he : isrCall c vn s = ret (run [push r3, push r4, mov dpl r5, mov dph r6, set b 0] (pushv (hi c.back) (pushv (lo c.back) w))) := by
    rw [he0, hw]
  have w1 : stk c.z w = image c.z s := by rw [hw]; exact (stk_congr rfl rfl).trans a1'
  have w2 : w.xram = s.xram := by rw [hw]; exact a2'
  have w3 : w.ea = s.ea := by rw [hw]; exact a5
  -- the bytes of the entry
  have hset : ∀ (v : Byte) (t : St) (d : Addr), dptr (set a v (setDptr d t)) = d := fun v t d => by
    rw [set_dptr _ _ _ (by decide) (by decide), dptr_setDptr]
  have step : ∀ (t : St) (d : Addr) (r : R), r ≠ dpl → r ≠ dph → r ≠ a → dptr t = d → t.xram = s.xram →
      dptr (incDptr (mov r a (movxLd t))) = d + 1 ∧ (incDptr (mov r a (movxLd t))).reg r = s.xram d ∧
      (incDptr (mov r a (movxLd t))).xram = s.xram ∧ (∀ q, q ≠ a → q ≠ r → q ≠ dpl → q ≠ dph → (incDptr (mov r a (movxLd t))).reg q = t.reg q) ∧
      (mov r a (movxLd t)).reg r = s.xram d ∧ (∀ q, q ≠ a → q ≠ r → (mov r a (movxLd t)).reg q = t.reg q) := by
    intro t d r h1 h2 h3 hd hx
    have e1 : dptr (mov r a (movxLd t)) = d := by
      rw [mov_dptr _ _ _ h1 h2]; exact (set_dptr _ _ _ (by decide) (by decide)).trans hd
    have e2 : (mov r a (movxLd t)).reg r = s.xram d := by
      rw [mov_same]; exact (set_same _ _ _).trans (by rw [hx, hd])
    have e3 : ∀ q, q ≠ a → q ≠ r → (mov r a (movxLd t)).reg q = t.reg q := fun q q1 q2 => by
      rw [mov_reg_ne _ _ _ _ q2]; exact upd_ne _ _ q1
    refine ⟨?_, ?_, hx, ?_, e2, e3⟩
    · show dptr (setDptr _ _) = _
      rw [dptr_setDptr, e1]
    · show (setDptr _ _).reg r = _
      rw [setDptr_reg _ _ _ h2 h1, e2]
    · intro q q1 q2 q3 q4
      show (setDptr _ _).reg q = _
      rw [setDptr_reg _ _ _ q4 q3, e3 q q1 q2]
  obtain ⟨s1, s2, s3, s4, _, _⟩ := step (setDptr (entry c vn) m) (entry c vn) r3 (by decide) (by decide) (by decide)
    (dptr_setDptr _ _) a2'
  generalize hg1 : incDptr (mov r3 a (movxLd (setDptr (entry c vn) m))) = g1 at *
  obtain ⟨t1, t2, t3, t4, _, _⟩ := step g1 _ r4 (by decide) (by decide) (by decide) s1 s3
  generalize hg2 : incDptr (mov r4 a (movxLd g1)) = g2 at *
  obtain ⟨u1, u2, u3, u4, _, _⟩ := step g2 _ r5 (by decide) (by decide) (by decide) t1 t3
  generalize hg3 : incDptr (mov r5 a (movxLd g2)) = g3 at *
  obtain ⟨_, _, _, _, v2, v4⟩ := step g3 _ r6 (by decide) (by decide) (by decide) u1 u3
  have hwg : w = mov r6 a (movxLd g3) := by rw [hw, ← hg3, ← hg2, ← hg1]; rfl
  have x3 : w.reg r3 = s.xram (entry c vn + 0) := by
    rw [hwg, v4 r3 (by decide) (by decide), u4 r3 (by decide) (by decide) (by decide) (by decide),
      t4 r3 (by decide) (by decide) (by decide) (by decide), s2]; congr 1; grind
  have x4 : w.reg r4 = s.xram (entry c vn + 1) := by
    rw [hwg, v4 r4 (by decide) (by decide), u4 r4 (by decide) (by decide) (by decide) (by decide), t2]
  have x5 : w.reg r5 = s.xram (entry c vn + 2) := by
    rw [hwg, v4 r5 (by decide) (by decide), u2]; congr 1; grind
  have x6 : w.reg r6 = s.xram (entry c vn + 3) := by rw [hwg, v2]; congr 1; grind
  clear hwg hg1 hg2 hg3 hw step hset
  -- the call
  have wd : depth c.z w = (image c.z s).length := by rw [← stk_length, w1]
  have y1 : stk c.z (pushv (hi c.back) (pushv (lo c.back) w)) = hi c.back :: lo c.back :: image c.z s := by
    rw [stk_pushv _ (by rw [depth_pushv _ (by omega)]; omega), stk_pushv _ (by omega), w1]
  have y2 : ∀ r, (pushv (hi c.back) (pushv (lo c.back) w)).reg r = w.reg r := fun _ => rfl
  have y3 : (pushv (hi c.back) (pushv (lo c.back) w)).xram = s.xram ∧ (pushv (hi c.back) (pushv (lo c.back) w)).ea = s.ea := ⟨w2, w3⟩
  generalize pushv (hi c.back) (pushv (lo c.back) w) = y at *
  have yd : depth c.z y = (image c.z s).length + 2 := by rw [← stk_length, y1]; rfl
  obtain ⟨z1, z2, z3⟩ := pushes_eff (z := c.z) [r3, r4] y (by simp; omega)
  have he2 : isrCall c vn s = ret (set b 0 (mov dph r6 (mov dpl r5 (pushes [r3, r4] y)))) := he
  generalize pushes [r3, r4] y = p at *
  obtain ⟨m1, m2, m3⟩ := pops_eff (z := c.z) (fun r => if r = pch then y.reg r4 else y.reg r3) (hi c.back :: lo c.back :: image c.z s)
    [pch, pcl] (set b 0 (mov dph r6 (mov dpl r5 p))) (by decide) (by
      rw [show stk c.z (set b 0 (mov dph r6 (mov dpl r5 p))) = stk c.z p from stk_congr rfl rfl, z1, y1]; rfl)
  have he3 : isrCall c vn s = pops [pch, pcl] (set b 0 (mov dph r6 (mov dpl r5 p))) := he2
  simp only []
  rw [he3]
  refine ⟨?_, ?_, ?_, m1, ?_, ?_⟩
  · rw [m2, m2, if_pos (by decide), if_pos (show pcl ∈ [pch, pcl] by decide), if_neg (show pcl ≠ pch by decide)]
    show cat (y.reg r4) (y.reg r3) = _
    rw [y2, y2, x4, x3]
  · unfold dptr
    rw [m2, m2, if_neg (by decide), if_neg (by decide)]
    show cat (upd (mov dph r6 (mov dpl r5 p)).reg b 0 dph) (upd (mov dph r6 (mov dpl r5 p)).reg b 0 dpl) = _
    rw [upd_ne _ _ (by decide), upd_ne _ _ (by decide), mov_same, mov_reg_ne _ _ _ _ (show r6 ≠ dpl by decide),
      mov_reg_ne _ _ _ _ (show dpl ≠ dph by decide), mov_same, z2, y2, y2, x6, x5]
  · rw [m2, if_neg (by decide)]; exact set_same _ _ _
  · rw [m3.1]; show p.xram = _; rw [z3.1, y3.1]
  · rw [m3.2]; show p.ea = _; rw [z3.2, y3.2]

/-- the entry of the table is the right one for the numbers the devices have, 52 at most -/
theorem mcs51_entry (c : Cfg) (vn : Byte) (h : vn.toNat < 52) : entry c vn = c.table + BitVec.ofNat 16 (5 * vn.toNat) := by
  unfold entry cat
  congr 2
  rw [BitVec.toNat_mul, show (5 : Byte).toNat = 5 by decide, show (0 : Byte).toNat = 0 by decide]
  omega

/-- **C57, 8051**: when it returns, with the stack as it found it, the task resumes with its context. -/
theorem mcs51_isr_resumes (c : Cfg) (s e : St) (he : stk c.z e = hi c.back :: lo c.back :: image c.z s) :
    (ctx c.z (isrRet e)) = { ctx c.z s with ea := e.ea } ∧ (isrRet e).xram = e.xram := by
  obtain ⟨a1, a2, a3⟩ := pops_eff (z := c.z) (fun r => if r = pch then hi c.back else lo c.back) (image c.z s) [pch, pcl] e (by decide)
    (by rw [he]; rfl)
  have h0 : isrRet e = pops [pch, pcl] (pops saved.reverse (pops [pch, pcl] e)) := rfl
  generalize pops [pch, pcl] e = t at *
  have hst : stk c.z t = saved.reverse.map s.reg ++ ([pch, pcl].map s.reg ++ stk c.z s) := by
    rw [a1]; unfold image order; rw [List.map_append, List.append_assoc]
  obtain ⟨p1, p2, p3⟩ := pops_eff s.reg _ saved.reverse t (by decide) hst
  generalize pops saved.reverse t = u at *
  obtain ⟨q1, q2, q3⟩ := pops_eff (z := c.z) s.reg (stk c.z s) [pch, pcl] u (by decide) p1
  rw [h0]
  refine ⟨?_, by rw [q3.1, p3.1, a3.1]⟩
  unfold ctx
  rw [q1, q3.2, p3.2, a3.2]
  simp only [Ctx.mk.injEq, and_true]
  funext r
  by_cases hv : vis r = true
  · rw [if_pos hv, if_pos hv, q2]
    have hm := mem_order hv
    unfold order at hm
    rw [List.mem_append] at hm
    by_cases e1 : r ∈ [pch, pcl]
    · rw [if_pos e1]
    · rw [if_neg e1, p2, if_pos (hm.resolve_right e1)]
  · rw [if_neg hv, if_neg hv]

end Pico.Ctx51
