import Verif.Arch.Hcs08
/-
The HCS08 port: context switches are invisible (C54), how tasks start (C55), what reaches the scheduler (C56) and
platform interrupts (C57).
-/
namespace Pico.Ctx8.Hcs08
open R

theorem below_zero (p : Addr) (n : Nat) (y : Addr) (h : ¬ (p - y).toNat < n) (i : Addr) (hi : i.toNat < n) : y ≠ p - i := by
  intro e
  apply h
  rw [e, show p - (p - i) = i by grind]
  exact hi

theorem below_self (p y : Addr) (n : Nat) (h : ¬ (p - y).toNat < n) (hn : 0 < n) : y ≠ p := by
  intro e
  apply h
  rw [e, show p - p = 0 by grind]
  exact hn

/-- SWAP_STACK exchanges the stack pointer and the one set aside, through two bytes below the stack pointer -/
theorem swap_eff (b : Addr) (s : St R) (h1 : ¬ (s.sp - b).toNat < 2) (h2 : ¬ (s.sp - (b + 1)).toNat < 2) :
    (swap b s).sp = cat (s.mem b) (s.mem (b + 1)) - 1 ∧
    cat ((swap b s).mem b) ((swap b s).mem (b + 1)) = s.sp + 1 ∧
    (∀ y, y ≠ b → y ≠ b + 1 → ¬ (s.sp - y).toNat < 2 → (swap b s).mem y = s.mem y) ∧
    ∀ r, r ≠ h → r ≠ x → (swap b s).reg r = s.reg r := by
  obtain ⟨rg, p, m⟩ := s
  simp only [] at h1 h2 ⊢
  have n1 : b ≠ p := below_self _ _ _ h1 (by decide)
  have n2 : b ≠ p - 1 := below_zero _ _ _ h1 1 (by decide)
  have n3 : b + 1 ≠ p := below_self _ _ _ h2 (by decide)
  have n4 : b + 1 ≠ p - 1 := below_zero _ _ _ h2 1 (by decide)
  have n5 : b ≠ b + 1 := by grind
  have n6 : p ≠ p - 1 := by grind
  obtain ⟨m', hm'⟩ : ∃ m' : Addr → Byte, m' = upd (upd (upd (upd m p (m b)) (p - 1) (m (b + 1))) b (hi (p + 1))) (b + 1) (lo (p + 1)) := ⟨_, rfl⟩
  have key : swap b ⟨rg, p, m⟩ = ⟨upd (upd (upd (upd rg h (hi (p + 1))) x (lo (p + 1))) x (m' (p - 1))) h (m' p),
      cat (m' p) (m' (p - 1)) - 1, m'⟩ := by
    have e2 : p - 1 - 1 + 1 = p - 1 := by grind
    have e3 : p - 1 + 1 = p := by grind
    have e4 : p - 1 + 2 = p + 1 := by grind
    have u1 : ∀ v w : Byte, upd (upd rg h v) x w h = v := fun v w => by rw [upd_ne _ _ (show h ≠ x by decide), upd_same]
    have u2 : ∀ (v w v' w' : Byte), upd (upd (upd (upd rg h v) x w) h v') x w' = upd (upd rg h v') x w' := by
      intro v w v' w'
      funext r
      unfold upd
      split
      · rfl
      · split <;> rfl
    have u3 : ∀ (f : R → Byte) (v w : Byte), upd (upd f x v) h w x = v := fun f v w => by
      rw [upd_ne _ _ (show x ≠ h by decide), upd_same]
    simp only [swap, run, ldhx, push, tsx, setHx, aix, hx, sthx, pop, txs, upd_same, u1, u2, u3, e2, e3, e4, cat_hi_lo, ← hm']
  have m0 : m' p = m b := by
    rw [hm', upd_ne _ _ (Ne.symm n3), upd_ne _ _ (Ne.symm n1), upd_ne _ _ n6, upd_same]
  have m1 : m' (p - 1) = m (b + 1) := by
    rw [hm', upd_ne _ _ (Ne.symm n4), upd_ne _ _ (Ne.symm n2), upd_same]
  rw [key]
  refine ⟨?_, ?_, ?_, ?_⟩
  · simp only [m0, m1]
  · simp only [hm', upd_same, upd_ne _ _ n5, cat_hi_lo]
  · intro y y1 y2 y3
    simp only [hm']
    rw [upd_ne _ _ y2, upd_ne _ _ y1, upd_ne _ _ (below_zero _ _ _ y3 1 (by decide)), upd_ne _ _ (below_self _ _ _ y3 (by decide))]
  · intro r r1 r2
    simp only []
    rw [upd_ne _ _ r1, upd_ne _ _ r2, upd_ne _ _ r2, upd_ne _ _ r1]

/-- the registers saved, in order -/
def slots : List R := hwRegs ++ [h]

theorem mem_slots (r : R) : r ∈ slots := by cases r <;> decide

/-- the hardware and `pshh`, with anything done in between to A -/
theorem trap_eff (s : St R) (f : Byte → Byte) :
    let t := push h ({ trap s with reg := upd (trap s).reg a (f (s.reg a)) })
    Pushed s (slots.map s.reg) t ∧ t.reg = upd (upd s.reg ccr (s.reg ccr ||| 0x08)) a (f (s.reg a)) := by
  have p1 : Pushed s (hwRegs.map s.reg) (pushes hwRegs s) := (Pushed.refl s).pushes _
  have r1 := pushes_reg hwRegs s
  have e : ∀ v, ({ trap s with reg := v } : St R) = { pushes hwRegs s with reg := v } := fun v => rfl
  have e' : (trap s).reg = upd s.reg ccr (s.reg ccr ||| 0x08) := by
    show upd (pushes hwRegs s).reg ccr ((pushes hwRegs s).reg ccr ||| 0x08) = _; rw [r1]
  simp only [e, e']
  generalize pushes hwRegs s = y at p1 r1
  obtain ⟨z, hz⟩ : ∃ z, z = ({ y with reg := upd (upd s.reg ccr (s.reg ccr ||| 0x08)) a (f (s.reg a)) } : St R) := ⟨_, rfl⟩
  have p2 : Pushed s (hwRegs.map s.reg) z := by rw [hz]; exact p1.regs _
  have r2 : z.reg = upd (upd s.reg ccr (s.reg ccr ||| 0x08)) a (f (s.reg a)) := by rw [hz]
  rw [← hz]
  have p3 := p2.pushes [h]
  refine ⟨?_, r2⟩
  have e2 : hwRegs.map s.reg ++ [h].map z.reg = slots.map s.reg := by
    rw [show slots = hwRegs ++ [h] from rfl, List.map_append, r2]
    show _ ++ [upd (upd s.reg ccr _) a _ h] = _ ++ [s.reg h]
    rw [upd_ne _ _ (show h ≠ a by decide), upd_ne _ _ (show h ≠ ccr by decide)]
  rw [e2] at p3
  exact p3

theorem toNat_shift (p y : Addr) (n k : Nat) (h : ¬ (p - y).toNat < n + k) (hk : n + k < 65536) :
    ¬ (p - BitVec.ofNat 16 k - y).toNat < n := by
  rw [show p - BitVec.ofNat 16 k - y = (p - y) - BitVec.ofNat 16 k by grind]
  generalize p - y = d at *
  have := d.isLt
  rw [BitVec.toNat_sub, BitVec.toNat_ofNat, Nat.mod_eq_of_lt (show k < 2 ^ 16 by omega)]
  omega

/-- the beginning of every handler: `t` is the state after `pshh` -/
theorem save_eff (c : Cfg) (s t : St R) (hb : ¬ (s.sp - c.b).toNat < 8 ∧ ¬ (s.sp - (c.b + 1)).toNat < 8)
    (p : Pushed s (slots.map s.reg) t) :
    (swap c.b t).sp = ksp c s ∧
    cat ((swap c.b t).mem c.b) ((swap c.b t).mem (c.b + 1)) = s.sp - 5 ∧
    (∀ r, s.sp - BitVec.ofNat 16 (slots.idxOf r) ≠ c.b → s.sp - BitVec.ofNat 16 (slots.idxOf r) ≠ c.b + 1 →
      (swap c.b t).mem (s.sp - BitVec.ofNat 16 (slots.idxOf r)) = s.reg r) ∧
    (∀ y, y ≠ c.b → y ≠ c.b + 1 → ¬ (s.sp - y).toNat < 8 → (swap c.b t).mem y = s.mem y) ∧
    ∀ r, r ≠ h → r ≠ x → (swap c.b t).reg r = t.reg r := by
  have hsp : t.sp = s.sp - BitVec.ofNat 16 6 := p.sp
  have ho : ∀ y, ¬ (s.sp - y).toNat < 6 → t.mem y = s.mem y := fun y hy => p.out y hy
  have hc : ∀ r, t.mem (s.sp - BitVec.ofNat 16 (slots.idxOf r)) = s.reg r := fun r => p.cell (by decide) r (mem_slots r)
  obtain ⟨w1, w2, w3, w4⟩ := swap_eff c.b t (by rw [hsp]; exact toNat_shift _ _ 2 6 hb.1 (by decide))
    (by rw [hsp]; exact toNat_shift _ _ 2 6 hb.2 (by decide))
  rw [hsp] at w2 w3
  refine ⟨?_, ?_, ?_, ?_, w4⟩
  · rw [w1, ho _ (by omega), ho _ (by omega)]; rfl
  · rw [w2]; grind
  · intro r h1 h2
    rw [w3 _ h1 h2, hc r]
    have : slots.idxOf r < 6 := by cases r <;> decide
    generalize slots.idxOf r = i at this
    rw [show s.sp - BitVec.ofNat 16 6 - (s.sp - BitVec.ofNat 16 i) = BitVec.ofNat 16 i - BitVec.ofNat 16 6 by grind]
    rw [BitVec.toNat_sub, BitVec.toNat_ofNat, BitVec.toNat_ofNat]
    omega
  · intro y h1 h2 h3
    rw [w3 y h1 h2 (toNat_shift _ _ 2 6 h3 (by decide)), ho y (by omega)]

/-- HX_TO_XA -/
theorem hxToXa_eff (s : St R) : cat ((hxToXa s).reg x) ((hxToXa s).reg a) = hx s ∧ (hxToXa s).sp = s.sp ∧
    (∀ y, y ≠ s.sp → (hxToXa s).mem y = s.mem y) ∧ ∀ r, r ≠ x → r ≠ a → (hxToXa s).reg r = s.reg r := by
  obtain ⟨rg, q, m⟩ := s
  refine ⟨?_, ?_, ?_, ?_⟩
  · simp only [hxToXa, run, mv, push, pop, hx]
    rw [show q - 1 + 1 = q by grind]
    simp only [upd_same, upd_ne, ne_eq, reduceCtorEq, not_false_eq_true]
  · show q - 1 + 1 = q
    grind
  · intro y hy
    exact upd_ne _ _ hy
  · intro r h1 h2
    show upd (upd rg a _) x _ r = rg r
    rw [upd_ne _ _ h1, upd_ne _ _ h2]

/-- XA_TO_HX -/
theorem xaToHx_eff (s : St R) : hx (xaToHx s) = cat (s.reg x) (s.reg a) ∧ (xaToHx s).sp = s.sp ∧
    (∀ y, y ≠ s.sp → (xaToHx s).mem y = s.mem y) ∧ ∀ r, r ≠ x → r ≠ h → (xaToHx s).reg r = s.reg r := by
  obtain ⟨rg, q, m⟩ := s
  refine ⟨?_, ?_, ?_, ?_⟩
  · simp only [xaToHx, run, mv, push, pop, hx]
    rw [show q - 1 + 1 = q by grind]
    simp only [upd_same, upd_ne, ne_eq, reduceCtorEq, not_false_eq_true]
  · show q - 1 + 1 = q
    grind
  · intro y hy
    exact upd_ne _ _ hy
  · intro r h1 h2
    show upd (upd rg h _) x _ r = rg r
    rw [upd_ne _ _ h1, upd_ne _ _ h2]

/-- the call of picoRTOS_syscall: its arguments are X:A and three bytes of the kernel's stack -/
theorem call_eff (c : Cfg) (u : St R) (hb : ¬ (u.sp - c.b).toNat < 5 ∧ ¬ (u.sp - (c.b + 1)).toNat < 5) :
    let y := run [push a, ldhx c.b, ldaX 9, push a, ldaX 8, push a, ldaS 3, push a, hxToXa] u
    let p := cat (u.mem c.b) (u.mem (c.b + 1))
    y.sp = u.sp - 4 ∧ cat (y.reg x) (y.reg a) = p ∧ (∀ z, ¬ (u.sp - z).toNat < 5 → y.mem z = u.mem z) ∧
    y.reg ccr = u.reg ccr ∧ y.mem (y.sp + 1) = u.reg a ∧
    (¬ (u.sp - (p + 8)).toNat < 5 → y.mem (y.sp + 2) = u.mem (p + 8)) ∧
    (¬ (u.sp - (p + 9)).toNat < 5 → y.mem (y.sp + 3) = u.mem (p + 9)) := by
  obtain ⟨rg, q, m⟩ := u
  simp only [] at hb ⊢
  have n1 : c.b ≠ q := below_self _ _ _ hb.1 (by decide)
  have n3 : c.b + 1 ≠ q := below_self _ _ _ hb.2 (by decide)
  obtain ⟨p, hp⟩ : ∃ p, p = cat (m c.b) (m (c.b + 1)) := ⟨_, rfl⟩
  obtain ⟨m1, hm1⟩ : ∃ m1, m1 = upd m q (rg a) := ⟨_, rfl⟩
  obtain ⟨m2, hm2⟩ : ∃ m2, m2 = upd m1 (q - 1) (m1 (p + 9)) := ⟨_, rfl⟩
  obtain ⟨m3, hm3⟩ : ∃ m3, m3 = upd m2 (q - 1 - 1) (m2 (p + 8)) := ⟨_, rfl⟩
  obtain ⟨m4, hm4⟩ : ∃ m4, m4 = upd m3 (q - 1 - 1 - 1) (rg a) := ⟨_, rfl⟩
  have g1 : m1 c.b = m c.b := by rw [hm1, upd_ne _ _ n1]
  have g2 : m1 (c.b + 1) = m (c.b + 1) := by rw [hm1, upd_ne _ _ n3]
  have e3 : q - 1 - 1 - 1 + 3 = q := by grind
  have g3 : m3 q = rg a := by
    rw [hm3, upd_ne _ _ (by grind), hm2, upd_ne _ _ (by grind), hm1, upd_same]
  obtain ⟨z, hz⟩ : ∃ z : St R, z = run [push a, ldhx c.b, ldaX 9, push a, ldaX 8, push a, ldaS 3, push a] ⟨rg, q, m⟩ := ⟨_, rfl⟩
  have z1 : z.mem = m4 ∧ z.sp = q - 1 - 1 - 1 - 1 ∧ hx z = p ∧ z.reg ccr = rg ccr := by
    rw [hz]
    simp only [run, push, ldhx, ldaX, ldaS, hx, upd_same, upd_ne, ne_eq, reduceCtorEq, not_false_eq_true, ← hm1, g1, g2, ← hp,
      ← hm2, ← hm3, e3, g3, ← hm4, and_self]
  have he : run [push a, ldhx c.b, ldaX 9, push a, ldaX 8, push a, ldaS 3, push a, hxToXa] ⟨rg, q, m⟩ = hxToXa z := by
    rw [hz]; rfl
  rw [he]
  obtain ⟨x1, x2, x3, x4⟩ := hxToXa_eff z
  obtain ⟨z1, z2, z3, z4⟩ := z1
  have s4 : q - 1 - 1 - 1 - 1 = q - 4 := by grind
  rw [s4] at z2
  rw [z2] at x2 x3
  rw [← hp]
  have hb0 : ∀ z, ¬ (q - z).toNat < 5 → z ≠ q ∧ z ≠ q - 1 ∧ z ≠ q - 1 - 1 ∧ z ≠ q - 1 - 1 - 1 ∧ z ≠ q - 4 := by
    intro z hz
    refine ⟨below_self _ _ _ hz (by decide), below_zero _ _ _ hz 1 (by decide), ?_, ?_, below_zero _ _ _ hz 4 (by decide)⟩
    · rw [show q - 1 - 1 = q - 2 by grind]; exact below_zero _ _ _ hz 2 (by decide)
    · rw [show q - 1 - 1 - 1 = q - 3 by grind]; exact below_zero _ _ _ hz 3 (by decide)
  refine ⟨x2, by rw [x1, z3], ?_, ?_, ?_, ?_, ?_⟩
  · intro z hz
    obtain ⟨h1, h2, h3, h4, h5⟩ := hb0 z hz
    rw [x3 z h5, z1, hm4, upd_ne _ _ h4, hm3, upd_ne _ _ h3, hm2, upd_ne _ _ h2, hm1, upd_ne _ _ h1]
  · rw [x4 ccr (by decide) (by decide), z4]
  · rw [x2, show q - 4 + 1 = q - 1 - 1 - 1 by grind, x3 _ (by grind), z1, hm4, upd_same]
  · intro hh
    obtain ⟨h1, h2, h3, h4, h5⟩ := hb0 _ hh
    rw [x2, show q - 4 + 2 = q - 1 - 1 by grind, x3 _ (by grind), z1, hm4, upd_ne _ _ (by grind), hm3, upd_same, hm2,
      upd_ne _ _ h2, hm1, upd_ne _ _ h1]
  · intro hh
    obtain ⟨h1, h2, h3, h4, h5⟩ := hb0 _ hh
    rw [x2, show q - 4 + 3 = q - 1 by grind, x3 _ (by grind), z1, hm4, upd_ne _ _ (by grind), hm3, upd_ne _ _ (by grind),
      hm2, upd_same, hm1, upd_ne _ _ h1]

/-- what the handlers leave in memory for C, whichever it is -/
structure Saved (c : Cfg) (s y : St R) : Prop where
  /-- the registers of the task are in its frame -/
  cell : ∀ r, let z := s.sp - BitVec.ofNat 16 (slots.idxOf r)
    z ≠ c.b → z ≠ c.b + 1 → ¬ (ksp c s - z).toNat < 5 → z ≠ c.dev → y.mem z = s.reg r
  /-- nothing else is written but the kernel's stack, `_bhx` and the timer -/
  out : ∀ z, z ≠ c.b → z ≠ c.b + 1 → ¬ (ksp c s - z).toNat < 5 → z ≠ c.dev → ¬ (s.sp - z).toNat < 8 → y.mem z = s.mem z

theorem enter_syscall_eff (c : Cfg) (s : St R) (hb : ¬ (s.sp - c.b).toNat < 8 ∧ ¬ (s.sp - (c.b + 1)).toNat < 8)
    (hr : ¬ (ksp c s - c.b).toNat < 5 ∧ ¬ (ksp c s - (c.b + 1)).toNat < 5) :
    let y := enter c .syscall s
    Saved c s y ∧ y.sp = ksp c s - 4 ∧ cat (y.reg x) (y.reg a) = s.sp - 5 ∧ y.reg ccr = s.reg ccr ||| 0x08 ∧
    y.mem (y.sp + 1) = s.reg a ∧
    ∀ i : Addr, i = 3 ∨ i = 4 → s.sp + i ≠ c.b → s.sp + i ≠ c.b + 1 → ¬ (ksp c s - (s.sp + i)).toNat < 5 →
      y.mem (y.sp + (i - 1)) = s.mem (s.sp + i) := by
  obtain ⟨p, pr⟩ := trap_eff s id
  have e0 : ({ trap s with reg := upd (trap s).reg a (id (s.reg a)) } : St R) = trap s := by
    have : (trap s).reg a = s.reg a := by
      show upd (pushes hwRegs s).reg ccr ((pushes hwRegs s).reg ccr ||| 0x08) a = _
      rw [upd_ne _ _ (show a ≠ ccr by decide), pushes_reg]
    have e : upd (trap s).reg a (id (s.reg a)) = (trap s).reg := by
      funext r
      unfold upd
      split
      · rename_i h; rw [h, this]; rfl
      · rfl
    rw [e]
  simp only [e0] at p pr
  have he : enter c .syscall s = run [push a, ldhx c.b, ldaX 9, push a, ldaX 8, push a, ldaS 3, push a, hxToXa]
      (swap c.b (push h (trap s))) := rfl
  simp only []
  rw [he]
  clear he e0
  generalize push h (trap s) = t at *
  obtain ⟨w1, w2, w3, w4, w5⟩ := save_eff c s t hb p
  have ua : (swap c.b t).reg a = s.reg a := by
    rw [w5 a (by decide) (by decide), pr, upd_same]; rfl
  have uc : (swap c.b t).reg ccr = s.reg ccr ||| 0x08 := by
    rw [w5 ccr (by decide) (by decide), pr, upd_ne _ _ (by decide), upd_same]
  generalize swap c.b t = u at *
  obtain ⟨y1, y2, y3, y4, y5, y6, y7⟩ := call_eff c u (by rw [w1]; exact hr)
  rw [w1] at y1 y3
  rw [w2] at y2
  rw [w1, w2] at y6 y7
  generalize run [push a, ldhx c.b, ldaX 9, push a, ldaX 8, push a, ldaS 3, push a, hxToXa] u = y at *
  have s8 : s.sp - 5 + 8 = s.sp + 3 := by grind
  have s9 : s.sp - 5 + 9 = s.sp + 4 := by grind
  rw [s8] at y6
  rw [s9] at y7
  refine ⟨⟨?_, ?_⟩, y1, y2, by rw [y4, uc], by rw [y5, ua], ?_⟩
  · intro r z h1 h2 h3 _
    rw [y3 z h3]; exact w3 r h1 h2
  · intro z h1 h2 h3 _ h4
    rw [y3 z h3]; exact w4 z h1 h2 h4
  · intro i hi h1 h2 h3
    have h4 : ¬ (s.sp - (s.sp + i)).toNat < 8 := by
      rw [show s.sp - (s.sp + i) = -i by grind]
      rcases hi with rfl | rfl <;> decide
    rcases hi with rfl | rfl
    · exact (y6 h3).trans (w4 _ h1 h2 h4)
    · exact (y7 h3).trans (w4 _ h1 h2 h4)

/-! ## Platform interrupts -/

/-- what picoRTOS_register_interrupt stored for `irq` (picoRTOS_port.c:93-99): function and argument -/
def registered (c : Cfg) (mem : Addr → Byte) (irq : Byte) : Addr × Addr :=
  (cat (mem (entry c irq)) (mem (entry c irq + 1)), cat (mem (entry c irq + 2)) (mem (entry c irq + 3)))

theorem shl2 (irq : Byte) (h : irq.toNat < 64) : cat 0 (irq <<< 2) = BitVec.ofNat 16 (4 * irq.toNat) := by
  apply BitVec.eq_of_toNat_eq
  simp only [cat, BitVec.toNat_ofNat, BitVec.toNat_shiftLeft, Nat.shiftLeft_eq, show (0 : Byte).toNat = 0 from rfl]
  omega

/-- the dispatcher after SAVE_CONTEXT, to the test for null -/
theorem look_eff (c : Cfg) (u : St R) (E : Addr) (hE : E = c.table + cat 0 (u.reg a <<< 2))
    (h0 : ¬ (u.sp - E).toNat < 5) (h1 : ¬ (u.sp - (E + 1)).toNat < 5) :
    let y := run [index c.table, push x, push h, ldhxX] u
    y.sp = u.sp - 1 - 1 ∧ hx y = cat (u.mem E) (u.mem (E + 1)) ∧
    y.mem = upd (upd (upd u.mem u.sp (hi E)) u.sp (lo E)) (u.sp - 1) (hi E) := by
  obtain ⟨rg, q, m⟩ := u
  simp only [] at *
  have k1 := below_self _ _ _ h0 (by decide)
  have k2 := below_zero _ _ _ h0 1 (by decide)
  have k3 := below_self _ _ _ h1 (by decide)
  have k4 := below_zero _ _ _ h1 1 (by decide)
  refine ⟨rfl, ?_, ?_⟩
  · simp only [run, index, push, ldhxX, ldhx, hx, upd_same, upd_ne, ne_eq, reduceCtorEq, not_false_eq_true, ← hE, cat_hi_lo]
    rw [upd_ne _ _ k2, upd_ne _ _ k1, upd_ne _ _ k1, upd_ne _ _ k4, upd_ne _ _ k3, upd_ne _ _ k3]
  · simp only [run, index, push, ldhxX, ldhx, hx, upd_same, upd_ne, ne_eq, reduceCtorEq, not_false_eq_true, ← hE, cat_hi_lo]

/-- ... and from there to the function -/
theorem jump_eff (c : Cfg) (z : St R) (q E : Addr) (hs : z.sp = q - 1 - 1) (hx1 : z.mem q = lo E) (hx2 : z.mem (q - 1) = hi E)
    (h0 : ∀ i : Nat, i < 4 → ¬ (q - (E + BitVec.ofNat 16 i)).toNat < 5) :
    let y := run [pop h, pop x, pushvs [lo c.back, hi c.back], fnPriv] z
    y.sp = q - 2 ∧ y.mem q = lo c.back ∧ y.mem (q - 1) = hi c.back ∧
    cat (y.reg pch) (y.reg pcl) = cat (z.mem E) (z.mem (E + 1)) ∧
    cat (y.reg x) (y.reg a) = cat (z.mem (E + 2)) (z.mem (E + 3)) ∧ y.reg ccr = z.reg ccr ∧
    ∀ w, ¬ (q - w).toNat < 5 → y.mem w = z.mem w := by
  obtain ⟨rg, p, m⟩ := z
  simp only [] at *
  subst hs
  have a0 : q - 1 - 1 + 1 = q - 1 := by grind
  have a1 : q - 1 + 1 = q := by grind
  obtain ⟨m1, hm1⟩ : ∃ m1, m1 = upd (upd m q (lo c.back)) (q - 1) (hi c.back) := ⟨_, rfl⟩
  obtain ⟨m2, hm2⟩ : ∃ m2, m2 = upd m1 (q - 1 - 1) (m1 (E + 1)) := ⟨_, rfl⟩
  obtain ⟨m3, hm3⟩ : ∃ m3, m3 = upd m2 (q - 1 - 1 - 1) (m2 (E + 0)) := ⟨_, rfl⟩
  have hb0 : ∀ z, ¬ (q - z).toNat < 5 → z ≠ q ∧ z ≠ q - 1 ∧ z ≠ q - 1 - 1 ∧ z ≠ q - 1 - 1 - 1 := by
    intro z hz
    refine ⟨below_self _ _ _ hz (by decide), below_zero _ _ _ hz 1 (by decide), ?_, ?_⟩
    · rw [show q - 1 - 1 = q - 2 by grind]; exact below_zero _ _ _ hz 2 (by decide)
    · rw [show q - 1 - 1 - 1 = q - 3 by grind]; exact below_zero _ _ _ hz 3 (by decide)
  have ho : ∀ w, ¬ (q - w).toNat < 5 → m3 w = m w ∧ m2 w = m w ∧ m1 w = m w := by
    intro w hw
    obtain ⟨b1, b2, b3, b4⟩ := hb0 w hw
    have c1 : m1 w = m w := by rw [hm1, upd_ne _ _ b2, upd_ne _ _ b1]
    have c2 : m2 w = m w := by rw [hm2, upd_ne _ _ b3, c1]
    exact ⟨by rw [hm3, upd_ne _ _ b4, c2], c2, c1⟩
  have h00 := h0 0 (by decide)
  rw [show E + BitVec.ofNat 16 0 = E by simp] at h00
  have f0 := ho E h00
  have f1 := ho (E + 1) (h0 1 (by decide))
  have f2 := ho (E + 2) (h0 2 (by decide))
  have f3 := ho (E + 3) (h0 3 (by decide))
  have a5 : q - 1 - 1 - 1 - 1 + 1 = q - 1 - 1 - 1 := by grind
  have a6 : q - 1 - 1 - 1 + 1 = q - 1 - 1 := by grind
  obtain ⟨v, hv⟩ : ∃ v : St R, v = run [pop h, pop x, pushvs [lo c.back, hi c.back], ldaX 1, push a, ldaX 0, push a, ldaX 3, ldxX 2] ⟨rg, q - 1 - 1, m⟩ := ⟨_, rfl⟩
  have hv' : v.mem = m3 ∧ v.sp = q - 1 - 1 - 1 - 1 ∧ v.reg x = m3 (E + 2) ∧ v.reg a = m3 (E + 3) ∧ v.reg ccr = rg ccr := by
    rw [hv]
    simp only [run, pop, pushvs, pushv, push, ldaX, ldxX, hx, a0, a1, hx1, hx2, upd_same, upd_ne, ne_eq, reduceCtorEq,
      not_false_eq_true, cat_hi_lo, ← hm1, ← hm2, ← hm3, and_self]
  have he : run [pop h, pop x, pushvs [lo c.back, hi c.back], fnPriv] ⟨rg, q - 1 - 1, m⟩ = pops [pch, pcl] v := by
    rw [hv]; rfl
  rw [he]
  obtain ⟨v1, v2, v3, v4, v5⟩ := hv'
  clear hv he
  have p1 := pops_mem [pch, pcl] v
  have p2 := pops_sp [pch, pcl] v
  have p3 := fun r h => pops_out [pch, pcl] r h v
  have p4 := pops_in [pch, pcl] (by decide) 0 (by decide) v
  have p5 := pops_in [pch, pcl] (by decide) 1 (by decide) v
  change (pops [pch, pcl] v).reg pch = _ at p4
  change (pops [pch, pcl] v).reg pcl = _ at p5
  generalize pops [pch, pcl] v = y at *
  rw [v2] at p2 p4 p5
  rw [v1] at p1 p4 p5
  have q1 : q - 1 - 1 - 1 - 1 + 1 + BitVec.ofNat 16 0 = q - 1 - 1 - 1 := by grind
  have q2 : q - 1 - 1 - 1 - 1 + 1 + BitVec.ofNat 16 1 = q - 1 - 1 := by grind
  rw [q1, hm3, upd_same] at p4
  rw [q2, hm3, upd_ne _ _ (by grind), hm2, upd_same] at p5
  refine ⟨?_, ?_, ?_, ?_, ?_, ?_, ?_⟩
  · rw [p2]
    show q - 1 - 1 - 1 - 1 + 2 = q - 2
    grind
  · rw [p1, hm3, upd_ne _ _ (by grind), hm2, upd_ne _ _ (by grind), hm1, upd_ne _ _ (by grind), upd_same]
  · rw [p1, hm3, upd_ne _ _ (by grind), hm2, upd_ne _ _ (by grind), hm1, upd_same]
  · rw [p4, p5, f1.2.2, show E + 0 = E by simp, f0.2.1]
  · rw [p3 x (by decide), p3 a (by decide), v3, v4, f2.1, f3.1]
  · rw [p3 ccr (by decide), v5]
  · intro w hw
    rw [p1, (ho w hw).1]

/-- the state in which the function registered for an interrupt is entered -/
structure Entered (c : Cfg) (irq : Byte) (s y : St R) : Prop where
  sp : y.sp = ksp c s - 2
  el : y.mem (ksp c s) = lo c.back
  eh : y.mem (ksp c s - 1) = hi c.back
  fn : cat (y.reg pch) (y.reg pcl) = (registered c s.mem irq).1
  priv : cat (y.reg x) (y.reg a) = (registered c s.mem irq).2
  bhx : cat (y.mem c.b) (y.mem (c.b + 1)) = s.sp - 5
  masked : y.reg ccr = s.reg ccr ||| 0x08
  saved : Saved c s y

theorem isr_eff (c : Cfg) (kst : Addr → Prop) (irq : Byte) (s : St R) (hk : IsrOk c kst irq s) :
    match isrCall c irq s with
    | none => (registered c s.mem irq).1 = 0
    | some y => (registered c s.mem irq).1 ≠ 0 ∧ Entered c irq s y := by
  obtain ⟨p, pr⟩ := trap_eff s (fun _ => irq)
  have hl : lookup c irq s = run [index c.table, push x, push h, ldhxX] (swap c.b (push h
      ({ trap s with reg := upd (trap s).reg a irq }))) := rfl
  simp only [] at p pr
  unfold isrCall
  simp only []
  rw [hl]
  clear hl
  generalize push h ({ trap s with reg := upd (trap s).reg a irq }) = t at *
  obtain ⟨w1, w2, w3, w4, w5⟩ := save_eff c s t hk.b p
  have ua : (swap c.b t).reg a = irq := by rw [w5 a (by decide) (by decide), pr, upd_same]
  have uc : (swap c.b t).reg ccr = s.reg ccr ||| 0x08 := by
    rw [w5 ccr (by decide) (by decide), pr, upd_ne _ _ (by decide), upd_same]
  generalize swap c.b t = u at *
  have ho := hk.out
  have hin : ∀ i : Nat, i < 4 → u.mem (entry c irq + BitVec.ofNat 16 i) = s.mem (entry c irq + BitVec.ofNat 16 i) := by
    intro i hi
    obtain ⟨o1, o2, o3, -⟩ := ho i hi
    exact w4 _ o2 o3 o1
  have ho' : ∀ i : Nat, i < 4 → ¬ (u.sp - (entry c irq + BitVec.ofNat 16 i)).toNat < 5 := by
    intro i hi
    rw [w1]; exact (ho i hi).2.2.2
  have h00 := ho' 0 (by decide)
  have i0 := hin 0 (by decide)
  rw [show entry c irq + BitVec.ofNat 16 0 = entry c irq by simp] at h00 i0
  obtain ⟨l1, l2, l3⟩ := look_eff c u (entry c irq) (by rw [ua, shl2 irq hk.small]; rfl) h00 (ho' 1 (by decide))
  have lc : (run [index c.table, push x, push h, ldhxX] u).reg ccr = u.reg ccr := by
    simp [run, index, push, ldhxX, ldhx, upd]
  generalize run [index c.table, push x, push h, ldhxX] u = z at *
  have i1 := hin 1 (by decide)
  have i2 := hin 2 (by decide)
  have i3 := hin 3 (by decide)
  have r1 : (registered c s.mem irq).1 = hx z := by
    rw [l2, i0]
    show cat _ (s.mem (entry c irq + 1)) = cat _ (u.mem (entry c irq + 1))
    rw [show u.mem (entry c irq + 1) = _ from i1]; rfl
  by_cases hz : hx z = 0
  · rw [if_pos hz]
    simp only []
    rw [r1, hz]
  · rw [if_neg hz]
    simp only []
    refine ⟨by rw [r1]; exact hz, ?_⟩
    have zq : z.mem u.sp = lo (entry c irq) := by rw [l3, upd_ne _ _ (by grind), upd_same]
    have zq1 : z.mem (u.sp - 1) = hi (entry c irq) := by rw [l3, upd_same]
    have zo : ∀ w, ¬ (u.sp - w).toNat < 5 → z.mem w = u.mem w := by
      intro w hw
      rw [l3, upd_ne _ _ (below_zero _ _ _ hw 1 (by decide)), upd_ne _ _ (below_self _ _ _ hw (by decide)),
        upd_ne _ _ (below_self _ _ _ hw (by decide))]
    obtain ⟨j1, j2, j3, j4, j5, j6, j7⟩ := jump_eff c z u.sp (entry c irq) l1 zq zq1 ho'
    generalize run [pop h, pop x, pushvs [lo c.back, hi c.back], fnPriv] z = y at *
    have z0 := zo _ h00
    have z1 := zo _ (ho' 1 (by decide))
    have z2 := zo _ (ho' 2 (by decide))
    have z3 := zo _ (ho' 3 (by decide))
    rw [w1] at j1 j2 j3 j7 zo
    have hr := hk.room.2
    refine ⟨j1, j2, j3, ?_, ?_, ?_, ?_, ⟨?_, ?_⟩⟩
    · rw [j4, r1, l2, z0]
      show cat _ (z.mem (entry c irq + 1)) = _
      rw [show z.mem (entry c irq + 1) = _ from z1]; rfl
    · rw [j5, show z.mem (entry c irq + 2) = _ from z2, show z.mem (entry c irq + 3) = _ from z3, i2, i3]; rfl
    · rw [j7 _ hr.1, j7 _ hr.2, zo _ hr.1, zo _ hr.2, w2]
    · rw [j6, lc, uc]
    · intro r w h1 h2 h3 _
      rw [j7 _ h3, zo _ h3]; exact w3 r h1 h2
    · intro w h1 h2 h3 _ h4
      rw [j7 _ h3, zo _ h3]; exact w4 w h1 h2 h4

theorem isr_some (c : Cfg) (kst : Addr → Prop) (s : St R) (hk : Ok c kst s) :
    ∃ t, isrCall c c.irq s = some t ∧ Entered c c.irq s t ∧ cat (t.reg pch) (t.reg pcl) = c.timer := by
  have h1 := isr_eff c kst c.irq s hk.isr
  have h2 : (registered c s.mem c.irq).1 = c.timer := by
    show cat (s.mem (entry c c.irq)) (s.mem (entry c c.irq + 1)) = _
    rw [hk.eh, hk.el, cat_hi_lo]
  cases hi : isrCall c c.irq s with
  | none => rw [hi] at h1; exact absurd (h2.symm.trans h1) hk.nz
  | some t => rw [hi] at h1; exact ⟨t, rfl, h1.2, by rw [h1.2.fn, h2]⟩

theorem enter_tick_eff (c : Cfg) (kst : Addr → Prop) (s : St R) (hk : Ok c kst s) :
    let y := enter c .tick s
    Saved c s y ∧ y.sp = ksp c s - 2 ∧ cat (y.reg x) (y.reg a) = s.sp - 5 := by
  obtain ⟨t, h1, h2, h3⟩ := isr_some c kst s hk
  have he : enter c .tick s = hxToXa (ldhx c.b (ackTimer c t)) := by
    unfold enter
    simp only []
    rw [h1]
    simp only []
    rw [if_pos h3]; rfl
  simp only []
  rw [he]
  obtain ⟨v, hv⟩ : ∃ v, v = ldhx c.b (ackTimer c t) := ⟨_, rfl⟩
  have v1 : v.sp = t.sp := by rw [hv]; rfl
  have v2 : ∀ z, z ≠ c.dev → v.mem z = t.mem z := by
    intro z hz
    rw [hv]; exact upd_ne t.mem _ hz
  have v3 : hx v = s.sp - 5 := by
    have : hx v = cat ((ackTimer c t).mem c.b) ((ackTimer c t).mem (c.b + 1)) := by
      rw [hv]; simp [hx, ldhx, upd]
    rw [this, show (ackTimer c t).mem c.b = t.mem c.b from upd_ne t.mem _ (Ne.symm hk.dev.1),
      show (ackTimer c t).mem (c.b + 1) = t.mem (c.b + 1) from upd_ne t.mem _ (Ne.symm hk.dev.2), h2.bhx]
  rw [← hv]
  obtain ⟨x1, x2, x3, -⟩ := hxToXa_eff v
  generalize hxToXa v = y at *
  rw [v1, h2.sp] at x2 x3
  refine ⟨⟨?_, ?_⟩, x2, by rw [x1, v3]⟩
  · intro r z a1 a2 a3 a4
    rw [x3 z (below_zero _ _ _ a3 2 (by decide)), v2 z a4]
    exact h2.saved.cell r a1 a2 a3 a4
  · intro z a1 a2 a3 a4 a5
    rw [x3 z (below_zero _ _ _ a3 2 (by decide)), v2 z a4]
    exact h2.saved.out z a1 a2 a3 a4 a5

/-! ## Coming back -/

/-- offset of a register in the frame -/
def off (r : R) : Addr := 5 - BitVec.ofNat 16 (slots.idxOf r)

theorem restore_eff (b : Addr) (s : St R) (h1 : ¬ (s.sp - b).toNat < 2) (h2 : ¬ (s.sp - (b + 1)).toNat < 2) :
    let y := restore b s
    let p := cat (s.mem b) (s.mem (b + 1))
    y.sp = p + 5 ∧ cat (y.mem b) (y.mem (b + 1)) = s.sp + 1 ∧
    (∀ z, z ≠ b → z ≠ b + 1 → ¬ (s.sp - z).toNat < 2 → y.mem z = s.mem z) ∧
    ∀ r, p + off r ≠ b → p + off r ≠ b + 1 → ¬ (s.sp - (p + off r)).toNat < 2 → y.reg r = s.mem (p + off r) := by
  obtain ⟨w1, w2, w3, w4⟩ := swap_eff b s h1 h2
  have he : restore b s = pops (h :: hwRegs.reverse) (swap b s) := rfl
  simp only []
  rw [he]
  clear he
  generalize swap b s = t at *
  have p1 := pops_mem (h :: hwRegs.reverse) t
  have p2 := pops_sp (h :: hwRegs.reverse) t
  have p4 := fun i hi => pops_in (h :: hwRegs.reverse) (by decide) i hi t
  generalize pops (h :: hwRegs.reverse) t = y at *
  rw [w1] at p2 p4
  refine ⟨?_, ?_, ?_, ?_⟩
  · rw [p2]
    show cat (s.mem b) (s.mem (b + 1)) - 1 + 6#16 = _
    grind
  · rw [p1, w2]
  · intro z a1 a2 a3
    rw [p1, w3 z a1 a2 a3]
  · intro r a1 a2 a3
    have hm : r ∈ h :: hwRegs.reverse := by cases r <;> decide
    have hi := List.idxOf_lt_length_of_mem hm
    have := p4 _ hi
    rw [List.getElem_idxOf] at this
    rw [this]
    have e : off r = BitVec.ofNat 16 ((h :: hwRegs.reverse).idxOf r) := by cases r <;> decide
    rw [← w3 _ a1 a2 a3, e]
    congr 1
    grind

theorem sthx_eff (b : Addr) (s : St R) : cat ((sthx b s).mem b) ((sthx b s).mem (b + 1)) = hx s ∧
    ∀ z, z ≠ b → z ≠ b + 1 → (sthx b s).mem z = s.mem z := by
  have n5 : b ≠ b + 1 := by grind
  refine ⟨?_, fun z h1 h2 => ?_⟩
  · show cat (upd (upd s.mem b (s.reg h)) (b + 1) (s.reg x) b) (upd (upd s.mem b (s.reg h)) (b + 1) (s.reg x) (b + 1)) = _
    rw [upd_same, upd_ne _ _ n5, upd_same]; rfl
  · show upd (upd s.mem b (s.reg h)) (b + 1) (s.reg x) z = _
    rw [upd_ne _ _ h2, upd_ne _ _ h1]

/-- both ends of the handlers: `v` is the state before RESTORE_CONTEXT -/
theorem finish_eff (c : Cfg) (kst : Addr → Prop) (e v : St R) (q : Addr) (hr : Room c kst q 3) (hv : v.sp = q)
    (hb : cat (v.mem c.b) (v.mem (c.b + 1)) = cat (e.reg x) (e.reg a))
    (hm : ∀ z, z ≠ c.b → z ≠ c.b + 1 → ¬ (q - z).toNat < 3 → v.mem z = e.mem z) :
    (∀ z, ¬ (port c kst).io z → (restore c.b v).mem z = e.mem z) ∧
    (restore c.b v).sp = cat (e.reg x) (e.reg a) + 5 ∧ ksp c (restore c.b v) = q ∧
    ∀ r, ¬ (port c kst).io (cat (e.reg x) (e.reg a) + off r) →
      (restore c.b v).reg r = e.mem (cat (e.reg x) (e.reg a) + off r) := by
  obtain ⟨r1, r2, r3, r4⟩ := restore_eff c.b v (by rw [hv]; have := hr.2.1; omega) (by rw [hv]; have := hr.2.2; omega)
  rw [hb] at r1 r4
  rw [hv] at r2 r3 r4
  generalize restore c.b v = y at *
  have hio : ∀ z, ¬ (port c kst).io z → z ≠ c.b ∧ z ≠ c.b + 1 ∧ ¬ (q - z).toNat < 3 := fun z hz =>
    ⟨fun h => hz (Or.inr (Or.inl h)), fun h => hz (Or.inr (Or.inr (Or.inl h))), fun h => hz (Or.inl (hr.1 z h))⟩
  refine ⟨fun z hz => ?_, r1, ?_, fun r hz => ?_⟩
  · obtain ⟨a1, a2, a3⟩ := hio z hz
    rw [r3 z a1 a2 (by omega), hm z a1 a2 a3]
  · show cat (y.mem c.b) (y.mem (c.b + 1)) - 1 = q
    rw [r2]; grind
  · obtain ⟨a1, a2, a3⟩ := hio _ hz
    rw [r4 r a1 a2 (by omega), hm _ a1 a2 a3]

theorem leave_eff (c : Cfg) (kst : Addr → Prop) (k : Kind) (e : St R) (hc : (port c kst).cok k e) :
    (∀ z, ¬ (port c kst).io z → (leave c k e).mem z = e.mem z) ∧
    (leave c k e).sp = cat (e.reg x) (e.reg a) + 5 ∧ ksp c (leave c k e) = csp k e ∧
    ∀ r, ¬ (port c kst).io (cat (e.reg x) (e.reg a) + off r) →
      (leave c k e).reg r = e.mem (cat (e.reg x) (e.reg a) + off r) := by
  obtain ⟨hroom, hret⟩ := hc
  cases k with
  | syscall =>
    have he : leave c .syscall e = restore c.b (sthx c.b (xaToHx (ais 4 e))) := rfl
    rw [he]
    obtain ⟨x1, x2, x3, -⟩ := xaToHx_eff (ais 4 e)
    change _ = cat (e.reg x) (e.reg a) at x1
    change _ = e.sp + 4 at x2
    change ∀ y, y ≠ e.sp + 4 → _ = e.mem y at x3
    generalize xaToHx (ais 4 e) = w at *
    obtain ⟨s1, s2⟩ := sthx_eff c.b w
    refine finish_eff c kst e _ (e.sp + 4) hroom x2 (s1.trans x1) fun z a1 a2 a3 => ?_
    rw [s2 z a1 a2, x3 z (below_self _ _ _ a3 (by decide))]
  | tick =>
    obtain ⟨c1, c2⟩ := hret rfl
    have he : leave c .tick e = isrRet c (sthx c.b (xaToHx e)) := rfl
    rw [he]
    obtain ⟨x1, x2, x3, -⟩ := xaToHx_eff e
    generalize xaToHx e = w at *
    obtain ⟨s1, s2⟩ := sthx_eff c.b w
    have s3 : (sthx c.b w).sp = w.sp := rfl
    generalize sthx c.b w = v at *
    rw [x2] at s3
    have p1 := pops_mem [pch, pcl] v
    have p2 := pops_sp [pch, pcl] v
    have p4 := pops_in [pch, pcl] (by decide) 0 (by decide) v
    have p5 := pops_in [pch, pcl] (by decide) 1 (by decide) v
    change (pops [pch, pcl] v).reg pch = _ at p4
    change (pops [pch, pcl] v).reg pcl = _ at p5
    rw [s3] at p2 p4 p5
    unfold isrRet
    simp only []
    generalize pops [pch, pcl] v = u at *
    have hr1 : ¬ (e.sp + 2 - c.b).toNat < 3 := hroom.2.1
    have hr2 : ¬ (e.sp + 2 - (c.b + 1)).toNat < 3 := hroom.2.2
    have n1 := below_self _ _ _ hr1 (by decide)
    have n2 := below_self _ _ _ hr2 (by decide)
    have n3 := below_zero _ _ _ hr1 1 (by decide)
    have n4 := below_zero _ _ _ hr2 1 (by decide)
    have e1 : e.sp + 1 + BitVec.ofNat 16 0 = e.sp + 1 := by simp
    have e2 : e.sp + 1 + BitVec.ofNat 16 1 = e.sp + 2 := by grind
    have e3 : e.sp + 2 - 1 = e.sp + 1 := by grind
    rw [e3] at n3 n4
    rw [e1, s2 _ (Ne.symm n3) (Ne.symm n4), x3 _ (by grind), c2] at p4
    rw [e2, s2 _ (Ne.symm n1) (Ne.symm n2), x3 _ (by grind), c1] at p5
    rw [p4, p5, cat_hi_lo, if_pos rfl]
    refine finish_eff c kst e u (e.sp + 2) hroom p2 (by rw [p1, s1, x1]) fun z a1 a2 a3 => ?_
    have hz : z ≠ e.sp := by
      have := below_zero _ _ _ a3 2 (by decide)
      rwa [show e.sp + 2 - 2 = e.sp by grind] at this
    rw [p1, s2 z a1 a2, x3 z hz]

theorem off_lt (r : R) : (off r + 2#16).toNat < (8#16).toNat := by cases r <;> decide

theorem frame_iff (p y : Addr) : (y - (p - 5#16) + 2#16).toNat < (8#16).toNat ↔ (p - y).toNat < 8 := by
  rw [show y - (p - 5#16) + 2#16 = 7#16 - (p - y) by grind]
  generalize p - y = d
  have := d.isLt
  rw [BitVec.toNat_sub, show (7#16).toNat = 7 from rfl, show (8#16).toNat = 8 from rfl]
  omega

theorem enter_all (c : Cfg) (kst : Addr → Prop) (k : Kind) (s : St R) (hk : Ok c kst s) :
    Saved c s (enter c k s) ∧ csp k (enter c k s) = ksp c s ∧
    cat ((enter c k s).reg x) ((enter c k s).reg a) = s.sp - 5#16 := by
  cases k with
  | syscall =>
    obtain ⟨h1, h2, h3, -⟩ := enter_syscall_eff c s hk.isr.b hk.isr.room.2
    refine ⟨h1, ?_, h3⟩
    show (enter c .syscall s).sp + 4 = _
    rw [h2]; grind
  | tick =>
    obtain ⟨h1, h2, h3⟩ := enter_tick_eff c kst s hk
    refine ⟨h1, ?_, h3⟩
    show (enter c .tick s).sp + 2 = _
    rw [h2]; grind

theorem frameEff (c : Cfg) (kst : Addr → Prop) :
    FrameEff (port c kst) (Ok c kst) 2#16 8#16 5#16 (fun _ => true) off (fun _ => id) where
  mem := rfl
  ctx := rfl
  frame := rfl
  off_lt := fun r _ => off_lt r
  resume_sp := fun _ _ => rfl
  resume_hidden := fun _ _ _ h => absurd h (by decide)
  enter_arg := fun k s hok => (enter_all c kst k s hok).2.2
  enter_cell := fun k s r hok _ hio => by
    have hin : (s.sp - 5#16 + off r - (s.sp - 5#16) + 2#16).toNat < (8#16).toNat := by
      rw [show ∀ y z : Addr, y + z - y = z by intros; grind]
      exact off_lt r
    have h1 := hio _ hin
    have e : s.sp - 5#16 + off r = s.sp - BitVec.ofNat 16 (slots.idxOf r) := by
      unfold off
      rw [show ∀ p i : Addr, p - 5#16 + (5 - i) = p - i by intros; grind]
    rw [e] at h1 ⊢
    show id ((enter c k s).mem _) = if true = true then s.reg r else 0
    rw [if_pos rfl, id]
    exact (enter_all c kst k s hok).1.cell r (fun h => h1 (Or.inr (Or.inl h))) (fun h => h1 (Or.inr (Or.inr (Or.inl h))))
      (fun h => h1 (Or.inl (hok.isr.room.1 _ h))) (fun h => h1 (Or.inr (Or.inr (Or.inr h))))
  enter_out := fun k s z hok hf h1 =>
    (enter_all c kst k s hok).1.out z (fun h => h1 (Or.inr (Or.inl h))) (fun h => h1 (Or.inr (Or.inr (Or.inl h))))
      (fun h => h1 (Or.inl (hok.isr.room.1 _ h))) (fun h => h1 (Or.inr (Or.inr (Or.inr h))))
      (fun h => hf ((frame_iff s.sp z).2 h))
  enter_csp := fun k s hok => (enter_all c kst k s hok).2.1
  leave_sp := fun k e hc => (leave_eff c kst k e hc).2.1
  leave_reg := fun k e r hc _ hio => by
    have hin : ((port c kst).ret e + off r - (port c kst).ret e + 2#16).toNat < (8#16).toNat := by
      rw [show ∀ y z : Addr, y + z - y = z by intros; grind]
      exact off_lt r
    exact (leave_eff c kst k e hc).2.2.2 r (hio _ hin)
  leave_mem := fun k e z hc hz => (leave_eff c kst k e hc).1 z hz
  leave_ksp := fun k e hc => (leave_eff c kst k e hc).2.2.1

/-- **C54 on HCS08** -/
theorem hcs08_sound (c : Cfg) (kst : Addr → Prop) : (port c kst).Sound (Ok c kst) := (frameEff c kst).sound

/-- **C56 on HCS08**: picoRTOS_syscall gets the stack pointer under which the task's context is saved (in X:A), then on
the stack the system call number (A of the task) and the pointer that the task pushed for arch_syscall (above the return
address); interrupts are masked while C runs. -/
theorem hcs08_syscall_args (c : Cfg) (kst : Addr → Prop) (s : St R) (hk : Ok c kst s)
    (ha : ∀ i : Addr, i = 3 ∨ i = 4 → s.sp + i ≠ c.b ∧ s.sp + i ≠ c.b + 1 ∧ ¬ (ksp c s - (s.sp + i)).toNat < 5) :
    let y := enter c .syscall s
    cat (y.reg x) (y.reg a) = s.sp - 5 ∧ y.mem (y.sp + 1) = s.reg a ∧
    cat (y.mem (y.sp + 2)) (y.mem (y.sp + 3)) = cat (s.mem (s.sp + 3)) (s.mem (s.sp + 4)) ∧ y.reg ccr &&& 0x08 = 0x08 := by
  obtain ⟨-, -, h3, h4, h5, h6⟩ := enter_syscall_eff c s hk.isr.b hk.isr.room.2
  obtain ⟨a1, a2, a3⟩ := ha 3 (Or.inl rfl)
  obtain ⟨b1, b2, b3⟩ := ha 4 (Or.inr rfl)
  have g3 := h6 3 (Or.inl rfl) a1 a2 a3
  have g4 := h6 4 (Or.inr rfl) b1 b2 b3
  refine ⟨h3, h5, ?_, ?_⟩
  · exact congr (congrArg cat g3) g4
  · rw [h4]
    generalize s.reg ccr = v
    revert v; decide

/-! ## C55 -/

/-- **C55 on HCS08**: arch_save_first_context(top, fn, priv) - `top` in X:A, the others on the stack - writes six bytes
below `top` and one byte of its own stack, returns `top - 6`, and leaves there the context of a call of `fn` with `priv`
in X:A, interrupts enabled and the stack at `top - 1`. -/
theorem hcs08_first (c : Cfg) (kst : Addr → Prop) (s : St R) (hk : kst s.sp)
    (hio : ∀ y, (cat (s.reg x) (s.reg a) - 1 - y).toNat < 8 → ¬ (port c kst).io y)
    (harg : ∀ i : Nat, i < 7 → ¬ (cat (s.reg x) (s.reg a) - 1 - (s.sp + BitVec.ofNat 16 i)).toNat < 6) :
    let y := first s
    let top := cat (s.reg x) (s.reg a)
    cat (y.reg x) (y.reg a) = top - 6 ∧ y.sp = s.sp ∧
    (∀ z, ¬ (top - 1 - z).toNat < 6 → ¬ kst z → y.mem z = s.mem z) ∧
    ∃ v : (R → Byte) × Addr, (port c kst).Holds (top - 6) v y ∧ v.2 = top - 1 ∧
      cat (v.1 pch) (v.1 pcl) = cat (s.mem (s.sp + 3)) (s.mem (s.sp + 4)) ∧
      cat (v.1 x) (v.1 a) = cat (s.mem (s.sp + 5)) (s.mem (s.sp + 6)) ∧ v.1 ccr = 0 := by
  obtain ⟨x1, x2, x3, -⟩ := xaToHx_eff s
  have he : first s = hxToXa (run [aix (-6), li a 0, staX 0, staX 1, ldaS 6, staX 2, ldaS 5, staX 3, ldaS 3, staX 4,
    ldaS 4, staX 5] (xaToHx s)) := rfl
  simp only []
  rw [he]
  clear he
  generalize hT : cat (s.reg x) (s.reg a) = T at *
  generalize xaToHx s = w at *
  obtain ⟨rg, q, m⟩ := w
  simp only [] at x2 x3
  subst x2
  have hne : ∀ i : Nat, i < 7 → ∀ j : Nat, j < 6 → s.sp + BitVec.ofNat 16 i ≠ T - 6 + BitVec.ofNat 16 j := by
    intro i hi j hj h
    refine harg i hi ?_
    rw [h, show T - 1 - (T - 6 + BitVec.ofNat 16 j) = 5#16 - BitVec.ofNat 16 j by grind, BitVec.toNat_sub, BitVec.toNat_ofNat,
      show (5#16).toNat = 5 from rfl]
    omega
  obtain ⟨P, hP⟩ : ∃ P, P = T - 6 := ⟨_, rfl⟩
  rw [← hP] at hne
  have hxP : cat (rg h) (rg x) + (-6) = P := by
    have : cat (rg h) (rg x) = T := x1
    rw [this, hP]; grind
  obtain ⟨m0, h0⟩ : ∃ m0, m0 = upd m (P + 0) 0 := ⟨_, rfl⟩
  obtain ⟨m1, h1⟩ : ∃ m1, m1 = upd m0 (P + 1) 0 := ⟨_, rfl⟩
  obtain ⟨m2, h2⟩ : ∃ m2, m2 = upd m1 (P + 2) (m1 (s.sp + 6)) := ⟨_, rfl⟩
  obtain ⟨m3, h3⟩ : ∃ m3, m3 = upd m2 (P + 3) (m2 (s.sp + 5)) := ⟨_, rfl⟩
  obtain ⟨m4, h4⟩ : ∃ m4, m4 = upd m3 (P + 4) (m3 (s.sp + 3)) := ⟨_, rfl⟩
  obtain ⟨m5, h5⟩ : ∃ m5, m5 = upd m4 (P + 5) (m4 (s.sp + 4)) := ⟨_, rfl⟩
  obtain ⟨v, hv⟩ : ∃ v : St R, v = run [aix (-6), li a 0, staX 0, staX 1, ldaS 6, staX 2, ldaS 5, staX 3, ldaS 3, staX 4,
    ldaS 4, staX 5] ⟨rg, s.sp, m⟩ := ⟨_, rfl⟩
  have v0 : v.mem = m5 ∧ v.sp = s.sp ∧ hx v = P := by
    rw [hv]
    simp only [run, aix, setHx, li, staX, ldaS, hx, hxP, upd_same, upd_ne, ne_eq, reduceCtorEq, not_false_eq_true, cat_hi_lo,
      ← h0, ← h1, ← h2, ← h3, ← h4, ← h5, and_self]
  rw [← hv]
  obtain ⟨v1, v2, v3⟩ := v0
  clear hv
  obtain ⟨y1, y2, y3, -⟩ := hxToXa_eff v
  generalize hxToXa v = y at *
  rw [v2] at y2 y3
  rw [v1] at y3
  have n : ∀ i : Nat, i < 7 → ∀ w : Addr, w = s.sp + BitVec.ofNat 16 i →
      m1 w = m w ∧ m2 w = m w ∧ m3 w = m w ∧ m4 w = m w := by
    intro i hi w hw
    have d := hne i hi
    rw [← hw] at d
    have c0 : m1 w = m w := by rw [h1, upd_ne _ _ (show _ ≠ P + 1 from d 1 (by decide)), h0, upd_ne _ _ (show _ ≠ P + 0 from d 0 (by decide))]
    have c2 : m2 w = m w := by rw [h2, upd_ne _ _ (show _ ≠ P + 2 from d 2 (by decide)), c0]
    have c3 : m3 w = m w := by rw [h3, upd_ne _ _ (show _ ≠ P + 3 from d 3 (by decide)), c2]
    exact ⟨c0, c2, c3, by rw [h4, upd_ne _ _ (show _ ≠ P + 4 from d 4 (by decide)), c3]⟩
  have x3' : ∀ i : Nat, 0 < i → i < 7 → m (s.sp + BitVec.ofNat 16 i) = s.mem (s.sp + BitVec.ofNat 16 i) := by
    intro i h0 hi
    refine x3 _ fun h => ?_
    have : BitVec.ofNat 16 i = 0#16 := by grind
    have := congrArg BitVec.toNat this
    rw [BitVec.toNat_ofNat] at this
    simp at this
    omega
  have jne : ∀ j k : Nat, j < 6 → k < 6 → j ≠ k → P + BitVec.ofNat 16 j ≠ P + BitVec.ofNat 16 k := by
    intro j k hj hk hjk h
    have : BitVec.ofNat 16 j = BitVec.ofNat 16 k := by grind
    have := congrArg BitVec.toNat this
    rw [BitVec.toNat_ofNat, BitVec.toNat_ofNat] at this
    omega
  have sne : ∀ j : Nat, j < 6 → P + BitVec.ofNat 16 j ≠ s.sp := by
    intro j hj h
    refine hne 0 (by decide) j hj ?_
    rw [h]; simp
  have k5 : y.mem (P + 5) = s.mem (s.sp + 4) := by
    rw [y3 _ (show P + 5 ≠ s.sp from sne 5 (by decide)), h5, upd_same, (n 4 (by decide) (s.sp + 4) rfl).2.2.2]; exact x3' 4 (by decide) (by decide)
  have k4 : y.mem (P + 4) = s.mem (s.sp + 3) := by
    rw [y3 _ (show P + 4 ≠ s.sp from sne 4 (by decide)), h5, upd_ne _ _ (show P + 4 ≠ P + 5 from jne 4 5 (by decide) (by decide) (by decide)), h4, upd_same,
      (n 3 (by decide) (s.sp + 3) rfl).2.2.1]
    exact x3' 3 (by decide) (by decide)
  have k3 : y.mem (P + 3) = s.mem (s.sp + 5) := by
    rw [y3 _ (show P + 3 ≠ s.sp from sne 3 (by decide)), h5, upd_ne _ _ (show P + 3 ≠ P + 5 from jne 3 5 (by decide) (by decide) (by decide)), h4,
      upd_ne _ _ (show P + 3 ≠ P + 4 from jne 3 4 (by decide) (by decide) (by decide)), h3, upd_same, (n 5 (by decide) (s.sp + 5) rfl).2.1]
    exact x3' 5 (by decide) (by decide)
  have k2 : y.mem (P + 2) = s.mem (s.sp + 6) := by
    rw [y3 _ (show P + 2 ≠ s.sp from sne 2 (by decide)), h5, upd_ne _ _ (show P + 2 ≠ P + 5 from jne 2 5 (by decide) (by decide) (by decide)), h4,
      upd_ne _ _ (show P + 2 ≠ P + 4 from jne 2 4 (by decide) (by decide) (by decide)), h3, upd_ne _ _ (show P + 2 ≠ P + 3 from jne 2 3 (by decide) (by decide) (by decide)),
      h2, upd_same, (n 6 (by decide) (s.sp + 6) rfl).1]
    exact x3' 6 (by decide) (by decide)
  have k1 : y.mem (P + 1) = 0 := by
    rw [y3 _ (show P + 1 ≠ s.sp from sne 1 (by decide)), h5, upd_ne _ _ (show P + 1 ≠ P + 5 from jne 1 5 (by decide) (by decide) (by decide)), h4,
      upd_ne _ _ (show P + 1 ≠ P + 4 from jne 1 4 (by decide) (by decide) (by decide)), h3, upd_ne _ _ (show P + 1 ≠ P + 3 from jne 1 3 (by decide) (by decide) (by decide)),
      h2, upd_ne _ _ (show P + 1 ≠ P + 2 from jne 1 2 (by decide) (by decide) (by decide)), h1, upd_same]
  rw [← hP]
  refine ⟨by rw [y1, v3], y2, ?_, (fun r => y.mem (P + off r), P + 5#16), ?_, ?_, ?_, ?_, ?_⟩
  · intro z hz hkz
    have d : ∀ j : Nat, j < 6 → z ≠ P + BitVec.ofNat 16 j := by
      intro j hj h
      refine hz ?_
      rw [h, hP, show T - 1 - (T - 6 + BitVec.ofNat 16 j) = 5#16 - BitVec.ofNat 16 j by grind, BitVec.toNat_sub,
        BitVec.toNat_ofNat, show (5#16).toNat = 5 from rfl]
      omega
    have hz' : z ≠ s.sp := fun h => hkz (h ▸ hk)
    rw [y3 z hz', h5, upd_ne _ _ (show _ ≠ P + 5 from d 5 (by decide)), h4, upd_ne _ _ (show _ ≠ P + 4 from d 4 (by decide)), h3, upd_ne _ _ (show _ ≠ P + 3 from d 3 (by decide)),
      h2, upd_ne _ _ (show _ ≠ P + 2 from d 2 (by decide)), h1, upd_ne _ _ (show _ ≠ P + 1 from d 1 (by decide)), h0, upd_ne _ _ (show _ ≠ P + 0 from d 0 (by decide)), x3 z hz']
  · refine (frameEff c kst).holds _ _ _ ?_ rfl (fun r _ => rfl) (fun r h => absurd h (by decide))
    intro z hz
    refine hio z ((frame_iff (T - 1) z).1 ?_)
    rwa [show T - 1 - 5#16 = P by rw [hP]; grind]
  · show P + 5#16 = _
    rw [hP]; grind
  · exact congr (congrArg cat k4) k5
  · exact congr (congrArg cat k3) k2
  · exact k1

/-- the frame of the first context is within the stack: arch_prepare_stack (picoRTOS_port.c:44-53) passes
`stack + count - 1` -/
theorem hcs08_first_fits (stack : Addr) (count : Nat) (h : 10 ≤ count) (h16 : count ≤ 65536) (y : Addr)
    (hy : (stack + BitVec.ofNat 16 count - 1 - 1 - y).toNat < 8) : (y - stack).toNat < count := by
  rw [show stack + BitVec.ofNat 16 count - 1 - 1 - y = BitVec.ofNat 16 count - 2#16 - (y - stack) by grind] at hy
  generalize y - stack = d at *
  have := d.isLt
  have e : (BitVec.ofNat 16 count).toNat = count % 65536 := BitVec.toNat_ofNat ..
  rw [BitVec.toNat_sub, BitVec.toNat_sub, e, show (2#16).toNat = 2 from rfl] at hy
  omega

/-- **C55, starting the scheduler**: arch_start_first_task brings in the context it is given (in X:A) and sets the
caller's stack aside for the kernel. -/
theorem hcs08_start (c : Cfg) (kst : Addr → Prop) (m e : St R) (p : Addr) (v : (R → Byte) × Addr)
    (hH : (port c kst).Holds p v m) (hr : cat (e.reg x) (e.reg a) = p) (hm : ∀ i, (port c kst).frame p i → e.mem i = m.mem i)
    (hroom : Room c kst e.sp 3) :
    (port c kst).ctx (start c e) = v ∧ ksp c (start c e) = e.sp := by
  have hs : start c e = leave c .syscall { e with sp := e.sp - 4 } := by
    have ha : ais 4 { e with sp := e.sp - 4 } = e := by
      obtain ⟨rg, q, m⟩ := e
      show St.mk rg (q - 4 + 4) m = _
      rw [show q - 4 + 4 = q by grind]
    have hl : ∀ e', leave c .syscall e' = start c (ais 4 e') := fun e' => by
      unfold leave start
      simp only [run]
    rw [hl, ha]
  have hc : (port c kst).cok .syscall { e with sp := e.sp - 4 } := by
    refine ⟨?_, fun h => absurd h (by decide)⟩
    show Room c kst (e.sp - 4 + 4) 3
    rwa [show e.sp - 4 + 4 = e.sp by grind]
  rw [hs]
  refine ⟨hH.2 .syscall _ hc hr hm, ?_⟩
  rw [(leave_eff c kst .syscall _ hc).2.2.1]
  show e.sp - 4 + 4 = e.sp
  grind

/-! ## C57 -/

/-- **C57 on HCS08**: the function registered for the interrupt is entered, with the argument registered for it, on the
kernel's stack; without one the handler stops (`none`). -/
theorem hcs08_isr (c : Cfg) (kst : Addr → Prop) (irq : Byte) (s : St R) (hk : IsrOk c kst irq s) :
    match isrCall c irq s with
    | none => (registered c s.mem irq).1 = 0
    | some y => (registered c s.mem irq).1 ≠ 0 ∧
        cat (y.reg pch) (y.reg pcl) = (registered c s.mem irq).1 ∧
        cat (y.reg x) (y.reg a) = (registered c s.mem irq).2 ∧ y.sp + 2 = ksp c s := by
  have h := isr_eff c kst irq s hk
  cases hi : isrCall c irq s with
  | none => rw [hi] at h; exact h
  | some y =>
    rw [hi] at h
    refine ⟨h.1, h.2.fn, h.2.priv, ?_⟩
    rw [h.2.sp]; grind

/-- **... and then the interrupted task is resumed exactly as it was**, whatever the function does (`e` is the state in
which it returns) as long as it gives back the stack pointer as it found it and leaves the saved context, `_bhx` and
its return address alone. -/
theorem hcs08_isr_resumes (c : Cfg) (kst : Addr → Prop) (irq : Byte) (s y e : St R) (hk : IsrOk c kst irq s)
    (hio : ∀ z, (s.sp - z).toNat < 8 → ¬ (port c kst).io z)
    (hy : isrCall c irq s = some y) (h1 : e.sp = y.sp)
    (h2 : ∀ z, (s.sp - z).toNat < 8 ∨ z = c.b ∨ z = c.b + 1 ∨ z = ksp c s ∨ z = ksp c s - 1 → e.mem z = y.mem z) :
    (port c kst).ctx (isrRet c e) = (port c kst).ctx s ∧ ksp c (isrRet c e) = ksp c s := by
  have h := isr_eff c kst irq s hk
  rw [hy] at h
  obtain ⟨-, E⟩ := h
  obtain ⟨q, hq⟩ : ∃ q, q = ksp c s := ⟨_, rfl⟩
  have hroom := hk.room
  have esp := E.sp
  have eel := E.el
  have eeh := E.eh
  rw [← hq] at hroom h2 esp eel eeh
  rw [esp] at h1
  have p1 := pops_mem [pch, pcl] e
  have p2 := pops_sp [pch, pcl] e
  have p4 := pops_in [pch, pcl] (by decide) 0 (by decide) e
  have p5 := pops_in [pch, pcl] (by decide) 1 (by decide) e
  change (pops [pch, pcl] e).reg pch = _ at p4
  change (pops [pch, pcl] e).reg pcl = _ at p5
  rw [h1] at p2 p4 p5
  unfold isrRet
  simp only []
  generalize pops [pch, pcl] e = u at *
  have a1 : q - 2 + 1 + BitVec.ofNat 16 0 = q - 1 := by grind
  have a2 : q - 2 + 1 + BitVec.ofNat 16 1 = q := by grind
  rw [a1, h2 _ (Or.inr (Or.inr (Or.inr (Or.inr rfl)))), eeh] at p4
  rw [a2, h2 _ (Or.inr (Or.inr (Or.inr (Or.inl rfl)))), eel] at p5
  rw [p4, p5, cat_hi_lo, if_pos rfl]
  clear p4 p5 a1 a2
  have usp : u.sp = q := by
    rw [p2]
    show q - 2 + 2 = q
    grind
  have ub : cat (u.mem c.b) (u.mem (c.b + 1)) = s.sp - 5#16 := by
    rw [p1, h2 _ (Or.inr (Or.inl rfl)), h2 _ (Or.inr (Or.inr (Or.inl rfl))), E.bhx]; rfl
  obtain ⟨r1, r2, r3, r4⟩ := restore_eff c.b u (by rw [usp]; have := hroom.2.1; omega) (by rw [usp]; have := hroom.2.2; omega)
  rw [ub] at r1 r4
  rw [usp] at r2 r4
  refine ⟨Prod.ext (funext fun r => ?_) ?_, ?_⟩
  · show (if true = true then (restore c.b u).reg r else 0) = if true = true then s.reg r else 0
    rw [if_pos rfl, if_pos rfl]
    have hin : (s.sp - (s.sp - 5#16 + off r)).toNat < 8 := by
      refine (frame_iff s.sp _).1 ?_
      rw [show ∀ y z : Addr, y + z - y = z by intros; grind]
      exact off_lt r
    have hn := hio _ hin
    have n1 : s.sp - 5#16 + off r ≠ c.b := fun h => hn (Or.inr (Or.inl h))
    have n2 : s.sp - 5#16 + off r ≠ c.b + 1 := fun h => hn (Or.inr (Or.inr (Or.inl h)))
    have n3 : ¬ (q - (s.sp - 5#16 + off r)).toNat < 5 := fun h => hn (Or.inl (hroom.1 _ h))
    have n4 : s.sp - 5#16 + off r ≠ c.dev := fun h => hn (Or.inr (Or.inr (Or.inr h)))
    rw [r4 r n1 n2 (by omega), p1, h2 _ (Or.inl hin)]
    have e1 : s.sp - 5#16 + off r = s.sp - BitVec.ofNat 16 (slots.idxOf r) := by
      unfold off
      rw [show ∀ p i : Addr, p - 5#16 + (5 - i) = p - i by intros; grind]
    rw [e1] at n1 n2 n3 n4 ⊢
    rw [hq] at n3
    exact E.saved.cell r n1 n2 n3 n4
  · show (restore c.b u).sp = s.sp
    rw [r1]
    exact (show ∀ p : Addr, p - 5#16 + 5 = p by intros; grind) _
  · show cat ((restore c.b u).mem c.b) ((restore c.b u).mem (c.b + 1)) - 1 = _
    rw [r2, ← hq]
    exact (show ∀ p : Addr, p + 1 - 1 = p by intros; grind) _

/-! ### A concrete machine -/

/-- `_bhx` at 0x100, the table at 0x102, the tick is interrupt 4, its handler at 0x8123; RTC_SC1 at 0x306a -/
def demoCfg : Cfg := ⟨0x100, 0x102, 4, 0x8123, 0x8200, 0x306a, (· ||| 0x80)⟩

/-- a task deep in its stack, the kernel's at 0x1030 -/
def demo : St R where
  reg := fun r => match r with | a => 1 | x => 0x42 | ccr => 0x60 | _ => 7
  sp := 0x2f0
  mem := upd (upd (upd (upd (fun _ => 0x55) 0x100 0x10) 0x101 0x31) 0x112 0x81) 0x113 0x23

def demoKst (y : Addr) : Prop := 0x1000 ≤ y.toNat ∧ y.toNat ≤ 0x1030

theorem demo_ok : Ok demoCfg demoKst demo where
  isr := { b := by decide, room := ⟨fun y hy => by
            have : ksp demoCfg demo = 0x1030#16 := by decide
            rw [this] at hy
            have h := y.isLt
            rw [BitVec.toNat_sub, show (0x1030#16).toNat = 0x1030 from rfl] at hy
            unfold demoKst
            omega, by decide, by decide⟩, small := by decide, out := by decide }
  eh := by decide
  el := by decide
  nz := by decide
  dev := by decide

end Pico.Ctx8.Hcs08
