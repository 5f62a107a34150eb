import Verif.Arch.Mcs51
/-
The 8051 port saves and restores contexts (C54-C57), and what it does not.
-/
namespace Pico.Ctx51

open Pico.Ctx8 (Byte Addr upd upd_same upd_ne hi lo cat cat_hi_lo hi_cat lo_cat)
open R

/-! ### the stack -/

theorem sub_ofNat_ne {x y : Byte} {n : Nat} (h : (x - y).toNat = n) (hn : n < 255) (i : Nat) (hi : i < n) :
    x - BitVec.ofNat 8 i ≠ x + 1 := by
  intro e
  have : BitVec.ofNat 8 i = -1 := by
    have : x - BitVec.ofNat 8 i - x = x + 1 - x := by rw [e]
    grind
  have h2 := congrArg BitVec.toNat this
  rw [BitVec.toNat_ofNat, Nat.mod_eq_of_lt (by omega), show (-1 : Byte).toNat = 255 by decide] at h2
  omega

theorem depth_pushv {z : Byte} {s : St} (v : Byte) (h : depth z s < 255) : depth z (pushv v s) = depth z s + 1 := by
  unfold depth at *
  show (s.sp + 1 - z).toNat = _
  rw [show s.sp + 1 - z = (s.sp - z) + 1 by grind, BitVec.toNat_add]
  rw [show (1 : Byte).toNat = 1 by decide]; omega

theorem stk_pushv {z : Byte} {s : St} (v : Byte) (h : depth z s < 255) : stk z (pushv v s) = v :: stk z s := by
  unfold stk
  rw [depth_pushv v h, List.range_succ_eq_map, List.map_cons, List.map_map]
  congr 1
  · show upd s.iram (s.sp + 1) v (s.sp + 1 - BitVec.ofNat 8 0) = v
    rw [show s.sp + 1 - BitVec.ofNat 8 0 = s.sp + 1 by simp, upd_same]
  · apply List.map_congr_left
    intro i hi
    rw [List.mem_range] at hi
    show upd s.iram (s.sp + 1) v (s.sp + 1 - BitVec.ofNat 8 (i + 1)) = _
    rw [show s.sp + 1 - BitVec.ofNat 8 (i + 1) = s.sp - BitVec.ofNat 8 i by rw [BitVec.ofNat_add]; grind]
    exact upd_ne _ _ (sub_ofNat_ne rfl h i hi)

theorem stk_congr {z : Byte} {s t : St} (h1 : t.sp = s.sp) (h2 : t.iram = s.iram) : stk z t = stk z s := by
  unfold stk depth; rw [h1, h2]

theorem stk_length (z : Byte) (s : St) : (stk z s).length = depth z s := by simp [stk]

theorem depth_lt (z : Byte) (s : St) : depth z s < 256 := (s.sp - z).isLt

/-- the stack without its top -/
theorem stk_cons {z : Byte} {s : St} {v : Byte} {l : List Byte} (h : stk z s = v :: l) :
    s.iram s.sp = v ∧ ∀ t : St, t.sp = s.sp - 1 → t.iram = s.iram → stk z t = l := by
  have hl : depth z s = l.length + 1 := by rw [← stk_length, h]; rfl
  unfold stk at h
  rw [hl, List.range_succ_eq_map, List.map_cons, List.map_map] at h
  injection h with h1 h2
  refine ⟨by rw [← h1]; simp, fun t ht hi => ?_⟩
  have hd : depth z t = l.length := by
    unfold depth at *
    rw [ht, show s.sp - 1 - z = (s.sp - z) - 1 by grind, BitVec.toNat_sub, show (1 : Byte).toNat = 1 by decide, hl]
    have := (s.sp - z).isLt
    omega
  rw [← h2]
  unfold stk
  rw [hd]
  apply List.map_congr_left
  intro i _
  show t.iram (t.sp - BitVec.ofNat 8 i) = s.iram (s.sp - BitVec.ofNat 8 (i + 1))
  rw [hi, ht]
  congr 1
  rw [BitVec.ofNat_add]; grind

theorem stk_nil {z : Byte} {s : St} (h : s.sp = z) : stk z s = [] := by
  unfold stk depth; rw [h]; simp

/-- everything but the registers, the stack and its pointer -/
def SameRest (s t : St) : Prop := t.xram = s.xram ∧ t.ea = s.ea

theorem pushes_eff {z : Byte} : ∀ (L : List R) (s : St), depth z s + L.length < 256 →
    stk z (pushes L s) = (L.map s.reg).reverse ++ stk z s ∧ (pushes L s).reg = s.reg ∧ SameRest s (pushes L s) := by
  intro L
  induction L with
  | nil => exact fun s _ => ⟨rfl, rfl, rfl, rfl⟩
  | cons r L ih =>
    intro s h
    simp only [List.length_cons] at h
    have hd := depth_pushv (z := z) (s := s) (s.reg r) (by omega)
    obtain ⟨h1, h2, h3⟩ := ih (push r s) (by show depth z (pushv _ s) + _ < _; omega)
    have hs : stk z (push r s) = s.reg r :: stk z s := stk_pushv _ (by omega)
    refine ⟨?_, h2, h3⟩
    show stk z (pushes L (push r s)) = _
    rw [h1, hs]
    show (L.map s.reg).reverse ++ s.reg r :: stk z s = _
    simp

theorem pops_eff {z : Byte} (V : R → Byte) (rest : List Byte) : ∀ (L : List R) (s : St), L.Nodup → stk z s = L.map V ++ rest →
    stk z (pops L s) = rest ∧ (∀ r, (pops L s).reg r = if r ∈ L then V r else s.reg r) ∧ SameRest s (pops L s) := by
  intro L
  induction L with
  | nil => exact fun s _ h => ⟨h, fun r => by simp [pops], rfl, rfl⟩
  | cons q L ih =>
    intro s hn h
    rw [List.nodup_cons] at hn
    obtain ⟨h1, h2⟩ := stk_cons (l := L.map V ++ rest) h
    obtain ⟨a1, a2, a3⟩ := ih (pop q s) hn.2 (h2 _ rfl rfl)
    refine ⟨a1, fun r => ?_, a3⟩
    show (pops L (pop q s)).reg r = _
    rw [a2]
    by_cases hr : r ∈ L
    · simp [hr]
    · rw [if_neg hr]
      show upd s.reg q (s.iram s.sp) r = _
      by_cases e : r = q
      · subst e; rw [upd_same, h1]; simp
      · rw [upd_ne _ _ e]; simp [hr, e]

/-! ### external RAM -/

/-- the bytes `l` written from `p` up -/
def store (x : Addr → Byte) (p : Addr) (l : List Byte) : Addr → Byte :=
  fun y => if (y - p).toNat < l.length then l.getD (y - p).toNat 0 else x y

/-- `n` bytes read from `p` up -/
def load (x : Addr → Byte) (p : Addr) (n : Nat) : List Byte := (List.range n).map fun i => x (p + BitVec.ofNat 16 i)

theorem load_length (x : Addr → Byte) (p : Addr) (n : Nat) : (load x p n).length = n := by simp [load]

theorem store_cons (x : Addr → Byte) (p : Addr) (v : Byte) (l : List Byte) (h : l.length < 65535) :
    store (upd x p v) (p + 1) l = store x p (v :: l) := by
  funext y
  unfold store
  by_cases e : y = p
  · subst e
    have : (y - (y + 1)).toNat = 65535 := by
      rw [show y - (y + 1) = (-1 : Addr) by grind]; decide
    rw [this, if_neg (by omega), upd_same]
    simp
  · have h1 : (y - (p + 1)).toNat + 1 = (y - p).toNat := by
      have hne : y - p ≠ 0 := fun hz => e (by grind)
      rw [show y - (p + 1) = (y - p) - 1 by grind]
      generalize y - p = d at hne
      have hd : d.toNat ≠ 0 := fun hz => hne (BitVec.eq_of_toNat_eq hz)
      have := d.isLt
      rw [BitVec.toNat_sub, show (1 : Addr).toNat = 1 by decide]
      omega
    rw [← h1]
    simp only [List.length_cons, Nat.add_lt_add_iff_right, upd_ne x v e, List.getD_cons_succ]

theorem store_in (x : Addr → Byte) (p : Addr) (l : List Byte) (i : Nat) (hi : i < l.length) (hl : l.length ≤ 65536) :
    store x p l (p + BitVec.ofNat 16 i) = l.getD i 0 := by
  unfold store
  rw [show p + BitVec.ofNat 16 i - p = BitVec.ofNat 16 i by grind, BitVec.toNat_ofNat, Nat.mod_eq_of_lt (by omega), if_pos hi]

theorem store_out (x : Addr → Byte) (p : Addr) (l : List Byte) (y : Addr) (h : ¬ (y - p).toNat < l.length) :
    store x p l y = x y := if_neg h

theorem load_store (x : Addr → Byte) (p : Addr) (l : List Byte) (hl : l.length ≤ 65536) :
    load (store x p l) p l.length = l := by
  apply List.ext_getElem
  · simp [load]
  · intro i h1 h2
    simp only [load, List.getElem_map, List.getElem_range]
    rw [store_in x p l i h2 hl]
    simp [h2]

theorem load_succ (x : Addr → Byte) (p : Addr) (n : Nat) : load x p (n + 1) = load x p n ++ [x (p + BitVec.ofNat 16 n)] := by
  simp [load, List.range_succ]

theorem load_congr (x y : Addr → Byte) (p : Addr) (n : Nat) (h : ∀ i, i < n → x (p + BitVec.ofNat 16 i) = y (p + BitVec.ofNat 16 i)) :
    load x p n = load y p n := by
  unfold load
  apply List.map_congr_left
  intro i hi
  exact h i (List.mem_range.mp hi)

theorem add_sub_toNat (p : Addr) (n : Nat) (h : n < 65536) : (p + BitVec.ofNat 16 n - p).toNat = n := by
  rw [show p + BitVec.ofNat 16 n - p = BitVec.ofNat 16 n by grind, BitVec.toNat_ofNat, Nat.mod_eq_of_lt h]

theorem eq_add_of_sub (p h : Addr) : h = p + BitVec.ofNat 16 (h - p).toNat := by
  rw [BitVec.ofNat_toNat, BitVec.setWidth_eq]; grind

/-! ### the loops -/

theorem dptr_setDptr (v : Addr) (s : St) : dptr (setDptr v s) = v := by
  show cat (upd (upd s.reg dph (hi v)) dpl (lo v) dph) (upd (upd s.reg dph (hi v)) dpl (lo v) dpl) = v
  rw [upd_same, upd_ne _ _ (by decide), upd_same, cat_hi_lo]

theorem setDptr_reg (v : Addr) (s : St) (r : R) (h1 : r ≠ dph) (h2 : r ≠ dpl) : (setDptr v s).reg r = s.reg r := by
  show upd (upd s.reg dph (hi v)) dpl (lo v) r = _
  rw [upd_ne _ _ h2, upd_ne _ _ h1]

theorem set_same (d : R) (v : Byte) (s : St) : (set d v s).reg d = v := upd_same _ _ _

theorem set_dptr (d : R) (v : Byte) (s : St) (h1 : d ≠ dpl) (h2 : d ≠ dph) : dptr (set d v s) = dptr s := by
  show cat (upd s.reg d v dph) (upd s.reg d v dpl) = _
  rw [upd_ne _ _ (Ne.symm h1), upd_ne _ _ (Ne.symm h2)]; rfl


/-- registers other than `a`, `dpl`, `dph` -/
def KeepReg (s t : St) : Prop := ∀ r, r ≠ a → r ≠ dpl → r ≠ dph → t.reg r = s.reg r

theorem save2Body_eff {z : Byte} {s : St} {v : Byte} {l : List Byte} (h : stk z s = v :: l) :
    stk z (save2Body s) = l ∧ (save2Body s).sp = s.sp - 1 ∧ (save2Body s).iram = s.iram ∧ dptr (save2Body s) = dptr s + 1 ∧
    (save2Body s).xram = upd s.xram (dptr s) v ∧ (save2Body s).ea = s.ea ∧ KeepReg s (save2Body s) := by
  obtain ⟨h1, h2⟩ := stk_cons h
  have e0 : dptr (pop a s) = dptr s := set_dptr a (s.iram s.sp) s (by decide) (by decide)
  have e1 : dptr (movxSt (pop a s)) = dptr s := e0
  have hd : dptr (save2Body s) = dptr s + 1 := by
    show dptr (set a _ (setDptr (dptr (movxSt (pop a s)) + 1) (movxSt (pop a s)))) = _
    rw [e1]
    rw [set_dptr _ _ _ (by decide) (by decide), dptr_setDptr]
  refine ⟨h2 _ rfl rfl, rfl, rfl, hd, ?_, rfl, ?_⟩
  · show upd s.xram (dptr (pop a s)) (upd s.reg a (s.iram s.sp) a) = _
    rw [e0, upd_same, h1]
  · intro r ha hl hh
    show upd (setDptr _ _).reg a _ r = _
    rw [upd_ne _ _ ha, setDptr_reg _ _ r hh hl]
    show upd s.reg a _ r = _
    rw [upd_ne _ _ ha]

theorem save2Loop_eff {z : Byte} : ∀ (n fuel : Nat) (s : St), depth z s = n + 1 → n + 1 ≤ fuel →
    (save2Loop z fuel s).sp = z ∧ (save2Loop z fuel s).iram = s.iram ∧
    dptr (save2Loop z fuel s) = dptr s + BitVec.ofNat 16 (n + 1) ∧
    (save2Loop z fuel s).xram = store s.xram (dptr s) (stk z s) ∧ (save2Loop z fuel s).ea = s.ea ∧ KeepReg s (save2Loop z fuel s) := by
  intro n
  induction n with
  | zero =>
    intro fuel s hd hf
    obtain ⟨f, rfl⟩ : ∃ f, fuel = f + 1 := ⟨fuel - 1, by omega⟩
    have hl : (stk z s).length = 1 := by rw [stk_length, hd]
    obtain ⟨v, hv⟩ := List.length_eq_one_iff.mp hl
    obtain ⟨b1, b2, b3, b4, b5, b6, b7⟩ := save2Body_eff hv
    have hz : (save2Body s).sp = z := by
      rw [b2]
      have h1 : s.sp - z = 1 := BitVec.eq_of_toNat_eq (by unfold depth at hd; rw [hd]; decide)
      grind
    have he : save2Loop z (f + 1) s = save2Body s := by
      show (if (save2Body s).sp = z then _ else _) = _
      rw [if_pos hz]
    rw [he]
    refine ⟨hz, b3, b4, ?_, b6, b7⟩
    rw [b5, hv, ← store_cons _ _ _ _ (by simp)]
    funext y; unfold store; simp
  | succ n ih =>
    intro fuel s hd hf
    obtain ⟨f, rfl⟩ : ∃ f, fuel = f + 1 := ⟨fuel - 1, by omega⟩
    have hl : (stk z s).length = n + 1 + 1 := by rw [stk_length, hd]
    obtain ⟨v, l, hv⟩ : ∃ v l, stk z s = v :: l := by
      cases h : stk z s with
      | nil => rw [h] at hl; cases hl
      | cons v l => exact ⟨v, l, rfl⟩
    obtain ⟨b1, b2, b3, b4, b5, b6, b7⟩ := save2Body_eff hv
    have hd1 : depth z (save2Body s) = n + 1 := by
      rw [← stk_length, b1]; rw [hv] at hl; simpa using hl
    have hz : ¬ (save2Body s).sp = z := by
      intro e; rw [← stk_length, stk_nil e] at hd1; cases hd1
    have he : save2Loop z (f + 1) s = save2Loop z f (save2Body s) := by
      show (if (save2Body s).sp = z then _ else _) = _
      rw [if_neg hz]
    rw [he]
    obtain ⟨c1, c2, c3, c4, c5, c6⟩ := ih f (save2Body s) hd1 (by omega)
    refine ⟨c1, c2.trans b3, ?_, ?_, c5.trans b6, fun r h1 h2 h3 => (c6 r h1 h2 h3).trans (b7 r h1 h2 h3)⟩
    · rw [c3, b4, BitVec.ofNat_add (n + 1) 1]
      exact (show ∀ x y : Addr, x + 1 + y = x + (y + 1#16) by intros; grind) _ _
    · have hlen := depth_lt z s
      rw [c4, b4, b5, b1, hv, store_cons]
      have : l.length = n + 1 := by rw [hv] at hl; simpa using hl
      omega

/-- SAVE_CONTEXT_STEP2 -/
theorem save2_eff {z : Byte} (s : St) (h : 1 ≤ depth z s) :
    (save2 z s).sp = z ∧ (save2 z s).iram = s.iram ∧ dptr (save2 z s) = base z s + BitVec.ofNat 16 (depth z s) ∧
    (save2 z s).xram = store s.xram (base z s) (stk z s) ∧ (save2 z s).ea = s.ea ∧
    (∀ r, r ≠ a → r ≠ dpl → r ≠ dph → r ≠ r0 → r ≠ b → (save2 z s).reg r = s.reg r) := by
  have hd : dptr (dptrFromSp z s) = base z s := by
    unfold dptr dptrFromSp base
    simp only [run, set, movAt, upd, if_true]
    simp (decide := true)
  obtain ⟨c1, c2, c3, c4, c5, c6⟩ := save2Loop_eff (z := z) (depth z s - 1) 256 (dptrFromSp z s)
    (by show depth z s = _; omega) (by have := depth_lt z s; omega)
  have hk : stk z (dptrFromSp z s) = stk z s := stk_congr rfl rfl
  refine ⟨c1, c2, ?_, ?_, c5, fun r h1 h2 h3 h4 h5 => ?_⟩
  · show dptr (save2Loop z 256 (dptrFromSp z s)) = _
    rw [c3, hd]; congr 2; omega
  · show (save2Loop z 256 (dptrFromSp z s)).xram = _
    rw [c4, hd, hk]; rfl
  · show (save2Loop z 256 (dptrFromSp z s)).reg r = _
    rw [c6 r h1 h2 h3]
    simp only [dptrFromSp, run, set, movAt]
    rw [upd_ne _ _ h5, upd_ne _ _ h3, upd_ne _ _ h4, upd_ne _ _ h2, upd_ne _ _ h4]

theorem decDptr_eff (s : St) : dptr (decDptr s) = dptr s - 1 ∧ KeepReg s (decDptr s) ∧ (decDptr s).sp = s.sp ∧
    (decDptr s).iram = s.iram ∧ SameRest s (decDptr s) := by
  have key : ∀ h l : Byte, cat (if l - 1 = 0xff then h - 1 else h) (l - 1) = cat h l - 1 := by
    intro h l
    apply BitVec.eq_of_toNat_eq
    have hl := l.isLt
    have hh := h.isLt
    have e0 : (l - 1 = 0xff) ↔ l.toNat = 0 := by
      constructor
      · intro e; have := congrArg BitVec.toNat e
        rw [BitVec.toNat_sub, show (1 : Byte).toNat = 1 by decide, show (0xff : Byte).toNat = 255 by decide] at this; omega
      · intro e; have : l = 0 := BitVec.eq_of_toNat_eq e; rw [this]; decide
    have e1 : (l - 1).toNat = (l.toNat + 255) % 256 := by
      rw [BitVec.toNat_sub, show (1 : Byte).toNat = 1 by decide]; omega
    have e2 : (h - 1).toNat = (h.toNat + 255) % 256 := by
      rw [BitVec.toNat_sub, show (1 : Byte).toNat = 1 by decide]; omega
    rw [BitVec.toNat_sub, show (1 : Addr).toNat = 1 by decide]
    unfold cat
    simp only [BitVec.toNat_ofNat, e1]
    by_cases hz : l.toNat = 0
    · rw [if_pos (e0.mpr hz), e2, hz]; omega
    · rw [if_neg (fun e => hz (e0.mp e))]; omega
  have hdec : decDptr s = { s with reg := fun r => if r = dpl ∨ r = a then s.reg dpl - 1 else if r = dph then
      (if s.reg dpl - 1 = 0xff then s.reg dph - 1 else s.reg dph) else s.reg r } := by
    unfold decDptr
    by_cases e : s.reg dpl - 1 = 0xff
    · rw [if_pos (by simpa [set, upd] using e), if_pos e]
      simp only [set]
      congr 1; funext r; cases r <;> simp [upd]
    · rw [if_neg (by simpa [set, upd] using e), if_neg e]
      simp only [set]
      congr 1; funext r; cases r <;> simp [upd]
  rw [hdec]
  refine ⟨?_, ?_, rfl, rfl, rfl, rfl⟩
  · exact key _ _
  · intro r h1 h2 h3
    show (if r = dpl ∨ r = a then _ else _) = _
    rw [if_neg (by simp [h1, h2]), if_neg h3]

/-- PUSH_xxDPTR -/
theorem pushXDptr_eff {z : Byte} (s : St) (h : depth z s < 255) :
    dptr (pushXDptr s) = dptr s - 1 ∧ (pushXDptr s).reg a = s.xram (dptr s - 1) ∧
    stk z (pushXDptr s) = s.xram (dptr s - 1) :: stk z s ∧ KeepReg s (pushXDptr s) ∧ SameRest s (pushXDptr s) ∧
    depth z (pushXDptr s) = depth z s + 1 := by
  obtain ⟨d1, d2, d3, d4, d5⟩ := decDptr_eff s
  obtain ⟨t, ht⟩ : ∃ t, t = decDptr s := ⟨_, rfl⟩
  have hp : pushXDptr s = pushv (t.xram (dptr t)) (movxLd t) := by
    subst ht
    show pushv ((movxLd (decDptr s)).reg a) (movxLd (decDptr s)) = _
    rw [show (movxLd (decDptr s)).reg a = (decDptr s).xram (dptr (decDptr s)) from set_same _ _ _]
  rw [← ht] at d1 d2 d3 d4 d5
  have hx : t.xram (dptr t) = s.xram (dptr s - 1) := by rw [d5.1, d1]
  have hdep : depth z (movxLd t) = depth z s := by show (t.sp - z).toNat = _; rw [d3]; rfl
  have hdp : dptr (movxLd t) = dptr t := set_dptr _ _ _ (by decide) (by decide)
  rw [hp, hx]
  refine ⟨hdp.trans d1, ?_, ?_, ?_, ⟨d5.1, d5.2⟩, ?_⟩
  · show upd t.reg a (t.xram (dptr t)) a = _
    rw [upd_same, hx]
  · rw [stk_pushv _ (by rw [hdep]; exact h)]
    congr 1
    exact stk_congr d3 d4
  · intro r h1 h2 h3
    show upd t.reg a _ r = _
    rw [upd_ne _ _ h1]; exact d2 r h1 h2 h3
  · rw [depth_pushv _ (by rw [hdep]; exact h), hdep]

theorem mov_dptr (d r : R) (s : St) (h1 : d ≠ dpl) (h2 : d ≠ dph) : dptr (mov d r s) = dptr s :=
  set_dptr _ _ _ h1 h2

theorem mov_reg_ne (d r q : R) (s : St) (h : q ≠ d) : (mov d r s).reg q = s.reg q := upd_ne _ _ h

theorem mov_same (d r : R) (s : St) : (mov d r s).reg d = s.reg r := set_same _ _ _

theorem cat_inj {h l : Byte} {p : Addr} (e1 : l = lo p) (e2 : h = hi p) : cat h l = p := by rw [e1, e2, cat_hi_lo]

theorem restoreLoop_eff {z : Byte} (bs : Addr) : ∀ (n fuel : Nat) (s : St), n + 1 ≤ fuel → n + 1 < 65536 →
    dptr s = bs + BitVec.ofNat 16 (n + 1) → s.reg r6 = lo bs → s.reg r7 = hi bs → depth z s + (n + 1) < 256 →
    stk z (restoreLoop fuel s) = load s.xram bs (n + 1) ++ stk z s ∧ KeepReg s (restoreLoop fuel s) ∧
    SameRest s (restoreLoop fuel s) := by
  intro n
  induction n with
  | zero =>
    intro fuel s hf _ hd h6 h7 hr
    obtain ⟨f, rfl⟩ : ∃ f, fuel = f + 1 := ⟨fuel - 1, by omega⟩
    obtain ⟨p1, p2, p3, p4, p5, p6⟩ := pushXDptr_eff (z := z) s (by omega)
    obtain ⟨t, ht⟩ : ∃ t, t = pushXDptr s := ⟨_, rfl⟩
    rw [← ht] at p1 p2 p3 p4 p5 p6
    have hbs : dptr t = bs := by
      rw [p1, hd]; show bs + 1#16 - 1 = bs; grind
    have hb : restoreBody s = mov a r6 t := by rw [ht]; rfl
    have hpl : t.reg dpl = lo bs := by rw [← hbs]; unfold dptr; rw [lo_cat]
    have hph : t.reg dph = hi bs := by rw [← hbs]; unfold dptr; rw [hi_cat]
    have t6 : t.reg r6 = lo bs := (p4 r6 (by decide) (by decide) (by decide)).trans h6
    have t7 : t.reg r7 = hi bs := (p4 r7 (by decide) (by decide) (by decide)).trans h7
    have he : restoreLoop (f + 1) s = mov a r7 (mov a r6 t) := by
      show (if (restoreBody s).reg a ≠ (restoreBody s).reg dpl then _ else
        if (mov a r7 (restoreBody s)).reg a ≠ (mov a r7 (restoreBody s)).reg dph then _ else mov a r7 (restoreBody s)) = _
      rw [hb, if_neg, if_neg]
      · rw [mov_reg_ne _ _ _ _ (show dph ≠ a by decide), mov_reg_ne _ _ _ _ (show dph ≠ a by decide), hph]
        show ¬ upd (mov a r6 t).reg a ((mov a r6 t).reg r7) a ≠ _
        rw [upd_same, mov_reg_ne _ _ _ _ (show r7 ≠ a by decide), t7]; simp
      · rw [mov_reg_ne _ _ _ _ (show dpl ≠ a by decide), hpl]
        show ¬ upd t.reg a (t.reg r6) a ≠ _
        rw [upd_same, t6]; simp
    rw [he]
    refine ⟨?_, ?_, p5⟩
    · rw [show stk z (mov a r7 (mov a r6 t)) = stk z t from stk_congr rfl rfl, p3, ← p1, hbs]
      simp [load]
    · intro r h1 h2 h3
      rw [mov_reg_ne _ _ _ _ h1, mov_reg_ne _ _ _ _ h1]; exact p4 r h1 h2 h3
  | succ n ih =>
    intro fuel s hf hn hd h6 h7 hr
    obtain ⟨f, rfl⟩ : ∃ f, fuel = f + 1 := ⟨fuel - 1, by omega⟩
    obtain ⟨p1, p2, p3, p4, p5, p6⟩ := pushXDptr_eff (z := z) s (by omega)
    obtain ⟨t, ht⟩ : ∃ t, t = pushXDptr s := ⟨_, rfl⟩
    rw [← ht] at p1 p2 p3 p4 p5 p6
    have hbs : dptr t = bs + BitVec.ofNat 16 (n + 1) := by
      rw [p1, hd, show n + 1 + 1 = (n + 1) + 1 from rfl, BitVec.ofNat_add (n + 1) 1]; grind
    have hb : restoreBody s = mov a r6 t := by rw [ht]; rfl
    have t6 : t.reg r6 = lo bs := (p4 r6 (by decide) (by decide) (by decide)).trans h6
    have t7 : t.reg r7 = hi bs := (p4 r7 (by decide) (by decide) (by decide)).trans h7
    have hne : ¬ (t.reg r6 = t.reg dpl ∧ t.reg r7 = t.reg dph) := by
      rintro ⟨e1, e2⟩
      have : dptr t = bs := cat_inj (e1.symm.trans t6) (e2.symm.trans t7)
      rw [hbs] at this
      have h0 : BitVec.ofNat 16 (n + 1) = 0 := by grind
      have h1 := congrArg BitVec.toNat h0
      rw [BitVec.toNat_ofNat, Nat.mod_eq_of_lt (by omega)] at h1
      exact absurd h1 (by simp)
    -- either comparison sends it round again
    have he : ∃ u : St, restoreLoop (f + 1) s = restoreLoop f u ∧ stk z u = stk z t ∧ depth z u = depth z t ∧ dptr u = dptr t ∧
        (∀ r, r ≠ a → u.reg r = t.reg r) ∧ SameRest t u := by
      have hstep : restoreLoop (f + 1) s = (if (mov a r6 t).reg a ≠ (mov a r6 t).reg dpl then restoreLoop f (mov a r6 t) else
        if (mov a r7 (mov a r6 t)).reg a ≠ (mov a r7 (mov a r6 t)).reg dph then restoreLoop f (mov a r7 (mov a r6 t))
        else mov a r7 (mov a r6 t)) := by
        rw [← hb]; rfl
      by_cases c1 : (mov a r6 t).reg a ≠ (mov a r6 t).reg dpl
      · refine ⟨mov a r6 t, by rw [hstep, if_pos c1], stk_congr rfl rfl, rfl, mov_dptr _ _ _ (by decide) (by decide),
          fun r h => mov_reg_ne _ _ _ _ h, rfl, rfl⟩
      · have c2 : (mov a r7 (mov a r6 t)).reg a ≠ (mov a r7 (mov a r6 t)).reg dph := by
          rw [show (mov a r7 (mov a r6 t)).reg a = t.reg r7 from
            (mov_same _ _ _).trans (mov_reg_ne _ _ _ _ (by decide)), mov_reg_ne _ _ _ _ (by decide), mov_reg_ne _ _ _ _ (by decide)]
          intro e
          refine hne ⟨?_, e⟩
          rw [show (mov a r6 t).reg a = t.reg r6 from mov_same _ _ _, mov_reg_ne _ _ _ _ (by decide)] at c1
          exact Decidable.byContradiction fun h => c1 h
        refine ⟨mov a r7 (mov a r6 t), by rw [hstep, if_neg c1, if_pos c2], stk_congr rfl rfl, rfl, ?_, ?_, rfl, rfl⟩
        · rw [mov_dptr _ _ _ (by decide) (by decide), mov_dptr _ _ _ (by decide) (by decide)]
        · intro r h; rw [mov_reg_ne _ _ _ _ h, mov_reg_ne _ _ _ _ h]
    obtain ⟨u, e1, e2, e3, e4, e5, e6⟩ := he
    obtain ⟨i1, i2, i3⟩ := ih f u (by omega) (by omega) (e4.trans hbs) ((e5 r6 (by decide)).trans t6) ((e5 r7 (by decide)).trans t7)
      (by omega)
    rw [e1]
    refine ⟨?_, ?_, i3.1.trans (e6.1.trans p5.1), i3.2.trans (e6.2.trans p5.2)⟩
    · rw [i1, e2, p3, e6.1, p5.1, load_succ _ _ (n + 1), ← p1, hbs]
      simp
    · intro r h1 h2 h3
      rw [i2 r h1 h2 h3, e5 r h1]; exact p4 r h1 h2 h3

/-- RESTORE_CONTEXT_STEP1 -/
theorem restore1_eff {z : Byte} (s : St) (bs : Addr) (n : Nat) (hn : 3 ≤ n) (hn2 : n < 256) (hd : dptr s = bs + BitVec.ofNat 16 n)
    (h1 : s.xram (dptr s - 1) = lo bs) (h2 : s.xram (dptr s - 2) = hi bs) :
    stk z (restore1 z s) = load s.xram bs n ∧ SameRest s (restore1 z s) ∧ (restore1 z s).reg bp = s.reg bp := by
  obtain ⟨u, hu⟩ : ∃ u : St, u = { s with sp := z } := ⟨_, rfl⟩
  have u0 : depth z u = 0 := by rw [hu]; unfold depth; simp
  have uk : stk z u = [] := stk_nil (by rw [hu])
  have ud : dptr u = dptr s := by rw [hu]; rfl
  have ux : u.xram = s.xram := by rw [hu]
  have ue : u.ea = s.ea := by rw [hu]
  have ub : u.reg bp = s.reg bp := by rw [hu]
  have hr : restore1 z s = restoreLoop 65536 (mov r7 a (pushXDptr (mov r6 a (pushXDptr u)))) := by rw [hu]; rfl
  rw [hr]
  obtain ⟨p1, p2, p3, p4, p5, p6⟩ := pushXDptr_eff (z := z) u (by omega)
  generalize pushXDptr u = t at *
  have t0 : depth z (mov r6 a t) = 1 := by show depth z t = 1; omega
  obtain ⟨q1, q2, q3, q4, q5, q6⟩ := pushXDptr_eff (z := z) (mov r6 a t) (by omega)
  have v6 : (pushXDptr (mov r6 a t)).reg r6 = lo bs := by
    rw [q4 r6 (by decide) (by decide) (by decide)]
    show upd t.reg r6 (t.reg a) r6 = _
    rw [upd_same, p2, ud, ux, h1]
  have vb : (pushXDptr (mov r6 a t)).reg bp = s.reg bp := by
    rw [q4 bp (by decide) (by decide) (by decide), mov_reg_ne _ _ _ _ (by decide), p4 bp (by decide) (by decide) (by decide), ub]
  generalize pushXDptr (mov r6 a t) = v at *
  have vd : dptr v = dptr s - 2 := by
    rw [q1, mov_dptr _ _ _ (by decide) (by decide), p1, ud]; grind
  have vx : v.xram = s.xram := by rw [q5.1]; show t.xram = _; rw [p5.1, ux]
  have va : v.reg a = hi bs := by
    rw [q2]
    show t.xram (dptr (mov r6 a t) - 1) = _
    rw [p5.1, ux, mov_dptr _ _ _ (by decide) (by decide), p1, ud, ← h2]
    congr 1; grind
  have vs : stk z v = [hi bs, lo bs] := by
    rw [q3, show stk z (mov r6 a t) = stk z t from stk_congr rfl rfl, p3, uk, ← q2, va, ux, ud, h1]
  have hw : dptr v = bs + BitVec.ofNat 16 (n - 3 + 1) := by
    have e3 : BitVec.ofNat 16 n = BitVec.ofNat 16 (n - 3 + 1) + 2#16 := by
      rw [show n = (n - 3 + 1) + 2 by omega, BitVec.ofNat_add]; congr 3 <;> omega
    rw [vd, hd, e3]; grind
  obtain ⟨i1, i2, i3⟩ := restoreLoop_eff (z := z) bs (n - 3) 65536 (mov r7 a v) (by omega) (by omega)
    ((mov_dptr _ _ _ (by decide) (by decide)).trans hw) ((mov_reg_ne _ _ _ _ (by decide)).trans v6)
    ((mov_same _ _ _).trans va) (by show depth z v + _ < _; omega)
  refine ⟨?_, ⟨i3.1.trans vx, i3.2.trans ?_⟩, ?_⟩
  · rw [i1, show stk z (mov r7 a v) = stk z v from stk_congr rfl rfl, vs, show (mov r7 a v).xram = v.xram from rfl, vx]
    rw [show n - 3 + 1 = n - 2 by omega]
    have e1 : bs + BitVec.ofNat 16 (n - 2) = dptr s - 2 := by rw [← vd, hw]; congr 2; omega
    have e2 : bs + BitVec.ofNat 16 (n - 1) = dptr s - 1 := by
      rw [show n - 1 = (n - 2) + 1 by omega, BitVec.ofNat_add]
      have : bs + (BitVec.ofNat 16 (n - 2) + BitVec.ofNat 16 1) = (bs + BitVec.ofNat 16 (n - 2)) + 1 := by
        show bs + (BitVec.ofNat 16 (n - 2) + 1#16) = _; grind
      rw [this, e1]; grind
    conv => rhs; rw [show n = (n - 2) + 1 + 1 by omega]
    rw [load_succ, load_succ, e1, show n - 2 + 1 = n - 1 by omega, e2, h1, h2]
    simp
  · show v.ea = _; rw [q5.2]; show t.ea = _; rw [p5.2, ue]
  · rw [i2 bp (by decide) (by decide) (by decide), mov_reg_ne _ _ _ _ (by decide)]; exact vb

end Pico.Ctx51
