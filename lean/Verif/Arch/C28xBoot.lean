import Verif.Arch.C28xSound
/-
The c28x port: the first context of a task (C55).
-/
namespace Pico.C28x

open Pico.Ctx8 (upd upd_same upd_ne)
open R

theorem pushvs_eff : ∀ (l : List W) (s : St), l.length < 65535 →
    pushvs l s = { s with mem := store s.mem s.sp l, sp := s.sp + BitVec.ofNat 16 l.length } := by
  intro l
  induction l with
  | nil =>
    intro s _
    show s = _
    rw [store_nil]
    have : s.sp + BitVec.ofNat 16 ([] : List W).length = s.sp := by simp
    rw [this]
  | cons v l ih =>
    intro s h
    rw [List.length_cons] at h
    show pushvs l (pushv v s) = _
    rw [ih (pushv v s) (by omega)]
    have h1 : store (pushv v s).mem (pushv v s).sp l = store s.mem s.sp (v :: l) := store_cons _ _ _ _ (by omega)
    have h2 : (pushv v s).sp + BitVec.ofNat 16 l.length = s.sp + BitVec.ofNat 16 (v :: l).length := by
      show s.sp + 1 + _ = _
      rw [List.length_cons, BitVec.ofNat_add]
      exact (show ∀ x y : W, x + 1 + y = x + (y + 1#16) by intros; grind) _ _
    rw [h1, h2]; rfl

/-- the words pushed for the processor before the program counter -/
def head : List W := [0x80, 0, 0, 0, 0, 0, 0, 0, 0x8a08, 0, 0xa000, 0]

/-- up to the two pushes that depend on the parity of the stack -/
def firstA (c : Cfg) : St → St :=
  run [fun s => set (arh 6) (s.reg ah) (set (ar 6) (s.reg al) s), set dp c.page, fun s => { s with mem := upd s.mem c.b (s.reg (ar 4)) },
    swap c.b c.page, pushvs head]
/-- from there to SAVE_CONTEXT -/
def firstB : St → St :=
  run [push2 (arh 5, ar 5), pushv 0,
    fun s => set st1 (s.reg st1 ||| 1) s,
    fun s => set (arh 4) (s.reg (arh 6)) (set (ar 4) (s.reg (ar 6)) s),
    fun s => set (arh 5) 0 (set (ar 5) 0 s), fun s => set (arh 6) 0 (set (ar 6) 0 s)]
def firstC (c : Cfg) : St → St := run [swap c.b c.page, fun s => movz 4 (s.mem c.b) s]

theorem first_split (c : Cfg) (s : St) : first c s = firstC c (save c.f (firstB (firstA c s))) := rfl

theorem firstA_eff (c : Cfg) (s : St) :
    (firstA c s).mem = store (upd s.mem c.b s.sp) (s.reg (ar 4)) head ∧ (firstA c s).sp = s.reg (ar 4) + 12 ∧
    (firstA c s).reg (ar 6) = s.reg al ∧ (firstA c s).reg (arh 6) = s.reg ah ∧
    ∀ r, r ≠ dp → r ≠ al → r ≠ ah → r ≠ ar 6 → r ≠ arh 6 → (firstA c s).reg r = s.reg r := by
  obtain ⟨t, ht⟩ : ∃ t : St, t = { set dp c.page (set (arh 6) (s.reg ah) (set (ar 6) (s.reg al) s)) with
    mem := upd s.mem c.b ((set dp c.page (set (arh 6) (s.reg ah) (set (ar 6) (s.reg al) s))).reg (ar 4)) } := ⟨_, rfl⟩
  have h0 : firstA c s = pushvs head (swap c.b c.page t) := by
    rw [ht]
    show pushvs head (swap c.b c.page { set dp c.page (set (arh 6) ((set (ar 6) (s.reg al) s).reg ah) (set (ar 6) (s.reg al) s)) with
      mem := _ }) = _
    rfl
  have t4 : (set dp c.page (set (arh 6) (s.reg ah) (set (ar 6) (s.reg al) s))).reg (ar 4) = s.reg (ar 4) := by
    rw [set_ne _ _ (by decide), set_ne _ _ (by decide), set_ne _ _ (by decide)]
  have tm : t.mem = upd s.mem c.b (s.reg (ar 4)) := by rw [ht, ← t4]
  have tsp : t.sp = s.sp := by rw [ht]; rfl
  have tr : t.reg = (set dp c.page (set (arh 6) (s.reg ah) (set (ar 6) (s.reg al) s))).reg := by rw [ht]
  obtain ⟨w1, w2, w3⟩ := swap_eff c.b c.page t
  rw [h0, pushvs_eff _ _ (by decide)]
  clear ht
  generalize swap c.b c.page t = u at *
  rw [tm, upd_same] at w1
  refine ⟨?_, ?_, ?_, ?_, fun r h1 h2 h3 h4 h5 => ?_⟩
  · show store u.mem u.sp head = _
    rw [w1, w2, tm, tsp]
    congr 1
    funext y
    by_cases hy : y = c.b
    · rw [hy, upd_same, upd_same]
    · rw [upd_ne _ _ hy, upd_ne _ _ hy, upd_ne _ _ hy]
  · show u.sp + BitVec.ofNat 16 head.length = _
    rw [w1]; rfl
  · show u.reg (ar 6) = _
    rw [w3 _ (by decide) (by decide) (by decide), tr, set_ne _ _ (by decide), set_ne _ _ (by decide), set_same]
  · show u.reg (arh 6) = _
    rw [w3 _ (by decide) (by decide) (by decide), tr, set_ne _ _ (by decide), set_same]
  · show u.reg r = _
    rw [w3 _ h1 h2 h3, tr, set_ne _ _ h1, set_ne _ _ h5, set_ne _ _ h4]

theorem firstB_eff (u : St) :
    (firstB u).mem = upd (upd (upd u.mem (ev u.sp) (u.reg (ar 5))) (ev u.sp + 1) (u.reg (arh 5))) (u.sp + 2) 0 ∧
    (firstB u).sp = u.sp + 3 ∧ (firstB u).reg (ar 4) = u.reg (ar 6) ∧ (firstB u).reg (arh 4) = u.reg (arh 6) ∧
    (firstB u).reg st1 = u.reg st1 ||| 1 ∧
    ∀ r, r ≠ st1 → r ≠ ar 4 → r ≠ arh 4 → r ≠ ar 5 → r ≠ arh 5 → r ≠ ar 6 → r ≠ arh 6 → (firstB u).reg r = u.reg r := by
  obtain ⟨x, hx⟩ : ∃ x : St, x = pushv 0 (push2 (arh 5, ar 5) u) := ⟨_, rfl⟩
  have xm : x.mem = upd (upd (upd u.mem (ev u.sp) (u.reg (ar 5))) (ev u.sp + 1) (u.reg (arh 5))) (u.sp + 2) 0 := by rw [hx]; rfl
  have xs : x.sp = u.sp + 3 := by rw [hx]; show u.sp + 2 + 1 = _; grind
  have xr : x.reg = u.reg := by rw [hx]; rfl
  have h0 : firstB u = set (arh 6) 0 (set (ar 6) 0 (set (arh 5) 0 (set (ar 5) 0
      (set (arh 4) ((set st1 (x.reg st1 ||| 1) x).reg (arh 6)) (set (ar 4) ((set st1 (x.reg st1 ||| 1) x).reg (ar 6)) (set st1 (x.reg st1 ||| 1) x)))))) := by
    rw [hx]; rfl
  rw [h0]
  refine ⟨xm, xs, ?_, ?_, ?_, fun r h1 h2 h3 h4 h5 h6 h7 => ?_⟩
  · rw [set_ne _ _ (by decide), set_ne _ _ (by decide), set_ne _ _ (by decide), set_ne _ _ (by decide), set_ne _ _ (by decide), set_same,
      set_ne _ _ (by decide), xr]
  · rw [set_ne _ _ (by decide), set_ne _ _ (by decide), set_ne _ _ (by decide), set_ne _ _ (by decide), set_same,
      set_ne _ _ (by decide), xr]
  · rw [set_ne _ _ (by decide), set_ne _ _ (by decide), set_ne _ _ (by decide), set_ne _ _ (by decide), set_ne _ _ (by decide),
      set_ne _ _ (by decide), set_same, xr]
  · rw [set_ne _ _ h7, set_ne _ _ h6, set_ne _ _ h5, set_ne _ _ h4, set_ne _ _ h3, set_ne _ _ h2, set_ne _ _ h1, xr]

theorem firstC_eff (c : Cfg) (u : St) : (firstC c u).mem = upd u.mem c.b u.sp ∧ (firstC c u).sp = u.mem c.b ∧
    (firstC c u).reg (ar 4) = u.sp ∧ (firstC c u).reg (arh 4) = 0 ∧
    ∀ r, r ≠ dp → r ≠ al → r ≠ ah → r ≠ ar 4 → r ≠ arh 4 → (firstC c u).reg r = u.reg r := by
  obtain ⟨w1, w2, w3⟩ := swap_eff c.b c.page u
  have h0 : firstC c u = movz 4 ((swap c.b c.page u).mem c.b) (swap c.b c.page u) := rfl
  obtain ⟨m1, m2, m3, m4⟩ := movz_eff 4 ((swap c.b c.page u).mem c.b) (swap c.b c.page u)
  rw [h0]
  refine ⟨m2.trans w2, m3.trans w1, ?_, set_same _ _ _, fun r h1 h2 h3 h4 h5 => ?_⟩
  · rw [m1, w2, upd_same]
  · rw [m4 _ h4 h5, w3 _ h1 h2 h3]

/-- the words of the first context that the processor pops -/
def boot (f : W × W) : R → W := fun r =>
  if r = st0 then 0x80 else if r = st1 then 0x8a08 else if r = ier then 0xa000 else
    if r = pcl then f.1 else if r = pch then f.2 else 0

theorem words_boot (f : W × W) : words hw (boot f) = head ++ [f.1, f.2] := rfl

/-- the whole of arch_save_first_context, on an even stack -/
theorem first_even (c : Cfg) (s : St) (hp : (s.reg (ar 4)).toNat % 2 = 0) : ∃ V : R → W,
    V (ar 4) = s.reg al ∧ V (arh 4) = s.reg ah ∧ V st1 &&& spa ≠ 0 ∧
    (∀ r, r ≠ dp → r ≠ al → r ≠ ah → r ≠ st1 → (∀ n, r = ar n ∨ r = arh n → n.val < 4) → V r = s.reg r) ∧
    (first c s).mem = upd (store (store (upd s.mem c.b s.sp) (s.reg (ar 4)) (words hw (boot (s.reg (ar 5), s.reg (arh 5))) ++ [0]))
      (s.reg (ar 4) + 16) (words (both c) V)) c.b (s.reg (ar 4) + BitVec.ofNat 16 (size c)) ∧
    (first c s).sp = (store (store (upd s.mem c.b s.sp) (s.reg (ar 4)) (words hw (boot (s.reg (ar 5), s.reg (arh 5))) ++ [0]))
      (s.reg (ar 4) + 16) (words (both c) V)) c.b ∧
    (first c s).reg (ar 4) = s.reg (ar 4) + BitVec.ofNat 16 (size c) ∧ (first c s).reg (arh 4) = 0 ∧
    (∀ r, r ≠ dp → r ≠ al → r ≠ ah → r ≠ st1 → (∀ n, r = ar n ∨ r = arh n → n.val < 4) → (first c s).reg r = s.reg r) := by
  rw [first_split]
  obtain ⟨a1, a2, a3, a4, a5⟩ := firstA_eff c s
  generalize firstA c s = a at *
  obtain ⟨b1, b2, b3, b4, b5, b6⟩ := firstB_eff a
  generalize firstB a = b at *
  have hp' : b.sp.toNat % 2 = 1 := by
    rw [b2, a2, show s.reg (ar 4) + 12 + 3 = s.reg (ar 4) + BitVec.ofNat 16 15 by show _ = s.reg (ar 4) + 15#16; grind, toNat_add_lit]; omega
  have hbsp : b.sp + 1 = s.reg (ar 4) + 16 := by rw [b2, a2]; grind
  obtain ⟨V, v1, v2, v3, v4, v5⟩ := save_eff c b
  rw [if_pos hp'] at v2 v4 v5
  rw [hbsp] at v4 v5
  generalize save c.f b = d at *
  obtain ⟨f1, f2, f3, f4, f5⟩ := firstC_eff c d
  have hev : ev a.sp = s.reg (ar 4) + 12 := by
    rw [a2]; refine ev_even ?_
    rw [show s.reg (ar 4) + 12 = s.reg (ar 4) + BitVec.ofNat 16 12 from rfl, toNat_add_lit]; omega
  have hbm : b.mem = store (upd s.mem c.b s.sp) (s.reg (ar 4)) (words hw (boot (s.reg (ar 5), s.reg (arh 5))) ++ [0]) := by
    rw [b1, hev, a2, a1, a5 _ (by decide) (by decide) (by decide) (by decide) (by decide),
      a5 _ (by decide) (by decide) (by decide) (by decide) (by decide), words_boot]
    generalize upd s.mem c.b s.sp = m
    generalize s.reg (ar 4) = p
    generalize s.reg (ar 5) = x
    generalize s.reg (arh 5) = y
    funext z
    have cell : ∀ k : Nat, k < 65536 → (z = p + BitVec.ofNat 16 k ↔ (z - p).toNat = k) := by
      intro k hk
      constructor
      · intro h; rw [h, add_sub_toNat _ _ hk]
      · intro h
        have : z - p = BitVec.ofNat 16 k := BitVec.eq_of_toNat_eq (by rw [h, BitVec.toNat_ofNat, Nat.mod_eq_of_lt hk])
        rw [← this]; grind
    have c12 := cell 12 (by omega)
    have c13 := cell 13 (by omega)
    have c14 := cell 14 (by omega)
    rw [show p + BitVec.ofNat 16 12 = p + 12 from rfl] at c12
    rw [show p + BitVec.ofNat 16 13 = p + 12 + 1 by show p + 13#16 = _; grind] at c13
    rw [show p + BitVec.ofNat 16 14 = p + 12 + 2 by show p + 14#16 = _; grind] at c14
    have hl : (head ++ [x, y] ++ [0]).length = 15 := rfl
    have hh : head.length = 12 := rfl
    by_cases h14 : z = p + 12 + 2
    · rw [h14, upd_same, ← h14]; unfold store; rw [hl, c14.1 h14, if_pos (by omega)]; rfl
    · rw [upd_ne _ _ h14]
      by_cases h13 : z = p + 12 + 1
      · rw [h13, upd_same, ← h13]; unfold store; rw [hl, c13.1 h13, if_pos (by omega)]; rfl
      · rw [upd_ne _ _ h13]
        by_cases h12 : z = p + 12
        · rw [h12, upd_same, ← h12]; unfold store; rw [hl, c12.1 h12, if_pos (by omega)]; rfl
        · rw [upd_ne _ _ h12]
          have n14 : (z - p).toNat ≠ 14 := fun h => h14 (c14.2 h)
          have n13 : (z - p).toNat ≠ 13 := fun h => h13 (c13.2 h)
          have n12 : (z - p).toNat ≠ 12 := fun h => h12 (c12.2 h)
          unfold store
          rw [hl, hh]
          by_cases hlt : (z - p).toNat < 12
          · rw [if_pos hlt, if_pos (by omega), List.append_assoc, List.getD_eq_getElem?_getD, List.getD_eq_getElem?_getD,
              List.getElem?_append_left (by rw [hh]; exact hlt)]
          · rw [if_neg hlt, if_neg (by omega)]
  have hsize : s.reg (ar 4) + 16 + BitVec.ofNat 16 (2 * (both c).length) = s.reg (ar 4) + BitVec.ofNat 16 (size c) := by
    rw [← both_length c, BitVec.ofNat_add 16]
    exact (show ∀ x y : W, x + 16 + y = x + (16#16 + y) by intros; grind) _ _
  have keep : ∀ r, r ≠ dp → r ≠ al → r ≠ ah → r ≠ st1 → (∀ n, r = ar n ∨ r = arh n → n.val < 4) → V r = s.reg r := by
    intro r h1 h2 h3 h4 h5
    rw [v1 r h4]
    have g : ∀ n : Fin 8, 4 ≤ n.val → r ≠ ar n ∧ r ≠ arh n := fun n hn =>
      ⟨fun e => absurd (h5 n (Or.inl e)) (by omega), fun e => absurd (h5 n (Or.inr e)) (by omega)⟩
    rw [b6 r h4 (g 4 (by decide)).1 (g 4 (by decide)).2 (g 5 (by decide)).1 (g 5 (by decide)).2 (g 6 (by decide)).1 (g 6 (by decide)).2,
      a5 r h1 h2 h3 (g 6 (by decide)).1 (g 6 (by decide)).2]
  refine ⟨V, ?_, ?_, ?_, keep, ?_, ?_, ?_, f4, fun r h1 h2 h3 h4 h5 => ?_⟩
  · rw [v1 _ (by decide), b3, a3]
  · rw [v1 _ (by decide), b4, a4]
  · rw [v2]; exact or_spa _
  · rw [f1, v4, v5, hbm, hsize]
  · rw [f2, v4, hbm]
  · rw [f3, v5, hsize]
  · rw [f5 r h1 h2 h3 (fun e => absurd (h5 4 (Or.inl e)) (by decide)) (fun e => absurd (h5 4 (Or.inr e)) (by decide)), v3,
      keep r h1 h2 h3 h4 h5]

/-- **C55, c28x**: on an even stack address, apart from the variable `stack`, arch_save_first_context gives a handle `size` words above it (the
processor's argument registers: stack in AR4, function in XAR5, argument in ACC), which holds a context in which the function
is about to be executed, on this stack, with its argument in XAR4, interrupts unmasked. -/
theorem c28x_first (c : Cfg) (s : St) (hp : (s.reg (ar 4)).toNat % 2 = 0) (hb : ¬ (c.b - s.reg (ar 4)).toNat < size c) :
    let h := (first c s).reg (ar 4)
    h = s.reg (ar 4) + BitVec.ofNat 16 (size c) ∧ (first c s).reg (arh 4) = 0 ∧
    ∃ x : (R → W) × W, (port c).Holds h x (first c s) ∧ x.2 = s.reg (ar 4) ∧ x.1 pcl = s.reg (ar 5) ∧ x.1 pch = s.reg (arh 5) ∧
      x.1 (ar 4) = s.reg al ∧ x.1 (arh 4) = s.reg ah ∧ x.1 st1 &&& 1 = 0 ∧ x.1 ier = 0xa000 := by
  obtain ⟨V, v1, v2, v3, _, g1, _, g3, g4, _⟩ := first_even c s hp
  have hsz := both_length c
  have hs72 := size_lt c
  have h36 : 36 ≤ size c := by unfold size; split <;> omega
  simp only []
  rw [g3]
  refine ⟨rfl, g4, (back c V (boot (s.reg (ar 5), s.reg (arh 5))), s.reg (ar 4)), ?_, rfl, rfl, rfl, ?_, ?_, ?_, rfl⟩
  · have apart : ∀ i : Nat, i < size c → s.reg (ar 4) + BitVec.ofNat 16 i ≠ c.b := fun i hi e1 => hb (by
      rw [← e1, add_sub_toNat _ _ (by omega)]; exact hi)
    have hh := holds_of c (first c s) (s.reg (ar 4)) V (boot (s.reg (ar 5), s.reg (arh 5))) hp hb
      (by
        have hl := words_length (both c) V
        rw [g1, load_congr _ _ _ _ (fun i hi => upd_ne _ _ (by
          rw [show s.reg (ar 4) + 16 + BitVec.ofNat 16 i = s.reg (ar 4) + BitVec.ofNat 16 (16 + i) by
            rw [BitVec.ofNat_add]; exact (show ∀ x y : W, x + 16 + y = x + (16#16 + y) by intros; grind) _ _]
          exact apart _ (by omega)))]
        conv => lhs; rw [← hl]
        exact load_store _ _ _ (by omega))
      (by
        rw [if_pos v3, g1, load_congr _ _ _ _ (fun i hi => upd_ne _ _ (apart i (by omega)))]
        rw [load_store_apart]
        · have e : load (store (upd s.mem c.b s.sp) (s.reg (ar 4)) (words hw (boot (s.reg (ar 5), s.reg (arh 5))) ++ [0])) (s.reg (ar 4)) (14 + 1) =
            words hw (boot (s.reg (ar 5), s.reg (arh 5))) ++ [0] := load_store _ _ (words hw (boot (s.reg (ar 5), s.reg (arh 5))) ++ [0]) (by
              rw [List.length_append, words_length]; decide)
          exact (load_take _ _ 14 1 _ _ e (by rw [words_length]; rfl)).1
        · intro i hi
          rw [words_length, show s.reg (ar 4) + BitVec.ofNat 16 i - (s.reg (ar 4) + 16) = BitVec.ofNat 16 i - 16#16 by
            exact (show ∀ x y : W, x + y - (x + 16) = y - 16#16 by intros; grind) _ _, BitVec.toNat_sub, BitVec.toNat_ofNat,
            show (BitVec.ofNat 16 i).toNat = i by rw [BitVec.toNat_ofNat]; omega]
          omega)
    rw [if_pos v3] at hh
    exact hh
  · show (if vis c (ar 4) then (if ar 4 ∈ halves hw then boot (s.reg (ar 5), s.reg (arh 5)) (ar 4) else V (swp (ar 4))) else 0) = _
    rw [if_pos (by rfl), if_neg (by decide)]; exact v1
  · show (if vis c (arh 4) then (if arh 4 ∈ halves hw then boot (s.reg (ar 5), s.reg (arh 5)) (arh 4) else V (swp (arh 4))) else 0) = _
    rw [if_pos (by rfl), if_neg (by decide)]; exact v2
  · show (0x8a08 : W) &&& 1 = 0
    decide

/-- **C55, c28x**: nothing is written outside of the first `size` words of the stack and the variable `stack`; the stack pointer of the caller
and the registers it expects to keep (XAR1-XAR3) are unchanged. -/
theorem c28x_first_fits (c : Cfg) (s : St) (hp : (s.reg (ar 4)).toNat % 2 = 0) (hb : ¬ (c.b - s.reg (ar 4)).toNat < size c) :
    (∀ y, ¬ (y - s.reg (ar 4)).toNat < size c → y ≠ c.b → (first c s).mem y = s.mem y) ∧ (first c s).sp = s.sp ∧
    ∀ n : Fin 8, n.val < 4 → (first c s).reg (ar n) = s.reg (ar n) ∧ (first c s).reg (arh n) = s.reg (arh n) := by
  obtain ⟨V, v1, v2, v3, _, g1, g2, g3, g4, g5⟩ := first_even c s hp
  have hsz := both_length c
  have hs72 := size_lt c
  have h36 : 36 ≤ size c := by unfold size; split <;> omega
  have out : ∀ y, ¬ (y - s.reg (ar 4)).toNat < size c →
      (store (store (upd s.mem c.b s.sp) (s.reg (ar 4)) (words hw (boot (s.reg (ar 5), s.reg (arh 5))) ++ [0]))
      (s.reg (ar 4) + 16) (words (both c) V)) y = upd s.mem c.b s.sp y := by
    intro y hy
    have hyl := (y - s.reg (ar 4)).isLt
    rw [store_out, store_out]
    · rw [List.length_append, words_length]; show ¬ _ < 15; omega
    · rw [words_length, show y - (s.reg (ar 4) + 16) = (y - s.reg (ar 4)) - 16#16 by grind, BitVec.toNat_sub, show (16#16).toNat = 16 by decide]
      omega
  refine ⟨fun y hy hyb => ?_, ?_, fun n hn => ⟨?_, ?_⟩⟩
  · rw [g1, upd_ne _ _ hyb, out y hy, upd_ne _ _ hyb]
  · rw [g2, out _ hb, upd_same]
  · refine g5 _ (by simp) (by simp) (by simp) (by simp) fun m hm => ?_
    rcases hm with e | e
    · injection e with e; rw [← e]; exact hn
    · cases e
  · refine g5 _ (by simp) (by simp) (by simp) (by simp) fun m hm => ?_
    rcases hm with e | e
    · cases e
    · injection e with e; rw [← e]; exact hn

/-- **C59, c28x**: the interrupt enable register given to a new task has the bits of the twelve groups of peripheral interrupts clear: until the task
sets them itself, no peripheral interrupt is taken while it runs, whatever picoRTOS_enable_interrupt did to the interrupt controller. -/
theorem c28x_groups_masked (c : Cfg) (s : St) (hp : (s.reg (ar 4)).toNat % 2 = 0) (hb : ¬ (c.b - s.reg (ar 4)).toNat < size c) (k : Kind) (e : St)
    (hr : e.reg (ar 4) = (first c s).reg (ar 4)) (hm : ∀ y, (port c).frame (e.reg (ar 4)) y → e.mem y = (first c s).mem y) :
    ∀ i < 12, ((leave c e).reg ier).getLsbD i = false := by
  obtain ⟨_, _, x, hx, _, _, _, _, _, _, hier⟩ := c28x_first c s hp hb
  have h := hx.2 k e trivial hr (fun y hy => hm y (by rw [hr]; exact hy))
  have h2 := congrFun (congrArg Prod.fst h) ier
  have h3 : (leave c e).reg ier = 0xa000 := h2.trans hier
  rw [h3]
  decide

/-! ### odd stacks -/

/-- any fourteen words can be popped by the processor -/
theorem words_any (m : W → W) (p : W) : ∃ V : R → W, V pcl = m (p + 12) ∧ V pch = m (p + 13) ∧ words hw V = load m p 14 := by
  refine ⟨fun r => match r with
    | st0 => m (p + 0#16) | t => m (p + 1#16) | al => m (p + 2#16) | ah => m (p + 3#16) | pl => m (p + 4#16) | ph => m (p + 5#16)
    | ar n => if n = 0 then m (p + 6#16) else m (p + 7#16)
    | st1 => m (p + 8#16) | dp => m (p + 9#16) | ier => m (p + 10#16) | dbgstat => m (p + 11#16) | pcl => m (p + 12#16) | pch => m (p + 13#16)
    | _ => 0, rfl, rfl, rfl⟩


/-- what memory holds after arch_save_first_context on an odd stack: the program counter one word too low, the word above it not written -/
theorem first_odd (c : Cfg) (s : St) (hp : (s.reg (ar 4)).toNat % 2 = 1) : ∃ V : R → W,
    V st1 &&& spa = 0 ∧
    (first c s).mem = upd (store (upd (store (upd s.mem c.b s.sp) (s.reg (ar 4))
        [0x80, 0, 0, 0, 0, 0, 0, 0, 0x8a08, 0, 0xa000, s.reg (ar 5), s.reg (arh 5)]) (s.reg (ar 4) + 14) 0)
      (s.reg (ar 4) + 15) (words (both c) V)) c.b (s.reg (ar 4) + 15 + BitVec.ofNat 16 (2 * (both c).length)) ∧
    (first c s).reg (ar 4) = s.reg (ar 4) + 15 + BitVec.ofNat 16 (2 * (both c).length) := by
  rw [first_split]
  obtain ⟨a1, a2, a3, a4, a5⟩ := firstA_eff c s
  generalize firstA c s = a at *
  obtain ⟨b1, b2, b3, b4, b5, b6⟩ := firstB_eff a
  generalize firstB a = b at *
  have hp' : ¬ b.sp.toNat % 2 = 1 := by
    rw [b2, a2, show s.reg (ar 4) + 12 + 3 = s.reg (ar 4) + BitVec.ofNat 16 15 by show _ = s.reg (ar 4) + 15#16; grind, toNat_add_lit]; omega
  have hbsp : b.sp = s.reg (ar 4) + 15 := by rw [b2, a2]; grind
  obtain ⟨V, v1, v2, v3, v4, v5⟩ := save_eff c b
  rw [if_neg hp'] at v2 v4 v5
  rw [hbsp] at v4 v5
  generalize save c.f b = d at *
  obtain ⟨f1, f2, f3, f4, f5⟩ := firstC_eff c d
  have hev : ev a.sp = s.reg (ar 4) + 11 := by
    rw [a2, ev_odd]
    · grind
    · rw [show s.reg (ar 4) + 12 = s.reg (ar 4) + BitVec.ofNat 16 12 from rfl, toNat_add_lit]; omega
  have hbm : b.mem = upd (store (upd s.mem c.b s.sp) (s.reg (ar 4))
        [0x80, 0, 0, 0, 0, 0, 0, 0, 0x8a08, 0, 0xa000, s.reg (ar 5), s.reg (arh 5)]) (s.reg (ar 4) + 14) 0 := by
    rw [b1, hev, a2, a1, a5 _ (by decide) (by decide) (by decide) (by decide) (by decide),
      a5 _ (by decide) (by decide) (by decide) (by decide) (by decide)]
    generalize upd s.mem c.b s.sp = m
    generalize s.reg (ar 4) = p
    generalize s.reg (ar 5) = x
    generalize s.reg (arh 5) = y
    rw [show p + 12 + 2 = p + 14 by grind]
    congr 1
    funext z
    have cell : ∀ k : Nat, k < 65536 → (z = p + BitVec.ofNat 16 k ↔ (z - p).toNat = k) := by
      intro k hk
      constructor
      · intro h; rw [h, add_sub_toNat _ _ hk]
      · intro h
        have : z - p = BitVec.ofNat 16 k := BitVec.eq_of_toNat_eq (by rw [h, BitVec.toNat_ofNat, Nat.mod_eq_of_lt hk])
        rw [← this]; grind
    have c11 := cell 11 (by omega)
    have c12 := cell 12 (by omega)
    rw [show p + BitVec.ofNat 16 11 = p + 11 from rfl] at c11
    rw [show p + BitVec.ofNat 16 12 = p + 11 + 1 by show p + 12#16 = _; grind] at c12
    by_cases h12 : z = p + 11 + 1
    · rw [h12, upd_same, ← h12]; unfold store; rw [c12.1 h12]; rfl
    · rw [upd_ne _ _ h12]
      by_cases h11 : z = p + 11
      · rw [h11, upd_same, ← h11]; unfold store; rw [c11.1 h11]; rfl
      · rw [upd_ne _ _ h11]
        have n12 : (z - p).toNat ≠ 12 := fun h => h12 (c12.2 h)
        have n11 : (z - p).toNat ≠ 11 := fun h => h11 (c11.2 h)
        unfold store
        rw [show head.length = 12 from rfl, show ([0x80, 0, 0, 0, 0, 0, 0, 0, 0x8a08, 0, 0xa000, x, y] : List W).length = 13 from rfl]
        by_cases hlt : (z - p).toNat < 11
        · rw [if_pos (by omega), if_pos (by omega)]
          rw [show head = [0x80, 0, 0, 0, 0, 0, 0, 0, 0x8a08, 0, 0xa000] ++ [0] from rfl,
            show ([0x80, 0, 0, 0, 0, 0, 0, 0, 0x8a08, 0, 0xa000, x, y] : List W) = [0x80, 0, 0, 0, 0, 0, 0, 0, 0x8a08, 0, 0xa000] ++ [x, y] from rfl,
            List.getD_eq_getElem?_getD, List.getD_eq_getElem?_getD, List.getElem?_append_left (by exact hlt),
            List.getElem?_append_left (by exact hlt)]
        · rw [if_neg (by omega), if_neg (by omega)]
  refine ⟨V, ?_, ?_, ?_⟩
  · rw [v2]; exact and_spa _
  · rw [f1, v4, v5, hbm]
  · rw [f3, v5]

/-- **C55, c28x, refuted for odd addresses**: on a stack that begins at an odd address the task does not start at its function, but at an address
made of whatever word 13 of its stack held before: it does not depend on the function. -/
theorem c28x_first_odd_wrong (c : Cfg) (s e : St) (hp : (s.reg (ar 4)).toNat % 2 = 1)
    (hb : ¬ (c.b - (s.reg (ar 4) - 1)).toNat < size c)
    (hr : e.reg (ar 4) = (first c s).reg (ar 4)) (hm : ∀ y, (y - (s.reg (ar 4) - 1)).toNat < size c → e.mem y = (first c s).mem y) :
    (leave c e).reg pcl = s.mem (s.reg (ar 4) + 13) ∧ (leave c e).reg pch = 0 := by
  obtain ⟨V, v1, g1, g2⟩ := first_odd c s hp
  have hsz := both_length c
  have hs72 := size_lt c
  have h36 : 36 ≤ size c := by unfold size; split <;> omega
  obtain ⟨q, hq⟩ : ∃ q : W, q = s.reg (ar 4) - 1 := ⟨_, rfl⟩
  have hpq : s.reg (ar 4) = q + 1 := by rw [hq]; grind
  rw [← hq] at hb hm
  rw [hpq] at g1 g2
  have apart : ∀ i : Nat, i < size c → q + BitVec.ofNat 16 i ≠ c.b := fun i hi e1 => hb (by
    rw [← e1, add_sub_toNat _ _ (by omega)]; exact hi)
  have hqe : q.toNat % 2 = 0 := by
    rw [hq, BitVec.toNat_sub, show (1 : W).toNat = 1 by decide]; omega
  rw [show q + 1 + 15 = q + 16 by grind, show q + 1 + 14 = q + BitVec.ofNat 16 15 by show _ = q + 15#16; grind] at g1
  rw [show q + 1 + 15 = q + 16 by grind] at g2
  have rd : ∀ i : Nat, i < size c → e.mem (q + BitVec.ofNat 16 i) = (first c s).mem (q + BitVec.ofNat 16 i) := fun i hi =>
    hm _ (by rw [add_sub_toNat _ _ (by omega)]; exact hi)
  -- what the processor will pop
  obtain ⟨V2, w1, w2, w3⟩ := words_any (first c s).mem (q + 2)
  have hl := words_length (both c) V
  have before : ∀ i : Nat, i < 16 → (first c s).mem (q + BitVec.ofNat 16 i) = (upd (store (upd s.mem c.b s.sp) (q + 1)
      [0x80, 0, 0, 0, 0, 0, 0, 0, 0x8a08, 0, 0xa000, s.reg (ar 5), s.reg (arh 5)]) (q + BitVec.ofNat 16 15) 0) (q + BitVec.ofNat 16 i) := by
    intro i hi
    rw [g1, upd_ne _ _ (apart i (by omega)), store_out]
    rw [hl, show q + BitVec.ofNat 16 i - (q + 16) = BitVec.ofNat 16 i - 16#16 by
            exact (show ∀ x y : W, x + y - (x + 16) = y - 16#16 by intros; grind) _ _, BitVec.toNat_sub, BitVec.toNat_ofNat,
            show (BitVec.ofNat 16 i).toNat = i by rw [BitVec.toNat_ofNat]; omega]
    omega
  have p1 : (first c s).mem (q + 2 + 12) = s.mem (q + 1 + 13) := by
    rw [show q + 2 + 12 = q + BitVec.ofNat 16 14 by show _ = q + 14#16; grind, before 14 (by omega), upd_ne _ _ (by
      intro h
      have : q + BitVec.ofNat 16 14 - q = q + BitVec.ofNat 16 15 - q := by rw [h]
      rw [show q + BitVec.ofNat 16 14 - q = 14#16 by show q + 14#16 - q = _; grind,
        show q + BitVec.ofNat 16 15 - q = 15#16 by show q + 15#16 - q = _; grind] at this
      exact absurd this (by decide)), store_out, upd_ne _ _ (apart 14 (by omega))]
    · congr 1; show q + 14#16 = _; grind
    · rw [show q + BitVec.ofNat 16 14 - (q + 1) = 13#16 by show q + 14#16 - _ = _; grind]
      show ¬ 13 < 13
      omega
  have p2 : (first c s).mem (q + 2 + 13) = 0 := by
    rw [show q + 2 + 13 = q + BitVec.ofNat 16 15 by show _ = q + 15#16; grind, before 15 (by omega), upd_same]
  have key := (leave_eff c e q V V2 hqe (by
      rw [hr, g2, ← hsz, BitVec.ofNat_add 16]
      exact (show ∀ x y : W, x + 16 + y = x + (16#16 + y) by intros; grind) _ _) hb (by
      have e1 : load (first c s).mem (q + 16) (2 * (both c).length) = words (both c) V := by
        rw [g1, load_congr _ _ _ _ (fun i hi => upd_ne _ _ (by
          rw [show q + 16 + BitVec.ofNat 16 i = q + BitVec.ofNat 16 (16 + i) by
            rw [BitVec.ofNat_add]; exact (show ∀ x y : W, x + 16 + y = x + (16#16 + y) by intros; grind) _ _]
          exact apart _ (by omega)))]
        conv => lhs; rw [← hl]
        exact load_store _ _ _ (by omega)
      rw [← e1]
      refine load_congr _ _ _ _ fun i hi => ?_
      rw [show q + 16 + BitVec.ofNat 16 i = q + BitVec.ofNat 16 (16 + i) by
            rw [BitVec.ofNat_add]; exact (show ∀ x y : W, x + 16 + y = x + (16#16 + y) by intros; grind) _ _]
      exact rd _ (by omega)) (by
      rw [if_neg (fun h => h v1), w3]
      refine load_congr _ _ _ _ fun i hi => ?_
      rw [show q + 2 + BitVec.ofNat 16 i = q + BitVec.ofNat 16 (2 + i) by
            rw [BitVec.ofNat_add]; exact (show ∀ x y : W, x + 2 + y = x + (2#16 + y) by intros; grind) _ _]
      exact rd _ (by omega))).2
  have k1 := congrFun (congrArg Prod.fst key) pcl
  have k2 := congrFun (congrArg Prod.fst key) pch
  refine ⟨?_, ?_⟩
  · rw [hpq, ← p1, ← w1]; exact k1
  · rw [← p2, ← w2]; exact k2

/-! ### demonstration: states that meet the hypotheses -/

def demoCfg : Cfg := { b := 0xa000, page := 0x280, f := true }
def demo (p : W) : St where
  reg := fun r => match r with
    | ar n => if n = 4 then p else BitVec.ofNat 16 n.val
    | fp n h w => BitVec.ofNat 16 (4 * n.val + (if h then 2 else 0) + if w then 1 else 0)
    | _ => 7
  sp := p
  mem := fun x => x ^^^ 0x55

example : Ok demoCfg (demo 0x400) ∧ (demo 0x400).sp.toNat % 2 = 0 ∧ (demo 0x401).sp.toNat % 2 = 1 := by
  unfold Ok; decide
example : ¬ (demoCfg.b - ev (demo 0x401).sp).toNat < size demoCfg ∧ (demo 0x401).reg (fp 3 false true) ≠ (demo 0x401).reg (fp 3 true true) := by decide
example : ((demo 0x400).reg (ar 4)).toNat % 2 = 0 ∧ ¬ (demoCfg.b - (demo 0x400).reg (ar 4)).toNat < size demoCfg ∧
    ((demo 0x401).reg (ar 4)).toNat % 2 = 1 ∧ ¬ (demoCfg.b - ((demo 0x401).reg (ar 4) - 1)).toNat < size demoCfg := by decide

end Pico.C28x
