import Verif.Arch.C28xProps
/-
The c28x port: what tasks are owed (C54-C57).
-/
namespace Pico.C28x

open Pico.Ctx8 (upd upd_same upd_ne)
open R

/-- RnL and RnH exchanged -/
def swp : R → R
  | fp n h w => fp n (!h) w
  | r => r

theorem swp_swp (r : R) : swp (swp r) = r := by cases r <;> simp [swp]

/-- the pairs pushed by SAVE_CONTEXT_NOSWAP -/
def both (c : Cfg) : List (R × R) := core ++ if c.f then fpu else []

theorem both_length (c : Cfg) : 16 + 2 * (both c).length = size c := by
  unfold both size; cases c.f <;> rfl

theorem size_lt (c : Cfg) : size c ≤ 72 := by unfold size; split <;> omega

/-- what a saved context becomes when it is brought in -/
def back (c : Cfg) (V1 V2 : R → W) (r : R) : W :=
  if vis c r then (if r ∈ halves hw then V2 r else V1 (swp r)) else 0

theorem mem_both {c : Cfg} {r : R} (hv : vis c r = true) (h : r ∉ halves hw) :
    r ∈ halves core ∨ (c.f = true ∧ r ∈ halves fpuPop) := by
  cases r with
  | ar n => left; exact (show ∀ n : Fin 8, ar n ∉ halves hw → ar n ∈ halves core by decide) n h
  | arh n => left; exact (show ∀ n : Fin 8, arh n ∈ halves core by decide) n
  | fp n h' w => exact Or.inr ⟨hv, (show ∀ (n : Fin 8) (a b : Bool), fp n a b ∈ halves fpuPop by decide) n h' w⟩
  | rbl | rbh | stfl | stfh => exact Or.inr ⟨hv, by decide⟩
  | _ => first | exact absurd (by decide) h | exact Or.inl (by decide)

theorem core_swp : ∀ r ∈ halves core, swp r = r := by decide

theorem fpuPop_disjoint : ∀ r ∈ halves fpuPop, r ∉ halves core ∧ r ∉ halves hw := by decide

theorem fpuPop_reverse : fpuPop.reverse = fpu.map fun p => (swp p.1, swp p.2) := by decide

theorem words_swp (V : R → W) : words fpuPop.reverse (fun r => V (swp r)) = words fpu V := by
  rw [fpuPop_reverse]
  unfold words
  rw [List.flatMap_map]
  congr 1
  funext p
  simp only [swp_swp]

theorem st1_core : st1 ∈ halves core := by decide

theorem or_spa (x : W) : (x ||| spa) &&& spa ≠ 0 := by
  intro h
  have := congrArg (fun y : W => y.getLsbD 4) h
  simp [spa] at this

theorem and_spa (x : W) : (x &&& ~~~ spa) &&& spa = 0 := by
  rw [BitVec.and_assoc]
  have : ~~~ spa &&& spa = 0 := by decide
  rw [this]; simp

theorem set_same (d : R) (v : W) (s : St) : (set d v s).reg d = v := upd_same _ _ _
theorem set_ne {d r : R} (v : W) (s : St) (h : r ≠ d) : (set d v s).reg r = s.reg r := upd_ne _ _ h

/-! ### bringing a context in -/

theorem swap_eff (b page : W) (s : St) : (swap b page s).sp = s.mem b ∧ (swap b page s).mem = upd s.mem b s.sp ∧
    (∀ r, r ≠ dp → r ≠ al → r ≠ ah → (swap b page s).reg r = s.reg r) := by
  refine ⟨?_, ?_, fun r h1 h2 h3 => ?_⟩
  · show upd (upd (upd s.reg dp page) al (s.mem b)) ah s.sp al = _
    rw [upd_ne _ _ (by decide), upd_same]
  · show upd s.mem b (upd (upd (upd s.reg dp page) al (s.mem b)) ah s.sp ah) = _
    rw [upd_same]
  · show upd (upd (upd s.reg dp page) al (s.mem b)) ah s.sp r = _
    rw [upd_ne _ _ h3, upd_ne _ _ h2, upd_ne _ _ h1]

/-- From a stack pointer `q + size` (`q` even): SAVE_CONTEXT's pairs from `q + 16` up, with values `V1`, and the processor's at `q` or `q + 2`
according to the SPA bit saved, with values `V2`. -/
theorem unsave_eff (c : Cfg) (s : St) (q : W) (V1 V2 : R → W) (hq : q.toNat % 2 = 0) (hsp : s.sp = q + BitVec.ofNat 16 (size c))
    (h1 : load s.mem (q + 16) (2 * (both c).length) = words (both c) V1)
    (h2 : load s.mem (if V1 st1 &&& spa ≠ 0 then q else q + 2) 14 = words hw V2) :
    (iret (unsave c.f s)).mem = s.mem ∧ (iret (unsave c.f s)).sp = (if V1 st1 &&& spa ≠ 0 then q else q + 1) ∧
    ∀ r, (if vis c r then (iret (unsave c.f s)).reg r else 0) = back c V1 V2 r := by
  have ev16 : ∀ n : Nat, ev (q + BitVec.ofNat 16 (2 * n)) = q + BitVec.ofNat 16 (2 * n) := fun n => ev_even (by
    rw [toNat_add_lit]; omega)
  -- floating point
  obtain ⟨t, ht⟩ : ∃ t : St, t = (if c.f then pops2 fpuPop else id) s := ⟨_, rfl⟩
  have ht' : iret (unsave c.f s) = iret (nasp (pops2 core.reverse t)) := by rw [ht]; rfl
  have hcore : load s.mem (q + 16) 20 = words core V1 ∧ (c.f = true → load s.mem (q + 16 + 20) 36 = words fpu V1) := by
    unfold both at h1
    cases hf : c.f with
    | false =>
      rw [hf] at h1
      exact ⟨by simpa [core] using h1, fun h => by cases h⟩
    | true =>
      rw [hf, words_append] at h1
      obtain ⟨a1, a2⟩ := load_take _ _ 20 36 _ _ h1 (by rw [words_length]; rfl)
      exact ⟨a1, fun _ => a2⟩
  have t1 : t.mem = s.mem ∧ t.sp = q + 36 ∧ ∀ r, t.reg r = if c.f = true ∧ r ∈ halves fpuPop then V1 (swp r) else s.reg r := by
    cases hf : c.f with
    | false =>
      rw [ht, hf]
      refine ⟨rfl, ?_, fun r => by simp⟩
      rw [show (if false = true then pops2 fpuPop else id) s = s from rfl, hsp]; unfold size; rw [hf]; rfl
    | true =>
      have hs72 : s.sp = q + 72 := by rw [hsp]; unfold size; rw [hf]; rfl
      have e0 : ev s.sp - BitVec.ofNat 16 (2 * fpuPop.length) = q + 16 + 20 := by
        rw [hs72, show q + 72 = q + BitVec.ofNat 16 (2 * 36) from rfl, ev16]
        show q + 72#16 - 36#16 = q + 16 + 20
        grind
      have hpop := pops2_eff (fun r => V1 (swp r)) fpuPop s (by decide) (by
        rw [words_swp, e0]; exact hcore.2 hf)
      rw [ht, hf]
      obtain ⟨p1, p2, p3⟩ := hpop
      refine ⟨p1, ?_, fun r => by rw [show (if true = true then pops2 fpuPop else id) s = pops2 fpuPop s from rfl, p3]; simp⟩
      rw [show (if true = true then pops2 fpuPop else id) s = pops2 fpuPop s from rfl, p2, hs72]
      show q + 72 - 36#16 = q + 36
      grind
  obtain ⟨t1, t2, t3⟩ := t1
  rw [ht']
  clear ht ht'
  -- core
  have e0 : ev t.sp - BitVec.ofNat 16 (2 * core.reverse.length) = q + 16 := by
    rw [t2, show q + 36 = q + BitVec.ofNat 16 (2 * 18) from rfl, ev16]
    show q + 36#16 - 20#16 = q + 16
    grind
  obtain ⟨u1, u2, u3⟩ := pops2_eff V1 core.reverse t (by decide) (by
    rw [e0, List.reverse_reverse, t1]; exact hcore.1)
  generalize pops2 core.reverse t = u at *
  have us : u.sp = q + 16 := by
    rw [u2, t2]; show q + 36 - 20#16 = q + 16; grind
  have um : ∀ r, r ∈ halves core.reverse ↔ r ∈ halves core := by intro r; simp [halves]
  have ust : u.reg st1 = V1 st1 := by rw [u3, if_pos ((um _).2 st1_core)]
  -- nasp
  obtain ⟨v, hv⟩ : ∃ v : St, v = nasp u := ⟨_, rfl⟩
  have v1 : v.mem = s.mem ∧ v.sp = (if V1 st1 &&& spa ≠ 0 then q + 15 else q + 16) ∧ ∀ r, r ≠ st1 → v.reg r = u.reg r := by
    rw [hv]; unfold nasp; rw [ust]
    by_cases hs : V1 st1 &&& spa ≠ 0
    · rw [if_pos hs, if_pos hs]
      refine ⟨u1.trans t1, ?_, fun r hr => upd_ne _ _ hr⟩
      show u.sp - 1 = _
      rw [us]; grind
    · rw [if_neg hs, if_neg hs]
      exact ⟨u1.trans t1, us, fun _ _ => rfl⟩
  obtain ⟨v1, v2, v3⟩ := v1
  rw [← hv]
  clear hv
  -- iret
  have hev : ev v.sp - BitVec.ofNat 16 (2 * hw.reverse.length) = (if V1 st1 &&& spa ≠ 0 then q else q + 2) := by
    rw [v2]
    split
    · rw [ev_odd (by rw [show q + 15 = q + BitVec.ofNat 16 15 from rfl, toNat_add_lit]; omega)]
      show q + 15 - 1 - 14#16 = q
      grind
    · rw [show q + 16 = q + BitVec.ofNat 16 (2 * 8) from rfl, ev16]
      show q + 16#16 - 14#16 = q + 2
      grind
  obtain ⟨w1, w2, w3⟩ := pops2_eff V2 hw.reverse v (by decide) (by rw [hev, v1, List.reverse_reverse]; exact h2)
  have hi : ∀ x : St, iret x = { pops2 hw.reverse x with sp := (pops2 hw.reverse x).sp - 1 } := fun _ => rfl
  rw [hi]
  generalize pops2 hw.reverse v = w at *
  have wm : ∀ r, r ∈ halves hw.reverse ↔ r ∈ halves hw := by intro r; simp [halves]
  refine ⟨w1.trans v1, ?_, fun r => ?_⟩
  · show w.sp - 1 = _
    rw [w2, v2]
    split
    · show q + 15 - 14#16 - 1 = q; grind
    · show q + 16 - 14#16 - 1 = q + 1; grind
  · unfold back
    by_cases hv : vis c r = true
    · rw [if_pos hv, if_pos hv]
      show w.reg r = _
      rw [w3]
      by_cases hr : r ∈ halves hw
      · rw [if_pos ((wm r).2 hr), if_pos hr]
      · rw [if_neg (fun h => hr ((wm r).1 h)), if_neg hr]
        have hst : r ≠ st1 := fun e => hr (by rw [e]; decide)
        rw [v3 r hst, u3]
        rcases mem_both hv hr with h | ⟨hf, h⟩
        · rw [if_pos ((um r).2 h), core_swp r h]
        · rw [if_neg (fun h' => (fpuPop_disjoint r h).1 ((um r).1 h')), t3, if_pos ⟨hf, h⟩]
    · rw [if_neg hv, if_neg hv]

/-- the same through `leave` -/
theorem leave_eff (c : Cfg) (e : St) (q : W) (V1 V2 : R → W) (hq : q.toNat % 2 = 0) (hr : e.reg (ar 4) = q + BitVec.ofNat 16 (size c))
    (hb : ¬ (c.b - q).toNat < size c)
    (h1 : load e.mem (q + 16) (2 * (both c).length) = words (both c) V1)
    (h2 : load e.mem (if V1 st1 &&& spa ≠ 0 then q else q + 2) 14 = words hw V2) :
    (leave c e).mem = upd e.mem c.b e.sp ∧ ctx c (leave c e) = (back c V1 V2, if V1 st1 &&& spa ≠ 0 then q else q + 1) := by
  obtain ⟨t, ht⟩ : ∃ t : St, t = { set dp c.page e with mem := upd e.mem c.b (e.reg (ar 4)) } := ⟨_, rfl⟩
  have he : leave c e = iret (unsave c.f (swap c.b c.page t)) := by
    rw [ht]
    show iret (unsave c.f (swap c.b c.page { set dp c.page e with mem := upd (set dp c.page e).mem c.b ((set dp c.page e).reg (ar 4)) })) = _
    rw [show (set dp c.page e).reg (ar 4) = e.reg (ar 4) from set_ne _ _ (by decide)]
    rfl
  obtain ⟨s1, s2, s3⟩ := swap_eff c.b c.page t
  have tm : (swap c.b c.page t).mem = upd e.mem c.b e.sp := by
    rw [s2, ht]
    show upd (upd e.mem c.b _) c.b e.sp = _
    funext y
    by_cases hy : y = c.b
    · rw [hy, upd_same, upd_same]
    · rw [upd_ne _ _ hy, upd_ne _ _ hy, upd_ne _ _ hy]
  have tsp : (swap c.b c.page t).sp = q + BitVec.ofNat 16 (size c) := by
    rw [s1, ht]
    show upd e.mem c.b (e.reg (ar 4)) c.b = _
    rw [upd_same, hr]
  generalize swap c.b c.page t = u at *
  have hsz := both_length c
  have hs72 := size_lt c
  have apart : ∀ i : Nat, i < size c → q + BitVec.ofNat 16 i ≠ c.b := fun i hi e1 => hb (by
    rw [← e1, add_sub_toNat _ _ (by omega)]; exact hi)
  obtain ⟨r1, r2, r3⟩ := unsave_eff c u q V1 V2 hq tsp
    (by
      rw [← h1, tm]
      refine load_congr _ _ _ _ fun i hi => upd_ne _ _ ?_
      rw [show q + 16 + BitVec.ofNat 16 i = q + BitVec.ofNat 16 (16 + i) by
        rw [BitVec.ofNat_add]; exact (show ∀ x y : W, x + 16 + y = x + (16#16 + y) by intros; grind) _ _]
      exact apart _ (by omega))
    (by
      rw [← h2, tm]
      refine load_congr _ _ _ _ fun i hi => upd_ne _ _ ?_
      split
      · exact apart _ (by omega)
      · rw [show q + 2 + BitVec.ofNat 16 i = q + BitVec.ofNat 16 (2 + i) by
          rw [BitVec.ofNat_add]; exact (show ∀ x y : W, x + 2 + y = x + (2#16 + y) by intros; grind) _ _]
        exact apart _ (by omega))
  rw [he]
  refine ⟨r1.trans tm, ?_⟩
  unfold ctx
  rw [r2]
  congr 1
  funext r
  exact r3 r

/-- memory that holds a context -/
theorem holds_of (c : Cfg) (m : St) (q : W) (V1 V2 : R → W) (hq : q.toNat % 2 = 0) (hb : ¬ (c.b - q).toNat < size c)
    (h1 : load m.mem (q + 16) (2 * (both c).length) = words (both c) V1)
    (h2 : load m.mem (if V1 st1 &&& spa ≠ 0 then q else q + 2) 14 = words hw V2) :
    (port c).Holds (q + BitVec.ofNat 16 (size c)) (back c V1 V2, if V1 st1 &&& spa ≠ 0 then q else q + 1) m := by
  have hsz := both_length c
  have hs72 := size_lt c
  have hqq : q + BitVec.ofNat 16 (size c) - BitVec.ofNat 16 (size c) = q := by grind
  refine ⟨fun x hx => ?_, fun k e _ hr hm => (leave_eff c e q V1 V2 hq hr hb ?_ ?_).2⟩
  · intro e
    have : (x - (q + BitVec.ofNat 16 (size c) - BitVec.ofNat 16 (size c))).toNat < size c := hx
    rw [hqq, show x = c.b from e] at this
    exact hb this
  · rw [← h1]
    refine load_congr _ _ _ _ fun i hi => hm _ ?_
    show (_ - (q + BitVec.ofNat 16 (size c) - BitVec.ofNat 16 (size c))).toNat < size c
    rw [hqq, show q + 16 + BitVec.ofNat 16 i = q + BitVec.ofNat 16 (16 + i) by
        rw [BitVec.ofNat_add]; exact (show ∀ x y : W, x + 16 + y = x + (16#16 + y) by intros; grind) _ _, add_sub_toNat _ _ (by omega)]
    omega
  · rw [← h2]
    refine load_congr _ _ _ _ fun i hi => hm _ ?_
    show (_ - (q + BitVec.ofNat 16 (size c) - BitVec.ofNat 16 (size c))).toNat < size c
    rw [hqq]
    split
    · rw [add_sub_toNat _ _ (by omega)]; omega
    · rw [show q + 2 + BitVec.ofNat 16 i = q + BitVec.ofNat 16 (2 + i) by
          rw [BitVec.ofNat_add]; exact (show ∀ x y : W, x + 2 + y = x + (2#16 + y) by intros; grind) _ _, add_sub_toNat _ _ (by omega)]
      omega

/-! ### taking a context out -/

/-- the values SAVE_CONTEXT_NOSWAP saves -/
def vals (s : St) : R → W := fun r => if r = st1 then
  (if s.sp.toNat % 2 = 0 then ((s.reg st1 ||| 0x3) &&& ~~~ 0xe0) ||| spa else ((s.reg st1 ||| 0x3) &&& ~~~ 0xe0) &&& ~~~ spa) else s.reg r

theorem vals_spa (s : St) : (vals s st1 &&& spa ≠ 0) ↔ s.sp.toNat % 2 = 0 := by
  unfold vals
  rw [if_pos rfl]
  split
  · exact ⟨fun _ => by assumption, fun _ => or_spa _⟩
  · exact ⟨fun h => absurd (and_spa _) h, fun h => by contradiction⟩

/-- asp, then the pushes of SAVE_CONTEXT_NOSWAP -/
theorem save_eff (c : Cfg) (u : St) : ∃ V : R → W, (∀ r, r ≠ st1 → V r = u.reg r) ∧
    V st1 = (if u.sp.toNat % 2 = 1 then u.reg st1 ||| spa else u.reg st1 &&& ~~~ spa) ∧
    (save c.f u).reg = V ∧
    (save c.f u).mem = store u.mem (if u.sp.toNat % 2 = 1 then u.sp + 1 else u.sp) (words (both c) V) ∧
    (save c.f u).sp = (if u.sp.toNat % 2 = 1 then u.sp + 1 else u.sp) + BitVec.ofNat 16 (2 * (both c).length) := by
  obtain ⟨a, ha⟩ : ∃ a : St, a = asp u := ⟨_, rfl⟩
  have a1 : a.mem = u.mem ∧ a.sp = (if u.sp.toNat % 2 = 1 then u.sp + 1 else u.sp) ∧ (∀ r, r ≠ st1 → a.reg r = u.reg r) ∧
      a.reg st1 = (if u.sp.toNat % 2 = 1 then u.reg st1 ||| spa else u.reg st1 &&& ~~~ spa) := by
    rw [ha]; unfold asp
    by_cases h : u.sp.toNat % 2 = 1
    · rw [if_pos h, if_pos h, if_pos h]
      exact ⟨rfl, rfl, fun r hr => upd_ne _ _ hr, upd_same u.reg st1 _⟩
    · rw [if_neg h, if_neg h, if_neg h]
      exact ⟨rfl, rfl, fun r hr => upd_ne _ _ hr, upd_same u.reg st1 _⟩
  obtain ⟨a1, a2, a3, a4⟩ := a1
  have heven : a.sp.toNat % 2 = 0 := by
    rw [a2]
    split
    · rw [show u.sp + 1 = u.sp + BitVec.ofNat 16 1 from rfl, toNat_add_lit]; omega
    · omega
  have hpb : save c.f u = pushes2 (both c) a := by
    have happ : ∀ (L M : List (R × R)) (x : St), pushes2 (L ++ M) x = pushes2 M (pushes2 L x) := by
      intro L M; induction L with
      | nil => exact fun _ => rfl
      | cons p L ih => exact fun x => ih (push2 p x)
    unfold both
    rw [happ, ha]
    show (if c.f then pushes2 fpu else id) (pushes2 core (asp u)) = _
    cases c.f <;> rfl
  have hsz := both_length c
  have hs72 := size_lt c
  refine ⟨a.reg, a3, a4, ?_, ?_, ?_⟩
  · rw [hpb, pushes2_eff _ _ (by omega)]
  · rw [hpb, pushes2_eff _ _ (by omega), ← a2, ← a1]
    show store a.mem (ev a.sp) _ = _
    rw [ev_even heven]
  · rw [hpb, pushes2_eff _ _ (by omega), ← a2]

theorem trap_eff (s : St) : (trap s).mem = store s.mem (ev (s.sp + 1)) (words hw s.reg) ∧ (trap s).sp = s.sp + 15 ∧
    (∀ r, r ≠ st1 → (trap s).reg r = s.reg r) ∧ (trap s).reg st1 = (s.reg st1 ||| 0x3) &&& ~~~ 0xe0 := by
  have h := pushes2_eff hw { s with sp := s.sp + 1 } (by decide)
  have ht : trap s = set st1 (((pushes2 hw { s with sp := s.sp + 1 }).reg st1 ||| 0x3) &&& ~~~ 0xe0) (pushes2 hw { s with sp := s.sp + 1 }) := rfl
  rw [ht, h]
  refine ⟨rfl, ?_, fun r hr => upd_ne _ _ hr, set_same _ _ _⟩
  show s.sp + 1 + 14#16 = s.sp + 15
  grind

/-- the even address at or below the stack pointer of the task -/
theorem trap_save (c : Cfg) (s : St) :
    (save c.f (trap s)).reg = vals s ∧
    (save c.f (trap s)).mem = store (store s.mem (if s.sp.toNat % 2 = 0 then ev s.sp else ev s.sp + 2) (words hw s.reg)) (ev s.sp + 16)
      (words (both c) (vals s)) ∧
    (save c.f (trap s)).sp = ev s.sp + BitVec.ofNat 16 (size c) := by
  obtain ⟨t1, t2, t3, t4⟩ := trap_eff s
  obtain ⟨V, h1, h2, h3, h4, h5⟩ := save_eff c (trap s)
  have hpar : ((trap s).sp.toNat % 2 = 1) ↔ s.sp.toNat % 2 = 0 := by
    rw [t2, show s.sp + 15 = s.sp + BitVec.ofNat 16 15 from rfl, toNat_add_lit]; omega
  have hV : V = vals s := by
    funext r
    by_cases hr : r = st1
    · subst hr
      rw [h2]; unfold vals; rw [if_pos rfl, t4]
      by_cases hp : s.sp.toNat % 2 = 0
      · rw [if_pos (hpar.2 hp), if_pos hp]
      · rw [if_neg (fun h => hp (hpar.1 h)), if_neg hp]
    · rw [h1 r hr, t3 r hr]; unfold vals; rw [if_neg hr]
  have hsp : (if (trap s).sp.toNat % 2 = 1 then (trap s).sp + 1 else (trap s).sp) = ev s.sp + 16 := by
    by_cases hp : s.sp.toNat % 2 = 0
    · rw [if_pos (hpar.2 hp), t2, ev_even hp]; grind
    · rw [if_neg (fun h => hp (hpar.1 h)), t2, ev_odd (by omega)]; grind
  have hA : ev (s.sp + 1) = if s.sp.toNat % 2 = 0 then ev s.sp else ev s.sp + 2 := by
    by_cases hp : s.sp.toNat % 2 = 0
    · rw [if_pos hp, ev_odd (by rw [show s.sp + 1 = s.sp + BitVec.ofNat 16 1 from rfl, toNat_add_lit]; omega), ev_even hp]; grind
    · rw [if_neg hp, ev_even (by rw [show s.sp + 1 = s.sp + BitVec.ofNat 16 1 from rfl, toNat_add_lit]; omega), ev_odd (by omega)]; grind
  refine ⟨h3.trans hV, ?_, ?_⟩
  · rw [h4, hsp, hV, t1, hA]
  · rw [h5, hsp, ← both_length c, BitVec.ofNat_add 16]
    exact (show ∀ x y : W, x + 16 + y = x + (16#16 + y) by intros; grind) _ _

theorem movz_eff (n : Fin 8) (v : W) (s : St) : (movz n v s).reg (ar n) = v ∧ (movz n v s).mem = s.mem ∧ (movz n v s).sp = s.sp ∧
    ∀ r, r ≠ ar n → r ≠ arh n → (movz n v s).reg r = s.reg r := by
  refine ⟨?_, rfl, rfl, fun r h1 h2 => ?_⟩
  · show upd (upd s.reg (ar n) v) (arh n) 0 (ar n) = v
    rw [upd_ne _ _ (by simp), upd_same]
  · show upd (upd s.reg (ar n) v) (arh n) 0 r = _
    rw [upd_ne _ _ h2, upd_ne _ _ h1]

/-- the rest of the handlers to the call of C, from a state `x` -/
theorem rest_eff (c : Cfg) (k : Kind) (s : St) : ∃ v : W,
    (enter c k s).mem = upd (save c.f (trap s)).mem c.b v ∧ (enter c k s).reg (ar 4) = (save c.f (trap s)).sp ∧
    (enter c k s).sp = (save c.f (trap s)).mem c.b ∧
    (k = .syscall → (enter c k s).reg (arh 4) = 0 ∧
      (enter c k s).reg al = (save c.f (trap s)).mem ((save c.f (trap s)).sp - (if c.f then 70 else 34)) ∧
      (enter c k s).reg (ar 5) = (save c.f (trap s)).mem (ev ((save c.f (trap s)).sp - (if c.f then 44 else 8))) ∧
      (enter c k s).reg (arh 5) = (save c.f (trap s)).mem (ev ((save c.f (trap s)).sp - (if c.f then 44 else 8)) + 1)) ∧
    (enter c k s).reg st1 = (save c.f (trap s)).reg st1 := by
  cases k with
  | tick =>
    have he : enter c .tick s = (fun x => movz 4 ((swap c.b c.page x).mem c.b) (swap c.b c.page x)) (save c.f (trap s)) := rfl
    rw [he]
    generalize save c.f (trap s) = x
    obtain ⟨s1, s2, s3⟩ := swap_eff c.b c.page x
    simp only []
    obtain ⟨m1, m2, m3, m4⟩ := movz_eff 4 ((swap c.b c.page x).mem c.b) (swap c.b c.page x)
    refine ⟨x.sp, m2.trans s2, ?_, m3.trans s1, (fun h => by cases h), ?_⟩
    · rw [m1, s2, upd_same]
    · rw [m4 _ (by decide) (by decide), s3 _ (by decide) (by decide) (by decide)]
  | syscall =>
    have he : enter c .syscall s = (fun x : St =>
        (fun y : St => set al (y.reg (ar 6)) y) (swap c.b c.page
          ((fun y : St => set (ar 6) (y.mem (y.sp - 34)) y)
            ((fun y : St => set (arh 5) (y.mem (ev (y.sp - 8) + 1)) (set (ar 5) (y.mem (ev (y.sp - 8))) y))
              ((fun y : St => if c.f then { y with sp := y.sp - 36 } else y) (movz 4 ((set (ar 6) x.sp x).reg (ar 6)) (set (ar 6) x.sp x)))))))
        (save c.f (trap s)) := rfl
    rw [he]
    clear he
    generalize save c.f (trap s) = x
    have h0 : (set (ar 6) x.sp x).reg (ar 6) = x.sp := set_same _ _ _
    simp only []
    rw [h0]
    obtain ⟨m1, m2, m3, m4⟩ := movz_eff 4 x.sp (set (ar 6) x.sp x)
    have m5 : (movz 4 x.sp (set (ar 6) x.sp x)).reg (arh 4) = 0 := set_same _ _ _
    have m6 : (movz 4 x.sp (set (ar 6) x.sp x)).reg st1 = x.reg st1 := (m4 _ (by decide) (by decide)).trans (set_ne _ _ (by decide))
    generalize movz 4 x.sp (set (ar 6) x.sp x) = y at *
    obtain ⟨z, hz⟩ : ∃ z : St, z = (if c.f then { y with sp := y.sp - 36 } else y) := ⟨_, rfl⟩
    have zm : z.mem = x.mem := by rw [hz]; split <;> exact m2
    have zr : z.reg = y.reg := by rw [hz]; split <;> rfl
    have zs : z.sp = x.sp - (if c.f then 36 else 0) := by
      rw [hz]; split
      · show y.sp - 36 = _; rw [m3]; rfl
      · rw [m3]; show x.sp = x.sp - 0#16; simp
    rw [← hz]
    clear hz
    have k8 : z.sp - 8 = x.sp - (if c.f then 44 else 8) := by rw [zs]; split <;> grind
    have k34 : z.sp - 34 = x.sp - (if c.f then 70 else 34) := by rw [zs]; split <;> grind
    obtain ⟨t, ht⟩ : ∃ t : St, t = set (arh 5) (z.mem (ev (z.sp - 8) + 1)) (set (ar 5) (z.mem (ev (z.sp - 8))) z) := ⟨_, rfl⟩
    rw [← ht]
    have tm : t.mem = x.mem := by rw [ht]; exact zm
    have ts : t.sp = z.sp := by rw [ht]; rfl
    have t5 : t.reg (ar 5) = x.mem (ev (x.sp - (if c.f then 44 else 8))) := by
      rw [ht, set_ne _ _ (by decide), set_same, zm, k8]
    have t5h : t.reg (arh 5) = x.mem (ev (x.sp - (if c.f then 44 else 8)) + 1) := by
      rw [ht, set_same, zm, k8]
    have tr : ∀ r, r ≠ ar 5 → r ≠ arh 5 → t.reg r = y.reg r := by
      intro r h1 h2
      rw [ht, set_ne _ _ h2, set_ne _ _ h1, zr]
    clear ht
    obtain ⟨u, hu⟩ : ∃ u : St, u = set (ar 6) (t.mem (t.sp - 34)) t := ⟨_, rfl⟩
    rw [← hu]
    have um : u.mem = x.mem := by rw [hu]; exact tm
    have u6 : u.reg (ar 6) = x.mem (x.sp - (if c.f then 70 else 34)) := by
      rw [hu, set_same, tm, ts, k34]
    have ur : ∀ r, r ≠ ar 6 → u.reg r = t.reg r := by
      intro r hr; rw [hu]; exact upd_ne _ _ hr
    clear hu
    obtain ⟨s1, s2, s3⟩ := swap_eff c.b c.page u
    generalize swap c.b c.page u = w at *
    have hw : ∀ r, r ≠ al → (set al (w.reg (ar 6)) w).reg r = w.reg r := fun r hr => upd_ne _ _ hr
    refine ⟨u.sp, ?_, ?_, ?_, fun _ => ⟨?_, ?_, ?_, ?_⟩, ?_⟩
    · show w.mem = _; rw [s2, um]
    · rw [hw _ (by decide), s3 _ (by decide) (by decide) (by decide), ur _ (by decide), tr _ (by decide) (by decide), m1]
    · show w.sp = _; rw [s1, um]
    · rw [hw _ (by decide), s3 _ (by decide) (by decide) (by decide), ur _ (by decide), tr _ (by decide) (by decide), m5]
    · rw [set_same, s3 _ (by decide) (by decide) (by decide), u6]
    · rw [hw _ (by decide), s3 _ (by decide) (by decide) (by decide), ur _ (by decide), t5]
    · rw [hw _ (by decide), s3 _ (by decide) (by decide) (by decide), ur _ (by decide), t5h]
    · rw [hw _ (by decide), s3 _ (by decide) (by decide) (by decide), ur _ (by decide), tr _ (by decide) (by decide), m6]

end Pico.C28x
