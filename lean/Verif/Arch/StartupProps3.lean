import Verif.Arch.StartupProps2
/-
C98: the whole startup.
-/
namespace Pico.Startup

theorem stuck (o : Endian) (code : List I) (s : St) (h : s.pc = code.length) : step o code s = none := by
  unfold step; rw [h, List.getElem?_eq_none (Nat.le_refl _)]; rfl

theorem Steps.det {o : Endian} {code : List I} {a b c : St} (h1 : Steps o code a b) (h2 : Steps o code a c) (hb : step o code b = none) (hc : step o code c = none) : b = c := by
  induction h1 with
  | refl s =>
    cases h2 with
    | refl _ => rfl
    | next _ s1 _ e _ => rw [hb] at e; cases e
  | next s s1 s2 e _ ih =>
    cases h2 with
    | refl _ => rw [e] at hc; cases hc
    | next _ s1' _ e' r =>
      have : s1 = s1' := by rw [e] at e'; exact Option.some.inj e'
      subst this
      exact ih r hb

theorem runs_only {i : Isa} {code : List I} {m m' : Mem} (R : Runs i code m m') {s s' : St} (b : Begin m s) (st : Steps (endian i) code s s') (e : End code s') : s'.mem = m' := by
  obtain ⟨s2, st2, e1, _, e3⟩ := R s b.1 b.2.1 b.2.2
  rw [← e3, st.det st2 (stuck _ _ _ e.1) (stuck _ _ _ e1)]

/-! ### INIT_E2EECC -/

theorem storeAll_at (o : Endian) (m : Mem) (a : W) (f : Nat → W) : ∀ n, n ≤ 32 → ∀ x,
    storeAll o m a f n x = if Within a (4 * n) x then byteOf o (f ((x - a).toNat / 4)) ((x - a).toNat % 4) else m x := by
  intro n
  induction n with
  | zero => intro _ x; rw [if_neg (show ¬ Within a (4 * 0) x from Nat.not_lt_zero _)]; rfl
  | succ n ih =>
    intro hn x
    have hs := within_step a (4 * n) x (by omega)
    rw [show 4 * (n + 1) = 4 * n + 4 by omega]
    show store o (storeAll o m a f n) (a + BitVec.ofNat 32 (4 * n)) (f n) x = _
    rw [store_at, ih (by omega) x]
    by_cases h : Within (a + BitVec.ofNat 32 (4 * n)) 4 x
    · rw [if_pos h, if_pos (hs.2 (Or.inr h))]
      have h' : (x - (a + BitVec.ofNat 32 (4 * n))).toNat < 4 := h
      have e : (x - a).toNat = 4 * n + (x - (a + BitVec.ofNat 32 (4 * n))).toNat := by
        have e1 : x - a = BitVec.ofNat 32 (4 * n) + (x - (a + BitVec.ofNat 32 (4 * n))) := by bv_omega
        rw [e1, BitVec.toNat_add, BitVec.toNat_ofNat]
        omega
      rw [e]
      rw [show (4 * n + (x - (a + BitVec.ofNat 32 (4 * n))).toNat) / 4 = n by omega,
        show (4 * n + (x - (a + BitVec.ofNat 32 (4 * n))).toNat) % 4 = (x - (a + BitVec.ofNat 32 (4 * n))).toNat by omega]
    · rw [if_neg h]
      by_cases hw : Within a (4 * n) x
      · rw [if_pos hw, if_pos (hs.2 (Or.inl hw))]
      · rw [if_neg hw, if_neg (fun c => (hs.1 c).elim hw h)]

/-- the register stored at byte `o` of the RAM -/
def eccWord (start stop : W) (rest : Nat → W) (o : Nat) : W :=
  if o % 128 / 4 = 3 then start + BitVec.ofNat 32 (128 * (o / 128)) else if o % 128 / 4 = 4 then stop else rest (o % 128 / 4)

def eccMem (m : Mem) (start stop : W) (rest : Nat → W) (n : Nat) : Mem := fun x =>
  if Within start n x then byteOf .big (eccWord start stop rest (x - start).toNat) ((x - start).toNat % 4) else m x

theorem within_add (start : W) (n k : Nat) (x : W) (hn : n + k ≤ 2 ^ 32) :
    Within start (n + k) x ↔ Within start n x ∨ Within (start + BitVec.ofNat 32 n) k x := by
  unfold Within
  have e : (x - (start + BitVec.ofNat 32 n)).toNat = (x - start - BitVec.ofNat 32 n).toNat := by congr 1; bv_omega
  rw [e]
  generalize x - start = y
  have := y.isLt
  rw [BitVec.toNat_sub, BitVec.toNat_ofNat]
  omega

theorem ecc_step (m : Mem) (s : St) (start : W) (n : Nat) (hn : 128 * n + 128 ≤ 2 ^ 32) (hq : s.q = start + BitVec.ofNat 32 (128 * n)) :
    storeAll .big (eccMem m start s.e s.rest (128 * n)) s.q (gpr s) 32 = eccMem m start s.e s.rest (128 * n + 128) := by
  funext x
  rw [storeAll_at .big _ _ _ 32 (Nat.le_refl _), hq]
  have hs := within_add start (128 * n) 128 x (by omega)
  by_cases h : Within (start + BitVec.ofNat 32 (128 * n)) 128 x
  · have h' : (x - (start + BitVec.ofNat 32 (128 * n))).toNat < 128 := h
    have e : (x - start).toNat = 128 * n + (x - (start + BitVec.ofNat 32 (128 * n))).toNat := by
      have e1 : x - start = BitVec.ofNat 32 (128 * n) + (x - (start + BitVec.ofNat 32 (128 * n))) := by bv_omega
      rw [e1, BitVec.toNat_add, BitVec.toNat_ofNat]
      omega
    rw [if_pos (show Within _ (4 * 32) x from h)]
    unfold eccMem
    rw [if_pos (hs.2 (Or.inr h)), e]
    generalize (x - (start + BitVec.ofNat 32 (128 * n))).toNat = o at h'
    have e4 : (128 * n + o) % 4 = o % 4 := by omega
    rw [e4]
    congr 1
    unfold eccWord gpr
    rw [show (128 * n + o) % 128 / 4 = o / 4 by omega, show (128 * n + o) / 128 = n by omega, hq]
  · rw [if_neg (show ¬ Within _ (4 * 32) x from h)]
    unfold eccMem
    by_cases hw : Within start (128 * n) x
    · rw [if_pos hw, if_pos (hs.2 (Or.inl hw))]
    · rw [if_neg hw, if_neg (fun c => (hs.1 c).elim hw h)]

theorem toInt_small (a : W) (h : a.toNat < 2 ^ 31) : a.toInt = (a.toNat : Int) := by
  rw [BitVec.toInt_eq_toNat_cond, if_pos (by omega)]

theorem sel_or_false {c d : Prop} [Decidable c] [Decidable d] (h : ¬ c) (h' : ¬ d) (a b : St) : sel (decide c || decide d) a b = b := by
  unfold sel; rw [decide_eq_false h, decide_eq_false h']; rfl
theorem sel_or_true {c d : Prop} [Decidable c] [Decidable d] (h : c) (a b : St) : sel (decide c || decide d) a b = a := by
  unfold sel; rw [decide_eq_true h]; rfl

theorem ecc_loop (m : Mem) (start stop a b d p : W) (rest : Nat → W) (N : Nat) (ha : aligned start) (hN : start.toNat + 128 * N < 2 ^ 31) (h0 : 0 < N)
    (hs : stop.toNat = start.toNat + 128 * N - 4) :
    ∀ (r n : Nat) (lt eq : Bool), n + r = N →
      ∃ s', Steps .big (initEcc a b) ⟨d, p, start + BitVec.ofNat 32 (128 * n), stop, lt, eq, rest, 7, 8, eccMem m start stop rest (128 * n)⟩ s' ∧ s'.pc = 9 ∧ s'.npc = 10 ∧
        s'.mem = eccMem m start stop rest (128 * N) := by
  intro r
  induction r with
  | zero =>
    intro n lt eq h
    have hn : n = N := by omega
    subst hn
    have e : (start + BitVec.ofNat 32 (128 * n)).toNat = start.toNat + 128 * n := by
      rw [BitVec.toNat_add, BitVec.toNat_ofNat]; omega
    generalize start + BitVec.ofNat 32 (128 * n) = q at *
    have h1 : ¬ q.toInt < stop.toInt := by
      rw [toInt_small stop (by omega), toInt_small q (by omega)]; omega
    have h2 : ¬ q = stop := by
      intro c; rw [c] at e; omega
    refine ⟨⟨d, p, q, stop, decide (q.toInt < stop.toInt), decide (q = stop), rest, 9, 10, eccMem m start stop rest (128 * n)⟩, ?_, rfl, rfl, rfl⟩
    refine .next _ ⟨d, p, q, stop, decide (q.toInt < stop.toInt), decide (q = stop), rest, 8, 9, eccMem m start stop rest (128 * n)⟩ _ rfl ?_
    exact .one (congrArg some (sel_or_false h1 h2 _ _))
  | succ r ih =>
    intro n lt eq h
    have e : (start + BitVec.ofNat 32 (128 * n)).toNat = start.toNat + 128 * n := by
      rw [BitVec.toNat_add, BitVec.toNat_ofNat]; omega
    have al := al_add start (128 * n) ha (by omega)
    have nx : start + BitVec.ofNat 32 (128 * n) + 128#32 = start + BitVec.ofNat 32 (128 * (n + 1)) := by
      apply BitVec.eq_of_toNat_eq; simp only [BitVec.toNat_add, BitVec.toNat_ofNat]; omega
    have sp := ecc_step m ⟨d, p, start + BitVec.ofNat 32 (128 * n), stop, lt, eq, rest, 7, 8, m⟩ start n (by omega) rfl
    have sp' : storeAll .big (eccMem m start stop rest (128 * n)) (start + BitVec.ofNat 32 (128 * n)) (gpr ⟨d, p, start + BitVec.ofNat 32 (128 * n), stop, lt, eq, rest, 7, 8, m⟩) 32 = eccMem m start stop rest (128 * (n + 1)) := sp
    obtain ⟨s', st, out⟩ := ih (n + 1) (decide ((start + BitVec.ofNat 32 (128 * n)).toInt < stop.toInt)) (decide (start + BitVec.ofNat 32 (128 * n) = stop)) (by omega)
    refine ⟨s', Steps.trans ?_ st, out⟩
    rw [← sp', ← nx]
    generalize start + BitVec.ofNat 32 (128 * n) = q at *
    have h1 : q.toInt < stop.toInt := by
      rw [toInt_small stop (by omega), toInt_small q (by omega)]; omega
    refine .next _ ⟨d, p, q, stop, decide (q.toInt < stop.toInt), decide (q = stop), rest, 8, 9, eccMem m start stop rest (128 * n)⟩ _ rfl ?_
    refine .next _ ⟨d, p, q, stop, decide (q.toInt < stop.toInt), decide (q = stop), rest, 5, 6, eccMem m start stop rest (128 * n)⟩ _ (congrArg some (sel_or_true h1 _ _)) ?_
    refine .next _ ⟨d, p, q, stop, decide (q.toInt < stop.toInt), decide (q = stop), rest, 6, 7, storeAll .big (eccMem m start stop rest (128 * n)) q (gpr ⟨d, p, q, stop, lt, eq, rest, 7, 8, m⟩) 32⟩ _ (guard_true al _) ?_
    exact .one rfl

/-- INIT_E2EECC writes the whole RAM and nothing else, and leaves the registers in it -/
theorem ecc_runs (start stop : W) (N : Nat) (ha : aligned start) (hN : start.toNat + 128 * N < 2 ^ 31) (h0 : 0 < N) (hs : stop.toNat = start.toNat + 128 * N - 4)
    (m : Mem) (s : St) (hb : Begin m s) :
    ∃ s', Steps .big (initEcc start stop) s s' ∧ End (initEcc start stop) s' ∧ s'.mem = eccMem m start stop s.rest (128 * N) := by
  obtain ⟨d, p, q, e, lt, eq, rest, pc, npc, mem⟩ := s
  obtain ⟨h1, h2, h3⟩ := hb
  cases h1; cases h2; cases h3
  have c0 : eccMem mem start stop rest (128 * 0) = mem := by
    funext x; unfold eccMem; rw [if_neg (show ¬ Within start (128 * 0) x from Nat.not_lt_zero _)]
  have z : start + BitVec.ofNat 32 (128 * 0) = start := by bv_omega
  obtain ⟨s', st, o1, o2, o3⟩ := ecc_loop mem start stop start stop d p rest N ha hN h0 hs N 0 lt eq (Nat.zero_add _)
  rw [c0, z] at st
  refine ⟨s', ?_, ⟨o1, o2⟩, o3⟩
  have pre : Steps .big (initEcc start stop) ⟨d, p, q, e, lt, eq, rest, 0, 1, mem⟩ ⟨d, p, hi start <<< 16 ||| lo start, hi stop <<< 16 ||| lo stop, lt, eq, rest, 7, 8, mem⟩ := by
    refine .next _ ⟨d, p, hi start <<< 16, e, lt, eq, rest, 1, 2, mem⟩ _ rfl ?_
    refine .next _ ⟨d, p, hi start <<< 16 ||| lo start, e, lt, eq, rest, 2, 3, mem⟩ _ rfl ?_
    refine .next _ ⟨d, p, hi start <<< 16 ||| lo start, hi stop <<< 16, lt, eq, rest, 3, 4, mem⟩ _ rfl ?_
    refine .next _ ⟨d, p, hi start <<< 16 ||| lo start, hi stop <<< 16 ||| lo stop, lt, eq, rest, 4, 5, mem⟩ _ rfl ?_
    exact .one rfl
  rw [liw, liw] at pre
  exact pre.trans st

/-! ### copies and zeroes one after the other -/

def dst : Use → W → Prop
  | .copy _ b c => Within b (c - b).toNat
  | .zero b c => Within b (c - b).toNat
  | .ecc _ _ => fun _ => False

def src : Use → W → Prop
  | .copy a b c => Within a (c - b).toNat
  | _ => fun _ => False

def evenU : Use → Prop
  | .copy a b c => aligned a ∧ aligned b ∧ aligned c
  | .zero b c => aligned b ∧ aligned c
  | .ecc _ _ => False

/-- the effect asked of a use -/
def right (m m' : Mem) : Use → Prop
  | .copy a b c => ∀ x, Within b (c - b).toNat x → m' x = m (a + (x - b))
  | .zero b c => ∀ x, Within b (c - b).toNat x → m' x = 0#8
  | .ecc _ _ => True

theorem use_runs (i : Isa) (u : Use) (m : Mem) (he : evenU u) (hd : Disjoint (dst u) (src u)) :
    ∃ m', Runs i (u.code i) m m' ∧ right m m' u ∧ ∀ x, ¬ dst u x → m' x = m x := by
  cases u with
  | copy a b c =>
    refine ⟨_, copy_runs i a b c m he.1 he.2.1 he.2.2 hd, ?_, ?_⟩
    · intro x hx; unfold copied; rw [if_pos hx]
    · intro x (hx : ¬ Within b (c - b).toNat x); unfold copied; rw [if_neg hx]
  | zero b c =>
    refine ⟨_, zero_runs i b c m he.1 he.2, ?_, ?_⟩
    · intro x hx; unfold zeroed; rw [if_pos hx]
    · intro x (hx : ¬ Within b (c - b).toNat x); unfold zeroed; rw [if_neg hx]
  | ecc _ _ => exact he.elim

theorem right_mono {m m1 m' : Mem} {u : Use} (h : right m1 m' u) (e : ∀ x, src u x → m1 x = m x) : right m m' u := by
  cases u with
  | copy a b c =>
    intro x hx
    rw [h x hx]
    apply e
    show (a + (x - b) - a).toNat < _
    rw [show a + (x - b) - a = x - b by bv_omega]
    exact hx
  | zero b c => exact h
  | ecc _ _ => trivial

theorem right_keep {m m1 m' : Mem} {u : Use} (h : right m m1 u) (e : ∀ x, dst u x → m' x = m1 x) : right m m' u := by
  cases u with
  | copy a b c => intro x hx; rw [e x hx]; exact h x hx
  | zero b c => intro x hx; rw [e x hx]; exact h x hx
  | ecc _ _ => trivial

theorem uses_right (i : Isa) : ∀ (us : List Use) (m : Mem), (∀ u ∈ us, evenU u) → us.Pairwise (fun u v => Disjoint (dst u) (dst v)) →
    (∀ u ∈ us, ∀ v ∈ us, Disjoint (dst u) (src v)) →
    Ends i us m ∧ ∀ m', Boot i us m m' → (∀ u ∈ us, right m m' u) ∧ ∀ x, (∀ u ∈ us, ¬ dst u x) → m' x = m x := by
  intro us
  induction us with
  | nil =>
    intro m _ _ _
    refine ⟨trivial, ?_⟩
    intro m' hb
    cases hb
    exact ⟨fun u hu => (List.not_mem_nil hu).elim, fun _ _ => rfl⟩
  | cons u us ih =>
    intro m he hp hsrc
    have hu : u ∈ u :: us := List.mem_cons_self ..
    obtain ⟨m1, R, r1, k1⟩ := use_runs i u m (he u hu) (hsrc u hu u hu)
    have hp' := List.pairwise_cons.1 hp
    have sub : ∀ v, v ∈ us → v ∈ u :: us := fun v hv => List.mem_cons_of_mem _ hv
    obtain ⟨i1, i2⟩ := ih m1 (fun v hv => he v (sub v hv)) hp'.2 (fun v hv w hw => hsrc v (sub v hv) w (sub w hw))
    refine ⟨?_, ?_⟩
    · intro s hb
      obtain ⟨s', st, e1, e2, e3⟩ := R s hb.1 hb.2.1 hb.2.2
      exact ⟨s', st, ⟨e1, e2⟩, by rw [e3]; exact i1⟩
    · intro m' hb
      cases hb with
      | use _ _ _ _ s s' b st e r =>
        rw [runs_only R b st e] at r
        obtain ⟨a1, a2⟩ := i2 m' r
        refine ⟨?_, ?_⟩
        · intro v hv
          rcases List.mem_cons.1 hv with rfl | hv'
          · exact right_keep r1 (fun x hx => a2 x (fun w hw c => hp'.1 w hw x hx c))
          · exact right_mono (a1 v hv') (fun x hx => k1 x (fun c => hsrc u hu v hv x c hx))
        · intro x hx
          rw [a2 x (fun w hw => hx w (sub w hw)), k1 x (hx u hu)]

end Pico.Startup
