import Verif.Arch.StartupProps
/-
C98: the loops of the macros.
-/
namespace Pico.Startup

/-- at the loop's test -/
structure At (h : Nat) (p q e : W) (m : Mem) (s : St) : Prop where
  pc : s.pc = h
  npc : s.npc = h + 1
  p : s.p = p
  q : s.q = q
  e : s.e = e
  mem : s.mem = m

/-- at the end of the macro -/
structure Out (code : List I) (m : Mem) (s : St) : Prop where
  pc : s.pc = code.length
  npc : s.npc = code.length + 1
  mem : s.mem = m

structure CopyLoop (o : Endian) (code : List I) (h : Nat) : Prop where
  turn : ∀ s p q e m, At h p q e m s → aligned p → aligned q → q ≠ e → ∃ s', Steps o code s s' ∧ At h (p + 4#32) (q + 4#32) e (store o m q (load o m p)) s'
  last : ∀ s p q m, At h p q q m s → ∃ s', Steps o code s s' ∧ Out code m s'

structure ZeroLoop (o : Endian) (code : List I) (h : Nat) (K : St → Prop) : Prop where
  turn : ∀ s p q e m, At h p q e m s → K s → aligned q → q ≠ e → ∃ s', Steps o code s s' ∧ At h p (q + 4#32) e (store o m q 0#32) s' ∧ K s'
  last : ∀ s p q m, At h p q q m s → ∃ s', Steps o code s s' ∧ Out code m s'

theorem al_add (a : W) (k : Nat) (h : aligned a) (hk : k % 4 = 0) : aligned (a + BitVec.ofNat 32 k) := by
  unfold aligned at *
  rw [BitVec.toNat_add, BitVec.toNat_ofNat]
  omega

theorem add_four (a : W) (k : Nat) : a + BitVec.ofNat 32 k + 4#32 = a + BitVec.ofNat 32 (k + 4) := by
  apply BitVec.eq_of_toNat_eq
  simp only [BitVec.toNat_add, BitVec.toNat_ofNat]
  omega

theorem CopyLoop.all {o : Endian} {code : List I} {h : Nat} (L : CopyLoop o code h) (m : Mem) (base start stop : W) (hb : aligned base) (hs : aligned start)
    (hN : aligned stop) (hd : Disjoint (Within start (stop - start).toNat) (Within base (stop - start).toNat)) :
    ∀ (r n : Nat) (s : St), n % 4 = 0 → n + r = (stop - start).toNat →
      At h (base + BitVec.ofNat 32 n) (start + BitVec.ofNat 32 n) stop (copied m base start n) s →
      ∃ s', Steps o code s s' ∧ Out code (copied m base start (stop - start).toNat) s' := by
  intro r
  induction r using Nat.strongRecOn with
  | ind r ih =>
    intro n s h4 hr hat
    have hlt := (stop - start).isLt
    by_cases hz : r = 0
    · have e : start + BitVec.ofNat 32 n = stop := by
        rw [show n = (stop - start).toNat by omega, BitVec.ofNat_toNat, BitVec.setWidth_eq]; bv_omega
      rw [show n = (stop - start).toNat by omega] at hat
      have e' : start + BitVec.ofNat 32 (stop - start).toNat = stop := by rw [← hr, hz]; exact e
      rw [e'] at hat
      exact L.last s _ _ _ hat
    · have h4' : (stop - start).toNat % 4 = 0 := by
        unfold aligned at hs hN
        rw [BitVec.toNat_sub]
        have := start.isLt; have := stop.isLt
        omega
      have hne : start + BitVec.ofNat 32 n ≠ stop := by
        intro c
        have := (off stop start n (by omega)).2 c.symm
        omega
      obtain ⟨s1, st1, at1⟩ := L.turn s _ _ _ _ hat (al_add base n hb h4) (al_add start n hs h4) hne
      rw [add_four, add_four, copied_step o m base start n (stop - start).toNat (by omega) (by omega) hd] at at1
      obtain ⟨s2, st2, out⟩ := ih (r - 4) (by omega) (n + 4) s1 (by omega) (by omega) at1
      exact ⟨s2, st1.trans st2, out⟩

theorem ZeroLoop.all {o : Endian} {code : List I} {h : Nat} {K : St → Prop} (L : ZeroLoop o code h K) (m : Mem) (start stop : W) (hs : aligned start)
    (hN : aligned stop) :
    ∀ (r n : Nat) (p : W) (s : St), n % 4 = 0 → n + r = (stop - start).toNat →
      At h p (start + BitVec.ofNat 32 n) stop (zeroed m start n) s → K s →
      ∃ s', Steps o code s s' ∧ Out code (zeroed m start (stop - start).toNat) s' := by
  intro r
  induction r using Nat.strongRecOn with
  | ind r ih =>
    intro n p s h4 hr hat hk
    have hlt := (stop - start).isLt
    by_cases hz : r = 0
    · have e : start + BitVec.ofNat 32 n = stop := by
        rw [show n = (stop - start).toNat by omega, BitVec.ofNat_toNat, BitVec.setWidth_eq]; bv_omega
      rw [show n = (stop - start).toNat by omega] at hat
      have e' : start + BitVec.ofNat 32 (stop - start).toNat = stop := by rw [← hr, hz]; exact e
      rw [e'] at hat
      exact L.last s _ _ _ hat
    · have h4' : (stop - start).toNat % 4 = 0 := by
        unfold aligned at hs hN
        rw [BitVec.toNat_sub]
        have := start.isLt; have := stop.isLt
        omega
      have hne : start + BitVec.ofNat 32 n ≠ stop := by
        intro c
        have := (off stop start n (by omega)).2 c.symm
        omega
      obtain ⟨s1, st1, at1, k1⟩ := L.turn s _ _ _ _ hat hk (al_add start n hs h4) hne
      rw [add_four, zeroed_step o m start n (by omega)] at at1
      obtain ⟨s2, st2, out⟩ := ih (r - 4) (by omega) (n + 4) p s1 (by omega) (by omega) at1 k1
      exact ⟨s2, st1.trans st2, out⟩

/-! ### COPY_TO_RAM -/

theorem arm_copy (a b c : W) : CopyLoop .little (copyToRam .arm a b c) 6 where
  turn := by
    intro ⟨d, p, q, e, lt, eq, rest, pc, npc, mem⟩ p' q' e' m ⟨h1, h2, h3, h4, h5, h6⟩ ha hb hne
    cases h1; cases h2; cases h3; cases h4; cases h5; cases h6
    refine ⟨⟨load .little mem p, p + 4#32, q + 4#32, e, decide (q.toInt < e.toInt), decide (q = e), rest, 6, 7, store .little mem q (load .little mem p)⟩, ?_, ⟨rfl, rfl, rfl, rfl, rfl, rfl⟩⟩
    refine .next _ ⟨d, p, q, e, decide (q.toInt < e.toInt), decide (q = e), rest, 7, 8, mem⟩ _ rfl ?_
    refine .next _ ⟨d, p, q, e, decide (q.toInt < e.toInt), decide (q = e), rest, 4, 5, mem⟩ _ (congrArg some (sel_false hne _ _)) ?_
    refine .next _ ⟨load .little mem p, p + 4#32, q, e, decide (q.toInt < e.toInt), decide (q = e), rest, 5, 6, mem⟩ _ (guard_true ha _) ?_
    exact .one (guard_true hb _)
  last := by
    intro ⟨d, p, q, e, lt, eq, rest, pc, npc, mem⟩ p' q' m ⟨h1, h2, h3, h4, h5, h6⟩
    cases h1; cases h2; cases h3; cases h4; cases h5; cases h6
    refine ⟨⟨d, p, q, q, decide (q.toInt < q.toInt), decide (q = q), rest, 8, 9, mem⟩, ?_, ⟨rfl, rfl, rfl⟩⟩
    refine .next _ ⟨d, p, q, q, decide (q.toInt < q.toInt), decide (q = q), rest, 7, 8, mem⟩ _ rfl ?_
    exact .one (congrArg some (sel_true rfl _ _))

theorem riscv_copy (a b c : W) : CopyLoop .little (copyToRam .riscv a b c) 8 where
  turn := by
    intro ⟨d, p, q, e, lt, eq, rest, pc, npc, mem⟩ p' q' e' m ⟨h1, h2, h3, h4, h5, h6⟩ ha hb hne
    cases h1; cases h2; cases h3; cases h4; cases h5; cases h6
    refine ⟨⟨load .little mem p, p + 4#32, q + 4#32, e, lt, eq, rest, 8, 9, store .little mem q (load .little mem p)⟩, ?_, ⟨rfl, rfl, rfl, rfl, rfl, rfl⟩⟩
    refine .next _ ⟨d, p, q, e, lt, eq, rest, 4, 5, mem⟩ _ (congrArg some (sel_false hne _ _)) ?_
    refine .next _ ⟨load .little mem p, p, q, e, lt, eq, rest, 5, 6, mem⟩ _ (guard_true ha _) ?_
    refine .next _ ⟨load .little mem p, p, q, e, lt, eq, rest, 6, 7, store .little mem q (load .little mem p)⟩ _ (guard_true hb _) ?_
    refine .next _ ⟨load .little mem p, p + 4#32, q, e, lt, eq, rest, 7, 8, store .little mem q (load .little mem p)⟩ _ rfl ?_
    exact .one rfl
  last := by
    intro ⟨d, p, q, e, lt, eq, rest, pc, npc, mem⟩ p' q' m ⟨h1, h2, h3, h4, h5, h6⟩
    cases h1; cases h2; cases h3; cases h4; cases h5; cases h6
    refine ⟨⟨d, p, q, q, lt, eq, rest, 9, 10, mem⟩, ?_, ⟨rfl, rfl, rfl⟩⟩
    exact .one (congrArg some (sel_true rfl _ _))

theorem mips_copy (a b c : W) : CopyLoop .little (copyToRam .mips a b c) 9 where
  turn := by
    intro ⟨d, p, q, e, lt, eq, rest, pc, npc, mem⟩ p' q' e' m ⟨h1, h2, h3, h4, h5, h6⟩ ha hb hne
    cases h1; cases h2; cases h3; cases h4; cases h5; cases h6
    refine ⟨⟨load .little mem p, p + 4#32, q + 4#32, e, lt, eq, rest, 9, 10, store .little mem q (load .little mem p)⟩, ?_, ⟨rfl, rfl, rfl, rfl, rfl, rfl⟩⟩
    refine .next _ ⟨d, p, q, e, lt, eq, rest, 10, 5, mem⟩ _ (congrArg some (sel_false hne _ _)) ?_
    refine .next _ ⟨d, p, q, e, lt, eq, rest, 5, 6, mem⟩ _ rfl ?_
    refine .next _ ⟨load .little mem p, p, q, e, lt, eq, rest, 6, 7, mem⟩ _ (guard_true ha _) ?_
    refine .next _ ⟨load .little mem p, p, q, e, lt, eq, rest, 7, 8, store .little mem q (load .little mem p)⟩ _ (guard_true hb _) ?_
    refine .next _ ⟨load .little mem p, p + 4#32, q, e, lt, eq, rest, 8, 9, store .little mem q (load .little mem p)⟩ _ rfl ?_
    exact .one rfl
  last := by
    intro ⟨d, p, q, e, lt, eq, rest, pc, npc, mem⟩ p' q' m ⟨h1, h2, h3, h4, h5, h6⟩
    cases h1; cases h2; cases h3; cases h4; cases h5; cases h6
    refine ⟨⟨d, p, q, q, lt, eq, rest, 11, 12, mem⟩, ?_, ⟨rfl, rfl, rfl⟩⟩
    refine .next _ ⟨d, p, q, q, lt, eq, rest, 10, 11, mem⟩ _ (congrArg some (sel_true rfl _ _)) ?_
    exact .one rfl

theorem ppc_copy (a b c : W) : CopyLoop .big (copyToRam .ppc a b c) 11 where
  turn := by
    intro ⟨d, p, q, e, lt, eq, rest, pc, npc, mem⟩ p' q' e' m ⟨h1, h2, h3, h4, h5, h6⟩ ha hb hne
    cases h1; cases h2; cases h3; cases h4; cases h5; cases h6
    refine ⟨⟨load .big mem p, p + 4#32, q + 4#32, e, decide (q.toInt < e.toInt), decide (q = e), rest, 11, 12, store .big mem q (load .big mem p)⟩, ?_, ⟨rfl, rfl, rfl, rfl, rfl, rfl⟩⟩
    refine .next _ ⟨d, p, q, e, decide (q.toInt < e.toInt), decide (q = e), rest, 12, 13, mem⟩ _ rfl ?_
    refine .next _ ⟨d, p, q, e, decide (q.toInt < e.toInt), decide (q = e), rest, 7, 8, mem⟩ _ (congrArg some (sel_false hne _ _)) ?_
    refine .next _ ⟨load .big mem p, p, q, e, decide (q.toInt < e.toInt), decide (q = e), rest, 8, 9, mem⟩ _ (guard_true ha _) ?_
    refine .next _ ⟨load .big mem p, p, q, e, decide (q.toInt < e.toInt), decide (q = e), rest, 9, 10, store .big mem q (load .big mem p)⟩ _ (guard_true hb _) ?_
    refine .next _ ⟨load .big mem p, p + 4#32, q, e, decide (q.toInt < e.toInt), decide (q = e), rest, 10, 11, store .big mem q (load .big mem p)⟩ _ rfl ?_
    exact .one rfl
  last := by
    intro ⟨d, p, q, e, lt, eq, rest, pc, npc, mem⟩ p' q' m ⟨h1, h2, h3, h4, h5, h6⟩
    cases h1; cases h2; cases h3; cases h4; cases h5; cases h6
    refine ⟨⟨d, p, q, q, decide (q.toInt < q.toInt), decide (q = q), rest, 13, 14, mem⟩, ?_, ⟨rfl, rfl, rfl⟩⟩
    refine .next _ ⟨d, p, q, q, decide (q.toInt < q.toInt), decide (q = q), rest, 12, 13, mem⟩ _ rfl ?_
    exact .one (congrArg some (sel_true rfl _ _))

/-! ### ZERO_RAM -/

theorem arm_zero (a b : W) : ZeroLoop .little (zeroRam .arm a b) 5 (fun s => s.d = 0#32) where
  turn := by
    intro ⟨d, p, q, e, lt, eq, rest, pc, npc, mem⟩ p' q' e' m ⟨h1, h2, h3, h4, h5, h6⟩ hk hb hne
    cases h1; cases h2; cases h3; cases h4; cases h5; cases h6; cases hk
    refine ⟨⟨0#32, p, q + 4#32, e, decide (q.toInt < e.toInt), decide (q = e), rest, 5, 6, store .little mem q 0#32⟩, ?_, ⟨rfl, rfl, rfl, rfl, rfl, rfl⟩, rfl⟩
    refine .next _ ⟨0#32, p, q, e, decide (q.toInt < e.toInt), decide (q = e), rest, 6, 7, mem⟩ _ rfl ?_
    refine .next _ ⟨0#32, p, q, e, decide (q.toInt < e.toInt), decide (q = e), rest, 4, 5, mem⟩ _ (congrArg some (sel_false hne _ _)) ?_
    exact .one (guard_true hb _)
  last := by
    intro ⟨d, p, q, e, lt, eq, rest, pc, npc, mem⟩ p' q' m ⟨h1, h2, h3, h4, h5, h6⟩
    cases h1; cases h2; cases h3; cases h4; cases h5; cases h6
    refine ⟨⟨d, p, q, q, decide (q.toInt < q.toInt), decide (q = q), rest, 7, 8, mem⟩, ?_, ⟨rfl, rfl, rfl⟩⟩
    refine .next _ ⟨d, p, q, q, decide (q.toInt < q.toInt), decide (q = q), rest, 6, 7, mem⟩ _ rfl ?_
    exact .one (congrArg some (sel_true rfl _ _))

theorem riscv_zero (a b : W) : ZeroLoop .little (zeroRam .riscv a b) 5 (fun _ => True) where
  turn := by
    intro ⟨d, p, q, e, lt, eq, rest, pc, npc, mem⟩ p' q' e' m ⟨h1, h2, h3, h4, h5, h6⟩ hk hb hne
    cases h1; cases h2; cases h3; cases h4; cases h5; cases h6
    refine ⟨⟨d, p, q + 4#32, e, lt, eq, rest, 5, 6, store .little mem q 0#32⟩, ?_, ⟨rfl, rfl, rfl, rfl, rfl, rfl⟩, trivial⟩
    refine .next _ ⟨d, p, q, e, lt, eq, rest, 3, 4, mem⟩ _ (congrArg some (sel_false hne _ _)) ?_
    refine .next _ ⟨d, p, q, e, lt, eq, rest, 4, 5, store .little mem q 0#32⟩ _ (guard_true hb _) ?_
    exact .one rfl
  last := by
    intro ⟨d, p, q, e, lt, eq, rest, pc, npc, mem⟩ p' q' m ⟨h1, h2, h3, h4, h5, h6⟩
    cases h1; cases h2; cases h3; cases h4; cases h5; cases h6
    refine ⟨⟨d, p, q, q, lt, eq, rest, 6, 7, mem⟩, ?_, ⟨rfl, rfl, rfl⟩⟩
    exact .one (congrArg some (sel_true rfl _ _))

theorem mips_zero (a b : W) : ZeroLoop .little (zeroRam .mips a b) 6 (fun _ => True) where
  turn := by
    intro ⟨d, p, q, e, lt, eq, rest, pc, npc, mem⟩ p' q' e' m ⟨h1, h2, h3, h4, h5, h6⟩ hk hb hne
    cases h1; cases h2; cases h3; cases h4; cases h5; cases h6
    refine ⟨⟨d, p, q + 4#32, e, lt, eq, rest, 6, 7, store .little mem q 0#32⟩, ?_, ⟨rfl, rfl, rfl, rfl, rfl, rfl⟩, trivial⟩
    refine .next _ ⟨d, p, q, e, lt, eq, rest, 7, 4, mem⟩ _ (congrArg some (sel_false hne _ _)) ?_
    refine .next _ ⟨d, p, q, e, lt, eq, rest, 4, 5, mem⟩ _ rfl ?_
    refine .next _ ⟨d, p, q, e, lt, eq, rest, 5, 6, store .little mem q 0#32⟩ _ (guard_true hb _) ?_
    exact .one rfl
  last := by
    intro ⟨d, p, q, e, lt, eq, rest, pc, npc, mem⟩ p' q' m ⟨h1, h2, h3, h4, h5, h6⟩
    cases h1; cases h2; cases h3; cases h4; cases h5; cases h6
    refine ⟨⟨d, p, q, q, lt, eq, rest, 8, 9, mem⟩, ?_, ⟨rfl, rfl, rfl⟩⟩
    refine .next _ ⟨d, p, q, q, lt, eq, rest, 7, 8, mem⟩ _ (congrArg some (sel_true rfl _ _)) ?_
    exact .one rfl

theorem ppc_zero (a b : W) : ZeroLoop .big (zeroRam .ppc a b) 8 (fun s => s.d = 0#32) where
  turn := by
    intro ⟨d, p, q, e, lt, eq, rest, pc, npc, mem⟩ p' q' e' m ⟨h1, h2, h3, h4, h5, h6⟩ hk hb hne
    cases h1; cases h2; cases h3; cases h4; cases h5; cases h6; cases hk
    refine ⟨⟨0#32, p, q + 4#32, e, decide (q.toInt < e.toInt), decide (q = e), rest, 8, 9, store .big mem q 0#32⟩, ?_, ⟨rfl, rfl, rfl, rfl, rfl, rfl⟩, rfl⟩
    refine .next _ ⟨0#32, p, q, e, decide (q.toInt < e.toInt), decide (q = e), rest, 9, 10, mem⟩ _ rfl ?_
    refine .next _ ⟨0#32, p, q, e, decide (q.toInt < e.toInt), decide (q = e), rest, 6, 7, mem⟩ _ (congrArg some (sel_false hne _ _)) ?_
    refine .next _ ⟨0#32, p, q, e, decide (q.toInt < e.toInt), decide (q = e), rest, 7, 8, store .big mem q 0#32⟩ _ (guard_true hb _) ?_
    exact .one rfl
  last := by
    intro ⟨d, p, q, e, lt, eq, rest, pc, npc, mem⟩ p' q' m ⟨h1, h2, h3, h4, h5, h6⟩
    cases h1; cases h2; cases h3; cases h4; cases h5; cases h6
    refine ⟨⟨d, p, q, q, decide (q.toInt < q.toInt), decide (q = q), rest, 10, 11, mem⟩, ?_, ⟨rfl, rfl, rfl⟩⟩
    refine .next _ ⟨d, p, q, q, decide (q.toInt < q.toInt), decide (q = q), rest, 9, 10, mem⟩ _ rfl ?_
    exact .one (congrArg some (sel_true rfl _ _))

/-! ### the macros as a whole -/

/-- from every content of the registers it falls out at its end with this memory -/
def Runs (i : Isa) (code : List I) (m m' : Mem) : Prop :=
  ∀ s : St, s.pc = 0 → s.npc = 1 → s.mem = m → ∃ s', Steps (endian i) code s s' ∧ s'.pc = code.length ∧ s'.npc = code.length + 1 ∧ s'.mem = m'

theorem liw (v : W) : (hi v) <<< 16 ||| lo v = v := by
  unfold hi lo
  apply BitVec.eq_of_getLsbD_eq
  intro i hi
  rw [BitVec.getLsbD_or, BitVec.getLsbD_shiftLeft, BitVec.getLsbD_ushiftRight, BitVec.getLsbD_and]
  have e : (0xffff#32).getLsbD i = decide (i < 16) := by
    rw [show (0xffff#32 : W) = BitVec.ofNat 32 (2 ^ 16 - 1) from rfl, BitVec.getLsbD_ofNat, Nat.testBit_two_pow_sub_one]
    simp [hi]
  rw [e]
  by_cases h : i < 16
  · simp [h]
  · simp [h, hi, show 16 + (i - 16) = i by omega]

theorem copy_runs (i : Isa) (base start stop : W) (m : Mem) (hb : aligned base) (hs : aligned start) (he : aligned stop)
    (hd : Disjoint (Within start (stop - start).toNat) (Within base (stop - start).toNat)) :
    Runs i (copyToRam i base start stop) m (copied m base start (stop - start).toNat) := by
  intro ⟨d, p, q, e, lt, eq, rest, pc, npc, mem⟩ h1 h2 h3
  cases h1; cases h2; cases h3
  have c0 : copied mem base start 0 = mem := by funext x; unfold copied; rw [if_neg (show ¬ Within start 0 x from Nat.not_lt_zero _)]
  have z : ∀ v : W, v + BitVec.ofNat 32 0 = v := by intro v; bv_omega
  cases i with
  | arm =>
    obtain ⟨s', st, out⟩ := (arm_copy base start stop).all mem base start stop hb hs he hd _ 0 ⟨d, base, start, stop, lt, eq, rest, 6, 7, mem⟩ rfl (Nat.zero_add _)
      ⟨rfl, rfl, (z _).symm, (z _).symm, rfl, c0.symm⟩
    refine ⟨s', ?_, out.pc, out.npc, out.mem⟩
    refine Steps.trans ?_ st
    refine .next _ ⟨d, base, q, e, lt, eq, rest, 1, 2, mem⟩ _ rfl ?_
    refine .next _ ⟨d, base, start, e, lt, eq, rest, 2, 3, mem⟩ _ rfl ?_
    refine .next _ ⟨d, base, start, stop, lt, eq, rest, 3, 4, mem⟩ _ rfl ?_
    exact .one rfl
  | riscv =>
    obtain ⟨s', st, out⟩ := (riscv_copy base start stop).all mem base start stop hb hs he hd _ 0 ⟨d, base, start, stop, lt, eq, rest, 8, 9, mem⟩ rfl (Nat.zero_add _)
      ⟨rfl, rfl, (z _).symm, (z _).symm, rfl, c0.symm⟩
    refine ⟨s', ?_, out.pc, out.npc, out.mem⟩
    refine Steps.trans ?_ st
    refine .next _ ⟨d, base, q, e, lt, eq, rest, 1, 2, mem⟩ _ rfl ?_
    refine .next _ ⟨d, base, start, e, lt, eq, rest, 2, 3, mem⟩ _ rfl ?_
    refine .next _ ⟨d, base, start, stop, lt, eq, rest, 3, 4, mem⟩ _ rfl ?_
    exact .one rfl
  | mips =>
    obtain ⟨s', st, out⟩ := (mips_copy base start stop).all mem base start stop hb hs he hd _ 0 ⟨d, base, start, stop, lt, eq, rest, 9, 10, mem⟩ rfl (Nat.zero_add _)
      ⟨rfl, rfl, (z _).symm, (z _).symm, rfl, c0.symm⟩
    refine ⟨s', ?_, out.pc, out.npc, out.mem⟩
    refine Steps.trans ?_ st
    refine .next _ ⟨d, base, q, e, lt, eq, rest, 1, 2, mem⟩ _ rfl ?_
    refine .next _ ⟨d, base, start, e, lt, eq, rest, 2, 3, mem⟩ _ rfl ?_
    refine .next _ ⟨d, base, start, stop, lt, eq, rest, 3, 4, mem⟩ _ rfl ?_
    refine .next _ ⟨d, base, start, stop, lt, eq, rest, 4, 9, mem⟩ _ rfl ?_
    exact .one rfl
  | ppc =>
    obtain ⟨s', st, out⟩ := (ppc_copy base start stop).all mem base start stop hb hs he hd _ 0
      ⟨d, hi base <<< 16 ||| lo base, hi start <<< 16 ||| lo start, hi stop <<< 16 ||| lo stop, lt, eq, rest, 11, 12, mem⟩ rfl (Nat.zero_add _)
      ⟨rfl, rfl, (liw _).trans (z _).symm, (liw _).trans (z _).symm, liw _, c0.symm⟩
    refine ⟨s', ?_, out.pc, out.npc, out.mem⟩
    refine Steps.trans ?_ st
    refine .next _ ⟨d, hi base <<< 16, q, e, lt, eq, rest, 1, 2, mem⟩ _ rfl ?_
    refine .next _ ⟨d, hi base <<< 16 ||| lo base, q, e, lt, eq, rest, 2, 3, mem⟩ _ rfl ?_
    refine .next _ ⟨d, hi base <<< 16 ||| lo base, hi start <<< 16, e, lt, eq, rest, 3, 4, mem⟩ _ rfl ?_
    refine .next _ ⟨d, hi base <<< 16 ||| lo base, hi start <<< 16 ||| lo start, e, lt, eq, rest, 4, 5, mem⟩ _ rfl ?_
    refine .next _ ⟨d, hi base <<< 16 ||| lo base, hi start <<< 16 ||| lo start, hi stop <<< 16, lt, eq, rest, 5, 6, mem⟩ _ rfl ?_
    refine .next _ ⟨d, hi base <<< 16 ||| lo base, hi start <<< 16 ||| lo start, hi stop <<< 16 ||| lo stop, lt, eq, rest, 6, 7, mem⟩ _ rfl ?_
    exact .one rfl

theorem zero_runs (i : Isa) (start stop : W) (m : Mem) (hs : aligned start) (he : aligned stop) :
    Runs i (zeroRam i start stop) m (zeroed m start (stop - start).toNat) := by
  intro ⟨d, p, q, e, lt, eq, rest, pc, npc, mem⟩ h1 h2 h3
  cases h1; cases h2; cases h3
  have c0 : zeroed mem start 0 = mem := by funext x; unfold zeroed; rw [if_neg (show ¬ Within start 0 x from Nat.not_lt_zero _)]
  have z : ∀ v : W, v + BitVec.ofNat 32 0 = v := by intro v; bv_omega
  cases i with
  | arm =>
    obtain ⟨s', st, out⟩ := (arm_zero start stop).all mem start stop hs he _ 0 p ⟨0#32, p, start, stop, lt, eq, rest, 5, 6, mem⟩ rfl (Nat.zero_add _)
      ⟨rfl, rfl, rfl, (z _).symm, rfl, c0.symm⟩ rfl
    refine ⟨s', ?_, out.pc, out.npc, out.mem⟩
    refine Steps.trans ?_ st
    refine .next _ ⟨d, p, start, e, lt, eq, rest, 1, 2, mem⟩ _ rfl ?_
    refine .next _ ⟨d, p, start, stop, lt, eq, rest, 2, 3, mem⟩ _ rfl ?_
    refine .next _ ⟨0#32, p, start, stop, lt, eq, rest, 3, 4, mem⟩ _ rfl ?_
    exact .one rfl
  | riscv =>
    obtain ⟨s', st, out⟩ := (riscv_zero start stop).all mem start stop hs he _ 0 p ⟨d, p, start, stop, lt, eq, rest, 5, 6, mem⟩ rfl (Nat.zero_add _)
      ⟨rfl, rfl, rfl, (z _).symm, rfl, c0.symm⟩ trivial
    refine ⟨s', ?_, out.pc, out.npc, out.mem⟩
    refine Steps.trans ?_ st
    refine .next _ ⟨d, p, start, e, lt, eq, rest, 1, 2, mem⟩ _ rfl ?_
    refine .next _ ⟨d, p, start, stop, lt, eq, rest, 2, 3, mem⟩ _ rfl ?_
    exact .one rfl
  | mips =>
    obtain ⟨s', st, out⟩ := (mips_zero start stop).all mem start stop hs he _ 0 p ⟨d, p, start, stop, lt, eq, rest, 6, 7, mem⟩ rfl (Nat.zero_add _)
      ⟨rfl, rfl, rfl, (z _).symm, rfl, c0.symm⟩ trivial
    refine ⟨s', ?_, out.pc, out.npc, out.mem⟩
    refine Steps.trans ?_ st
    refine .next _ ⟨d, p, start, e, lt, eq, rest, 1, 2, mem⟩ _ rfl ?_
    refine .next _ ⟨d, p, start, stop, lt, eq, rest, 2, 3, mem⟩ _ rfl ?_
    refine .next _ ⟨d, p, start, stop, lt, eq, rest, 3, 6, mem⟩ _ rfl ?_
    exact .one rfl
  | ppc =>
    obtain ⟨s', st, out⟩ := (ppc_zero start stop).all mem start stop hs he _ 0 p
      ⟨0#32, p, hi start <<< 16 ||| lo start, hi stop <<< 16 ||| lo stop, lt, eq, rest, 8, 9, mem⟩ rfl (Nat.zero_add _)
      ⟨rfl, rfl, rfl, (liw _).trans (z _).symm, liw _, c0.symm⟩ rfl
    refine ⟨s', ?_, out.pc, out.npc, out.mem⟩
    refine Steps.trans ?_ st
    refine .next _ ⟨0#32, p, q, e, lt, eq, rest, 1, 2, mem⟩ _ rfl ?_
    refine .next _ ⟨0#32, p, hi start <<< 16, e, lt, eq, rest, 2, 3, mem⟩ _ rfl ?_
    refine .next _ ⟨0#32, p, hi start <<< 16 ||| lo start, e, lt, eq, rest, 3, 4, mem⟩ _ rfl ?_
    refine .next _ ⟨0#32, p, hi start <<< 16 ||| lo start, hi stop <<< 16, lt, eq, rest, 4, 5, mem⟩ _ rfl ?_
    refine .next _ ⟨0#32, p, hi start <<< 16 ||| lo start, hi stop <<< 16 ||| lo stop, lt, eq, rest, 5, 6, mem⟩ _ rfl ?_
    exact .one rfl

end Pico.Startup
