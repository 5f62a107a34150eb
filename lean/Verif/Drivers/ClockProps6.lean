import Verif.Drivers.Clock3
import Verif.Drivers.ClockProps4
/-
Clocks (C95, C96): same5x.
-/
namespace Pico.Clock
open Field

theorem get_toNat {n : Nat} (w t : Nat) (r : BitVec n) (h : w ≤ n) : (get w t r).toNat = r.toNat / 2 ^ t % 2 ^ w := by
  rw [Field.get, BitVec.toNat_and, mask, BitVec.toNat_ofNat, BitVec.toNat_ushiftRight, Nat.shiftRight_eq_div_pow]
  have h1 : 2 ^ w ≤ 2 ^ n := Nat.pow_le_pow_right (by decide) h
  have h2 := Nat.two_pow_pos w
  rw [Nat.mod_eq_of_lt (show 2 ^ w - 1 < 2 ^ n by omega), Nat.and_two_pow_sub_one_eq_mod]

namespace S5

/-- two readings of a clock agree: a clock has one frequency -/
theorem real_det (s : St) (n : Node) (f g : Hz) (h : Real s n f) (k : Real s n g) : f = g := by
  induction h generalizing g with
  | slow k hk => cases k with
    | slow _ _ => rfl
    | dfll => omega
    | gen1 _ _ => omega
    | fdpll _ _ h _ => omega
  | dfll => cases k with
    | slow _ h => omega
    | dfll => rfl
    | fdpll _ _ h _ => omega
  | gen1 f _ ih => cases k with
    | slow _ h => omega
    | gen1 _ h => exact ih _ h
    | fdpll _ _ h _ => omega
  | fdpll k f hk _ ih => cases k with
    | slow _ h => omega
    | dfll => omega
    | gen1 _ _ => omega
    | fdpll _ _ _ h => exact ih _ h
  | gen i f _ ih => cases k with
    | gen _ _ h => rw [ih _ h]
  | ch c f _ ih => cases k with
    | ch _ _ h => exact ih _ h
  | dpll i f _ _ ih => cases k with
    | dpll _ _ _ h => rw [ih _ h]

/-- told right: the record is the frequency, cut to whole Hz -/
def Told (s : St) (n : Node) : Prop := ∃ f, Real s n f ∧ 0 < f.2 ∧ rec s n = f.1 / f.2

/-- a clock already set up, or an oscillator -/
def In (done : List Node) : Node → Prop
  | .src k => k = 4 ∨ k = 5 ∨ k = 6 ∨ (k = 3 ∧ .gen 1 ∈ done) ∨ (k = 7 ∧ .dpll 0 ∈ done) ∨ (k = 8 ∧ .dpll 1 ∈ done)
  | n => n ∈ done

/-- a call that sets up a clock for the first time, from one that is set up, with a divider that fits its field; a DPLL from an exact frequency, by a multiple of 1/32 -/
def Fits (done : List Node) : Op → St → Prop
  | .gen i src div, _ => .gen i ∉ done ∧ In done (.src src) ∧ (i ≠ 1 → div < 256)
  | .dpll i r freq _, s => .dpll i ∉ done ∧ .ch (1 + i) ∈ done ∧ r = 0 ∧ (∃ d, 0 < d ∧ Real s (.ch (1 + i)) (s.rpch (1 + i) * d, d)) ∧
      s.rpch (1 + i) ∣ 32 * freq ∧ s.rpch (1 + i) ≤ freq ∧ freq / s.rpch (1 + i) ≤ 8192 ∧ s.rpch (1 + i) < 2 ^ 27
  | .ch c g, _ => .ch c ∉ done ∧ .gen g ∈ done
  | _, _ => True

def sets : Op → List Node
  | .gen i _ _ => [.gen i]
  | .dpll i _ _ _ => [.dpll i]
  | .ch c _ => [.ch c]
  | _ => []

/-- a sequence of calls that sets up each clock once, sources first -/
def Valid : List Node → List Op → St → Prop
  | _, [], _ => True
  | done, o :: os, s => Fits done o s ∧ ∀ s', step o s = .ok s' → Valid (sets o ++ done) os s'

structure Inv (done : List Node) (s : St) : Prop where
  divsel : ∀ i, (s.gen i).getLsbD 12 = false
  cgen : ∀ i, .gen i ∈ done → In done (.src (get 4 0 (s.gen i)).toNat)
  cch : ∀ c, .ch c ∈ done → .gen (get 4 0 (s.pch c)).toNat ∈ done
  cdpll : ∀ i, .dpll i ∈ done → .ch (1 + i) ∈ done
  nosrc : ∀ k, .src k ∉ done
  told : ∀ n ∈ done, Told s n

/-- two states agree on the clocks set up -/
structure Agree (done : List Node) (s s' : St) : Prop where
  gen : ∀ i, .gen i ∈ done → get 4 0 (s'.gen i) = get 4 0 (s.gen i) ∧ divOf i (s'.gen i) = divOf i (s.gen i)
  ch : ∀ c, .ch c ∈ done → get 4 0 (s'.pch c) = get 4 0 (s.pch c)
  dpll : ∀ i, .dpll i ∈ done → get 3 5 (s'.ctrlb i) = get 3 5 (s.ctrlb i) ∧ s'.ratio i = s.ratio i
  same : ∀ n, n ∈ done → rec s' n = rec s n

theorem frame (done : List Node) (s s' : St) (hi : Inv done s) (ha : Agree done s s') (n : Node) (f : Hz) (h : Real s n f) (hn : In done n) : Real s' n f := by
  induction h with
  | slow k hk => exact .slow k hk
  | dfll => exact .dfll
  | gen1 f _ ih =>
    refine .gen1 f (ih ?_)
    rcases hn with h | h | h | ⟨_, h⟩ | ⟨h, _⟩ | ⟨h, _⟩ <;> first | exact h | omega
  | fdpll k f hk _ ih =>
    refine .fdpll k f hk (ih ?_)
    rcases hn with h | h | h | ⟨h, _⟩ | ⟨h, h'⟩ | ⟨h, h'⟩ <;> first | omega | (subst h; exact h')
  | gen i f _ ih =>
    have a := ha.gen i hn
    have := ih (hi.cgen i hn)
    rw [← a.1] at this
    have r := Real.gen i f this
    rw [a.2] at r
    exact r
  | ch c f _ ih =>
    have a := ha.ch c hn
    have := ih (hi.cch c hn)
    rw [← a] at this
    exact .ch c f this
  | dpll i f h0 _ ih =>
    have a := ha.dpll i hn
    have := ih (hi.cdpll i hn)
    rw [← a.1] at h0
    have r := Real.dpll i f h0 this
    rw [a.2] at r
    exact r

theorem told_frame (done : List Node) (s s' : St) (hi : Inv done s) (ha : Agree done s s') (n : Node) (hn : n ∈ done) : Told s' n := by
  obtain ⟨f, h1, h2, h3⟩ := hi.told n hn
  have hin : In done n := by cases n with
    | src k => exact absurd hn (hi.nosrc k)
    | gen _ => exact hn
    | ch _ => exact hn
    | dpll _ => exact hn
  exact ⟨f, frame done s s' hi ha n f h1 hin, h2, by rw [ha.same n hn, h3]⟩

/-- a source of a generator is told right -/
theorem src_told (done : List Node) (s : St) (hi : Inv done s) (k : Nat) (h : In done (.src k)) : ∃ f, Real s (.src k) f ∧ 0 < f.2 ∧ srcRec s k = some (f.1 / f.2) := by
  rcases h with h | h | h | ⟨h, hm⟩ | ⟨h, hm⟩ | ⟨h, hm⟩ <;> subst h
  · exact ⟨_, .slow 4 (Or.inl rfl), Nat.one_pos, rfl⟩
  · exact ⟨_, .slow 5 (Or.inr rfl), Nat.one_pos, rfl⟩
  · exact ⟨_, .dfll, Nat.one_pos, rfl⟩
  · obtain ⟨f, h1, h2, h3⟩ := hi.told _ hm
    exact ⟨f, .gen1 f h1, h2, congrArg some h3⟩
  · obtain ⟨f, h1, h2, h3⟩ := hi.told _ hm
    exact ⟨f, .fdpll 7 f (Or.inl rfl) h1, h2, congrArg some h3⟩
  · obtain ⟨f, h1, h2, h3⟩ := hi.told _ hm
    exact ⟨f, .fdpll 8 f (Or.inr rfl) h1, h2, congrArg some h3⟩

/-- the register of a generator -/
def genReg (src div : Nat) (r : BitVec 32) : BitVec 32 := orIn 4 0 (BitVec.ofNat 32 src) (orIn 16 16 (BitVec.ofNat 32 div) (clear 4 0 (clear 16 16 r)))

theorem genReg_fields (src div : Nat) (r : BitVec 32) (hs : src < 16) (hd : div < 65536) :
    (get 4 0 (genReg src div r)).toNat = src ∧ (get 16 16 (genReg src div r)).toNat = div ∧ (genReg src div r).getLsbD 12 = r.getLsbD 12 := by
  unfold genReg
  refine ⟨?_, ?_, ?_⟩
  · rw [get_orIn_zero _ _ _ _ (by decide) hs]
    rw [get_orIn_other _ _ _ _ _ _ (by decide), get_clear_same]
  · rw [get_orIn_other _ _ _ _ _ _ (by decide), get_orIn_zero _ _ _ _ (by decide) hd]
    rw [get_clear_other _ _ _ _ _ (by decide), get_clear_same]
  · rw [orIn_bit _ _ _ _ _ (by decide), orIn_bit _ _ _ _ _ (by decide), clear_bit, clear_bit]
    simp

theorem genReg_div (i src div : Nat) (r : BitVec 32) (hs : src < 16) (hd : div < 65536) (h0 : 0 < div) (h1 : i ≠ 1 → div < 256) (h12 : r.getLsbD 12 = false) :
    divOf i (genReg src div r) = div := by
  obtain ⟨_, e2, e3⟩ := genReg_fields src div r hs hd
  unfold divOf
  rw [e3, h12]
  have e : (get (if i = 1 then 16 else 8) 16 (genReg src div r)).toNat = div := by
    by_cases hi : i = 1
    · rw [if_pos hi]; exact e2
    · rw [if_neg hi, get_toNat _ _ _ (by decide)]
      rw [get_toNat _ _ _ (by decide)] at e2
      have := h1 hi
      omega
  simp only [e, Bool.false_eq_true, if_false]
  rw [if_neg (by omega)]

theorem divOf_bit (i : Nat) (r r' : BitVec 32) (h1 : r'.getLsbD 12 = r.getLsbD 12) (h2 : ∀ w, get w 16 r' = get w 16 r) : divOf i r' = divOf i r := by
  unfold divOf
  rw [h1, h2]

theorem get_bset_other (i w t : Nat) (r : BitVec 32) (h : i < t ∨ t + w ≤ i) : get w t (bset i r) = get w t r := by
  apply BitVec.eq_of_getLsbD_eq
  intro j hj
  rw [get_bit, get_bit]
  by_cases c : j < w
  · by_cases c2 : t + j < 32
    · rw [bset_bit _ _ _ c2, show decide (t + j = i) = false from decide_eq_false (by omega)]; simp
    · rw [BitVec.getLsbD_of_ge _ _ (by omega), BitVec.getLsbD_of_ge _ _ (by omega)]
  · simp [c]

theorem get_bclr_other (i w t : Nat) (r : BitVec 32) (h : i < t ∨ t + w ≤ i) : get w t (bclr i r) = get w t r := by
  apply BitVec.eq_of_getLsbD_eq
  intro j hj
  rw [get_bit, get_bit]
  by_cases c : j < w
  · by_cases c2 : t + j < 32
    · rw [bclr_bit, show decide (t + j = i) = false from decide_eq_false (by omega)]; simp
    · rw [BitVec.getLsbD_of_ge _ _ (by omega), BitVec.getLsbD_of_ge _ _ (by omega)]
  · simp [c]

theorem in_mono (n : Node) (l done : List Node) (h : In done n) : In (l ++ done) n := by
  cases n with
  | src k =>
    rcases h with h | h | h | ⟨h, hm⟩ | ⟨h, hm⟩ | ⟨h, hm⟩
    · exact Or.inl h
    · exact Or.inr (Or.inl h)
    · exact Or.inr (Or.inr (Or.inl h))
    · exact Or.inr (Or.inr (Or.inr (Or.inl ⟨h, List.mem_append_right _ hm⟩)))
    · exact Or.inr (Or.inr (Or.inr (Or.inr (Or.inl ⟨h, List.mem_append_right _ hm⟩))))
    · exact Or.inr (Or.inr (Or.inr (Or.inr (Or.inr ⟨h, List.mem_append_right _ hm⟩))))
  | gen _ => exact List.mem_append_right _ h
  | ch _ => exact List.mem_append_right _ h
  | dpll _ => exact List.mem_append_right _ h

/-- the arithmetic of a DPLL: an exact ratio gives the frequency asked -/
theorem ratio_exact (freq f : Nat) (hf : 0 < f) (hd : f ∣ 32 * freq) (h27 : f < 2 ^ 27) : f * (ldr freq f * 32 + frac freq f) = 32 * freq := by
  unfold ldr frac
  have hm := Nat.mod_lt freq hf
  rw [Nat.mod_eq_of_lt (show freq % f * 32 < 2 ^ 32 by omega)]
  have hdm := Nat.div_add_mod freq f
  have hdv : f ∣ freq % f * 32 := by
    have e : 32 * freq = f * (freq / f * 32) + freq % f * 32 := by
      have : freq % f * 32 = 32 * freq - f * (freq / f * 32) := by
        rw [← Nat.mul_assoc]; omega
      rw [← Nat.mul_assoc] at this ⊢
      omega
    rw [e] at hd
    exact (Nat.dvd_add_right (Nat.dvd_mul_right f _)).mp hd
  rw [Nat.mul_add, Nat.mul_div_cancel' hdv, ← Nat.mul_assoc]
  omega

theorem frac_lt (freq f : Nat) (hf : 0 < f) (h27 : f < 2 ^ 27) : frac freq f < 32 := by
  unfold frac
  have hm := Nat.mod_lt freq hf
  rw [Nat.mod_eq_of_lt (show freq % f * 32 < 2 ^ 32 by omega), Nat.div_lt_iff_lt_mul hf]
  omega

theorem ratioReg_fields (freq f : Nat) (h1 : 1 ≤ ldr freq f) (h2 : ldr freq f ≤ 8192) (h3 : frac freq f < 32) :
    (get 13 0 (ratioReg freq f)).toNat + 1 = ldr freq f ∧ (get 5 16 (ratioReg freq f)).toNat = frac freq f := by
  unfold ratioReg
  rw [Pmc.sub_one _ h1 (by omega)]
  constructor
  · rw [get_orIn_zero _ _ _ _ (by decide) (by omega)]
    · omega
    · rw [get_orIn_other _ _ _ _ _ _ (by decide)]; exact get_zero _ _
  · rw [get_orIn_other _ _ _ _ _ _ (by decide), get_orIn_zero _ _ _ _ (by decide) h3]
    exact get_zero _ _

/-- a call that only writes an enable bit changes nothing to the frequencies -/
theorem agree_of (done : List Node) (s s' : St) (hg : ∀ i, get 4 0 (s'.gen i) = get 4 0 (s.gen i) ∧ divOf i (s'.gen i) = divOf i (s.gen i)) (hc : ∀ c, get 4 0 (s'.pch c) = get 4 0 (s.pch c))
    (hb : s'.ctrlb = s.ctrlb) (hr : s'.ratio = s.ratio) (h1 : s'.rgen = s.rgen) (h2 : s'.rpch = s.rpch) (h3 : s'.rdpll = s.rdpll) : Agree done s s' := by
  refine ⟨fun i _ => hg i, fun c _ => hc c, fun i _ => ⟨by rw [hb], by rw [hr]⟩, fun n _ => ?_⟩
  cases n with
  | gen i => show s'.rgen i = s.rgen i; rw [h1]
  | ch c => show s'.rpch c = s.rpch c; rw [h2]
  | dpll i => show s'.rdpll i = s.rdpll i; rw [h3]
  | src k => show (srcRec s' k).getD 0 = (srcRec s k).getD 0; unfold srcRec; rw [h1, h3]

theorem inv_of (done : List Node) (s s' : St) (hi : Inv done s) (ha : Agree done s s') (hd : ∀ i, (s'.gen i).getLsbD 12 = (s.gen i).getLsbD 12) : Inv done s' := by
  refine ⟨fun i => by rw [hd, hi.divsel], fun i h => ?_, fun c h => ?_, hi.cdpll, hi.nosrc, fun n hn => told_frame done s s' hi ha n hn⟩
  · rw [(ha.gen i h).1]; exact hi.cgen i h
  · rw [ha.ch c h]; exact hi.cch c h

theorem ok_inj {α : Type} {a b : α} (h : Res.ok a = .ok b) : a = b := by cases h; rfl

theorem set_gen_bit (f : BitVec 32 → BitVec 32) (s : St) (i j : Nat) (k1 : ∀ r, get 4 0 (f r) = get 4 0 r) (k2 : ∀ r w, get w 16 (f r) = get w 16 r) (k3 : ∀ r, (f r).getLsbD 12 = r.getLsbD 12) :
    get 4 0 (Rp.set s.gen i (f (s.gen i)) j) = get 4 0 (s.gen j) ∧ divOf j (Rp.set s.gen i (f (s.gen i)) j) = divOf j (s.gen j) ∧
    (Rp.set s.gen i (f (s.gen i)) j).getLsbD 12 = (s.gen j).getLsbD 12 := by
  by_cases h : j = i
  · subst h
    rw [Rp.set_same]
    exact ⟨k1 _, divOf_bit _ _ _ (k3 _) (k2 _), k3 _⟩
  · rw [Rp.set_ne _ _ _ _ h]
    exact ⟨rfl, rfl, rfl⟩

theorem inv_genbit (f : BitVec 32 → BitVec 32) (done : List Node) (s : St) (i : Nat) (hi : Inv done s) (k1 : ∀ r, get 4 0 (f r) = get 4 0 r) (k2 : ∀ r w, get w 16 (f r) = get w 16 r)
    (k3 : ∀ r, (f r).getLsbD 12 = r.getLsbD 12) : Inv done { s with gen := Rp.set s.gen i (f (s.gen i)) } := by
  refine inv_of done s _ hi (agree_of done s _ (fun j => ?_) (fun c => rfl) rfl rfl rfl rfl rfl) (fun j => ?_)
  · have := set_gen_bit f s i j k1 k2 k3
    exact ⟨this.1, this.2.1⟩
  · exact (set_gen_bit f s i j k1 k2 k3).2.2

theorem inv_chbit (f : BitVec 32 → BitVec 32) (done : List Node) (s : St) (i : Nat) (hi : Inv done s) (k1 : ∀ r, get 4 0 (f r) = get 4 0 r) :
    Inv done { s with pch := Rp.set s.pch i (f (s.pch i)) } := by
  refine inv_of done s _ hi (agree_of done s _ (fun j => ⟨rfl, rfl⟩) (fun c => ?_) rfl rfl rfl rfl rfl) (fun j => rfl)
  show get 4 0 (Rp.set s.pch i (f (s.pch i)) c) = get 4 0 (s.pch c)
  by_cases h : c = i
  · subst h; rw [Rp.set_same]; exact k1 _
  · rw [Rp.set_ne _ _ _ _ h]

theorem inv_gen (done : List Node) (s s' : St) (i src div : Nat) (hi : Inv done s) (hf : Fits done (.gen i src div) s) (h : genSetup i src div s = .ok s') : Inv (.gen i :: done) s' := by
  obtain ⟨hn, hsrc, hdiv⟩ := hf
  obtain ⟨f, f1, f2, f3⟩ := src_told done s hi src hsrc
  unfold genSetup at h
  by_cases hb : 12 ≤ i ∨ 9 ≤ src ∨ 65536 ≤ div
  · rw [if_pos hb] at h; cases h
  rw [if_neg hb, f3] at h
  have h : (if div = 0 then Res.undef else .ok { s with gen := Rp.set s.gen i (genReg src div (s.gen i)), rgen := Rp.set s.rgen i (f.1 / f.2 / div) }) = .ok s' := h
  by_cases h0 : div = 0
  · rw [if_pos h0] at h; cases h
  rw [if_neg h0] at h
  have h := ok_inj h
  have g1 : s'.gen = Rp.set s.gen i (genReg src div (s.gen i)) := by rw [← h]
  have g2 : s'.rgen = Rp.set s.rgen i (f.1 / f.2 / div) := by rw [← h]
  have g3 : s'.pch = s.pch := by rw [← h]
  have g4 : s'.ctrlb = s.ctrlb := by rw [← h]
  have g5 : s'.ratio = s.ratio := by rw [← h]
  have g6 : s'.rpch = s.rpch := by rw [← h]
  have g7 : s'.rdpll = s.rdpll := by rw [← h]
  have gf := genReg_fields src div (s.gen i) (by omega) (by omega)
  have ha : Agree done s s' := by
    refine ⟨fun j hj => ?_, fun c _ => by rw [g3], fun j _ => ⟨by rw [g4], by rw [g5]⟩, fun n hm => ?_⟩
    · have ne : j ≠ i := fun e => hn (by rw [← e]; exact hj)
      rw [g1, Rp.set_ne _ _ _ _ ne]; exact ⟨rfl, rfl⟩
    · cases n with
      | gen j =>
        have ne : j ≠ i := fun e => hn (by rw [← e]; exact hm)
        show s'.rgen j = s.rgen j; rw [g2, Rp.set_ne _ _ _ _ ne]
      | ch c => show s'.rpch c = s.rpch c; rw [g6]
      | dpll j => show s'.rdpll j = s.rdpll j; rw [g7]
      | src k => exact absurd hm (hi.nosrc k)
  have e1 : s'.gen i = genReg src div (s.gen i) := by rw [g1, Rp.set_same]
  refine ⟨fun j => ?_, fun j hj => ?_, fun c hc => ?_, fun j hj => ?_, fun k hk => ?_, fun n hm => ?_⟩
  · by_cases hji : j = i
    · subst hji; rw [e1, gf.2.2, hi.divsel]
    · rw [g1, Rp.set_ne _ _ _ _ hji, hi.divsel]
  · by_cases hji : j = i
    · subst hji; rw [e1, gf.1]; exact in_mono _ [_] _ hsrc
    · rw [g1, Rp.set_ne _ _ _ _ hji]
      rcases List.mem_cons.mp hj with e | hj
      · exact absurd (Node.gen.inj e) hji
      · exact in_mono _ [_] _ (hi.cgen j hj)
  · rw [g3]
    rcases List.mem_cons.mp hc with e | hc
    · cases e
    · exact List.mem_cons_of_mem _ (hi.cch c hc)
  · rcases List.mem_cons.mp hj with e | hj
    · cases e
    · exact List.mem_cons_of_mem _ (hi.cdpll j hj)
  · rcases List.mem_cons.mp hk with e | hk
    · cases e
    · exact hi.nosrc k hk
  · rcases List.mem_cons.mp hm with e | hm
    · subst e
      have r1 : Real s' (.src (get 4 0 (s'.gen i)).toNat) f := by
        rw [e1, gf.1]; exact frame done s s' hi ha _ f f1 hsrc
      refine ⟨_, .gen i f r1, ?_, ?_⟩
      · rw [e1, genReg_div i src div _ (by omega) (by omega) (by omega) hdiv (hi.divsel i)]
        exact Nat.mul_pos f2 (by omega)
      · rw [e1, genReg_div i src div _ (by omega) (by omega) (by omega) hdiv (hi.divsel i)]
        show s'.rgen i = _
        rw [g2, Rp.set_same, Nat.div_div_eq_div_mul]
    · exact told_frame done s s' hi ha n hm

theorem inv_ch (done : List Node) (s s' : St) (c g : Nat) (hi : Inv done s) (hf : Fits done (.ch c g) s) (h : step (.ch c g) s = .ok s') : Inv (.ch c :: done) s' := by
  obtain ⟨hn, hg⟩ := hf
  simp only [step] at h
  by_cases hb : 48 ≤ c ∨ 12 ≤ g
  · rw [if_pos hb] at h; cases h
  rw [if_neg hb] at h
  have h := ok_inj h
  have g1 : s'.gen = s.gen := by rw [← h]
  have g2 : s'.rgen = s.rgen := by rw [← h]
  have g3 : s'.pch = Rp.set s.pch c (put 4 0 (BitVec.ofNat 32 g) (s.pch c)) := by rw [← h]
  have g4 : s'.ctrlb = s.ctrlb := by rw [← h]
  have g5 : s'.ratio = s.ratio := by rw [← h]
  have g6 : s'.rpch = Rp.set s.rpch c (s.rgen g) := by rw [← h]
  have g7 : s'.rdpll = s.rdpll := by rw [← h]
  have e1 : (get 4 0 (s'.pch c)).toNat = g := by
    rw [g3, Rp.set_same, get_put_same _ _ _ _ (by decide)]
    exact and_mask 32 4 g (by decide) (by omega)
  have ha : Agree done s s' := by
    refine ⟨fun j hj => by rw [g1]; exact ⟨rfl, rfl⟩, fun k hk => ?_, fun j _ => ⟨by rw [g4], by rw [g5]⟩, fun n hm => ?_⟩
    · have ne : k ≠ c := fun e => hn (by rw [← e]; exact hk)
      rw [g3, Rp.set_ne _ _ _ _ ne]
    · cases n with
      | gen j => show s'.rgen j = s.rgen j; rw [g2]
      | ch k =>
        have ne : k ≠ c := fun e => hn (by rw [← e]; exact hm)
        show s'.rpch k = s.rpch k; rw [g6, Rp.set_ne _ _ _ _ ne]
      | dpll j => show s'.rdpll j = s.rdpll j; rw [g7]
      | src k => exact absurd hm (hi.nosrc k)
  refine ⟨fun j => by rw [g1]; exact hi.divsel j, fun j hj => ?_, fun k hk => ?_, fun j hj => ?_, fun k hk => ?_, fun n hm => ?_⟩
  · rw [g1]
    rcases List.mem_cons.mp hj with e | hj
    · cases e
    · exact in_mono _ [_] _ (hi.cgen j hj)
  · by_cases hkc : k = c
    · subst hkc; rw [e1]; exact List.mem_cons_of_mem _ hg
    · rw [g3, Rp.set_ne _ _ _ _ hkc]
      rcases List.mem_cons.mp hk with e | hk
      · exact absurd (Node.ch.inj e) hkc
      · exact List.mem_cons_of_mem _ (hi.cch k hk)
  · rcases List.mem_cons.mp hj with e | hj
    · cases e
    · exact List.mem_cons_of_mem _ (hi.cdpll j hj)
  · rcases List.mem_cons.mp hk with e | hk
    · cases e
    · exact hi.nosrc k hk
  · rcases List.mem_cons.mp hm with e | hm
    · subst e
      obtain ⟨f, f1, f2, f3⟩ := told_frame done s s' hi ha _ hg
      refine ⟨f, .ch c f (by rw [e1]; exact f1), f2, ?_⟩
      rw [← f3]
      show s'.rpch c = s'.rgen g
      rw [g6, Rp.set_same, g2]
    · exact told_frame done s s' hi ha n hm

theorem inv_dpll (done : List Node) (s s' : St) (i r freq : Nat) (w : Bool) (hi : Inv done s) (hf : Fits done (.dpll i r freq w) s) (h : dpllSetup i r freq w s = .ok s') :
    Inv (.dpll i :: done) s' := by
  obtain ⟨hn, hch, hr, ⟨d, hd, hreal⟩, hdv, hle, hmax, h27⟩ := hf
  unfold dpllSetup at h
  by_cases hb : 2 ≤ i ∨ 4 ≤ r
  · rw [if_pos hb] at h; cases h
  rw [if_neg hb] at h
  have h : (if s.rpch (1 + i) = 0 then Res.fail else if w = false then Res.fail else
    .ok { s with ctrlb := Rp.set s.ctrlb i (bset 11 (put 3 5 (BitVec.ofNat 32 r) (s.ctrlb i))), ratio := Rp.set s.ratio i (ratioReg freq (s.rpch (1 + i))), rdpll := Rp.set s.rdpll i freq }) = .ok s' := h
  by_cases h0 : s.rpch (1 + i) = 0
  · rw [if_pos h0] at h; cases h
  rw [if_neg h0] at h
  by_cases hw : w = false
  · rw [if_pos hw] at h; cases h
  rw [if_neg hw] at h
  have h := ok_inj h
  have g1 : s'.gen = s.gen := by rw [← h]
  have g2 : s'.rgen = s.rgen := by rw [← h]
  have g3 : s'.pch = s.pch := by rw [← h]
  have g4 : s'.ctrlb = Rp.set s.ctrlb i (bset 11 (put 3 5 (BitVec.ofNat 32 r) (s.ctrlb i))) := by rw [← h]
  have g5 : s'.ratio = Rp.set s.ratio i (ratioReg freq (s.rpch (1 + i))) := by rw [← h]
  have g6 : s'.rpch = s.rpch := by rw [← h]
  have g7 : s'.rdpll = Rp.set s.rdpll i freq := by rw [← h]
  have ha : Agree done s s' := by
    refine ⟨fun j hj => by rw [g1]; exact ⟨rfl, rfl⟩, fun k hk => by rw [g3], fun j hj => ?_, fun n hm => ?_⟩
    · have ne : j ≠ i := fun e => hn (by rw [← e]; exact hj)
      rw [g4, g5, Rp.set_ne _ _ _ _ ne, Rp.set_ne _ _ _ _ ne]; exact ⟨rfl, rfl⟩
    · cases n with
      | gen j => show s'.rgen j = s.rgen j; rw [g2]
      | ch k => show s'.rpch k = s.rpch k; rw [g6]
      | dpll j =>
        have ne : j ≠ i := fun e => hn (by rw [← e]; exact hm)
        show s'.rdpll j = s.rdpll j; rw [g7, Rp.set_ne _ _ _ _ ne]
      | src k => exact absurd hm (hi.nosrc k)
  refine ⟨fun j => by rw [g1]; exact hi.divsel j, fun j hj => ?_, fun k hk => ?_, fun j hj => ?_, fun k hk => ?_, fun n hm => ?_⟩
  · rw [g1]
    rcases List.mem_cons.mp hj with e | hj
    · cases e
    · exact in_mono _ [_] _ (hi.cgen j hj)
  · rw [g3]
    rcases List.mem_cons.mp hk with e | hk
    · cases e
    · exact List.mem_cons_of_mem _ (hi.cch k hk)
  · rcases List.mem_cons.mp hj with e | hj
    · cases e; exact List.mem_cons_of_mem _ hch
    · exact List.mem_cons_of_mem _ (hi.cdpll j hj)
  · rcases List.mem_cons.mp hk with e | hk
    · cases e
    · exact hi.nosrc k hk
  · rcases List.mem_cons.mp hm with e | hm
    · subst e
      have r1 := frame done s s' hi ha _ _ hreal hch
      have hpos : 0 < s.rpch (1 + i) := by omega
      have l1 : 1 ≤ ldr freq (s.rpch (1 + i)) := (Nat.one_le_div_iff hpos).mpr hle
      obtain ⟨q1, q2⟩ := ratioReg_fields freq _ l1 hmax (frac_lt freq _ hpos h27)
      have hx := ratio_exact freq _ hpos hdv h27
      have c0 : (get 3 5 (s'.ctrlb i)).toNat = 0 := by
        rw [g4, Rp.set_same, get_bset_other _ _ _ _ (by decide), get_put_same _ _ _ _ (by decide), hr]
        rfl
      refine ⟨_, .dpll i _ c0 r1, Nat.mul_pos hd (by decide), ?_⟩
      rw [g5, Rp.set_same, q1, q2]
      show s'.rdpll i = _
      rw [g7, Rp.set_same]
      show freq = s.rpch (1 + i) * d * (ldr freq (s.rpch (1 + i)) * 32 + frac freq (s.rpch (1 + i))) / (d * 32)
      have e : s.rpch (1 + i) * d * (ldr freq (s.rpch (1 + i)) * 32 + frac freq (s.rpch (1 + i))) = d * 32 * freq := by
        rw [Nat.mul_comm (s.rpch (1 + i)) d, Nat.mul_assoc, hx, Nat.mul_assoc]
      rw [e, Nat.mul_div_cancel_left _ (Nat.mul_pos hd (by decide))]
    · exact told_frame done s s' hi ha n hm

theorem inv_step (done : List Node) (o : Op) (s s' : St) (hi : Inv done s) (hf : Fits done o s) (h : step o s = .ok s') : Inv (sets o ++ done) s' := by
  cases o with
  | gen i src div => exact inv_gen done s s' i src div hi hf h
  | dpll i r freq w => exact inv_dpll done s s' i r freq w hi hf h
  | ch c g => exact inv_ch done s s' c g hi hf h
  | genEnable i w =>
    simp only [step] at h
    by_cases hb : 12 ≤ i
    · rw [if_pos hb] at h; cases h
    rw [if_neg hb] at h
    by_cases hw : w = false
    · rw [if_pos hw] at h; cases h
    rw [if_neg hw] at h
    rw [← ok_inj h]
    exact inv_genbit _ done s i hi (fun r => get_bset_other _ _ _ _ (by decide)) (fun r w => get_bset_other _ _ _ _ (Or.inl (by decide))) (fun r => bset_ne _ _ _ (by decide))
  | genDisable i =>
    simp only [step] at h
    by_cases hb : 12 ≤ i
    · rw [if_pos hb] at h; cases h
    rw [if_neg hb] at h
    rw [← ok_inj h]
    exact inv_genbit _ done s i hi (fun r => get_bclr_other _ _ _ _ (by decide)) (fun r w => get_bclr_other _ _ _ _ (Or.inl (by decide))) (fun r => bclr_ne _ _ _ (by decide))
  | chEnable c =>
    simp only [step] at h
    by_cases hb : 48 ≤ c
    · rw [if_pos hb] at h; cases h
    rw [if_neg hb] at h
    rw [← ok_inj h]
    exact inv_chbit _ done s c hi (fun r => get_bset_other _ _ _ _ (by decide))
  | chDisable c =>
    simp only [step] at h
    by_cases hb : 48 ≤ c
    · rw [if_pos hb] at h; cases h
    rw [if_neg hb] at h
    rw [← ok_inj h]
    exact inv_chbit _ done s c hi (fun r => get_bclr_other _ _ _ _ (by decide))

theorem inv_run (os : List Op) : ∀ (done : List Node) (s s' : St), Inv done s → Valid done os s → run os s = .ok s' → ∃ done', Inv done' s' ∧ (∀ n, (∃ o ∈ os, n ∈ sets o) ∨ n ∈ done → n ∈ done') := by
  induction os with
  | nil =>
    intro done s s' hi _ h
    have h := ok_inj h
    subst h
    exact ⟨done, hi, fun n hn => by rcases hn with ⟨o, h, _⟩ | h; cases h; exact h⟩
  | cons o os ih =>
    intro done s s' hi hv h
    obtain ⟨s1, e1, e2⟩ := Res.bind_ok h
    obtain ⟨d', i1, i2⟩ := ih _ _ _ (inv_step done o s s1 hi hv.1 e1) (hv.2 s1 e1) e2
    refine ⟨d', i1, fun n hn => i2 n ?_⟩
    rcases hn with ⟨o', h1, h2⟩ | h1
    · rcases List.mem_cons.mp h1 with e | h1
      · subst e; exact Or.inr (List.mem_append_left _ h2)
      · exact Or.inl ⟨o', h1, h2⟩
    · exact Or.inr (List.mem_append_right _ h1)

/-- After any sequence of calls that sets up each clock once, sources first, with fitting dividers and exact ratios for the DPLLs: clock_get_freq tells the frequency of every channel set up. -/
theorem freq_partial (os : List Op) (s s' : St) (hs : ∀ i, (s.gen i).getLsbD 12 = false) (hv : Valid [] os s) (h : run os s = .ok s') (c g : Nat) (hc : .ch c g ∈ os) :
    ∃ f, Real s' (.ch c) f ∧ (∀ f', Real s' (.ch c) f' → f' = f) ∧ Tells (getFreq s' c) (some f) := by
  obtain ⟨d', i1, i2⟩ := inv_run os [] s s' ⟨hs, by simp, by simp, by simp, by simp, by simp⟩ hv h
  obtain ⟨f, f1, f2, f3⟩ := i1.told (.ch c) (i2 _ (Or.inl ⟨_, hc, List.mem_singleton.mpr rfl⟩))
  have hlt : c < 48 := by
    clear i1 i2 f1 f2 f3 hv hs d'
    induction os generalizing s with
    | nil => cases hc
    | cons o os ih =>
      obtain ⟨s1, e1, e2⟩ := Res.bind_ok h
      rcases List.mem_cons.mp hc with e | hc
      · subst e
        simp only [step] at e1
        by_cases hb : 48 ≤ c ∨ 12 ≤ g
        · rw [if_pos hb] at e1; cases e1
        · omega
      · exact ih s1 e2 hc
  refine ⟨f, f1, fun f' h' => real_det s' _ _ _ h' f1, f.1, f.2, rfl, f2, ?_⟩
  rw [getFreq, if_pos hlt, ← f3]; rfl

def reset : St := ⟨fun _ => 0#32, fun _ => 0#32, fun _ => 0#32, fun _ => 0#32, fun _ => 0#32, fun _ => 0, fun _ => 0, fun _ => 0⟩

/-- the usual set-up: 1 MHz from the DFLL to the DPLL 0, 120 MHz from it to the generator 0 and to a channel -/
def usual : List Op := [.gen 2 6 48, .genEnable 2 true, .ch 1 2, .chEnable 1, .dpll 0 0 120000000 true, .gen 0 7 1, .ch 40 0, .chEnable 40]

theorem sample : Valid [] usual reset ∧ ∃ s', run usual reset = .ok s' ∧ getFreq s' 40 = some 120000000 := by
  refine ⟨?_, _, rfl, by decide⟩
  unfold usual
  refine ⟨⟨by simp, Or.inr (Or.inr (Or.inl rfl)), by decide⟩, fun s1 h1 => ?_⟩
  have h1 := ok_inj h1; subst h1
  refine ⟨trivial, fun s2 h2 => ?_⟩
  have h2 := ok_inj h2; subst h2
  refine ⟨⟨by decide, by decide⟩, fun s3 h3 => ?_⟩
  have h3 := ok_inj h3; subst h3
  refine ⟨trivial, fun s4 h4 => ?_⟩
  have h4 := ok_inj h4; subst h4
  refine ⟨⟨by decide, by decide, rfl, ⟨48, by decide, ?_⟩, by decide, by decide, by decide, by decide⟩, fun s5 h5 => ?_⟩
  · refine Real.ch 1 (48000000, 48) ?_
    refine Real.gen 2 (48000000, 1) ?_
    exact Real.dfll
  have h5 := ok_inj h5; subst h5
  refine ⟨⟨by decide, Or.inr (Or.inr (Or.inr (Or.inr (Or.inl ⟨rfl, by decide⟩)))), by decide⟩, fun s6 h6 => ?_⟩
  have h6 := ok_inj h6; subst h6
  refine ⟨⟨by decide, by decide⟩, fun s7 h7 => ?_⟩
  have h7 := ok_inj h7; subst h7
  exact ⟨trivial, fun _ _ => trivial⟩

end S5
end Pico.Clock
