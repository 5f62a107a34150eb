import Verif.Drivers.ClockProps4
/-
C95, C96: stm32h7xx.
-/
namespace Pico.Clock
open Field

namespace H7

theorem divm_pos (f : Nat) : 0 < divm f := by
  unfold divm
  by_cases h : 16000000 < f
  · rw [if_pos h]; omega
  · rw [if_neg h]; decide

/-- a 6-bit field written, the 7 bits of the hardware read -/
theorem divReg_fields (p q r n : Nat) (hp : p ≤ 63) (hq : q ≤ 63) (hr : r ≤ 63) (hn : 1 ≤ n) (hn2 : n ≤ 511) :
    (get 9 0 (divReg p q r n)).toNat = n - 1 ∧ (1 ≤ p → (get 7 9 (divReg p q r n)).toNat = p - 1) ∧ (1 ≤ q → (get 7 16 (divReg p q r n)).toNat = q - 1) ∧
    (1 ≤ r → (get 7 24 (divReg p q r n)).toNat = r - 1) := by
  have seven : ∀ (t v : Nat) (a : BitVec 32), t + 7 ≤ 32 → v < 64 → get 7 t a = 0 → (get 7 t (orIn 6 t (BitVec.ofNat 32 v) a)).toNat = v := by
    intro t v a ht hv h0
    have e : orIn 6 t (BitVec.ofNat 32 v) a = orIn 7 t (BitVec.ofNat 32 v) a := by
      unfold orIn
      have : BitVec.ofNat 32 v &&& mask 32 6 = BitVec.ofNat 32 v &&& mask 32 7 := by
        apply BitVec.eq_of_toNat_eq
        rw [and_mask _ _ _ (by decide) (by omega), and_mask _ _ _ (by decide) (by omega)]
      rw [this]
    rw [e]
    exact get_orIn_zero _ _ _ _ ht (by omega) h0
  have other6 : ∀ (t : Nat) (v a : BitVec 32) (t' : Nat), t' + 7 ≤ t ∨ t + 6 ≤ t' → get 7 t' (orIn 6 t v a) = get 7 t' a := by
    intro t v a t' h; exact get_orIn_other _ _ _ _ _ _ h
  unfold divReg
  rw [Pmc.sub_one n hn (by omega)]
  refine ⟨?_, ?_, ?_, ?_⟩
  · rw [get_orIn_zero _ _ _ _ (by decide) (by omega)]
    rw [get_orIn_other _ _ _ _ _ _ (by decide), get_orIn_other _ _ _ _ _ _ (by decide), get_orIn_other _ _ _ _ _ _ (by decide), get_zero]
  · intro h
    rw [get_orIn_other _ _ _ _ _ _ (by decide), Pmc.sub_one p h (by omega), seven 9 _ _ (by decide) (by omega)]
    rw [other6 _ _ _ _ (by decide), other6 _ _ _ _ (by decide), get_zero]
  · intro h
    rw [get_orIn_other _ _ _ _ _ _ (by decide), other6 _ _ _ _ (by decide), Pmc.sub_one q h (by omega), seven 16 _ _ (by decide) (by omega)]
    rw [other6 _ _ _ _ (by decide), get_zero]
  · intro h
    rw [get_orIn_other _ _ _ _ _ _ (by decide), other6 _ _ _ _ (by decide), other6 _ _ _ _ (by decide), Pmc.sub_one r h (by omega), seven 24 _ _ (by decide) (by omega)]
    exact get_zero _ _

/-- what the PLLs and the switch do not touch -/
def Same (s s' : St) : Prop :=
  s'.hsiOn = s.hsiOn ∧ s'.hsidiv = s.hsidiv ∧ s'.hseOn = s.hseOn ∧ s'.csiOn = s.csiOn ∧ s'.hsi48On = s.hsi48On ∧ s'.hsi = s.hsi ∧ s'.hse = s.hse ∧ s'.src = s.src ∧
  get 2 0 s'.cksel = get 2 0 s.cksel

theorem Same.trans {a b c : St} (h : Same a b) (k : Same b c) : Same a c := by
  obtain ⟨h1, h2, h3, h4, h5, h6, h7, h8, h9⟩ := h
  obtain ⟨k1, k2, k3, k4, k5, k6, k7, k8, k9⟩ := k
  exact ⟨k1.trans h1, k2.trans h2, k3.trans h3, k4.trans h4, k5.trans h5, k6.trans h6, k7.trans h7, k8.trans h8, k9.trans h9⟩

theorem same_src (x : Nat) (s s' : St) (h : Same s s') : srcHz x s' = srcHz x s := by
  obtain ⟨h1, h2, h3, h4, h5, h6, h7, h8, h9⟩ := h
  unfold srcHz hsiHz csiHz hseHz
  rw [h1, h2, h3, h4, h9]

/-- what a PLL keeps when another is set up -/
def SamePll (i : Nat) (s s' : St) : Prop :=
  s'.pllOn i = s.pllOn i ∧ s'.den i = s.den i ∧ s'.divr i = s.divr i ∧ s'.pll i = s.pll i ∧ get 6 (4 + 8 * i) s'.cksel = get 6 (4 + 8 * i) s.cksel

/-- the PLL of index i is as told -/
def PllOk (x i : Nat) (s : St) : Prop := ∀ k, k < 3 → Told (some (s.pll i k)) (pllHz x s i k)

theorem pllOk_keep (x i : Nat) (s s' : St) (h : Same s s') (k : SamePll i s s') (hp : PllOk x i s) : PllOk x i s' := by
  obtain ⟨k1, k2, k3, k4, k5⟩ := k
  intro j hj
  have : pllHz x s' i j = pllHz x s i j := by
    unfold pllHz
    rw [k1, k2, k3, k5, same_src x s s' h]
  rw [this, k4]
  exact hp j hj

theorem div_exact (f m n d : Nat) (hm : 0 < m) (hd : m ∣ f) : f / m * n / d = f * n / (m * d) := by
  obtain ⟨q, rfl⟩ := hd
  rw [Nat.mul_div_cancel_left q hm, Nat.mul_assoc]
  exact (Nat.mul_div_mul_left (q * n) d hm).symm

theorem pll_step (i : Nat) (p : Pll) (w : Bool) (x : Nat) (s s' : St) (h : pllSetup i p w s = some s') (hi : i < 3)
    (hs : ∃ e, 0 < e ∧ srcHz x s = some (s.src * e, e)) (hd : divm s.src ∣ s.src) (hv : p.vco = 0 ∨ s.src / divm s.src ≤ p.vco) :
    Same s s' ∧ PllOk x i s' ∧ ∀ j, j < 3 → j ≠ i → SamePll j s s' := by
  unfold pllSetup at h
  by_cases h0 : 63 < divm s.src ∨ s.src / divm s.src = 0
  · rw [if_pos h0] at h; cases h
  rw [if_neg h0] at h
  by_cases h1 : 63 < p.div 0 ∨ 63 < p.div 1 ∨ 63 < p.div 2 ∨ 511 < p.vco / (s.src / divm s.src) ∨ 960000000 < p.vco ∨ s.src < 1000000
  · rw [if_pos h1] at h; cases h
  rw [if_neg h1] at h
  by_cases h2 : p.vco ≠ 0 ∧ w = false
  · rw [if_pos h2] at h; cases h
  rw [if_neg h2, Option.some.injEq] at h
  generalize hm : divm s.src = m at h h0 h1 hd hv
  have m0 : 0 < m := by rw [← hm]; exact divm_pos _
  generalize hn : p.vco / (s.src / m) = n at h h1
  have a1 : s'.cksel = put 6 (4 + 8 * i) (BitVec.ofNat 32 m) s.cksel := by rw [← h]
  have a2 : s'.den = Rp.set s.den i (fun k => decide (p.div k ≠ 0)) := by rw [← h]
  have a3 : s'.divr = Rp.set s.divr i (divReg (p.div 0) (p.div 1) (p.div 2) n) := by rw [← h]
  have a4 : s'.pll = Rp.set s.pll i (fun k => out (s.src / m) n (p.div k)) := by rw [← h]
  have a5 : s'.pllOn = Rp.set s.pllOn i (decide (p.vco ≠ 0)) := by rw [← h]
  have sm : Same s s' := by
    refine ⟨by rw [← h], by rw [← h], by rw [← h], by rw [← h], by rw [← h], by rw [← h], by rw [← h], by rw [← h], ?_⟩
    rw [a1, get_put_other _ _ _ _ _ _ (by omega)]
  refine ⟨sm, ?_, ?_⟩
  · intro k hk
    have e1 : s'.pll i k = out (s.src / m) n (p.div k) := by rw [a4, Rp.set_same]
    have e2 : s'.den i k = decide (p.div k ≠ 0) := by rw [a2, Rp.set_same]
    have e3 : s'.pllOn i = decide (p.vco ≠ 0) := by rw [a5, Rp.set_same]
    have e4 : s'.divr i = divReg (p.div 0) (p.div 1) (p.div 2) n := by rw [a3, Rp.set_same]
    rw [e1]
    by_cases hz : p.div k = 0
    · right
      constructor
      · unfold pllHz
        rw [e2, decide_eq_false (by omega), Bool.and_false]
        rfl
      · unfold out; rw [if_neg (by omega)]
    by_cases vz : p.vco = 0
    · right
      constructor
      · unfold pllHz
        rw [e3, decide_eq_false (by omega), Bool.false_and]
        rfl
      · have : n = 0 := by rw [← hn, vz, Nat.zero_div]
        unfold out
        rw [if_pos hz, this, Nat.mul_zero, Nat.zero_div]
    left
    have n1 : 1 ≤ n := by
      rw [← hn]
      exact Nat.div_pos (by rcases hv with hv | hv <;> omega) (Nat.pos_of_ne_zero fun e => h0 (.inr e))
    obtain ⟨f1, f2, f3, f4⟩ := divReg_fields (p.div 0) (p.div 1) (p.div 2) n (by omega) (by omega) (by omega) n1 (by omega)
    have fk : (get 7 (divAt k) (s'.divr i)).toNat = p.div k - 1 := by
      rw [e4]
      match k, hk with
      | 0, _ => exact f2 (by omega)
      | 1, _ => exact f3 (by omega)
      | 2, _ => exact f4 (by omega)
    have fm : (get 6 (4 + 8 * i) s'.cksel).toNat = m := by rw [a1, get_put_nat _ _ _ _ (by omega) (by omega)]
    have fn : (get 9 0 (s'.divr i)).toNat = n - 1 := by rw [e4]; exact f1
    obtain ⟨e, e0, hsrc⟩ := hs
    unfold pllHz
    rw [e3, e2, decide_eq_true vz, decide_eq_true hz, fk, fm, fn, same_src x s s' sm, hsrc, Nat.sub_add_cancel n1, Nat.sub_add_cancel (show 1 ≤ p.div k by omega)]
    show Tells _ (if m = 0 then none else some (s.src * e * n, e * (m * p.div k)))
    rw [if_neg (by omega)]
    refine ⟨_, _, rfl, Nat.mul_pos e0 (Nat.mul_pos m0 (by omega)), ?_⟩
    unfold out
    rw [if_pos hz, div_exact _ _ _ _ m0 hd, show s.src * e * n = e * (s.src * n) by rw [Nat.mul_comm s.src e, Nat.mul_assoc], Nat.mul_div_mul_left _ _ e0]
  · intro j hj hji
    refine ⟨by rw [a5, Rp.set_ne _ _ _ _ hji], by rw [a2, Rp.set_ne _ _ _ _ hji], by rw [a3, Rp.set_ne _ _ _ _ hji], by rw [a4, Rp.set_ne _ _ _ _ hji], ?_⟩
    rw [a1, get_put_other _ _ _ _ _ _ (by omega)]

def Same2 (s s' : St) : Prop := s'.hse = s.hse ∧ s'.hseOn = s.hseOn ∧ s'.hsi = s.hsi ∧ s'.hsiOn = s.hsiOn ∧ s'.hsidiv = s.hsidiv

/-- the oscillators after their set-up -/
theorem osc_step (c : Cfg) (w : Nat → Bool) (s s4 : St) (h : ((hseSetup c.hse (w 0) s).bind fun s => (hsiSetup c.hsi (w 1) s).bind fun s => (csiSetup c.csi (w 2) s).bind fun s => hsi48Setup c.hsi48 (w 3) s) = some s4)
    (hh : c.hse = 0 → s.hse = 0) :
    Told (some s4.hse) (hseHz c.hse s4) ∧ Told (some s4.hsi) (hsiHz s4) ∧ (c.csi = 1 → csiHz s4 = some (4000000, 1)) ∧ s4.hsi48On = decide (c.hsi48 = 1) ∧ s4.csiOn = decide (c.csi = 1) ∧
    (s4.hse ≠ 0 → hseHz c.hse s4 = some (s4.hse, 1)) ∧ (s4.hsi ≠ 0 → ∃ e, 0 < e ∧ hsiHz s4 = some (s4.hsi * e, e)) ∧ (divm s4.hsi ∣ s4.hsi) ∧ s4.hse = c.hse := by
  obtain ⟨s1, e1, h⟩ := bind_some h
  obtain ⟨s2, e2, h⟩ := bind_some h
  obtain ⟨s3, e3, h⟩ := bind_some h
  have k1 : s1.hse = c.hse ∧ s1.hseOn = decide (c.hse ≠ 0) := by
    unfold hseSetup at e1
    by_cases h0 : c.hse = 0
    · rw [if_pos h0, Option.some.injEq] at e1
      rw [← e1]
      exact ⟨by rw [h0]; exact hh h0, by rw [decide_eq_false (by omega)]⟩
    · rw [if_neg h0] at e1
      cases hw0 : w 0 <;> rw [hw0] at e1
      · cases e1
      · have e1 : some _ = some s1 := e1
        rw [Option.some.injEq] at e1
        rw [← e1]
        exact ⟨rfl, by rw [decide_eq_true h0]⟩
  have k2 : s2.hse = s1.hse ∧ s2.hseOn = s1.hseOn ∧ ((s2.hsi = 0 ∧ s2.hsiOn = false) ∨ (s2.hsiOn = true ∧ s2.hsi * 2 ^ s2.hsidiv = 64000000 ∧ 0 < s2.hsi ∧ divm s2.hsi ∣ s2.hsi)) := by
    unfold hsiSetup at e2
    by_cases h0 : 5 ≤ c.hsi
    · rw [if_pos h0] at e2; cases e2
    rw [if_neg h0] at e2
    by_cases h1 : c.hsi = 4
    · rw [if_pos h1, Option.some.injEq] at e2
      rw [← e2]
      exact ⟨rfl, rfl, .inl ⟨rfl, rfl⟩⟩
    rw [if_neg h1] at e2
    cases hw1 : w 1 <;> rw [hw1] at e2
    · cases e2
    have e2 : some _ = some s2 := e2
    rw [Option.some.injEq] at e2
    rw [← e2]
    refine ⟨rfl, rfl, .inr ⟨rfl, ?_⟩⟩
    have hk : c.hsi = 0 ∨ c.hsi = 1 ∨ c.hsi = 2 ∨ c.hsi = 3 := by omega
    show hsiRec c.hsi * 2 ^ (c.hsi % 4) = 64000000 ∧ 0 < hsiRec c.hsi ∧ divm (hsiRec c.hsi) ∣ hsiRec c.hsi
    rcases hk with hk | hk | hk | hk <;> rw [hk] <;> decide
  have k3 : Same2 s2 s3 ∧ s3.csiOn = decide (c.csi = 1) := by
    unfold csiSetup at e3
    by_cases h0 : 2 ≤ c.csi
    · rw [if_pos h0] at e3; cases e3
    rw [if_neg h0] at e3
    by_cases h1 : c.csi = 1
    · rw [if_pos h1] at e3
      cases hw2 : w 2 <;> rw [hw2] at e3
      · cases e3
      have e3 : some _ = some s3 := e3
      rw [Option.some.injEq] at e3
      rw [← e3]
      exact ⟨⟨rfl, rfl, rfl, rfl, rfl⟩, by rw [decide_eq_true h1]⟩
    · rw [if_neg h1, Option.some.injEq] at e3
      rw [← e3]
      exact ⟨⟨rfl, rfl, rfl, rfl, rfl⟩, by rw [decide_eq_false h1]⟩
  have k4 : Same2 s3 s4 ∧ s4.hsi48On = decide (c.hsi48 = 1) ∧ s4.csiOn = s3.csiOn := by
    unfold hsi48Setup at h
    by_cases h0 : 2 ≤ c.hsi48
    · rw [if_pos h0] at h; cases h
    rw [if_neg h0] at h
    by_cases h1 : c.hsi48 = 1
    · rw [if_pos h1] at h
      cases hw2 : w 3 <;> rw [hw2] at h
      · cases h
      have h : some _ = some s4 := h
      rw [Option.some.injEq] at h
      rw [← h]
      exact ⟨⟨rfl, rfl, rfl, rfl, rfl⟩, by rw [decide_eq_true h1], rfl⟩
    · rw [if_neg h1, Option.some.injEq] at h
      rw [← h]
      exact ⟨⟨rfl, rfl, rfl, rfl, rfl⟩, by rw [decide_eq_false h1], rfl⟩
  obtain ⟨q1, q2⟩ := k1
  obtain ⟨q3, q4, q5⟩ := k2
  obtain ⟨⟨r1, r2, r3, r4, r5⟩, r6⟩ := k3
  obtain ⟨⟨t1, t2, t3, t4, t5⟩, t6, t7⟩ := k4
  have b1 : s4.hse = c.hse := by rw [t1, r1, q3, q1]
  have b2 : s4.hseOn = decide (c.hse ≠ 0) := by rw [t2, r2, q4, q2]
  have b3 : s4.hsi = s2.hsi := by rw [t3, r3]
  have b4 : s4.hsiOn = s2.hsiOn := by rw [t4, r4]
  have b5 : s4.hsidiv = s2.hsidiv := by rw [t5, r5]
  have b6 : s4.csiOn = decide (c.csi = 1) := by rw [t7, r6]
  refine ⟨?_, ?_, ?_, t6, b6, ?_, ?_, ?_, b1⟩
  · unfold hseHz
    rw [b1, b2]
    by_cases h0 : c.hse = 0
    · right; rw [decide_eq_false (by omega), h0]; exact ⟨rfl, rfl⟩
    · left; rw [decide_eq_true h0]; exact tells_self _
  · unfold hsiHz
    rw [b3, b4, b5]
    rcases q5 with ⟨a, b⟩ | ⟨a, b, cc, d⟩
    · right; rw [a, b]; exact ⟨rfl, rfl⟩
    · left; rw [a]
      refine ⟨_, _, rfl, Nat.two_pow_pos _, ?_⟩
      rw [← b, Nat.mul_div_cancel _ (Nat.two_pow_pos _)]
  · intro hc; unfold csiHz; rw [b6, decide_eq_true hc]; rfl
  · intro hz; unfold hseHz; rw [b2, decide_eq_true (by omega), b1]; rfl
  · intro hz
    rcases q5 with ⟨a, b⟩ | ⟨a, b, cc, d⟩
    · exact absurd (b3.trans a) hz
    · refine ⟨2 ^ s2.hsidiv, Nat.two_pow_pos _, ?_⟩
      unfold hsiHz
      rw [b4, b5, b3, a, b]; rfl
  · rw [b3]
    rcases q5 with ⟨a, b⟩ | ⟨a, b, cc, d⟩
    · rw [a]; exact Nat.dvd_zero _
    · exact d

/-- **C95, stm32h7xx**: every clock is as told (0 when it is off).  What is missing, with the theorems that show it: a crystal disabled by a second initialisation keeps its frequency (hse_stale); CSI is told when it is off
(csi_off); a crystal that DIVM does not divide exactly is rounded before it is multiplied (divm_rounds); a VCO below its reference is told as stopped (vco_low) -/
theorem freq_partial (c : Cfg) (w : Nat → Bool) (s s' : St) (h : init c w s = some s') (hh : c.hse = 0 → s.hse = 0) (hc : c.pllsrc = 1 ∨ c.sw = 1 → c.csi = 1) (hd : divm c.hse ∣ c.hse)
    (hv : ∀ i, i < 3 → (c.pll i).vco = 0 ∨ 16000000 ≤ (c.pll i).vco) (i : Nat) (hi : i ≤ 11) : Told (getFreq s' i) (hw c.hse s' i) := by
  obtain ⟨s1, e1, h⟩ := bind_some h
  obtain ⟨s2, e2, h⟩ := bind_some h
  obtain ⟨s3, e3, h⟩ := bind_some h
  obtain ⟨s4, e4, h⟩ := bind_some h
  obtain ⟨s5, e5, h⟩ := bind_some h
  obtain ⟨s6, e6, h⟩ := bind_some h
  obtain ⟨s7, e7, h⟩ := bind_some h
  obtain ⟨s8, e8, h⟩ := bind_some h
  obtain ⟨o1, o2, o3, o4, o5, o6, o7, o8, o9⟩ := osc_step c w s s4 (by rw [e1]; show (hsiSetup c.hsi (w 1) s1).bind _ = _; rw [e2]; show (csiSetup c.csi (w 2) s2).bind _ = _; rw [e3]; exact e4) hh
  -- the source of the PLLs
  obtain ⟨f, g1, g2⟩ := map_some e5
  have a1 : s5.cksel = put 2 0 (BitVec.ofNat 32 c.pllsrc) s4.cksel := by rw [← g2]
  have a2 : s5.src = f := by rw [← g2]
  have a3 : hsiHz s5 = hsiHz s4 ∧ csiHz s5 = csiHz s4 ∧ hseHz c.hse s5 = hseHz c.hse s4 ∧ s5.hsi = s4.hsi ∧ s5.hse = s4.hse := by rw [← g2]; exact ⟨rfl, rfl, rfl, rfl, rfl⟩
  obtain ⟨a3, a4, a5, a6, a7⟩ := a3
  have src : (s5.src ≠ 0 → ∃ e, 0 < e ∧ srcHz c.hse s5 = some (s5.src * e, e)) ∧ divm s5.src ∣ s5.src := by
    unfold srcHz
    have hk : c.pllsrc < 4 := by
      unfold srcRec at g1
      split at g1 <;> first | omega | cases g1
    rw [a1, get_put_nat _ _ _ _ (by decide) (by omega), a2, a3, a4, a5]
    unfold srcRec at g1
    split at g1
    · rw [Option.some.injEq] at g1
      rw [← g1]
      exact ⟨fun hz => o7 hz, o8⟩
    · rename_i hk1
      rw [Option.some.injEq] at g1
      rw [← g1]
      refine ⟨fun _ => ⟨1, Nat.one_pos, ?_⟩, ?_⟩
      · exact o3 (hc (.inl hk1))
      · exact ⟨4000000, by decide⟩
    · rw [Option.some.injEq] at g1
      rw [← g1]
      refine ⟨fun hz => ⟨1, Nat.one_pos, ?_⟩, by rw [o9]; exact hd⟩
      show hseHz c.hse s4 = _
      rw [Nat.mul_one]; exact o6 hz
    · cases g1
  obtain ⟨src1, src2⟩ := src
  have nz : s5.src ≠ 0 := by
    intro hz
    unfold pllSetup at e6
    rw [hz] at e6
    simp only [Nat.zero_div, or_true, if_true] at e6
    cases e6
  have src1 := src1 nz
  have lim : ∀ p : Pll, p.vco = 0 ∨ 16000000 ≤ p.vco → p.vco = 0 ∨ s5.src / divm s5.src ≤ p.vco := by
    intro p hp
    rcases hp with hp | hp
    · exact .inl hp
    · right
      refine Nat.le_trans ?_ hp
      unfold divm
      by_cases h0 : 16000000 < s5.src
      · rw [if_pos h0]
        apply Nat.div_le_of_le_mul
        omega
      · rw [if_neg h0, Nat.div_one]; omega
  -- the PLLs
  obtain ⟨p1, p2, p3⟩ := pll_step 0 (c.pll 0) (w 4) c.hse s5 s6 e6 (by decide) src1 src2 (lim _ (hv 0 (by decide)))
  have t6 : s6.src = s5.src := p1.2.2.2.2.2.2.2.1
  have u6 := same_src c.hse s5 s6 p1
  obtain ⟨q1, q2, q3⟩ := pll_step 1 (c.pll 1) (w 5) c.hse s6 s7 e7 (by decide) (by rw [u6, t6]; exact src1) (by rw [t6]; exact src2) (by rw [t6]; exact lim _ (hv 1 (by decide)))
  have t7 : s7.src = s5.src := q1.2.2.2.2.2.2.2.1.trans t6
  have u7 := (same_src c.hse s6 s7 q1).trans u6
  obtain ⟨r1, r2, r3⟩ := pll_step 2 (c.pll 2) (w 6) c.hse s7 s8 e8 (by decide) (by rw [u7, t7]; exact src1) (by rw [t7]; exact src2) (by rw [t7]; exact lim _ (hv 2 (by decide)))
  have P0 := pllOk_keep c.hse 0 s7 s8 r1 (r3 0 (by decide) (by decide)) (pllOk_keep c.hse 0 s6 s7 q1 (q3 0 (by decide) (by decide)) p2)
  have P1 := pllOk_keep c.hse 1 s7 s8 r1 (r3 1 (by decide) (by decide)) q2
  have sm := (p1.trans q1).trans r1
  obtain ⟨m1, m2, m3, m4, m5, m6, m7, m8, m9⟩ := sm
  have z1 : Told (some s8.hse) (hseHz c.hse s8) := by
    have : hseHz c.hse s8 = hseHz c.hse s4 := by rw [← a5]; unfold hseHz; rw [m3]
    rw [this, m7, a7]; exact o1
  have z2 : Told (some s8.hsi) (hsiHz s8) := by
    have : hsiHz s8 = hsiHz s4 := by rw [← a3]; unfold hsiHz; rw [m1, m2]
    rw [this, m6, a6]; exact o2
  have z3 : c.csi = 1 → csiHz s8 = some (4000000, 1) := by
    intro hc1
    have : csiHz s8 = csiHz s4 := by rw [← a4]; unfold csiHz; rw [m4]
    rw [this]; exact o3 hc1
  -- the switch
  unfold swSetup at h
  by_cases h0 : 4 ≤ c.sw
  · rw [if_pos h0] at h; cases h
  rw [if_neg h0] at h
  cases hw7 : w 7 <;> rw [hw7] at h
  · cases h
  have h : some _ = some s' := h
  rw [Option.some.injEq] at h
  have hwi : ∀ k, 1 ≤ k → k ≤ 11 → getFreq s' k = getFreq s8 k ∧ hw c.hse s' k = hw c.hse s8 k := by
    intro k k1 k2
    rw [← h]
    match k, k1, k2 with
    | 1, _, _ => exact ⟨rfl, rfl⟩
    | 2, _, _ => exact ⟨rfl, rfl⟩
    | 3, _, _ => exact ⟨rfl, rfl⟩
    | 4, _, _ => exact ⟨rfl, rfl⟩
    | 5, _, _ => exact ⟨rfl, rfl⟩
    | 6, _, _ => exact ⟨rfl, rfl⟩
    | 7, _, _ => exact ⟨rfl, rfl⟩
    | 8, _, _ => exact ⟨rfl, rfl⟩
    | 9, _, _ => exact ⟨rfl, rfl⟩
    | 10, _, _ => exact ⟨rfl, rfl⟩
    | 11, _, _ => exact ⟨rfl, rfl⟩
  by_cases i0 : i = 0
  · subst i0
    have b1 : getFreq s' 0 = some (swRec c.sw s8) := by rw [← h]; rfl
    have b2 : hw c.hse s' 0 = (match c.sw with | 0 => hsiHz s8 | 1 => csiHz s8 | 2 => hseHz c.hse s8 | _ => pllHz c.hse s8 0 0) := by rw [← h]; rfl
    rw [b1, b2]
    unfold swRec
    have hk : c.sw = 0 ∨ c.sw = 1 ∨ c.sw = 2 ∨ c.sw = 3 := by omega
    rcases hk with hk | hk | hk | hk <;> rw [hk]
    · exact z2
    · left
      show Tells _ (csiHz s8)
      rw [z3 (hc (.inr hk))]; exact tells_self _
    · exact z1
    · exact P0 0 (by decide)
  · obtain ⟨b1, b2⟩ := hwi i (by omega) hi
    rw [b1, b2]
    match i, i0, hi with
    | 1, _, _ => exact P0 0 (by decide)
    | 2, _, _ => exact P0 1 (by decide)
    | 3, _, _ => exact P0 2 (by decide)
    | 4, _, _ => exact P1 0 (by decide)
    | 5, _, _ => exact P1 1 (by decide)
    | 6, _, _ => exact P1 2 (by decide)
    | 7, _, _ => exact r2 0 (by decide)
    | 8, _, _ => exact r2 1 (by decide)
    | 9, _, _ => exact r2 2 (by decide)
    | 10, _, _ => exact z1
    | 11, _, _ => exact z2

def off : Pll := ⟨0, fun _ => 0⟩
def reset : St := ⟨true, 0, false, false, false, fun _ => false, 0x02020200#32, fun _ _ => true, fun _ => 0x01010280#32, 0, fun _ => 0#32, fun _ => 0#32, 0, 0, 0, fun _ _ => 0, 0⟩

/-- 400 MHz from a crystal of 25 MHz (STM32H743 Nucleo settings) -/
theorem sample : (init ⟨0, 25000000, 0, 0, 2, fun i => if i = 0 then ⟨800000000, fun k => k + 2⟩ else off, 3⟩ (fun _ => true) reset).map (fun s => (getFreq s 0, hw 25000000 s 0)) =
    some (some 400000000, some (25000000 * 64, 1 * (2 * 2))) := by decide +kernel

/-- **C95 refuted, stm32h7xx**: 40 MHz are divided by 3, cut, then multiplied by 60: 20 Hz are lost -/
theorem divm_rounds : ∃ s', init ⟨0, 40000000, 0, 0, 2, fun i => if i = 0 then ⟨800000000, fun k => k + 1⟩ else off, 3⟩ (fun _ => true) reset = some s' ∧
    getFreq s' 0 = some 799999980 ∧ hw 40000000 s' 0 = some (40000000 * 60, 1 * (3 * 1)) := by
  refine ⟨_, rfl, ?_, ?_⟩ <;> decide +kernel

/-- **C95 refuted, stm32h7xx**: the crystal stopped by a second initialisation -/
theorem hse_stale : ∃ s1 s2, init ⟨0, 25000000, 0, 0, 0, fun _ => off, 0⟩ (fun _ => true) reset = some s1 ∧ init ⟨0, 0, 0, 0, 0, fun _ => off, 0⟩ (fun _ => true) s1 = some s2 ∧
    getFreq s2 10 = some 25000000 ∧ hw 25000000 s2 10 = none := by
  refine ⟨_, _, rfl, rfl, ?_, ?_⟩ <;> decide +kernel

/-- **C95 refuted, stm32h7xx**: CSI told when it is off -/
theorem csi_off (x : Nat) (s : St) (h : s.csiOn = false) : getFreq s 12 = some 4000000 ∧ hw x s 12 = none := by
  refine ⟨rfl, ?_⟩
  show csiHz s = none
  unfold csiHz; rw [h]; rfl

/-- **C95 refuted, stm32h7xx**: a VCO below the reference: DIVN wraps to 512, the PLL runs at 512 times the reference and is told as 0 -/
theorem vco_low : ∃ s', init ⟨3, 0, 0, 0, 0, fun i => if i = 0 then ⟨1000000, fun _ => 2⟩ else off, 3⟩ (fun _ => true) reset = some s' ∧
    getFreq s' 1 = some 0 ∧ hw 0 s' 1 = some (64000000 * 512, 2 ^ 3 * (1 * 2)) := by
  refine ⟨_, rfl, ?_, ?_⟩ <;> decide +kernel

/-- **C96, stm32h7xx** -/
theorem enable_does (k : Nat) (s s' : St) (h : enable k s = some s') : ∀ j, on s' j = (decide (j = k) || on s j) := by
  unfold enable at h
  by_cases h0 : 8 * 32 + 18 ≤ k
  · rw [if_pos h0] at h; cases h
  rw [if_neg h0, Option.some.injEq] at h
  subst h
  intro j
  exact gset_bit _ _ _

theorem disable_does (k : Nat) (s s' : St) (h : disable k s = some s') : ∀ j, on s' j = (!decide (j = k) && on s j) := by
  unfold disable at h
  by_cases h0 : 8 * 32 + 18 ≤ k
  · rw [if_pos h0] at h; cases h
  rw [if_neg h0, Option.some.injEq] at h
  subst h
  intro j
  exact gclr_bit _ _ _

theorem gates_accepted (k : Nat) (h : k < 8 * 32 + 18) (s : St) : (∃ s', enable k s = some s') ∧ ∃ s', disable k s = some s' := by
  unfold enable disable
  rw [if_neg (by omega), if_neg (by omega)]
  exact ⟨⟨_, rfl⟩, ⟨_, rfl⟩⟩

/-- **C96 refuted, stm32h7xx**: SAI4EN is bit 21 of APB4ENR (RM0433; the driver's own reset bit, line 366, is 21); the identifier CLOCK_STM32H7XX_APB4_SAI4 is (8, 17): enabling it does not start SAI4, and the
identifier of bit 21 is refused -/
theorem sai4_wrong (s : St) : (∃ s', enable (8 * 32 + 17) s = some s' ∧ on s' (8 * 32 + 21) = on s (8 * 32 + 21)) ∧ enable (8 * 32 + 21) s = none := by
  refine ⟨⟨_, rfl, ?_⟩, rfl⟩
  exact (enable_does (8 * 32 + 17) s _ rfl _).trans (by rw [decide_eq_false (by decide), Bool.false_or])

/-- **C96, stm32h7xx**: a kernel clock selected is the one asked for, and only its field changes -/
theorem ker_does (i w t v : Nat) (hi : i < 4) (hw1 : w ≤ 3) (ht : t + w ≤ 32) (ht2 : t < 32) (hv : v < 2 ^ w) (s : St) :
    ∃ s', kerSel (kerId i w t) v s = some s' ∧ (get w t (s'.ccip i)).toNat = v ∧ (∀ j, j ≠ i → s'.ccip j = s.ccip j) ∧
      (∀ b, b < t ∨ t + w ≤ b → (s'.ccip i).getLsbD b = (s.ccip i).getLsbD b) ∧ s' = { s with ccip := s'.ccip } := by
  have hid : kerId i w t / 256 % 4 = i ∧ kerId i w t % 256 / 32 = 2 ^ w - 1 ∧ kerId i w t % 32 = t := by
    have all : ∀ i, i < 4 → ∀ w, w < 4 → ∀ t, t < 32 → kerId i w t / 256 % 4 = i ∧ kerId i w t % 256 / 32 = 2 ^ w - 1 ∧ kerId i w t % 32 = t := by decide +kernel
    exact all i hi w (by omega) t ht2
  obtain ⟨k1, k2, k3⟩ := hid
  unfold kerSel
  rw [k1, k2, k3]
  show ∃ s', (if 2 ^ w - 1 < v then none else _) = some s' ∧ _
  rw [if_neg (show ¬ (2 ^ w - 1 < v) by omega)]
  have e : (s.ccip i &&& ~~~ (BitVec.ofNat 32 (2 ^ w - 1) <<< t)) ||| (BitVec.ofNat 32 v <<< t) = put w t (BitVec.ofNat 32 v) (s.ccip i) := by
    unfold put orIn clear mask
    have : BitVec.ofNat 32 v &&& BitVec.ofNat 32 (2 ^ w - 1) = BitVec.ofNat 32 v := by
      apply BitVec.eq_of_toNat_eq
      have hb : v < 2 ^ 32 := Nat.lt_of_lt_of_le hv (Nat.pow_le_pow_right (by decide) (by omega))
      have := and_mask 32 w v (by omega) hv
      rw [BitVec.toNat_ofNat, Nat.mod_eq_of_lt hb]
      exact this
    rw [this]
  refine ⟨_, rfl, ?_, ?_, ?_, rfl⟩
  · show (get w t (Rp.set s.ccip i _ i)).toNat = v
    rw [Rp.set_same, e, get_put_nat _ _ _ _ (by omega) hv]
  · intro j hj; exact Rp.set_ne _ _ _ _ hj
  · intro b hb
    show (Rp.set s.ccip i _ i).getLsbD b = _
    rw [Rp.set_same, e, put_bit _ _ _ _ _ hb]

/-- CLOCK_STM32H7XX_KER_SPI123SEL, DxCCIPxR(1, 0x7, 12), is one of them -/
example : kerId 1 3 12 = (1 <<< 8 ||| 7 <<< 5 ||| 12) := by decide

end H7

end Pico.Clock
