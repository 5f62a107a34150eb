import Mathlib.Tactic.NormNum.Prime
import Mathlib.Dynamics.PeriodicPts.Defs
import Verif.Drivers.RngPow
/-
C76: the pseudo-random generator
-/
namespace Pico.Rng

theorem step_inj {a b : Nat} (ha : a < 4294967296) (hb : b < 4294967296) (h : step a = step b) : a = b := by
  have ea := ap_mul invM q0 a
  have eb := ap_mul invM q0 b
  rw [invM_ok, ap_ident ha, rep0 a ha] at ea
  rw [invM_ok, ap_ident hb, rep0 b hb] at eb
  rw [ea, eb]
  exact congrArg (ap invM) h

/-- 2^32 - 1 steps bring back to the same value -/
theorem period {v : Nat} (hv : v < 4294967296) : step^[4294967295] v = v := by
  have h := rep32 v hv
  rw [rep0 v hv] at h
  have e : step^[4294967296] v = step (step^[4294967295] v) := Function.iterate_succ_apply' step 4294967295 v
  rw [e] at h
  exact step_inj (iter_lt _ hv) hv h.symm

/-- and no smaller number does, except for 0 -/
theorem period_min {v : Nat} (hv : v < 4294967296) (h0 : v ≠ 0) (k : Nat) : step^[k] v = v ↔ 4294967295 ∣ k := by
  have hp : Function.IsPeriodicPt step 4294967295 v := period hv
  have hmin : Function.minimalPeriod step v = 4294967295 := by
    refine Decidable.byContradiction fun hne => ?_
    have hd := hp.minimalPeriod_dvd
    have hpos : 0 < Function.minimalPeriod step v := hp.minimalPeriod_pos (by decide)
    generalize hm : Function.minimalPeriod step v = d at *
    obtain ⟨c, hc⟩ := hd
    have hc1 : c ≠ 1 := by intro h; subst h; omega
    obtain ⟨p, pp, hpc⟩ := Nat.exists_prime_and_dvd hc1
    obtain ⟨e, he⟩ := hpc
    have hper : Function.IsPeriodicPt step d v := hm ▸ Function.isPeriodicPt_minimalPeriod step v
    have hmul : Function.IsPeriodicPt step (d * e) v := hper.mul_const e
    have hN : 4294967295 = p * (d * e) := by rw [hc, he]; ac_rfl
    have hpN : p ∣ 3 * 5 * 17 * 257 * 65537 := ⟨d * e, hN⟩
    have cases5 : p = 3 ∨ p = 5 ∨ p = 17 ∨ p = 257 ∨ p = 65537 := by
      rcases (Nat.Prime.dvd_mul pp).1 hpN with h | h
      · rcases (Nat.Prime.dvd_mul pp).1 h with h | h
        · rcases (Nat.Prime.dvd_mul pp).1 h with h | h
          · rcases (Nat.Prime.dvd_mul pp).1 h with h | h
            · exact Or.inl ((Nat.prime_dvd_prime_iff_eq pp (by norm_num)).1 h)
            · exact Or.inr (Or.inl ((Nat.prime_dvd_prime_iff_eq pp (by norm_num)).1 h))
          · exact Or.inr (Or.inr (Or.inl ((Nat.prime_dvd_prime_iff_eq pp (by norm_num)).1 h)))
        · exact Or.inr (Or.inr (Or.inr (Or.inl ((Nat.prime_dvd_prime_iff_eq pp (by norm_num)).1 h))))
      · exact Or.inr (Or.inr (Or.inr (Or.inr ((Nat.prime_dvd_prime_iff_eq pp (by norm_num)).1 h))))
    rcases cases5 with h | h | h | h | h <;> subst h
    · exact h0 (fix3 hv (by have : d * e = 1431655765 := by omega
                            rw [this] at hmul; exact hmul))
    · exact h0 (fix5 hv (by have : d * e = 858993459 := by omega
                            rw [this] at hmul; exact hmul))
    · exact h0 (fix17 hv (by have : d * e = 252645135 := by omega
                             rw [this] at hmul; exact hmul))
    · exact h0 (fix257 hv (by have : d * e = 16711935 := by omega
                              rw [this] at hmul; exact hmul))
    · exact h0 (fix65537 hv (by have : d * e = 65535 := by omega
                                rw [this] at hmul; exact hmul))
  rw [← hmin]
  exact Function.isPeriodicPt_iff_minimalPeriod_dvd

/-! on 32-bit words -/

theorem iter_toNat (k : Nat) : ∀ v : BitVec 32, (xorshift32^[k] v).toNat = step^[k] v.toNat := by
  induction k with
  | zero => intro v; rfl
  | succ k ih => intro v; rw [Function.iterate_succ_apply, Function.iterate_succ_apply, ih, step_eq]

theorem xs_inj {a b : BitVec 32} (h : xorshift32 a = xorshift32 b) : a = b := by
  apply BitVec.eq_of_toNat_eq
  apply step_inj a.isLt b.isLt
  rw [← step_eq, ← step_eq, h]

theorem iter_inj (k : Nat) : ∀ {a b : BitVec 32}, xorshift32^[k] a = xorshift32^[k] b → a = b := by
  induction k with
  | zero => intro a b h; exact h
  | succ k ih =>
    intro a b h
    rw [Function.iterate_succ_apply, Function.iterate_succ_apply] at h
    exact xs_inj (ih h)

theorem xs_zero : xorshift32 0 = 0 := by decide

theorem iter_zero (k : Nat) : xorshift32^[k] (0 : BitVec 32) = 0 := by
  induction k with
  | zero => rfl
  | succ k ih => rw [Function.iterate_succ_apply, xs_zero, ih]

theorem iter_eq_iff {v : BitVec 32} (h : v ≠ 0) (k : Nat) : xorshift32^[k] v = v ↔ 4294967295 ∣ k := by
  have h0 : v.toNat ≠ 0 := fun e => h (BitVec.eq_of_toNat_eq e)
  rw [← period_min v.isLt h0 k, ← iter_toNat]
  exact ⟨fun e => by rw [e], fun e => BitVec.eq_of_toNat_eq e⟩

/-! ### rng_read -/

/-- the bytes of a word, the most significant first -/
def bytesOf (w : BitVec 32) : List Byte := [(w >>> 24).setWidth 8, (w >>> 16).setWidth 8, (w >>> 8).setWidth 8, (w >>> 0).setWidth 8]

theorem chunk_len (w : BitVec 32) (c : Nat) : (chunk w c).length = min c 4 := by
  match c with
  | 0 => rfl
  | 1 => rfl
  | 2 => rfl
  | 3 => rfl
  | c + 4 => simp [chunk]

/-- a group of `c` bytes: the `c` least significant ones of the pool -/
theorem chunk_eq (w : BitVec 32) (c : Nat) : chunk w c = (bytesOf w).drop (4 - c) := by
  match c with
  | 0 => rfl
  | 1 => rfl
  | 2 => rfl
  | 3 => rfl
  | c + 4 => simp [chunk, bytesOf]

/-- number of words used for n bytes -/
def words (n : Nat) : Nat := (n + 3) / 4

/-- what n bytes are made of: the words of the sequence one after the other, and for the last bytes (fewer than 4) the low bytes of the next word -/
def stream (pool : BitVec 32) (n : Nat) : List Byte :=
  (List.range (n / 4)).flatMap (fun i => bytesOf (xorshift32^[i] pool)) ++ (bytesOf (xorshift32^[n / 4] pool)).drop (4 - n % 4)

theorem stream_step (pool : BitVec 32) (n : Nat) (h : 4 ≤ n) : stream pool n = bytesOf pool ++ stream (xorshift32 pool) (n - 4) := by
  unfold stream
  obtain ⟨m, rfl⟩ : ∃ m, n = m + 4 := ⟨n - 4, by omega⟩
  rw [show (m + 4) / 4 = m / 4 + 1 from by omega, show (m + 4) % 4 = m % 4 from by omega, Nat.add_sub_cancel, List.range_succ_eq_map]
  simp only [List.flatMap_cons, List.flatMap_map, Function.iterate_zero_apply, List.append_assoc, Function.iterate_succ_apply]

theorem loop_eq : ∀ fuel n pool, n ≤ fuel → 0 < n → loop fuel n pool = (xorshift32^[words n] pool, stream pool n) := by
  intro fuel
  induction fuel with
  | zero => intro n pool h1 h2; omega
  | succ f ih =>
    intro n pool h1 h2
    rw [loop]
    simp only [chunk_len]
    by_cases h : n - min n 4 > 0
    · rw [if_pos h]
      have h4 : min n 4 = 4 := by omega
      rw [h4, ih (n - 4) _ (by omega) (by omega)]
      rw [stream_step pool n (by omega), show words n = words (n - 4) + 1 from by unfold words; omega, Function.iterate_succ_apply]
      rw [chunk_eq, show 4 - n = 0 from by omega]
      rfl
    · rw [if_neg h]
      have hw : words n = 1 := by unfold words; omega
      rw [hw]
      refine Prod.ext rfl ?_
      show chunk pool n = _
      rw [chunk_eq]
      by_cases h4 : n = 4
      · subst h4; simp [stream, bytesOf]
      · unfold stream
        rw [show n / 4 = 0 from by omega, show n % 4 = n from by omega]
        rfl

theorem stream_len (pool : BitVec 32) (n : Nat) : (stream pool n).length = n := by
  induction n using Nat.strongRecOn generalizing pool with
  | _ n ih =>
    by_cases h : 4 ≤ n
    · rw [stream_step pool n h, List.length_append, ih (n - 4) (by omega)]
      show 4 + (n - 4) = n
      omega
    · unfold stream
      rw [show n / 4 = 0 from by omega, show n % 4 = n from by omega]
      simp [bytesOf]; omega

/-- **C76, rng_read**: it fills the n bytes asked and returns n; they come from successive words of the sequence -/
theorem rng_read_spec {n : Nat} (h : 0 < n) (pool : BitVec 32) :
    read n pool = (xorshift32^[words n] pool, stream pool n, some n) := by
  unfold read
  rw [if_neg (by omega), loop_eq n n pool (Nat.le_refl _) h]
  simp only [stream_len]
  rw [Nat.sub_self, Nat.sub_zero]

/-- what is read does not depend on how reads of words are grouped -/
theorem rng_read_split {k n : Nat} (hk : 0 < k) (h : 0 < n) (pool : BitVec 32) :
    (read (4 * k + n) pool).2.1 = (read (4 * k) pool).2.1 ++ (read n (read (4 * k) pool).1).2.1 ∧ (read (4 * k + n) pool).1 = (read n (read (4 * k) pool).1).1 := by
  rw [rng_read_spec (by omega), rng_read_spec (by omega), rng_read_spec h]
  have hw : words (4 * k) = k := by unfold words; omega
  simp only [hw]
  constructor
  · clear hw
    induction k generalizing pool with
    | zero => omega
    | succ k ih =>
      rw [stream_step pool _ (by omega), stream_step pool (4 * (k + 1)) (by omega), show 4 * (k + 1) + n - 4 = 4 * k + n from by omega, show 4 * (k + 1) - 4 = 4 * k from by omega]
      rw [Function.iterate_succ_apply, List.append_assoc]
      by_cases h0 : k = 0
      · subst h0
        simp [stream]
        simp [bytesOf]
      · rw [ih (by omega)]
  · rw [← Function.iterate_add_apply, show words (4 * k + n) = words n + k from by unfold words; omega]

/-! ### the sequence -/

/-- the j-th word read, by reads of four bytes -/
def word (seed : BitVec 32) (j : Nat) : BitVec 32 := xorshift32^[j] (init seed)

theorem read_word (seed : BitVec 32) (j : Nat) : read 4 (word seed j) = (word seed (j + 1), bytesOf (word seed j), some 4) := by
  rw [rng_read_spec (by decide)]
  refine Prod.ext ?_ (Prod.ext ?_ rfl)
  · show xorshift32^[1] (xorshift32^[j] _) = xorshift32^[j + 1] _
    rw [← Function.iterate_add_apply, Nat.add_comm]
  · simp [stream, bytesOf]

theorem init_ne {seed : BitVec 32} (h : seed ≠ 0) : init seed ≠ 0 := fun e => h (xs_inj (e.trans xs_zero.symm))

/-- **C76, period**: from any seed but 0, two words of the sequence are equal exactly when their ranks differ by a multiple of 2^32 - 1 -/
theorem rng_period {seed : BitVec 32} (h : seed ≠ 0) (i j : Nat) : word seed i = word seed (i + j) ↔ 4294967295 ∣ j := by
  unfold word
  rw [← iter_eq_iff (init_ne h) j, Function.iterate_add_apply]
  exact ⟨fun e => (iter_inj i e).symm, fun e => by rw [e]⟩

/-- **C76, never stuck**: no word is 0 -/
theorem rng_nonzero {seed : BitVec 32} (h : seed ≠ 0) (i : Nat) : word seed i ≠ 0 := by
  intro e
  exact init_ne h (iter_inj i (e.trans (iter_zero i).symm))

theorem rng_mod {seed : BitVec 32} (h : seed ≠ 0) (i : Nat) : word seed (i % 4294967295) = word seed i := by
  have e := (rng_period h (i % 4294967295) (4294967295 * (i / 4294967295))).2 ⟨_, rfl⟩
  rw [e, Nat.mod_add_div]

/-- an injection from n values into n values reaches all of them -/
theorem surj_of_inj (n : Nat) : ∀ (f : Nat → Nat), (∀ i, i < n → f i < n) → (∀ i j, i < n → j < n → f i = f j → i = j) → ∀ y, y < n → ∃ i, i < n ∧ f i = y := by
  induction n with
  | zero => intro f _ _ y hy; omega
  | succ n ih =>
    intro f hlt hinj y hy
    -- move the value n to the last place
    let g : Nat → Nat := fun i => if f i = n then f n else f i
    have hg : ∀ i, i < n → g i < n := by
      intro i hi
      show (if f i = n then f n else f i) < n
      by_cases h : f i = n
      · rw [if_pos h]
        have h1 := hlt n (by omega)
        have h2 : f n ≠ n := fun e => by have := hinj i n (by omega) (by omega) (h.trans e.symm); omega
        omega
      · rw [if_neg h]
        have := hlt i (by omega)
        omega
    have hgi : ∀ i j, i < n → j < n → g i = g j → i = j := by
      intro i j hi hj e
      have e : (if f i = n then f n else f i) = if f j = n then f n else f j := e
      by_cases h1 : f i = n <;> by_cases h2 : f j = n
      · exact hinj i j (by omega) (by omega) (h1.trans h2.symm)
      · rw [if_pos h1, if_neg h2] at e
        have := hinj n j (by omega) (by omega) e; omega
      · rw [if_neg h1, if_pos h2] at e
        have := hinj i n (by omega) (by omega) e; omega
      · rw [if_neg h1, if_neg h2] at e
        exact hinj i j (by omega) (by omega) e
    by_cases hyn : f n = y
    · exact ⟨n, by omega, hyn⟩
    · by_cases hy2 : y = n
      · -- f n ≠ n: some i < n has g i = f n
        have h1 := hlt n (by omega)
        obtain ⟨i, hi, hgi'⟩ := ih g hg hgi (f n) (by omega)
        have hgi' : (if f i = n then f n else f i) = f n := hgi'
        by_cases h : f i = n
        · exact ⟨i, by omega, h.trans hy2.symm⟩
        · rw [if_neg h] at hgi'
          have := hinj i n (by omega) (by omega) hgi'; omega
      · obtain ⟨i, hi, hgi'⟩ := ih g hg hgi y (by omega)
        have hgi' : (if f i = n then f n else f i) = y := hgi'
        by_cases h : f i = n
        · rw [if_pos h] at hgi'; exact absurd hgi' hyn
        · rw [if_neg h] at hgi'; exact ⟨i, by omega, hgi'⟩

/-- **C76, every word**: each of the 2^32 - 1 words other than 0 comes exactly once in every 2^32 - 1 successive ones -/
theorem rng_every {seed : BitVec 32} (h : seed ≠ 0) (w : BitVec 32) (hw : w ≠ 0) (k : Nat) : ∃ i, (k ≤ i ∧ i < k + 4294967295 ∧ word seed i = w) ∧
    ∀ j, k ≤ j → j < k + 4294967295 → word seed j = w → j = i := by
  have hinj : ∀ i j, i < 4294967295 → j < 4294967295 → word seed (k + i) = word seed (k + j) → i = j := by
    have key : ∀ i j, i ≤ j → j < 4294967295 → word seed (k + i) = word seed (k + j) → i = j := by
      intro i j hij hj e
      have e2 : word seed (k + i) = word seed (k + i + (j - i)) := by rw [e]; congr 1; omega
      obtain ⟨c, hc⟩ := (rng_period h (k + i) (j - i)).1 e2
      omega
    intro i j hi hj e
    rcases Nat.le_total i j with hij | hij
    · exact key i j hij hj e
    · exact (key j i hij hi e.symm).symm
  have pos : ∀ v : BitVec 32, v ≠ 0 → 0 < v.toNat := fun v hv => Nat.pos_of_ne_zero fun e => hv (BitVec.eq_of_toNat_eq e)
  obtain ⟨i, hi, hf⟩ := surj_of_inj 4294967295 (fun i => (word seed (k + i)).toNat - 1)
    (fun i _ => by have := (word seed (k + i)).isLt; have := pos _ (rng_nonzero h (k + i)); show (word seed (k + i)).toNat - 1 < 4294967295; omega)
    (fun i j hi hj e => hinj i j hi hj (BitVec.eq_of_toNat_eq (by
      have e : (word seed (k + i)).toNat - 1 = (word seed (k + j)).toNat - 1 := e
      have := pos _ (rng_nonzero h (k + i)); have := pos _ (rng_nonzero h (k + j)); omega)))
    (w.toNat - 1) (by have := w.isLt; have := pos w hw; omega)
  have hf : (word seed (k + i)).toNat - 1 = w.toNat - 1 := hf
  have hwi : word seed (k + i) = w := BitVec.eq_of_toNat_eq (by have := pos _ (rng_nonzero h (k + i)); have := pos w hw; omega)
  refine ⟨k + i, ⟨by omega, by omega, hwi⟩, ?_⟩
  intro j h1 h2 hj
  have := hinj (j - k) i (by omega) hi (by rw [show k + (j - k) = j from by omega, hj, hwi])
  omega

/-- **C76 fails for the seed 0**, which rng_xorshift32_init accepts: only zeros, for ever -/
theorem rng_seed_zero (n : Nat) (j : Nat) : word 0 j = 0 ∧ ∀ b ∈ (read n (word 0 j)).2.1, b = 0 := by
  have hw : ∀ j, word 0 j = 0 := fun j => by unfold word init; rw [xs_zero, iter_zero]
  refine ⟨hw j, ?_⟩
  rw [hw j]
  by_cases h : n = 0
  · subst h; intro b hb; simp [read] at hb
  · rw [rng_read_spec (by omega)]
    intro b hb
    simp only [stream, iter_zero, List.mem_append, List.mem_flatMap] at hb
    have hz : ∀ x ∈ bytesOf 0, x = 0 := by decide
    rcases hb with ⟨_, _, hb⟩ | hb
    · exact hz b hb
    · exact hz b (List.mem_of_mem_drop hb)

/-! ### Non-vacuity -/

example : word 1 0 = 270369 := by decide
example : (read 6 (init 1)).2.1 = [0x00, 0x04, 0x20, 0x21, 0x06, 0x01] := by decide
example : (read 6 (init 1)).2.2 = some 6 := by decide

end Pico.Rng
