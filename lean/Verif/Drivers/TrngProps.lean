import Verif.Drivers.Trng
/-
C120: rng_read on the hardware generator
-/
namespace Pico.Trng

/-! ### Specification -/

/-- the bytes of a word, the most significant one first -/
def be (w : Word) : List Byte := [w.extractLsb' 24 8, w.extractLsb' 16 8, w.extractLsb' 8 8, w.extractLsb' 0 8]

/-- what n bytes are made of: four bytes of each word, and the last ones of the last word -/
def bytes : Nat → List Word → List Byte
  | _, [] => []
  | n, w :: ws => (be w).drop (4 - n) ++ bytes (n - 4) ws

/-- the words that the generator makes -/
def makes (l : List Ev) : List Word := l.filterMap fun e => match e with | .make w => some w | .seedError => none

/-- no seed error between a read of SR and the read of DR -/
def Wk.calm (k : Wk) : Prop := ∀ i, Ev.seedError ∉ k.b i

theorem bytes_length : ∀ (ws : List Word) (n : Nat), (bytes n ws).length = min n (4 * ws.length)
  | [], n => by simp [bytes]
  | w :: ws, n => by simp only [bytes, List.length_append, List.length_drop, bytes_length ws, List.length_cons]; simp [be]; omega

/-! ### Proofs -/

theorem cut_eq (w : Word) (n : Nat) : cut w n = (be w).drop (4 - n) := by
  have e : ∀ i, (w >>> i).setWidth 8 = w.extractLsb' i 8 := fun i => by
    apply BitVec.eq_of_toNat_eq; simp [BitVec.toNat_setWidth, BitVec.toNat_ushiftRight, BitVec.extractLsb'_toNat]
  match n with
  | 0 => simp [cut, be]
  | 1 => simp [cut, be, ← e]
  | 2 => simp [cut, be, ← e]
  | 3 => simp [cut, be, ← e]
  | n + 4 => simp [cut, be, ← e]

theorem cut_length (w : Word) (n : Nat) : (cut w n).length = min n 4 := by
  rw [cut_eq]; simp [be]; omega

theorem works_sub : ∀ (l : List Ev) (h : Hw), List.Sublist (works l h).out (h.out ++ makes l)
  | [], h => by simp [works, makes]
  | e :: l, h => by
    have ih := works_sub l (ev h e)
    cases e with
    | make w => simpa [works, makes, ev] using ih
    | seedError =>
      have : List.Sublist (works l ⟨[]⟩).out (makes l) := by simpa [ev] using ih
      have : List.Sublist (works l ⟨[]⟩).out (h.out ++ makes l) := this.trans (List.sublist_append_right _ _)
      simpa [works, makes, ev] using this

theorem works_calm : ∀ (l : List Ev) (h : Hw), Ev.seedError ∉ l → (works l h).out = h.out ++ makes l
  | [], h, _ => by simp [works, makes]
  | e :: l, h, hl => by
    cases e with
    | make w =>
      have ih := works_calm l ⟨h.out ++ [w]⟩ (fun q => hl (List.mem_cons_of_mem _ q))
      simpa [works, makes, ev] using ih
    | seedError => exact absurd (List.mem_cons_self) hl

/-- the words made during p passages of a call -/
def during (k : Wk) (i : Nat) : Nat → List Word
  | 0 => []
  | p + 1 => makes (k.a i) ++ makes (k.b i) ++ during k (i + 1) p

/-- **the loop**: it takes the words ws, made in that order, and the bytes of them go into the buffer -/
theorem loop_spec (k : Wk) (hk : k.calm) : ∀ (fuel count i : Nat) (buf : List Byte) (h : Hw), 0 < count → count ≤ fuel →
    ∃ ws p, (loop fuel count i k buf h).1 = buf ++ bytes count ws ∧
      List.Sublist (ws ++ (loop fuel count i k buf h).2.out) (h.out ++ during k i p) ∧
      (4 * ws.length < count + 4) ∧ (4 * ws.length < count → (loop fuel count i k buf h).2.out = [])
  | 0, _, _, _, _, h0, hf => absurd h0 (by omega)
  | fuel + 1, count, i, buf, h, h0, hf => by
    rw [loop]
    have s1 := works_sub (k.a i) h
    by_cases he : (works (k.a i) h).out = []
    · refine ⟨[], 1, ?_, ?_, ?_, ?_⟩
      · simp [he, bytes]
      · simp [he]
      · simp
      · intro _; simp [he]
    · have hb := works_calm (k.b i) (works (k.a i) h) (hk i)
      obtain ⟨w, t, hw⟩ : ∃ w t, (works (k.a i) h).out = w :: t := by
        cases hq : (works (k.a i) h).out with
        | nil => exact absurd hq he
        | cons w t => exact ⟨w, t, rfl⟩
      have hd : dr (works (k.b i) (works (k.a i) h)) = (w, ⟨t ++ makes (k.b i)⟩) := by
        simp [dr, hb, hw]
      have hem : (works (k.a i) h).out.isEmpty = false := by simp [hw]
      simp only [hem, hd, cut_length, if_neg Bool.false_ne_true]
      have sub : List.Sublist (w :: (t ++ makes (k.b i))) (h.out ++ makes (k.a i) ++ makes (k.b i)) := by
        have := s1.append_right (makes (k.b i))
        rwa [hw] at this
      by_cases hc : count - min count 4 > 0
      · rw [if_pos hc]
        obtain ⟨ws, p, e1, e2, e3, e4⟩ := loop_spec k hk fuel (count - min count 4) (i + 1) (buf ++ cut w count) ⟨t ++ makes (k.b i)⟩ hc (by omega)
        have hc4 : count - min count 4 = count - 4 := by omega
        refine ⟨w :: ws, p + 1, ?_, ?_, ?_, ?_⟩
        · rw [e1, cut_eq, hc4]; simp [bytes]
        · have a : List.Sublist (w :: (ws ++ (loop fuel (count - min count 4) (i + 1) k (buf ++ cut w count) ⟨t ++ makes (k.b i)⟩).2.out)) (w :: (t ++ makes (k.b i) ++ during k (i + 1) p)) :=
            e2.cons_cons w
          have b := sub.append_right (during k (i + 1) p)
          rw [List.cons_append] at b
          have := a.trans b
          simpa [during, List.append_assoc] using this
        · simp; omega
        · intro q; apply e4; simp at q; omega
      · rw [if_neg hc]
        refine ⟨[w], 1, ?_, ?_, ?_, ?_⟩
        · rw [cut_eq]; simp [bytes]
        · simpa [during, List.append_assoc] using sub
        · simp; omega
        · intro q; simp at q; omega

/-- **C120, rng_read**: the bytes stored are those of words that the generator made, in the order it made them, each used once; what is returned is their number, at most n and -EAGAIN if
there is none; less than n only if no word was left -/
theorem rng_read_spec_partial (n : Nat) (hn : 0 < n) (k : Wk) (hk : k.calm) (h : Hw) :
    ∃ ws p, (read n k h).1 = bytes n ws ∧ List.Sublist (ws ++ (read n k h).2.1.out) (h.out ++ during k 0 p) ∧
      (read n k h).2.2 = (if (read n k h).1 = [] then R.again else .num (read n k h).1.length) ∧ (read n k h).1.length ≤ n ∧
      ((read n k h).1.length < n → (read n k h).2.1.out = []) := by
  obtain ⟨ws, p, e1, e2, e3, e4⟩ := loop_spec k hk n n 0 [] h hn (Nat.le_refl _)
  rw [List.nil_append] at e1
  have hr : read n k h = ((loop n n 0 k [] h).1, (loop n n 0 k [] h).2, if (loop n n 0 k [] h).1.length = 0 then .again else .num (loop n n 0 k [] h).1.length) := by
    rw [read, if_neg (by omega)]
  rw [hr]
  refine ⟨ws, p, e1, e2, ?_, ?_, ?_⟩
  · simp only [List.length_eq_zero_iff]
  · simp only; rw [e1, bytes_length]; omega
  · simp only; intro q; apply e4; rw [e1, bytes_length] at q; omega

/-- the words made by the time of a sequence of calls, p i of the passages of the i-th call -/
def made : List (List Ev × Nat × Wk) → List Nat → List Word
  | c :: l, p :: ps => makes c.1 ++ during c.2.2 0 p ++ made l ps
  | _, _ => []

/-- **C120, calls of rng_read**: over any sequence of calls and any behaviour of the generator (but a seed error between the reads of SR and DR), no word is used twice: the words used
by the calls, one after the other, are words that the generator made, in the order it made them -/
theorem rng_calls_once_partial : ∀ (l : List (List Ev × Nat × Wk)) (h : Hw), (∀ c ∈ l, 0 < c.2.1 ∧ c.2.2.calm) →
    ∃ (wss : List (List Word)) (ps : List Nat), wss.length = l.length ∧ ps.length = l.length ∧
      (calls l h).1.map Prod.fst = (l.zip wss).map (fun x => bytes x.1.2.1 x.2) ∧
      List.Sublist (wss.flatten ++ (calls l h).2.out) (h.out ++ made l ps)
  | [], h, _ => ⟨[], [], rfl, rfl, rfl, by simp [calls, made]⟩
  | c :: l, h, hl => by
    obtain ⟨ws, p, e1, e2, -⟩ := rng_read_spec_partial c.2.1 (hl c List.mem_cons_self).1 c.2.2 (hl c List.mem_cons_self).2 (works c.1 h)
    obtain ⟨wss, ps, f1, f2, f3, f4⟩ := rng_calls_once_partial l (read c.2.1 c.2.2 (works c.1 h)).2.1 (fun x hx => hl x (List.mem_cons_of_mem _ hx))
    refine ⟨ws :: wss, p :: ps, by simp [f1], by simp [f2], ?_, ?_⟩
    · simp only [calls, List.map_cons, List.zip_cons_cons, e1, f3]
    · simp only [calls, List.flatten_cons, made]
      have s1 := works_sub c.1 h
      have a := (List.Sublist.refl ws).append f4
      have b := e2.append_right (made l ps)
      have d := (s1.append_right (during c.2.2 0 p)).append_right (made l ps)
      simp only [List.append_assoc] at a b d
      have := (a.trans b).trans d
      simpa [List.append_assoc] using this

theorem bytes_append : ∀ (ws x : List Word) (n : Nat), n ≤ 4 * ws.length → bytes n (ws ++ x) = bytes n ws
  | [], x, n, h => by
    have h0 : n = 0 := by simpa using h
    rw [h0, List.nil_append]
    exact List.eq_nil_of_length_eq_zero (by rw [bytes_length]; omega)
  | w :: ws, x, n, h => by
    rw [List.length_cons] at h
    simp only [List.cons_append, bytes, bytes_append ws x (n - 4) (by omega)]

/-- **C120**: with words enough, the n bytes asked for are returned, whatever else the generator makes meanwhile: the bytes of the oldest words -/
theorem rng_read_full_partial (n : Nat) (hn : 0 < n) (k : Wk) (hk : k.calm) (hs : ∀ i, Ev.seedError ∉ k.a i) (h : Hw) (hw : n ≤ 4 * h.out.length) :
    (read n k h).2.2 = .num n ∧ (read n k h).1 = bytes n h.out := by
  have key : ∀ (fuel count i : Nat) (buf : List Byte) (h : Hw), 0 < count → count ≤ fuel → count ≤ 4 * h.out.length →
      (loop fuel count i k buf h).1 = buf ++ bytes count h.out := by
    intro fuel
    induction fuel with
    | zero => intro count i buf h h0 hf _; exact absurd h0 (by omega)
    | succ fuel ih =>
      intro count i buf h h0 hf hq
      obtain ⟨w, t, ho⟩ : ∃ w t, h.out = w :: t := by
        cases hh : h.out with
        | nil => rw [hh] at hq; simp at hq; omega
        | cons w t => exact ⟨w, t, rfl⟩
      have a := works_calm (k.a i) h (hs i)
      have b := works_calm (k.b i) (works (k.a i) h) (hk i)
      have hem : (works (k.a i) h).out.isEmpty = false := by simp [a, ho]
      have hd : dr (works (k.b i) (works (k.a i) h)) = (w, ⟨t ++ makes (k.a i) ++ makes (k.b i)⟩) := by simp [dr, b, a, ho]
      rw [loop]
      simp only [hem, hd, cut_length, if_neg Bool.false_ne_true]
      rw [ho] at hq
      simp only [List.length_cons] at hq
      by_cases hc : count - min count 4 > 0
      · rw [if_pos hc]
        rw [ih _ _ _ _ hc (by omega) (by simp; omega)]
        have hc4 : count - min count 4 = count - 4 := by omega
        simp only [List.append_assoc]
        rw [bytes_append t _ _ (by omega), hc4, cut_eq, ho, bytes]
      · rw [if_neg hc, cut_eq, ho]
        have z : ∀ l : List Word, bytes 0 l = [] := fun l => List.eq_nil_of_length_eq_zero (by rw [bytes_length]; omega)
        have h4 : count - 4 = 0 := by omega
        simp [bytes, h4, z]
  have e := key n n 0 [] h hn (Nat.le_refl _) hw
  rw [List.nil_append] at e
  have hl : (loop n n 0 k [] h).1.length = n := by rw [e, bytes_length]; omega
  rw [read, if_neg (by omega)]
  simp only [hl]
  exact ⟨by rw [if_neg (by omega)], e⟩

/-- **C120 refuted**: a seed error between the reads of SR and of DR: DR reads 0 and the bytes are returned as random ones -/
theorem rng_read_seed_error (n : Nat) (hn : 0 < n) (h4 : n ≤ 4) (h : Hw) (ho : h.out ≠ []) :
    (read n ⟨fun _ => [], fun _ => [.seedError]⟩ h).2.2 = .num n ∧ (read n ⟨fun _ => [], fun _ => [.seedError]⟩ h).1 = List.replicate n 0#8 := by
  have hem : h.out.isEmpty = false := by simpa using ho
  obtain rfl | rfl | rfl | rfl : n = 1 ∨ n = 2 ∨ n = 3 ∨ n = 4 := by omega
  all_goals simp [read, loop, works, ev, dr, hem, cut, List.replicate]

/-! ### Set-up -/

theorem divider_spec (freq : Nat) (hf : freq < 2 ^ 31) : ∀ (fuel d : Nat), d + fuel = 17 → (∀ e < d, 48000000 < freq >>> e) → d ≤ 6 →
    freq >>> divider freq fuel d ≤ 48000000 ∧ divider freq fuel d ≤ 6 ∧ ∀ e < divider freq fuel d, 48000000 < freq >>> e
  | 0, d, h, _, h6 => absurd h (by omega)
  | fuel + 1, d, h, hm, h6 => by
    rw [divider, if_pos (by omega)]
    by_cases hd : freq >>> d ≤ 48000000
    · rw [if_pos hd]; exact ⟨hd, h6, hm⟩
    · rw [if_neg hd]
      refine divider_spec freq hf fuel (d + 1) (by omega) ?_ ?_
      · intro e he
        by_cases q : e = d
        · rw [q]; omega
        · exact hm e (by omega)
      · refine Decidable.byContradiction fun q => ?_
        have : d = 6 := by omega
        rw [this, Nat.shiftRight_eq_div_pow] at hd
        omega

theorem wait_spec : ∀ b d, (wait b d).isSome = decide (b ≤ d)
  | 0, _ => by simp [wait]
  | _ + 1, 0 => by simp [wait]
  | b + 1, d + 1 => by rw [wait, wait_spec b d]; simp

/-- **C120, set-up**: refused without a clock; else the generator is given the fastest of the clocks freq / 2^d that is not over 48 MHz, and is turned on, in configuration A and locked, if
the reset ends in time; if not, -EBUSY and it is left off -/
theorem rng_init_spec (freq : Int) (hf : freq < 2 ^ 31) (D busy : Nat) (r : Regs) :
    (freq ≤ 0 → init freq D busy r = (r, .einval)) ∧
    (0 < freq → ∃ d, d < 16 ∧ freq.toNat / 2 ^ d ≤ 48000000 ∧ (∀ e < d, 48000000 < freq.toNat / 2 ^ e) ∧ (init freq D busy r).1.htcr = r.htcr ++ [0x17590abc#32, 0xaa74#32] ∧
      (busy ≤ D → (init freq D busy r).2 = .ok ∧ (init freq D busy r).1.cr = BitVec.ofNat 32 (0x80f00d04 + 65536 * d)) ∧
      (D < busy → (init freq D busy r).2 = .ebusy ∧ (init freq D busy r).1.cr = BitVec.ofNat 32 (0xf00d00 + 65536 * d))) := by
  refine ⟨fun h => by rw [init, if_pos h], fun h => ?_⟩
  obtain ⟨h1, h2, h3⟩ := divider_spec freq.toNat (by omega) 17 0 rfl (fun e he => absurd he (by omega)) (by omega)
  have w := wait_spec busy D
  have c1 : ∀ d : Fin 7, crOf d.1 &&& ~~~(1#32 <<< 30) = BitVec.ofNat 32 (0xf00d00 + 65536 * d.1) := by decide +kernel
  have c2 : ∀ d : Fin 7, BitVec.ofNat 32 (0xf00d00 + 65536 * d.1) ||| ((1#32 <<< 31) ||| (1#32 <<< 2)) = BitVec.ofNat 32 (0x80f00d04 + 65536 * d.1) := by decide +kernel
  have c1' := c1 ⟨divider freq.toNat 17 0, by omega⟩
  have c2' := c2 ⟨divider freq.toNat 17 0, by omega⟩
  simp only at c1' c2'
  rw [init, if_neg (by omega)]
  simp only [if_pos (show divider freq.toNat 17 0 < 16 by omega), c1']
  refine ⟨divider freq.toNat 17 0, by omega, by rwa [← Nat.shiftRight_eq_div_pow], fun e he => by rw [← Nat.shiftRight_eq_div_pow]; exact h3 e he, ?_, ?_, ?_⟩
  · cases hw : wait busy D <;> rfl
  · intro q
    cases hw : wait busy D with
    | none => rw [hw] at w; simp at w; omega
    | some x => exact ⟨rfl, c2'⟩
  · intro q
    cases hw : wait busy D with
    | none => exact ⟨rfl, rfl⟩
    | some x => rw [hw] at w; simp at w; omega

/-- a case: two words wait, 6 bytes are read, a third word is made meanwhile; then 4 more bytes -/
theorem rng_sample :
    calls [([.make 0x11223344#32, .make 0x55667788#32], 6, ⟨fun i => if i = 1 then [.make 0x99aabbcc#32] else [], fun _ => []⟩), ([], 4, Wk.none), ([], 1, Wk.none)] ⟨[]⟩ =
      ([([0x11#8, 0x22#8, 0x33#8, 0x44#8, 0x77#8, 0x88#8], .num 6), ([0x99#8, 0xaa#8, 0xbb#8, 0xcc#8], .num 4), ([], .again)], ⟨[]⟩) ∧
    init 480000000 1000 3 ⟨0, []⟩ = (⟨0x80f40d04#32, [0x17590abc#32, 0xaa74#32]⟩, .ok) := by decide +kernel

end Pico.Trng
