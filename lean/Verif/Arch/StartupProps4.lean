import Verif.Arch.StartupProps3
/-
C98: memory when main() is called.
-/
namespace Pico.Startup

theorem dst_copy (a : Area) : dst a.copy = a.ram := rfl
theorem dst_zero (a : Area) : dst a.zero = a.ram := rfl

theorem empty_ram {a : Area} (h : a.start = a.stop) (x : W) : ¬ a.ram x := by
  unfold Area.ram Within Area.size
  rw [h, BitVec.sub_self]
  exact Nat.not_lt_zero _

theorem Disjoint.symm {p q : W → Prop} (h : Disjoint p q) : Disjoint q p := fun x a b => h x b a

/-- the copies and zeroes of a startup -/
def body (k : Mach) (l : Layout) : List Use :=
  match k with
  | .arm | .gd32vf103 => (if l.relocate then [l.text.copy, l.vectors.copy] else []) ++ [l.data.copy, l.bss.zero]
  | .ch32v003 => (if l.relocate then [l.text.copy] else []) ++ [l.data.copy, l.bss.zero]
  | .pic32mz => (if l.relocate then [l.text.copy] else []) ++ [l.data.copy, l.sdata.copy, l.bss.zero, l.sbss.zero, l.vectors.copy]
  | .mpc57xx => (if l.relocate then [l.text.copy] else []) ++ [l.data.copy, l.sdata.copy, l.bss.zero]

theorem body_mem (k : Mach) (l : Layout) (u : Use) (hu : u ∈ body k l) : (∃ a ∈ mustLoad k l, u = a.copy) ∨ (∃ a ∈ mustClear l, u = a.zero) := by
  cases hr : l.relocate <;> cases k <;> simp [body, mustLoad, mustClear, hr] at hu ⊢ <;> grind

theorem body_pairwise (k : Mach) (l : Layout) (P : Placed k l) : (body k l).Pairwise (fun u v => Disjoint (dst u) (dst v)) := by
  have ap := P.apart
  have sy : ∀ p q : W → Prop, Disjoint p q → Disjoint q p := fun _ _ h => h.symm
  cases hr : l.relocate <;> cases k <;> simp [body, mustLoad, mustClear, hr, dst_copy, dst_zero] at ap ⊢ <;> grind

theorem body_right (k : Mach) (l : Layout) (m : Mem) (P : Placed k l) :
    Ends k.isa (body k l) m ∧ ∀ m', Boot k.isa (body k l) m m' → (∀ u ∈ body k l, right m m' u) ∧ ∀ x, (∀ u ∈ body k l, ¬ dst u x) → m' x = m x := by
  apply uses_right
  · intro u hu
    rcases body_mem k l u hu with ⟨a, ha, rfl⟩ | ⟨a, ha, rfl⟩
    · exact P.even a (List.mem_append_left _ ha)
    · exact (P.even a (List.mem_append_right _ ha)).2
  · exact body_pairwise k l P
  · intro u hu v hv
    have hu' : ∃ a ∈ mustLoad k l ++ mustClear l, dst u = a.ram := by
      rcases body_mem k l u hu with ⟨a, ha, rfl⟩ | ⟨a, ha, rfl⟩
      · exact ⟨a, List.mem_append_left _ ha, rfl⟩
      · exact ⟨a, List.mem_append_right _ ha, rfl⟩
    obtain ⟨a, ha, ea⟩ := hu'
    rw [ea]
    rcases body_mem k l v hv with ⟨b, hb, rfl⟩ | ⟨b, hb, rfl⟩
    · exact P.images a ha b hb
    · exact fun _ _ c => c

/-- what the copies and zeroes leave, whatever is not in an empty section -/
theorem body_done (k : Mach) (l : Layout) (m m' : Mem) (P : Placed k l) (hb : Boot k.isa (body k l) m m') :
    (∀ a ∈ mustLoad k l, Loaded a m m') ∧ Zeroed l.bss m' ∧ (k = .pic32mz → Zeroed l.sbss m') ∧
    (∀ x, (∀ a ∈ mustLoad k l, ¬ a.ram x) → ¬ l.bss.ram x → (k = .pic32mz → ¬ l.sbss.ram x) → m' x = m x) := by
  obtain ⟨h1, h2⟩ := (body_right k l m P).2 m' hb
  have em : ∀ a : Area, a.start = a.stop → Loaded a m m' := fun a h x hx => (empty_ram h x hx).elim
  have lc : ∀ a : Area, a.copy ∈ body k l → Loaded a m m' := fun a h => h1 _ h
  have lz : ∀ a : Area, a.zero ∈ body k l → Zeroed a m' := fun a h => h1 _ h
  have sm := P.small
  have it := P.inText
  refine ⟨?_, ?_, ?_, ?_⟩
  · intro a ha
    cases hr : l.relocate <;> cases k <;> simp [body, mustLoad, hr] at ha lc sm it <;> grind
  · apply lz; cases hr : l.relocate <;> cases k <;> simp [body, hr]
  · intro hk; subst hk; apply lz; cases hr : l.relocate <;> simp [body, hr]
  · intro x x1 x2 x3
    apply h2
    intro u hu
    clear h1 h2 lc lz em sm it
    have dc : ∀ a : Area, dst a.copy x → a.ram x := fun _ h => h
    have dz : ∀ a : Area, dst a.zero x → a.ram x := fun _ h => h
    cases hr : l.relocate <;> cases k <;> simp [body, mustLoad, hr] at hu x1 x3 <;> grind

/-- **C98**: on every machine, for every layout without things over each other and without an sbss (only the PIC32's startup
knows one), and for every content of the memory and of the registers: the startup comes to its end, and then every section
with an image has the contents of the image, every section to be zero is zero, and nothing else is changed (but that the
PowerPC's writes the whole RAM first) -/
theorem boot_right_partial (k : Mach) (l : Layout) (m : Mem) (P : Placed k l) (hs : k = .pic32mz ∨ l.sbss.start = l.sbss.stop) :
    Ends k.isa (startup k l) m ∧ ∀ m', Boot k.isa (startup k l) m m' →
      (∀ a ∈ mustLoad k l, Loaded a m m') ∧ (∀ a ∈ mustClear l, Zeroed a m') ∧
      ∀ x, (∀ a ∈ mustLoad k l ++ mustClear l, ¬ a.ram x) → ¬ (k = .mpc57xx ∧ l.ram x) → m' x = m x := by
  by_cases hk : k = .mpc57xx
  · subst hk
    obtain ⟨ha, N, h0, hN, he⟩ := P.blocks rfl
    have run := ecc_runs l.ramStart l.ramEnd N ha hN h0 he m
    have wh : ∀ x, Within l.ramStart (128 * N) x ↔ l.ram x := by
      intro x
      unfold Layout.ram
      have : (l.ramEnd - l.ramStart).toNat + 4 = 128 * N := by rw [BitVec.toNat_sub]; omega
      rw [this]
    have keep : ∀ rest x, ¬ l.ram x → eccMem m l.ramStart l.ramEnd rest (128 * N) x = m x := by
      intro rest x hx; unfold eccMem; rw [if_neg (fun c => hx ((wh x).1 c))]
    have es : startup .mpc57xx l = .ecc l.ramStart l.ramEnd :: body .mpc57xx l := rfl
    rw [es]
    refine ⟨?_, ?_⟩
    · intro s hb
      obtain ⟨s', st, e, _⟩ := run s hb
      exact ⟨s', st, e, (body_right .mpc57xx l s'.mem P).1⟩
    · intro m' hb
      cases hb with
      | use _ _ _ _ s s' b st e r =>
        obtain ⟨s2, st2, e2, em⟩ := run s b
        have same : s' = s2 := Steps.det st st2 (stuck _ _ _ e.1) (stuck _ _ _ e2.1)
        rw [same, em] at r
        obtain ⟨d1, d2, _, d4⟩ := body_done .mpc57xx l _ m' P r
        refine ⟨?_, ?_, ?_⟩
        · intro a hm x hx
          rw [d1 a hm x hx]
          apply keep
          intro c
          refine P.flash rfl a hm _ c ?_
          show (a.load + (x - a.start) - a.load).toNat < _
          rw [show a.load + (x - a.start) - a.load = x - a.start by bv_omega]
          exact hx
        · intro a hm
          rcases List.mem_cons.1 hm with rfl | hm
          · exact d2
          · rw [List.mem_singleton.1 hm]
            intro x hx
            rcases hs with h | h
            · cases h
            · exact (empty_ram h x hx).elim
        · intro x x1 x2
          rw [d4 x (fun a ha => x1 a (List.mem_append_left _ ha)) (x1 _ (List.mem_append_right _ (List.mem_cons_self ..))) (fun h => by cases h)]
          exact keep _ x (fun c => x2 ⟨rfl, c⟩)
  · have es : startup k l = body k l := by cases k <;> first | rfl | exact (hk rfl).elim
    rw [es]
    refine ⟨(body_right k l m P).1, ?_⟩
    intro m' hb
    obtain ⟨d1, d2, d3, d4⟩ := body_done k l m m' P hb
    refine ⟨d1, ?_, ?_⟩
    · intro a hm
      rcases List.mem_cons.1 hm with rfl | hm
      · exact d2
      · rw [List.mem_singleton.1 hm]
        rcases hs with h | h
        · exact d3 h
        · exact fun x hx => (empty_ram h x hx).elim
    · intro x x1 _
      have hl := x1 l.bss (List.mem_append_right _ (List.mem_cons_self ..))
      have hl2 := x1 l.sbss (List.mem_append_right _ (List.mem_cons_of_mem _ (List.mem_cons_self ..)))
      exact d4 x (fun a ha => x1 a (List.mem_append_left _ ha)) hl (fun _ => hl2)

/-- the sections are disjoint from the sbss -/
theorem sbss_apart (k : Mach) (l : Layout) (P : Placed k l) (x : W) (hx : l.sbss.ram x) : (∀ a ∈ mustLoad k l, ¬ a.ram x) ∧ ¬ l.bss.ram x := by
  have ap := List.pairwise_append.1 P.apart
  refine ⟨?_, ?_⟩
  · intro a ha c
    exact ap.2.2 a ha l.sbss (List.mem_cons_of_mem _ (List.mem_cons_self ..)) x c hx
  · intro c
    exact (List.pairwise_cons.1 ap.2.1).1 l.sbss (List.mem_cons_self ..) x c hx

/-- the RISC-V startups leave what was in the RAM at power-on in the small zero data (no linker script puts .sbss into .bss,
and the compiler puts small variables there): a variable without initialiser has any value -/
theorem sbss_left (k : Mach) (hk : k = .gd32vf103 ∨ k = .ch32v003) (l : Layout) (m m' : Mem) (P : Placed k l) (hb : Boot k.isa (startup k l) m m') :
    ∀ x, l.sbss.ram x → m' x = m x := by
  intro x hx
  have es : startup k l = body k l := by rcases hk with rfl | rfl <;> rfl
  rw [es] at hb
  obtain ⟨_, _, _, d4⟩ := body_done k l m m' P hb
  obtain ⟨s1, s2⟩ := sbss_apart k l P x hx
  exact d4 x s1 s2 (fun h => by rcases hk with rfl | rfl <;> cases h)

theorem load_bytes (m : Mem) (a v : W) (h : ∀ i, i < 4 → m (a + BitVec.ofNat 32 i) = byteOf .big v i) : load .big m a = v := by
  have h0 := h 0 (by decide)
  rw [show a + BitVec.ofNat 32 0 = a by bv_omega] at h0
  have h1 := h 1 (by decide)
  have h2 := h 2 (by decide)
  have h3 := h 3 (by decide)
  unfold load
  show (m a ++ m (a + BitVec.ofNat 32 1) ++ m (a + BitVec.ofNat 32 2) ++ m (a + BitVec.ofNat 32 3) : W) = v
  rw [h0, h1, h2, h3]
  apply BitVec.eq_of_getLsbD_eq
  intro i hi
  rw [app_bits]
  have g : ∀ (s k : Nat), k < 8 → ((v >>> s).setWidth 8 : B).getLsbD k = v.getLsbD (s + k) := by
    intro s k hk
    rw [BitVec.getLsbD_setWidth, decide_eq_true hk, Bool.true_and, BitVec.getLsbD_ushiftRight]
  unfold byteOf
  by_cases c0 : i < 8
  · rw [if_pos c0]; exact (g 0 i c0).trans (by rw [Nat.zero_add])
  rw [if_neg c0]
  by_cases c1 : i - 8 < 8
  · rw [if_pos c1]; exact (g 8 _ c1).trans (by rw [show 8 + (i - 8) = i by omega])
  rw [if_neg c1]
  by_cases c2 : i - 8 - 8 < 8
  · rw [if_pos c2]; exact (g 16 _ c2).trans (by rw [show 16 + (i - 8 - 8) = i by omega])
  rw [if_neg c2]
  exact (g 24 _ (by omega)).trans (by rw [show 24 + (i - 8 - 8 - 8) = i by omega])

/-- the PowerPCs leave an address in the small zero data: the word at offset 12 of every block of 128 bytes is where the block
is, from the register INIT_E2EECC counts with -/
theorem sbss_address (l : Layout) (m m' : Mem) (P : Placed .mpc57xx l) (hb : Boot .ppc (startup .mpc57xx l) m m')
    (j : Nat) (hj : 128 * j < (l.ramEnd - l.ramStart).toNat) (hin : ∀ i, i < 4 → l.sbss.ram (l.ramStart + BitVec.ofNat 32 (128 * j + 12 + i))) :
    load .big m' (l.ramStart + BitVec.ofNat 32 (128 * j + 12)) = l.ramStart + BitVec.ofNat 32 (128 * j) := by
  obtain ⟨ha, N, h0, hN, he⟩ := P.blocks rfl
  have hz : (l.ramEnd - l.ramStart).toNat + 4 = 128 * N := by rw [BitVec.toNat_sub]; omega
  have es : startup .mpc57xx l = .ecc l.ramStart l.ramEnd :: body .mpc57xx l := rfl
  rw [es] at hb
  cases hb with
  | use _ _ _ _ s s' b st e r =>
    obtain ⟨s2, st2, e2, em⟩ := ecc_runs l.ramStart l.ramEnd N ha hN h0 he m s b
    have same : s' = s2 := Steps.det st st2 (stuck _ _ _ e.1) (stuck _ _ _ e2.1)
    rw [same, em] at r
    obtain ⟨_, _, _, d4⟩ := body_done .mpc57xx l _ m' P r
    apply load_bytes
    intro i hi
    have ex : l.ramStart + BitVec.ofNat 32 (128 * j + 12) + BitVec.ofNat 32 i = l.ramStart + BitVec.ofNat 32 (128 * j + 12 + i) := by
      apply BitVec.eq_of_toNat_eq; simp only [BitVec.toNat_add, BitVec.toNat_ofNat]; omega
    rw [ex]
    obtain ⟨s1, s3⟩ := sbss_apart .mpc57xx l P _ (hin i hi)
    rw [d4 _ s1 s3 (fun h => by cases h)]
    have eo : (l.ramStart + BitVec.ofNat 32 (128 * j + 12 + i) - l.ramStart).toNat = 128 * j + 12 + i :=
      (off _ _ _ (by omega)).2 rfl
    unfold eccMem
    rw [if_pos (show Within l.ramStart (128 * N) _ by unfold Within; rw [eo]; omega), eo, show (128 * j + 12 + i) % 4 = i by omega]
    congr 1
    unfold eccWord
    rw [if_pos (by omega), show (128 * j + 12 + i) / 128 = j by omega]

/-! ### layouts there are -/

theorem apart_of {a b : W} {n k : Nat} (h1 : n ≤ (b - a).toNat) (h2 : k ≤ (a - b).toNat) : Disjoint (Within a n) (Within b k) := by
  intro x hx hy
  unfold Within at hx hy
  have e : x - a = (x - b) + (b - a) := by bv_omega
  have e2 : a - b = 0#32 - (b - a) := by bv_omega
  rw [e2, BitVec.toNat_sub] at h2
  rw [e, BitVec.toNat_add] at hx
  have := (b - a).isLt
  have := (x - b).isLt
  have : (0#32).toNat = 0 := rfl
  omega

/-- a layout with everything in it; with or without small zero data -/
def some' (k : Mach) (sbss : Bool) : Layout where
  relocate := true
  text := ⟨0x1000000#32, 0x40001000#32, 0x40002000#32⟩
  vectors := if k = .ch32v003 ∨ k = .mpc57xx then ⟨0x1004000#32, 0x40005000#32, 0x40005000#32⟩ else ⟨0x1004000#32, 0x40005000#32, 0x40005100#32⟩
  data := ⟨0x1002000#32, 0x40000000#32, 0x40000100#32⟩
  sdata := if k = .pic32mz ∨ k = .mpc57xx then ⟨0x1003000#32, 0x40000100#32, 0x40000200#32⟩ else ⟨0x1003000#32, 0x40000100#32, 0x40000100#32⟩
  bss := ⟨0#32, 0x40003000#32, 0x40004000#32⟩
  sbss := if sbss then ⟨0#32, 0x40004000#32, 0x40004200#32⟩ else ⟨0#32, 0x40004000#32, 0x40004000#32⟩
  ramStart := 0x40000000#32
  ramEnd := 0x4007fffc#32

instance (a : Area) : Decidable a.even := inferInstanceAs (Decidable (_ ∧ _ ∧ _))

/-- no overlap, as a test -/
def clear (a : W) (n : Nat) (b : W) (k : Nat) : Bool := decide (n ≤ (b - a).toNat) && decide (k ≤ (a - b).toNat)

theorem clear_of {a b : W} {n k : Nat} (h : clear a n b k = true) : Disjoint (Within a n) (Within b k) := by
  unfold clear at h
  rw [Bool.and_eq_true] at h
  exact apart_of (of_decide_eq_true h.1) (of_decide_eq_true h.2)

theorem sample (k : Mach) (sbss : Bool) : Placed k (some' k sbss) where
  even := by cases k <;> cases sbss <;> decide
  apart := by
    have h : (mustLoad k (some' k sbss) ++ mustClear (some' k sbss)).Pairwise (fun a b => clear a.start a.size b.start b.size = true) := by
      cases k <;> cases sbss <;> decide
    exact h.imp (fun c => clear_of c)
  images := by
    have h : ∀ a ∈ mustLoad k (some' k sbss) ++ mustClear (some' k sbss), ∀ b ∈ mustLoad k (some' k sbss), clear a.start a.size b.load b.size = true := by
      cases k <;> cases sbss <;> decide
    exact fun a ha b hb => clear_of (h a ha b hb)
  flash := by
    intro hk; subst hk
    have h : ∀ b ∈ mustLoad .mpc57xx (some' .mpc57xx sbss), clear 0x40000000#32 0x80000 b.load b.size = true := by cases sbss <;> decide
    intro b hb
    have := clear_of (h b hb)
    unfold Layout.ram
    rw [show ((some' Mach.mpc57xx sbss).ramEnd - (some' Mach.mpc57xx sbss).ramStart).toNat + 4 = 0x80000 by cases sbss <;> decide]
    exact this
  blocks := by
    intro _
    have h : aligned 0x40000000#32 ∧ ∃ n, 0 < n ∧ (0x40000000#32 : W).toNat + 128 * n < 2 ^ 31 ∧ (0x4007fffc#32 : W).toNat = (0x40000000#32 : W).toNat + 128 * n - 4 :=
      ⟨by decide, 4096, by decide, by decide, by decide⟩
    exact h
  small := by intro h1 h2; cases k <;> first | rfl | exact (h1 rfl).elim | exact (h2 rfl).elim
  inText := by rintro (rfl | rfl) <;> rfl

/-- so on a PowerPC a zero-initialised variable at 0x4000400c starts as 0x40004000 -/
theorem sbss_sample (m m' : Mem) (hb : Boot .ppc (startup .mpc57xx (some' .mpc57xx true)) m m') : load .big m' 0x4000400c#32 = 0x40004000#32 := by
  refine sbss_address _ m m' (sample .mpc57xx true) hb 128 (by decide) ?_
  intro i hi
  rcases (by omega : i = 0 ∨ i = 1 ∨ i = 2 ∨ i = 3) with rfl | rfl | rfl | rfl <;>
    (show Within 0x40004000#32 512 _) <;> decide

end Pico.Startup
