import Verif.Arch.Startup8Props2
/-
C98: the loops of the 8051.
-/
namespace Pico.Startup8

/-- `n` instructions -/
def after (code : List I) : Nat → St → Option St
  | 0, s => some s
  | n + 1, s => (step code s).bind (after code n)

theorem steps_after (code : List I) : ∀ (n : Nat) (s s' : St), after code n s = some s' → Steps code s s' := by
  intro n
  induction n with
  | zero => intro s s' h; cases h; exact .refl s
  | succ n ih =>
    intro s s' h
    have h : (step code s).bind (after code n) = some s' := h
    cases e : step code s with
    | none => rw [e] at h; cases h
    | some s1 => rw [e] at h; exact .next s s1 s' e (ih s1 s' h)

/-- the head of the loop with something to do: the body follows -/
theorem zero51_enter (start len : A) (r2 r3 r4 r5 : B) (a dpl dph : B) (c : Bool) (x : A) (z : Bool) (rom mem : A → B) (n : A) (hn : n ≠ 0#16) :
    Steps (zero51 start len) ⟨r2, r3, r4, r5, loB n, hiB n, a, dpl, dph, c, x, z, 3, rom, mem⟩ ⟨r2, r3, r4, r5, loB n, hiB n, a, dpl, dph, false, x, z, 6, rom, mem⟩ := by
  by_cases hl : loB n = 0#8
  · have hh : ¬ hiB n = 0#8 := fun h => hn ((split_zero n).1 ⟨hl, h⟩)
    refine .next _ ⟨r2, r3, r4, r5, loB n, hiB n, a, dpl, dph, false, x, z, 4, rom, mem⟩ _ (congrArg some (sel_true hl _ _)) ?_
    exact .one (congrArg some (sel_false hh _ _))
  · exact .one (congrArg some (sel_false hl _ _))

theorem zero51_body (start len : A) (r2 r3 r4 r5 : B) (a : B) (x : A) (z : Bool) (rom mem : A → B) (n d : A) :
    ∃ (a' : B) (c' : Bool), Steps (zero51 start len) ⟨r2, r3, r4, r5, loB n, hiB n, a, loB d, hiB d, false, x, z, 6, rom, mem⟩
      ⟨r2, r3, r4, r5, loB (n - 1#16), hiB (n - 1#16), a', loB (d + 1#16), hiB (d + 1#16), c', x, z, 3, rom, put mem d 0#8⟩ := by
  refine ⟨hiB n - 0#8 - (if decide ((loB n).toNat < (1#8).toNat + (if false then 1 else 0)) then 1#8 else 0#8),
    decide ((hiB n).toNat < (0#8).toNat + (if decide ((loB n).toNat < (1#8).toNat + (if false then 1 else 0)) then 1 else 0)), ?_⟩
  rw [← sub_lo n, ← sub_hi n]
  have e := join_split d
  have f : put mem d 0#8 = put mem (join (hiB d) (loB d)) 0#8 := by rw [e]
  have g1 : loB (d + 1#16) = loB (join (hiB d) (loB d) + 1#16) := by rw [e]
  have g2 : hiB (d + 1#16) = hiB (join (hiB d) (loB d) + 1#16) := by rw [e]
  rw [f, g1, g2]
  exact steps_after _ 11 _ _ rfl

theorem zero51_loop (start len : A) (ram : A → B) :
    ∀ (r n : Nat) (s : St), n + r = len.toNat → s.pc = 3 → s.r6 = loB (BitVec.ofNat 16 r) → s.r7 = hiB (BitVec.ofNat 16 r) →
      s.dpl = loB (start + BitVec.ofNat 16 n) → s.dph = hiB (start + BitVec.ofNat 16 n) → s.ram = filled ram start (fun _ => 0#8) 0 n →
      ∃ s', Steps (zero51 start len) s s' ∧ s'.pc = 17 ∧ s'.rom = s.rom ∧ s'.ram = filled ram start (fun _ => 0#8) 0 len.toNat := by
  intro r
  induction r with
  | zero =>
    intro n ⟨r2, r3, r4, r5, r6, r7, a, dpl, dph, c, x, z, pc, rom, mem⟩ hn h1 h6 h7 hdl hdh h3
    cases h1; cases h6; cases h7; cases hdl; cases hdh
    have h3 : mem = _ := h3
    rw [show n = len.toNat by omega] at h3
    refine ⟨⟨r2, r3, r4, r5, loB (BitVec.ofNat 16 0), hiB (BitVec.ofNat 16 0), a, loB (start + BitVec.ofNat 16 n), hiB (start + BitVec.ofNat 16 n), false, x, z, 17, rom, mem⟩, ?_, rfl, rfl, h3⟩
    refine .next _ ⟨r2, r3, r4, r5, loB (BitVec.ofNat 16 0), hiB (BitVec.ofNat 16 0), a, loB (start + BitVec.ofNat 16 n), hiB (start + BitVec.ofNat 16 n), false, x, z, 4, rom, mem⟩ _
      (congrArg some (sel_true (show loB (BitVec.ofNat 16 0) = 0#8 by decide) _ _)) ?_
    refine .next _ ⟨r2, r3, r4, r5, loB (BitVec.ofNat 16 0), hiB (BitVec.ofNat 16 0), a, loB (start + BitVec.ofNat 16 n), hiB (start + BitVec.ofNat 16 n), false, x, z, 5, rom, mem⟩ _
      (congrArg some (sel_true (show hiB (BitVec.ofNat 16 0) = 0#8 by decide) _ _)) ?_
    exact .one rfl
  | succ r ih =>
    intro n ⟨r2, r3, r4, r5, r6, r7, a, dpl, dph, c, x, z, pc, rom, mem⟩ hn h1 h6 h7 hdl hdh h3
    have hl := len.isLt
    cases h1; cases h6; cases h7; cases hdl; cases hdh
    have h3 : mem = _ := h3
    have ne : BitVec.ofNat 16 (r + 1) ≠ 0#16 := by
      intro c2
      have := congrArg BitVec.toNat c2
      simp only [BitVec.toNat_ofNat] at this
      omega
    have ec : BitVec.ofNat 16 (r + 1) - 1#16 = BitVec.ofNat 16 r := by
      apply BitVec.eq_of_toNat_eq; rw [BitVec.toNat_sub]; simp only [BitVec.toNat_ofNat]; omega
    have ed : start + BitVec.ofNat 16 n + 1#16 = start + BitVec.ofNat 16 (n + 1) := by bv_omega
    have wr : put mem (start + BitVec.ofNat 16 n) 0#8 = filled ram start (fun _ => 0#8) 0 (n + 1) := by
      rw [h3]
      exact filled_up ram start (fun _ => 0#8) n (by omega)
    obtain ⟨a', c', sb⟩ := zero51_body start len r2 r3 r4 r5 a x z rom mem (BitVec.ofNat 16 (r + 1)) (start + BitVec.ofNat 16 n)
    rw [ec, ed] at sb
    obtain ⟨s', st, o1, o2, o3⟩ := ih (n + 1) ⟨r2, r3, r4, r5, loB (BitVec.ofNat 16 r), hiB (BitVec.ofNat 16 r), a', loB (start + BitVec.ofNat 16 (n + 1)), hiB (start + BitVec.ofNat 16 (n + 1)), c', x, z, 3, rom, put mem (start + BitVec.ofNat 16 n) 0#8⟩
      (by omega) rfl rfl rfl rfl rfl wr
    exact ⟨s', Steps.trans (zero51_enter start len _ _ _ _ _ _ _ _ _ _ _ _ _ ne) (Steps.trans sb st), o1, o2, o3⟩

theorem i8051_zero (start len : A) (rom ram : A → B) : Runs (zero51 start len) rom ram (filled ram start (fun _ => 0#8) 0 len.toNat) := by
  intro ⟨r2, r3, r4, r5, r6, r7, a, dpl, dph, c, x, z, pc, rom', mem⟩ ⟨h1, h2, h3⟩
  cases h1; cases h2; cases h3
  obtain ⟨s', st, o1, o2, o3⟩ := zero51_loop start len mem len.toNat 0 ⟨r2, r3, r4, r5, loB len, hiB len, a, loB start, hiB start, c, x, z, 3, rom', mem⟩
    (Nat.zero_add _) rfl (by rw [x_eq]) (by rw [x_eq]) (by rw [show start + BitVec.ofNat 16 0 = start by bv_omega]) (by rw [show start + BitVec.ofNat 16 0 = start by bv_omega])
    (filled_none _ _ _ _).symm
  exact ⟨s', Steps.trans (steps_after _ 3 _ _ rfl) st, o1, o2, o3⟩

theorem copy51_enter (base start len : A) (r2 r3 r4 r5 : B) (a dpl dph : B) (c : Bool) (x : A) (z : Bool) (rom mem : A → B) (n : A) (hn : n ≠ 0#16) :
    Steps (copy51 base start len) ⟨r2, r3, r4, r5, loB n, hiB n, a, dpl, dph, c, x, z, 6, rom, mem⟩ ⟨r2, r3, r4, r5, loB n, hiB n, a, dpl, dph, false, x, z, 9, rom, mem⟩ := by
  by_cases hl : loB n = 0#8
  · have hh : ¬ hiB n = 0#8 := fun h => hn ((split_zero n).1 ⟨hl, h⟩)
    refine .next _ ⟨r2, r3, r4, r5, loB n, hiB n, a, dpl, dph, false, x, z, 7, rom, mem⟩ _ (congrArg some (sel_true hl _ _)) ?_
    exact .one (congrArg some (sel_false hh _ _))
  · exact .one (congrArg some (sel_false hl _ _))

theorem copy51_body (base start len : A) (a dpl dph : B) (x : A) (z : Bool) (rom mem : A → B) (n b d : A) :
    ∃ (a' dpl' dph' : B) (c' : Bool), Steps (copy51 base start len) ⟨loB b, hiB b, loB d, hiB d, loB n, hiB n, a, dpl, dph, false, x, z, 9, rom, mem⟩
      ⟨loB (b + 1#16), hiB (b + 1#16), loB (d + 1#16), hiB (d + 1#16), loB (n - 1#16), hiB (n - 1#16), a', dpl', dph', c', x, z, 6, rom, put mem d (rom b)⟩ := by
  refine ⟨hiB n - 0#8 - (if decide ((loB n).toNat < (1#8).toNat + (if false then 1 else 0)) then 1#8 else 0#8), loB (join (hiB d) (loB d) + 1#16), hiB (join (hiB d) (loB d) + 1#16),
    decide ((hiB n).toNat < (0#8).toNat + (if decide ((loB n).toNat < (1#8).toNat + (if false then 1 else 0)) then 1 else 0)), ?_⟩
  rw [← sub_lo n, ← sub_hi n]
  have e := join_split d
  have eb := join_split b
  have ez : join (hiB b) (loB b) + (0#8).setWidth 16 = b := by rw [eb]; exact BitVec.add_zero b
  have f : put mem d (rom b) = put mem (join (hiB d) (loB d)) (rom (join (hiB b) (loB b) + (0#8).setWidth 16)) := by rw [e, ez]
  have g1 : loB (d + 1#16) = loB (join (hiB d) (loB d) + 1#16) := by rw [e]
  have g2 : hiB (d + 1#16) = hiB (join (hiB d) (loB d) + 1#16) := by rw [e]
  have g3 : loB (b + 1#16) = loB (join (hiB b) (loB b) + 1#16) := by rw [eb]
  have g4 : hiB (b + 1#16) = hiB (join (hiB b) (loB b) + 1#16) := by rw [eb]
  rw [f, g1, g2, g3, g4]
  exact steps_after _ 21 _ _ rfl

theorem copy51_loop (base start len : A) (rom ram : A → B) :
    ∀ (r n : Nat) (s : St), n + r = len.toNat → s.pc = 6 → s.r6 = loB (BitVec.ofNat 16 r) → s.r7 = hiB (BitVec.ofNat 16 r) →
      s.r2 = loB (base + BitVec.ofNat 16 n) → s.r3 = hiB (base + BitVec.ofNat 16 n) → s.r4 = loB (start + BitVec.ofNat 16 n) → s.r5 = hiB (start + BitVec.ofNat 16 n) →
      s.rom = rom → s.ram = filled ram start (fun o => rom (base + o)) 0 n →
      ∃ s', Steps (copy51 base start len) s s' ∧ s'.pc = 30 ∧ s'.rom = rom ∧ s'.ram = filled ram start (fun o => rom (base + o)) 0 len.toNat := by
  intro r
  induction r with
  | zero =>
    intro n ⟨r2, r3, r4, r5, r6, r7, a, dpl, dph, c, x, z, pc, rom', mem⟩ hn h1 h6 h7 _ _ _ _ hr h3
    cases h1; cases h6; cases h7; cases hr
    have h3 : mem = _ := h3
    rw [show n = len.toNat by omega] at h3
    refine ⟨⟨r2, r3, r4, r5, loB (BitVec.ofNat 16 0), hiB (BitVec.ofNat 16 0), a, dpl, dph, false, x, z, 30, rom', mem⟩, ?_, rfl, rfl, h3⟩
    refine .next _ ⟨r2, r3, r4, r5, loB (BitVec.ofNat 16 0), hiB (BitVec.ofNat 16 0), a, dpl, dph, false, x, z, 7, rom', mem⟩ _
      (congrArg some (sel_true (show loB (BitVec.ofNat 16 0) = 0#8 by decide) _ _)) ?_
    refine .next _ ⟨r2, r3, r4, r5, loB (BitVec.ofNat 16 0), hiB (BitVec.ofNat 16 0), a, dpl, dph, false, x, z, 8, rom', mem⟩ _
      (congrArg some (sel_true (show hiB (BitVec.ofNat 16 0) = 0#8 by decide) _ _)) ?_
    exact .one rfl
  | succ r ih =>
    intro n ⟨r2, r3, r4, r5, r6, r7, a, dpl, dph, c, x, z, pc, rom', mem⟩ hn h1 h6 h7 k2 k3 k4 k5 hr h3
    have hl := len.isLt
    cases h1; cases h6; cases h7; cases k2; cases k3; cases k4; cases k5; cases hr
    have h3 : mem = _ := h3
    have ne : BitVec.ofNat 16 (r + 1) ≠ 0#16 := by
      intro c2
      have := congrArg BitVec.toNat c2
      simp only [BitVec.toNat_ofNat] at this
      omega
    have ec : BitVec.ofNat 16 (r + 1) - 1#16 = BitVec.ofNat 16 r := by
      apply BitVec.eq_of_toNat_eq; rw [BitVec.toNat_sub]; simp only [BitVec.toNat_ofNat]; omega
    have ed : start + BitVec.ofNat 16 n + 1#16 = start + BitVec.ofNat 16 (n + 1) := by bv_omega
    have eb : base + BitVec.ofNat 16 n + 1#16 = base + BitVec.ofNat 16 (n + 1) := by bv_omega
    have wr : put mem (start + BitVec.ofNat 16 n) (rom' (base + BitVec.ofNat 16 n)) = filled ram start (fun o => rom' (base + o)) 0 (n + 1) := by
      rw [h3]
      exact filled_up ram start (fun o => rom' (base + o)) n (by omega)
    obtain ⟨a', dpl', dph', c', sb⟩ := copy51_body base start len a dpl dph x z rom' mem (BitVec.ofNat 16 (r + 1)) (base + BitVec.ofNat 16 n) (start + BitVec.ofNat 16 n)
    rw [ec, ed, eb] at sb
    obtain ⟨s', st, o1, o2, o3⟩ := ih (n + 1) ⟨loB (base + BitVec.ofNat 16 (n + 1)), hiB (base + BitVec.ofNat 16 (n + 1)), loB (start + BitVec.ofNat 16 (n + 1)), hiB (start + BitVec.ofNat 16 (n + 1)), loB (BitVec.ofNat 16 r), hiB (BitVec.ofNat 16 r), a', dpl', dph', c', x, z, 6, rom', put mem (start + BitVec.ofNat 16 n) (rom' (base + BitVec.ofNat 16 n))⟩
      (by omega) rfl rfl rfl rfl rfl rfl rfl rfl wr
    exact ⟨s', Steps.trans (copy51_enter base start len _ _ _ _ _ _ _ _ _ _ _ _ _ ne) (Steps.trans sb st), o1, o2, o3⟩

theorem i8051_copy (base start len : A) (rom ram : A → B) : Runs (copy51 base start len) rom ram (filled ram start (fun o => rom (base + o)) 0 len.toNat) := by
  intro ⟨r2, r3, r4, r5, r6, r7, a, dpl, dph, c, x, z, pc, rom', mem⟩ ⟨h1, h2, h3⟩
  cases h1; cases h2; cases h3
  have zb : base + BitVec.ofNat 16 0 = base := by bv_omega
  have zs : start + BitVec.ofNat 16 0 = start := by bv_omega
  obtain ⟨s', st, o1, o2, o3⟩ := copy51_loop base start len rom' mem len.toNat 0 ⟨loB base, hiB base, loB start, hiB start, loB len, hiB len, a, dpl, dph, c, x, z, 6, rom', mem⟩
    (Nat.zero_add _) rfl (by rw [x_eq]) (by rw [x_eq]) (by rw [zb]) (by rw [zb]) (by rw [zs]) (by rw [zs]) rfl (filled_none _ _ _ _).symm
  exact ⟨s', Steps.trans (steps_after _ 6 _ _ rfl) st, o1, o2, o3⟩

/-! ### the startup -/

theorem zero_runs (k : Mach) (start len : A) (rom ram : A → B) : Runs (zero k start len) rom ram (filled ram start (fun _ => 0#8) 0 len.toNat) := by
  cases k
  · exact i8051_zero start len rom ram
  · exact stm8_zero start len rom ram
  · exact hcs08_zero start len rom ram

theorem copy_runs (k : Mach) (base start len : A) (rom ram : A → B) (hd : k ≠ .i8051 → ∀ x, Within start len x → Within base len x → False) :
    Runs (copy k base start len) rom ram (filled ram start (fun o => source k rom ram (base + o)) 0 len.toNat) := by
  cases k
  · exact i8051_copy base start len rom ram
  · exact stm8_copy base start len rom ram (hd (by decide))
  · exact hcs08_copy base start len rom ram (hd (by decide))

theorem run_unique (code : List I) (rom ram ram' : A → B) (h : Runs code rom ram ram') (s s' : St) (hb : Begin rom ram s) (st : Steps code s s') (hp : s'.pc = code.length) :
    s'.rom = rom ∧ s'.ram = ram' := by
  obtain ⟨t, st', p, q, r⟩ := h s hb
  have := Steps.det st st' (stuck _ _ hp) (stuck _ _ p)
  subst this
  exact ⟨q, r⟩

/-- **C98, 8051, STM8, HCS08**: whatever was in the memory and in the registers, the startup ends and, at main(), every byte of
the zero section is 0, every byte of the data section is its initialiser, and every other byte is as it was. -/
theorem boot_right (k : Mach) (l : Layout) (hp : Placed k l) (rom ram : A → B) :
    Ends (startup k l) rom ram ∧
    ∀ ram', Boot (startup k l) rom ram ram' →
      (∀ x, Within l.zero l.zeroLen x → ram' x = 0#8) ∧
      (∀ o : A, o.toNat < l.len.toNat → ram' (l.data + o) = source k rom ram (l.init + o)) ∧
      (∀ x, ¬ Within l.zero l.zeroLen x → ¬ Within l.data l.len x → ram' x = ram x) := by
  have hz := zero_runs k l.zero l.zeroLen rom ram
  have hc := fun r => copy_runs k l.init l.data l.len rom r hp.dataInit
  constructor
  · intro s hs
    obtain ⟨s1, st, p, q, r⟩ := hz s hs
    refine ⟨s1, st, p, fun s2 hs2 => ?_⟩
    rw [q] at hs2
    obtain ⟨s3, st3, p3, _, _⟩ := hc s1.ram s2 hs2
    exact ⟨s3, st3, p3, trivial⟩
  · intro ram' hb
    obtain ⟨⟩ | ⟨_, _, _, _, _, s, s1, b1, st1, p1, hb2⟩ := hb
    obtain ⟨q1, r1⟩ := run_unique _ _ _ _ hz s s1 b1 st1 p1
    obtain ⟨⟩ | ⟨_, _, _, _, _, s2, s3, b2, st2, p2, hb3⟩ := hb2
    rw [q1] at b2
    obtain ⟨q2, r2⟩ := run_unique _ _ _ _ (hc s1.ram) s2 s3 b2 st2 p2
    obtain ⟨⟩ := hb3
    rw [r2]
    refine ⟨?_, ?_, ?_⟩
    · intro x hx
      rw [filled_out _ _ _ _ _ _ (fun c => hp.apart x hx c), r1]
      unfold filled
      rw [if_pos ⟨Nat.zero_le _, hx⟩]
    · intro o ho
      have eo : l.data + o - l.data = o := by bv_omega
      unfold filled
      rw [eo, if_pos ⟨Nat.zero_le _, ho⟩]
      cases k
      · rfl
      all_goals
        show s1.ram (l.init + o) = ram (l.init + o)
        rw [r1]
        apply filled_out
        intro c
        refine hp.zeroInit (by decide) (l.init + o) c ?_
        show (l.init + o - l.init).toNat < l.len.toNat
        rw [show l.init + o - l.init = o by bv_omega]; exact ho
    · intro x hx hd
      rw [filled_out _ _ _ _ _ _ hd, r1]
      exact filled_out _ _ _ _ _ _ hx

/-- a layout: 5 bytes to clear, 3 with initialisers -/
def sample : Layout := ⟨0x100#16, 5#16, 0x105#16, 0x8000#16, 3#16⟩

theorem sample_placed (k : Mach) : Placed k sample := by
  refine ⟨fun x => ?_, fun _ x => ?_, fun _ x => ?_⟩ <;>
  · show (x - _).toNat < _ → (x - _).toNat < _ → False
    simp only [sample, BitVec.toNat_sub, BitVec.toNat_ofNat]
    have := x.isLt
    omega

/-- such a run exists -/
theorem boots (k : Mach) (l : Layout) (hp : Placed k l) (rom ram : A → B) : ∃ ram', Boot (startup k l) rom ram ram' := by
  let s0 : (A → B) → St := fun m => ⟨0, 0, 0, 0, 0, 0, 0, 0, 0, false, 0, false, 0, rom, m⟩
  obtain ⟨s1, st, p, q, _⟩ := zero_runs k l.zero l.zeroLen rom ram (s0 ram) ⟨rfl, rfl, rfl⟩
  obtain ⟨s3, st3, p3, _, _⟩ := copy_runs k l.init l.data l.len rom s1.ram hp.dataInit (s0 s1.ram) ⟨rfl, rfl, rfl⟩
  exact ⟨s3.ram, .use _ _ _ _ _ _ _ ⟨rfl, rfl, rfl⟩ st p (.use _ _ _ _ _ (s0 s1.ram) s3 ⟨rfl, q.symm, rfl⟩ st3 p3 (.done _ _))⟩

end Pico.Startup8
