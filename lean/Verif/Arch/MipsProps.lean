import Verif.Arch.Mips
/-
Properties of the context switch of the MIPS port.
-/
namespace Pico.Ctx.Mips
open Pico.Ctx M

/-- everything a task can see, except the two registers the port loses -/
def kept (dsp : Bool) (r : M) : Bool := visible dsp r && r != s6 && r != «at»

theorem swap_eff (x : St M) :
    (run swapStack x).mem = x.mem ∧ (run swapStack x).reg sp = x.reg kscratch ∧
    (run swapStack x).reg kscratch = x.reg sp ∧
    ∀ r, r ≠ sp → r ≠ kscratch → r ≠ «at» → (run swapStack x).reg r = x.reg r := by
  simp only [swapStack]
  rw [run_cons _ _ _ rfl, run_cons _ _ _ rfl, run_cons _ _ _ rfl, run_nil]
  simp only [exec]
  refine ⟨trivial, by simp [upd], by simp [upd], fun r h1 h2 h3 => by simp [upd, h1, h2, h3]⟩

/-- where each register is in the frame -/
def off : M → W
  | lo1 => 116 | hi1 => 120 | lo2 => 124 | hi2 => 128 | lo3 => 132 | hi3 => 136
  | pc => 112
  | r => (lastOff (cpuSaved ++ spcSaved) r).getD 0

theorem save_straight (dsp : Bool) : (save dsp).all (fun i => !i.isBr) = true := by
  cases dsp <;> decide

/-- SAVE_CONTEXT -/
theorem save_eff (dsp : Bool) (x : St M) :
    (run (save dsp) x).reg sp = x.reg kscratch ∧ (run (save dsp) x).reg kscratch = x.reg sp - size dsp ∧
    (∀ r, r ≠ sp → r ≠ kscratch → r ≠ «at» → (run (save dsp) x).reg r = x.reg r) ∧
    (∀ r, kept dsp r = true → r ≠ sp → r ≠ pc → (run (save dsp) x).mem (x.reg sp - size dsp + off r) = x.reg r) ∧
    (run (save dsp) x).mem (x.reg sp - size dsp + 112) = x.reg epc ∧
    ∀ a, ¬ (a - (x.reg sp - size dsp)).toNat < (size dsp).toNat → (run (save dsp) x).mem a = x.mem a := by
  -- the CPU block and the swap, from the stack pointer left by the DSP block
  have cpu : ∀ z : St M,
      let y := run (saveBlk «at» sp 116 cpuSaved spcSaved ++ swapStack) z
      y.reg sp = z.reg kscratch ∧ y.reg kscratch = z.reg sp - 116 ∧
      (∀ r, r ≠ sp → r ≠ kscratch → r ≠ «at» → y.reg r = z.reg r) ∧
      (∀ a, y.mem a = match lastReg (cpuSaved ++ spcSaved) (a - (z.reg sp - 116)) with
        | some r => z.reg r
        | none => z.mem a) := by
    intro z
    simp only []
    rw [run_append _ _ _ (saveBlk_straight _ _ _ _ _)]
    obtain ⟨b1, b2, b3⟩ := saveBlk_eff «at» sp 116 cpuSaved spcSaved z (by decide) (by decide)
    generalize run (saveBlk «at» sp 116 cpuSaved spcSaved) z = w at *
    obtain ⟨w1, w2, w3, w4⟩ := swap_eff w
    refine ⟨?_, ?_, ?_, ?_⟩
    · rw [w2, b2 _ (by decide) (by decide)]
    · rw [w3, b1]
    · intro r h1 h2 h3
      rw [w4 r h1 h2 h3, b2 r h1 h3]
    · intro a
      rw [w1, b3]
      cases lastReg (cpuSaved ++ spcSaved) (a - (z.reg sp - 116)) <;> rfl
  cases dsp with
  | false =>
    obtain ⟨c1, c2, c3, c4⟩ := cpu x
    have e : run (save false) x = run (saveBlk «at» sp 116 cpuSaved spcSaved ++ swapStack) x := rfl
    rw [e]
    refine ⟨c1, c2, c3, ?_, ?_, ?_⟩
    · intro r hk h1 h2
      rw [c4, show x.reg sp - size false + off r - (x.reg sp - 116) = off r by
        show x.reg sp - 116 + off r - (x.reg sp - 116) = off r; grind]
      cases r <;> first | exact absurd hk (by decide) | exact absurd rfl h1 | exact absurd rfl h2 | rfl
    · rw [c4, show x.reg sp - size false + 112 - (x.reg sp - 116) = 112 by
        show x.reg sp - 116 + 112 - (x.reg sp - 116) = 112; grind]
      rfl
    · intro a ha
      have ha' : ¬ (a - (x.reg sp - 116)).toNat < 116 := ha
      rw [c4, lastReg_none (by decide) ha']
  | true =>
    obtain ⟨b1, b2, b3⟩ := saveBlk_eff «at» sp 24 [] dspSaved x (by decide) (by decide)
    have e : run (save true) x = run (saveBlk «at» sp 116 cpuSaved spcSaved ++ swapStack)
      (run (saveBlk «at» sp 24 [] dspSaved) x) := run_append _ _ _ (saveBlk_straight _ _ _ _ _)
    rw [e]
    generalize run (saveBlk «at» sp 24 [] dspSaved) x = z at *
    obtain ⟨c1, c2, c3, c4⟩ := cpu z
    generalize run (saveBlk «at» sp 116 cpuSaved spcSaved ++ swapStack) z = y at *
    have hs : z.reg sp - 116 = x.reg sp - 140 := by rw [b1]; grind
    rw [hs] at c2 c4
    have hsz : size true = 140 := rfl
    rw [hsz]
    refine ⟨?_, c2, ?_, ?_, ?_, ?_⟩
    · rw [c1, b2 _ (by decide) (by decide)]
    · intro r h1 h2 h3
      rw [c3 r h1 h2 h3, b2 r h1 h3]
    · intro r hk h1 h2
      rw [c4, show x.reg sp - 140 + off r - (x.reg sp - 140) = off r by grind]
      by_cases hd : r ∈ [lo1, hi1, lo2, hi2, lo3, hi3]
      · have hn : lastReg (cpuSaved ++ spcSaved) (off r) = none := by
          cases r <;> first | exact absurd hd (by decide) | rfl
        rw [hn]
        simp only []
        rw [b3, show x.reg sp - 140 + off r - (x.reg sp - 24) = off r - 116 by grind]
        cases r <;> first | exact absurd hd (by decide) | rfl
      · have hn : lastReg (cpuSaved ++ spcSaved) (off r) = some r := by
          cases r <;> first | exact absurd hk (by decide) | exact absurd rfl h1 | exact absurd rfl h2 |
            exact absurd hd (by decide) | rfl
        rw [hn]
        simp only []
        refine b2 r h1 ?_
        rintro rfl; exact absurd hk (by decide)
    · rw [c4, show x.reg sp - 140 + 112 - (x.reg sp - 140) = 112 by grind]
      exact b2 epc (by decide) (by decide)
    · intro a ha
      have ha' : ¬ (a - (x.reg sp - 140)).toNat < 140 := ha
      have h1 : ¬ (a - (x.reg sp - 140)).toNat < 116 := by omega
      have h2 : ¬ (a - (x.reg sp - 24)).toNat < 24 := by
        intro hc
        apply ha'
        have : a - (x.reg sp - 140) = (a - (x.reg sp - 24)) + 116 := by grind
        rw [this, BitVec.toNat_add, show (116 : W).toNat = 116 from rfl]
        omega
      rw [c4, lastReg_none (by decide) h1]
      simp only []
      rw [b3, lastReg_none (by decide) h2]

/-- RESTORE_CONTEXT -/
theorem restore_eff (dsp : Bool) (x : St M) :
    (run (restore dsp) x).mem = x.mem ∧ (run (restore dsp) x).reg sp = x.reg kscratch + size dsp ∧
    (run (restore dsp) x).reg kscratch = x.reg sp ∧
    (run (restore dsp) x).reg epc = x.mem (x.reg kscratch + 112) ∧
    (∀ r, kept dsp r = true → r ≠ sp → r ≠ pc → (run (restore dsp) x).reg r = x.mem (x.reg kscratch + off r)) ∧
    (run (restore dsp) x).reg s6 = x.reg s6 ∧ (run (restore dsp) x).reg ie = x.reg ie := by
  have e : run (restore dsp) x = run (restBlk «at» sp 116 cpuLoaded spcLoaded ++
      (if dsp then restBlk «at» sp 24 [] dspLoaded else [])) (run swapStack x) := run_append _ _ _ (by decide)
  rw [e, run_append _ _ _ (restBlk_straight _ _ _ _ _)]
  clear e
  obtain ⟨w1, w2, w3, w4⟩ := swap_eff x
  generalize run swapStack x = w at *
  obtain ⟨b1, b2, b3⟩ := restBlk_eff «at» sp 116 cpuLoaded spcLoaded w (by decide) (by decide) (by decide)
  generalize run (restBlk «at» sp 116 cpuLoaded spcLoaded) w = z at *
  cases dsp with
  | false =>
    simp only [Bool.false_eq_true, if_false, run_nil]
    refine ⟨by rw [b1, w1], by rw [b2, w2]; rfl, ?_, ?_, ?_, ?_, ?_⟩
    · exact (b3 kscratch (by decide) (by decide)).trans w3
    · rw [b3 epc (by decide) (by decide), show lastOff (cpuLoaded ++ spcLoaded) epc = some 112 by decide]
      simp only []; rw [w1, w2]
    · intro r hk h1 h2
      have ha : r ≠ «at» := by rintro rfl; exact absurd hk (by decide)
      have hl : lastOff (cpuLoaded ++ spcLoaded) r = some (off r) := by
        cases r <;> first | exact absurd hk (by decide) | exact absurd rfl h1 | exact absurd rfl h2 | rfl
      rw [b3 r h1 ha, hl]
      simp only []; rw [w1, w2]
    · exact (b3 s6 (by decide) (by decide)).trans (w4 s6 (by decide) (by decide) (by decide))
    · exact (b3 ie (by decide) (by decide)).trans (w4 ie (by decide) (by decide) (by decide))
  | true =>
    simp only [if_true]
    obtain ⟨d1, d2, d3⟩ := restBlk_eff «at» sp 24 [] dspLoaded z (by decide) (by decide) (by decide)
    generalize run (restBlk «at» sp 24 [] dspLoaded) z = y at *
    have hsp : z.reg sp = x.reg kscratch + 116 := by rw [b2, w2]
    refine ⟨by rw [d1, b1, w1], ?_, ?_, ?_, ?_, ?_, ?_⟩
    · rw [d2, hsp]; show x.reg kscratch + 116 + 24 = x.reg kscratch + 140; grind
    · exact (d3 kscratch (by decide) (by decide)).trans ((b3 kscratch (by decide) (by decide)).trans w3)
    · have := b3 epc (by decide) (by decide)
      rw [show lastOff (cpuLoaded ++ spcLoaded) epc = some 112 by decide] at this
      simp only [] at this
      rw [w1, w2] at this
      exact (d3 epc (by decide) (by decide)).trans this
    · intro r hk h1 h2
      have ha : r ≠ «at» := by rintro rfl; exact absurd hk (by decide)
      by_cases hd : r ∈ [lo1, hi1, lo2, hi2, lo3, hi3]
      · have hl : lastOff ([] ++ dspLoaded) r = some (off r - 116) := by
          cases r <;> first | exact absurd hd (by decide) | rfl
        rw [d3 r h1 ha, hl]
        simp only []
        rw [b1, w1, hsp]
        congr 1
        grind
      · have hl2 : lastOff ([] ++ dspLoaded) r = none := by
          cases r <;> first | exact absurd hk (by decide) | exact absurd rfl h1 | exact absurd rfl h2 |
            exact absurd (by decide) hd | rfl
        have hl : lastOff (cpuLoaded ++ spcLoaded) r = some (off r) := by
          cases r <;> first | exact absurd hk (by decide) | exact absurd rfl h1 | exact absurd rfl h2 |
            exact absurd (by decide) hd | rfl
        rw [d3 r h1 ha, hl2]
        simp only []
        rw [b3 r h1 ha, hl]
        simp only []; rw [w1, w2]
    · exact (d3 s6 (by decide) (by decide)).trans ((b3 s6 (by decide) (by decide)).trans
        (w4 s6 (by decide) (by decide) (by decide)))
    · exact (d3 ie (by decide) (by decide)).trans ((b3 ie (by decide) (by decide)).trans
        (w4 ie (by decide) (by decide) (by decide)))

/-! ### Entering and leaving -/

theorem trap_reg (code : W) (s : St M) : (trap code s).mem = s.mem ∧ (trap code s).reg epc = s.reg pc ∧
    (trap code s).reg cause = code <<< 2 ∧ (trap code s).reg exl = 1 ∧
    ∀ r, r ≠ epc → r ≠ cause → r ≠ exl → r ≠ pc → (trap code s).reg r = s.reg r := by
  refine ⟨rfl, ?_, ?_, ?_, ?_⟩
  · simp [trap, upd]
  · simp [trap, upd]
  · simp [trap, upd]
  · intro r h1 h2 h3 h4
    simp [trap, upd, h1, h2, h3, h4]

/-- trap entry followed by SAVE_CONTEXT, up to the stack pointer handed to C -/
theorem trapped_eff (dsp : Bool) (code : W) (s : St M) :
    (run (save dsp) (trap code s)).reg sp = s.reg kscratch ∧
    (run (save dsp) (trap code s)).reg kscratch = s.reg sp - size dsp ∧
    (run (save dsp) (trap code s)).reg cause = code <<< 2 ∧
    (run (save dsp) (trap code s)).reg epc = s.reg pc ∧
    (run (save dsp) (trap code s)).reg exl = 1 ∧
    (∀ r, kept dsp r = true → r ≠ sp → r ≠ pc →
      (run (save dsp) (trap code s)).mem (s.reg sp - size dsp + off r) = s.reg r) ∧
    (run (save dsp) (trap code s)).mem (s.reg sp - size dsp + 112) = s.reg pc ∧
    ∀ a, ¬ (a - (s.reg sp - size dsp)).toNat < (size dsp).toNat → (run (save dsp) (trap code s)).mem a = s.mem a := by
  obtain ⟨t1, t2, t3, t4, t5⟩ := trap_reg code s
  obtain ⟨e1, e2, e3, e4, e5, e6⟩ := save_eff dsp (trap code s)
  rw [t5 sp (by decide) (by decide) (by decide) (by decide)] at e2 e4 e5 e6
  rw [t5 kscratch (by decide) (by decide) (by decide) (by decide)] at e1
  refine ⟨e1, e2, ?_, ?_, ?_, ?_, ?_, ?_⟩
  · rw [e3 _ (by decide) (by decide) (by decide), t3]
  · rw [e3 _ (by decide) (by decide) (by decide), t2]
  · rw [e3 _ (by decide) (by decide) (by decide), t4]
  · intro r hk h1 h2
    rw [e4 r hk h1 h2]
    refine t5 r ?_ ?_ ?_ h2 <;> (rintro rfl; revert hk; cases dsp <;> decide)
  · rw [e5, t2]
  · intro a ha
    rw [e6 a ha, t1]

theorem fish_eff (y : St M) (h v p0 q : W) (hc : y.reg cause = 32#32) (h1 : y.reg kscratch = h)
    (h2 : y.mem (h + 8#32) = v) (h3 : y.mem (h + 12#32) = q) (h4 : y.reg epc = p0) :
    run [Op.mv «at» cause, .ext «at» «at» 2 5, .li t0 8, .bne «at» t0 6,
      .mv a0 kscratch, .lw a1 a0 8, .lw a2 a0 12, .mv «at» epc, .addi «at» «at» 4, .sw «at» a0 112] y =
    { reg := upd (upd (upd (upd (upd y.reg t0 8) a0 h) a1 v) a2 q) «at» (p0 + 4),
      mem := upd y.mem (h + 112) (p0 + 4) } := by
  have hne : (32#32 >>> 2) &&& BitVec.ofNat 32 (2 ^ 5 - 1) = 8#32 := by decide
  have hne' : (32#32 >>> 2) &&& 31#32 = 8#32 := by decide
  simp [run, runFrom, skips, exec, upd_same, upd_ne, hc, h1, hne', h2, h3, h4]
  funext r
  cases r <;> simp [upd]

/-- the state in which C is called -/
theorem enter_eff (dsp : Bool) (k : Kind) (s : St M) :
    (enter dsp k s).reg a0 = s.reg sp - size dsp ∧ (enter dsp k s).reg sp = s.reg kscratch ∧
    (enter dsp k s).reg exl = 1 ∧
    (∀ r, kept dsp r = true → r ≠ sp → r ≠ pc →
      (enter dsp k s).mem (s.reg sp - size dsp + off r) = s.reg r) ∧
    (enter dsp k s).mem (s.reg sp - size dsp + 112) = (match k with | .tick => s.reg pc | .syscall => s.reg pc + 4) ∧
    (∀ a, ¬ (a - (s.reg sp - size dsp)).toNat < (size dsp).toNat → (enter dsp k s).mem a = s.mem a) ∧
    (k = .syscall → (enter dsp k s).reg a1 = s.reg a0 ∧ (enter dsp k s).reg a2 = s.reg a1) := by
  cases k with
  | tick =>
    have e : enter dsp .tick s = run [.mv a0 kscratch] (run (save dsp) (trap 0 s)) :=
      run_append _ _ _ (save_straight dsp)
    rw [e]
    obtain ⟨e1, e2, -, -, e5, e6, e7, e8⟩ := trapped_eff dsp 0 s
    generalize run (save dsp) (trap 0 s) = y at *
    have hrun : run [Op.mv a0 kscratch] y = { y with reg := upd y.reg a0 (y.reg kscratch) } := rfl
    rw [hrun]
    simp only []
    rw [upd_same, upd_ne _ _ (by decide), upd_ne _ _ (by decide)]
    exact ⟨e2, e1, e5, e6, e7, e8, fun h => nomatch h⟩
  | syscall =>
    have e : enter dsp .syscall s = run _ (run (save dsp) (trap 8 s)) :=
      run_append _ _ _ (save_straight dsp)
    rw [e]
    clear e
    obtain ⟨e1, e2, e3, e4, e5, e6, e7, e8⟩ := trapped_eff dsp 8 s
    generalize run (save dsp) (trap 8 s) = y at *
    have g1 := e6 a0 (by cases dsp <;> decide) (by decide) (by decide)
    have g2 := e6 a1 (by cases dsp <;> decide) (by decide) (by decide)
    rw [fish_eff y (s.reg sp - size dsp) (s.reg a0) (s.reg pc) (s.reg a1) (by rw [e3]; decide) e2 g1 g2 e4]
    simp only []
    have n1 : ∀ o : W, o ≠ 112 → s.reg sp - size dsp + o ≠ s.reg sp - size dsp + 112 := by
      intro o ho h; apply ho; grind
    refine ⟨?_, ?_, ?_, ?_, ?_, ?_, fun _ => ⟨?_, ?_⟩⟩
    · rw [upd_ne _ _ (by decide), upd_ne _ _ (by decide), upd_ne _ _ (by decide), upd_same]
    · rw [upd_ne _ _ (by decide), upd_ne _ _ (by decide), upd_ne _ _ (by decide), upd_ne _ _ (by decide),
        upd_ne _ _ (by decide), e1]
    · rw [upd_ne _ _ (by decide), upd_ne _ _ (by decide), upd_ne _ _ (by decide), upd_ne _ _ (by decide),
        upd_ne _ _ (by decide), e5]
    · intro r hk h1 h2
      rw [upd_ne _ _ (n1 _ ?_), e6 r hk h1 h2]
      revert hk
      cases dsp <;> cases r <;> first | exact absurd rfl h2 | decide
    · rw [upd_same]
    · intro a ha
      rw [upd_ne, e8 a ha]
      intro h
      apply ha
      rw [h, show s.reg sp - size dsp + 112 - (s.reg sp - size dsp) = 112 by grind]
      cases dsp <;> decide
    · rw [upd_ne _ _ (by decide), upd_ne _ _ (by decide), upd_same]
    · rw [upd_ne _ _ (by decide), upd_same]

theorem eret_reg (x : St M) : (eret x).mem = x.mem ∧ (eret x).reg pc = x.reg epc ∧ (eret x).reg exl = 0 ∧
    ∀ r, r ≠ pc → r ≠ exl → (eret x).reg r = x.reg r := by
  refine ⟨rfl, by simp [eret, upd], by simp [eret, upd], fun r h1 h2 => by simp [eret, upd, h1, h2]⟩

/-- the state from which RESTORE_CONTEXT starts -/
theorem before_restore (dsp : Bool) (period : W) (ack : St M → St M) (dev : W → Prop) (hack : AckOk ack dev)
    (k : Kind) (e : St M) :
    ∃ z, leave dsp period ack k e = eret (run (restore dsp) z) ∧ z.reg kscratch = e.reg v0 ∧
      z.reg sp = e.reg sp ∧ z.reg ie = e.reg ie ∧ ∀ a, ¬ dev a → z.mem a = e.mem a := by
  cases k with
  | tick =>
    refine ⟨_, rfl, ?_⟩
    obtain ⟨a1, a2, a4, a3⟩ := hack (run (.mv kscratch v0 :: incCompare period) e)
    rw [a1, a2, a4]
    have hr : ∀ r, r ≠ kscratch → r ≠ t0 → r ≠ t1 → r ≠ cmpr →
        (run (.mv kscratch v0 :: incCompare period) e).reg r = e.reg r := by
      intro r h1 h2 h3 h4
      simp only [incCompare]
      rw [run_cons _ _ _ rfl, run_cons _ _ _ rfl, run_cons _ _ _ rfl, run_cons _ _ _ rfl, run_cons _ _ _ rfl,
        run_cons _ _ _ rfl, run_nil]
      simp only [exec, upd_ne _ _ h1, upd_ne _ _ h2, upd_ne _ _ h3, upd_ne _ _ h4]
    refine ⟨?_, hr sp (by decide) (by decide) (by decide) (by decide),
      hr ie (by decide) (by decide) (by decide) (by decide), fun a ha => (a3 a ha).trans rfl⟩
    simp only [incCompare]
    rw [run_cons _ _ _ rfl, run_cons _ _ _ rfl, run_cons _ _ _ rfl, run_cons _ _ _ rfl, run_cons _ _ _ rfl,
      run_cons _ _ _ rfl, run_nil]
    simp [exec, upd]
  | syscall =>
    refine ⟨exec (.mv kscratch v0) e, ?_, by simp [exec, upd], by simp [exec, upd], by simp [exec, upd],
      fun a _ => rfl⟩
    simp only [leave]
    rw [run_cons _ _ _ rfl]

/-- **The MIPS port restores everything but `s6` and `at`**: its code has the effect of a frame-based
port on all the other registers. -/
theorem frameEff (dsp : Bool) (period : W) (ack : St M → St M) (dev : W → Prop) (hack : AckOk ack dev) :
    FrameEff (port dsp (kept dsp) period ack dev) (fun _ => True) (size dsp) (kept dsp) sp off where
  mem := rfl
  ctx := rfl
  frame := rfl
  off_lt := fun r hk h1 => by
    revert hk; cases dsp <;> cases r <;> first | exact absurd rfl h1 | decide
  resume_sp := fun k c => by cases k <;> rfl
  resume_hidden := fun k c r hv hc => by
    cases k with
    | tick => exact hc
    | syscall =>
      show upd c pc (c pc + 4) r = 0
      rw [upd_ne _ _ (by rintro rfl; revert hv; cases dsp <;> decide), hc]
  vis_sp := by cases dsp <;> rfl
  enter_arg := fun k s _ => (enter_eff dsp k s).1
  enter_cell := fun k s r _ hv hr _ => by
    obtain ⟨-, -, -, e4, e5, -, -⟩ := enter_eff dsp k s
    by_cases hp : r = pc
    · subst hp
      refine Eq.trans e5 ?_
      have hkp : kept dsp pc = true := by cases dsp <;> rfl
      cases k with
      | tick => show s.reg pc = if kept dsp pc = true then s.reg pc else 0; rw [if_pos hkp]
      | syscall =>
        show s.reg pc + 4 = upd (fun r => if kept dsp r = true then s.reg r else 0) pc
          ((if kept dsp pc = true then s.reg pc else 0) + 4) pc
        rw [upd_same, if_pos hkp]
    · refine (e4 r hv hr hp).trans ?_
      cases k with
      | tick => show s.reg r = if kept dsp r = true then s.reg r else 0; rw [if_pos hv]
      | syscall =>
        show s.reg r = upd (fun r => if kept dsp r = true then s.reg r else 0) pc _ r
        rw [upd_ne _ _ hp, if_pos hv]
  enter_out := fun k s a _ ha _ => (enter_eff dsp k s).2.2.2.2.2.1 a ha
  enter_csp := fun k s => (enter_eff dsp k s).2.1
  leave_sp := fun k e _ => by
    obtain ⟨z, hz, z1, z2, z4, z3⟩ := before_restore dsp period ack dev hack k e
    obtain ⟨r1, r2, r3, r4, r5, r6, r7⟩ := restore_eff dsp z
    show (leave dsp period ack k e).reg sp = e.reg v0 + size dsp
    rw [hz, (eret_reg _).2.2.2 _ (by decide) (by decide), r2, z1]
  leave_reg := fun k e r _ hv hr hio => by
    obtain ⟨z, hz, z1, z2, z4, z3⟩ := before_restore dsp period ack dev hack k e
    obtain ⟨r1, r2, r3, r4, r5, r6, r7⟩ := restore_eff dsp z
    have hio' : ∀ o : W, o.toNat < (size dsp).toNat → z.mem (e.reg v0 + o) = e.mem (e.reg v0 + o) := fun o ho =>
      z3 _ (hio _ (by
        show (e.reg v0 + o - e.reg v0).toNat < (size dsp).toNat
        rwa [show e.reg v0 + o - e.reg v0 = o by grind]))
    show (leave dsp period ack k e).reg r = e.mem (e.reg v0 + off r)
    rw [hz]
    by_cases hp : r = pc
    · subst hp
      rw [(eret_reg _).2.1, r4, z1]
      exact hio' 112 (by cases dsp <;> decide)
    · rw [(eret_reg _).2.2.2 r hp (by rintro rfl; revert hv; cases dsp <;> decide), r5 r hv hr hp, z1]
      refine hio' _ ?_
      revert hv; cases dsp <;> cases r <;> first | exact absurd rfl hr | decide
  leave_mem := fun k e a _ ha => by
    obtain ⟨z, hz, z1, z2, z4, z3⟩ := before_restore dsp period ack dev hack k e
    rw [show (port dsp (kept dsp) period ack dev).leave k e = leave dsp period ack k e from rfl, hz,
      (eret_reg _).1, (restore_eff dsp z).1]
    exact z3 a ha
  leave_ksp := fun k e _ => by
    obtain ⟨z, hz, z1, z2, z4, z3⟩ := before_restore dsp period ack dev hack k e
    show (leave dsp period ack k e).reg kscratch = e.reg sp
    rw [hz, (eret_reg _).2.2.2 _ (by decide) (by decide), (restore_eff dsp z).2.2.1, z2]

/-- **MIPS: switching tasks is invisible, except for `s6` and `at`.** Partial: see `s6_lost`, `at_lost`. -/
theorem mips_sound_partial (dsp : Bool) (period : W) (ack : St M → St M) (dev : W → Prop) (hack : AckOk ack dev) :
    (port dsp (kept dsp) period ack dev).Sound (fun _ => True) :=
  (frameEff dsp period ack dev hack).sound

/-- **`s6` is never given back**: after a switch by a system call, it holds whatever C (that is, the task
that ran in between, or the scheduler) left in it. -/
theorem s6_lost (dsp : Bool) (period : W) (ack : St M → St M) (e : St M) :
    (leave dsp period ack .syscall e).reg s6 = e.reg s6 := by
  simp only [leave]
  rw [run_cons _ _ _ rfl, (eret_reg _).2.2.2 _ (by decide) (by decide), (restore_eff dsp _).2.2.2.2.2.1]
  simp [exec, upd]

/-- **So switching tasks is not invisible on this port**, whatever the configuration. -/
theorem mips_not_sound (dsp : Bool) (period : W) (ack : St M → St M) (dev : W → Prop) (hdev : ∀ a, ¬ dev a) :
    ¬ (port dsp (visible dsp) period ack dev).Sound (fun _ => True) := by
  intro H
  have h := (H.restores .tick { reg := fun _ => 0, mem := fun _ => 0 } trivial fun a _ => hdev a).2 .syscall
  have key : ∀ v : W, v = 0 := by
    intro v
    have h' := h { (enter dsp .tick { reg := fun _ => 0, mem := fun _ => 0 }) with
      reg := upd (upd (enter dsp .tick { reg := fun _ => 0, mem := fun _ => 0 }).reg v0
        ((enter dsp .tick { reg := fun _ => 0, mem := fun _ => 0 }).reg a0)) s6 v } trivial rfl fun a _ => rfl
    have h'' := congrFun h' s6
    have e1 : (if visible dsp s6 = true then (leave dsp period ack .syscall
      { (enter dsp .tick { reg := fun _ => 0, mem := fun _ => 0 }) with
        reg := upd (upd (enter dsp .tick { reg := fun _ => 0, mem := fun _ => 0 }).reg v0
          ((enter dsp .tick { reg := fun _ => 0, mem := fun _ => 0 }).reg a0)) s6 v }).reg s6 else 0) =
        (if visible dsp s6 = true then (0 : W) else 0) := h''
    rw [if_pos (by cases dsp <;> rfl), if_pos (by cases dsp <;> rfl), s6_lost] at e1
    simpa [upd] using e1
  exact absurd (key 1) (by decide)

/-! ### `at` -/

/-- **`at` is never given back**: whatever it was when the task was interrupted, on return it holds the
address execution resumes at (without the DSP option; with it, the last accumulator). -/
theorem at_lost (period : W) (ack : St M → St M) (dev : W → Prop) (hack : AckOk ack dev) (k : Kind) (e : St M) :
    (leave false period ack k e).reg «at» = (leave false period ack k e).reg pc := by
  have key : ∀ w : St M, (run (restore false) w).reg «at» = (run (restore false) w).reg epc := by
    intro w
    have e : restore false = (swapStack ++ (lws sp cpuLoaded ++ lwsVia «at» sp [(lo, 104), (hi, 108)])) ++
      [.lw «at» sp 112, .mv epc «at», .addi sp sp 116] := rfl
    rw [e, run_append _ _ _ (by decide)]
    generalize run (swapStack ++ (lws sp cpuLoaded ++ lwsVia «at» sp [(lo, 104), (hi, 108)])) w = z
    rw [run_cons _ _ _ rfl, run_cons _ _ _ rfl, run_cons _ _ _ rfl, run_nil]
    simp [exec, upd]
  obtain ⟨z, hz, -⟩ := before_restore false period ack dev hack k e
  rw [hz, (eret_reg _).2.1, (eret_reg _).2.2.2 _ (by decide) (by decide), key]

end Pico.Ctx.Mips
