/-
The UART drivers (C83): character format, theorems.
-/
import Verif.Drivers.UartFmt
namespace Pico.UartFmt

/-- masks keep the other bits -/
theorem keep_and {w : Nat} (r m k : BitVec w) (h : m &&& k = k) : (r &&& m) &&& k = r &&& k := by rw [BitVec.and_assoc, h]
theorem keep_or {w : Nat} (r m k : BitVec w) (h : m &&& k = 0) : (r ||| m) &&& k = r &&& k := by
  rw [BitVec.and_comm, BitVec.and_or_distrib_left, BitVec.and_comm k m, h, BitVec.and_comm]
  exact BitVec.or_zero

/-- `uart_setup`: from what each setter does to what the whole does; `I` is an invariant the setters need -/
theorem setup_some {R : Type} (setCs setPar setStop : Nat → R → Option R) (fmt : R → Fmt) (I : R → Prop)
    (hcs : ∀ c r r', I r → c ≠ 0 → setCs c r = some r' → I r' ∧ fmt r' = { fmt r with data := c })
    (hpar : ∀ p r r', I r → setPar p r = some r' → I r' ∧ fmt r' = { fmt r with par := askedPar p })
    (hst : ∀ p r r', I r → setStop p r = some r' → I r' ∧ fmt r' = { fmt r with stop := askedStop p })
    (s : Settings) (r r' : R) (hI : I r) (h : setup setCs setPar setStop s r = some r') : I r' ∧ fmt r' = want s (fmt r) := by
  unfold setup at h
  have h1 : ∀ x, (if s.cs ≠ 0 then setCs s.cs r else some r) = some x → I x ∧ fmt x = { fmt r with data := if s.cs = 0 then (fmt r).data else s.cs } := by
    intro x hx
    by_cases hc : s.cs = 0
    · rw [if_neg (by simp [hc])] at hx; cases hx; simp [hc, hI]
    · rw [if_pos hc] at hx; rw [if_neg hc]; exact hcs _ _ _ hI hc hx
  split at h
  · cases h
  · rename_i x hx
    obtain ⟨i1, e1⟩ := h1 x hx
    have h2 : ∀ y, (if s.par ≠ 0 then setPar s.par x else some x) = some y → I y ∧ fmt y = { fmt x with par := if s.par = 0 then (fmt x).par else askedPar s.par } := by
      intro y hy
      by_cases hc : s.par = 0
      · rw [if_neg (by simp [hc])] at hy; cases hy; simp [hc, i1]
      · rw [if_pos hc] at hy; rw [if_neg hc]; exact hpar _ _ _ i1 hy
    split at h
    · cases h
    · rename_i y hy
      obtain ⟨i2, e2⟩ := h2 y hy
      by_cases hc : s.cstopb = 0
      · rw [if_neg (by simp [hc])] at h; cases h
        refine ⟨i2, ?_⟩
        rw [e2, e1, want, if_pos hc]
      · rw [if_pos hc] at h
        obtain ⟨i3, e3⟩ := hst _ _ _ i2 h
        refine ⟨i3, ?_⟩
        rw [e3, e2, e1, want, if_neg hc]

/-- `uart_setup` refuses what a setter refuses -/
theorem setup_none {R : Type} (setCs setPar setStop : Nat → R → Option R) (ok : Nat → Prop)
    (hcs : ∀ c r, c ≠ 0 → (setCs c r = none ↔ ¬ ok c)) (hpar : ∀ p r, setPar p r = none ↔ okPar p = false)
    (hst : ∀ p r, setStop p r = none ↔ okStop p = false) (s : Settings) (r : R) :
    setup setCs setPar setStop s r = none ↔ (s.cs ≠ 0 ∧ ¬ ok s.cs) ∨ 4 ≤ s.par ∨ 3 ≤ s.cstopb := by
  have p4 : okPar s.par = false ∧ s.par ≠ 0 ↔ 4 ≤ s.par := by
    unfold okPar; simp only [Bool.and_eq_false_iff, bne_eq_false_iff_eq, decide_eq_false_iff_not]; omega
  have s4 : okStop s.cstopb = false ∧ s.cstopb ≠ 0 ↔ 3 ≤ s.cstopb := by
    unfold okStop; simp only [Bool.and_eq_false_iff, bne_eq_false_iff_eq, decide_eq_false_iff_not]; omega
  have last : ∀ y, (if s.cstopb ≠ 0 then setStop s.cstopb y else some y) = none ↔ 3 ≤ s.cstopb := by
    intro y
    rw [← s4]
    by_cases hc : s.cstopb = 0
    · rw [if_neg (by simp [hc])]; simp [hc]
    · rw [if_pos hc, hst]; simp [hc]
  have mid : ∀ x, (if s.par ≠ 0 then setPar s.par x else some x) = none ↔ 4 ≤ s.par := by
    intro y
    rw [← p4]
    by_cases hc : s.par = 0
    · rw [if_neg (by simp [hc])]; simp [hc]
    · rw [if_pos hc, hpar]; simp [hc]
  have first : (if s.cs ≠ 0 then setCs s.cs r else some r) = none ↔ s.cs ≠ 0 ∧ ¬ ok s.cs := by
    by_cases hc : s.cs = 0
    · rw [if_neg (by simp [hc])]; simp [hc]
    · rw [if_pos hc, hcs _ _ hc]; simp [hc]
  unfold setup
  split
  · rename_i h; rw [first] at h; simp [h]
  · rename_i x h
    have h' : ¬ (s.cs ≠ 0 ∧ ¬ ok s.cs) := by rw [← first, h]; simp
    split
    · rename_i h2; rw [mid] at h2; simp [h2]
    · rename_i y h2
      have h2' : ¬ 4 ≤ s.par := by rw [← mid x, h2]; simp
      rw [last]
      simp only [h', h2', false_or]

theorem okPar_cases (p : Nat) (h : okPar p = true) : p = 1 ∨ p = 2 ∨ p = 3 := by
  unfold okPar at h; simp only [Bool.and_eq_true, bne_iff_ne, decide_eq_true_eq] at h; omega
theorem okStop_cases (p : Nat) (h : okStop p = true) : p = 1 ∨ p = 2 := by
  unfold okStop at h; simp only [Bool.and_eq_true, bne_iff_ne, decide_eq_true_eq] at h; omega


/-- closes what a setter leaves, for a literal value -/
syntax "bits" "[" Lean.Parser.Tactic.simpLemma,* "]" : tactic
macro_rules
  | `(tactic| bits [$l,*]) => `(tactic| first | (simp (disch := decide) only [$l,*, keep_and, keep_or]; assumption) | simp_all [$l,*])

/-! ### pl011 -/

/-- the format bits of LCR_H are 1-3, 5 and 6 -/
def pl011Keep : BitVec 32 := 0xffffff91

/-- everything but the format: the other bits of LCR_H, the divider written -/
def Pl011.Same (r0 r : Pl011) : Prop := r.lcr &&& pl011Keep = r0.lcr &&& pl011Keep ∧ r.brd = r0.brd

theorem pl011_cs (r0 : Pl011) : ∀ c r r', (r.lcr.getLsbD 7 = false ∧ Pl011.Same r0 r) → c ≠ 0 → pl011Cs c r = some r' →
    (r'.lcr.getLsbD 7 = false ∧ Pl011.Same r0 r') ∧ pl011Fmt r' = { pl011Fmt r with data := c } := by
  intro c r r' ⟨hs, hk, hb⟩ _ h
  unfold pl011Cs at h
  split at h
  · rename_i hc
    have hc' : c = 5 ∨ c = 6 ∨ c = 7 ∨ c = 8 := by omega
    rcases hc' with rfl | rfl | rfl | rfl <;> cases h <;> refine ⟨⟨?_, ?_, hb⟩, ?_⟩ <;>
      bits [pl011Fmt, Pl011.wr]
  · cases h

theorem pl011_par (r0 : Pl011) : ∀ c r r', (r.lcr.getLsbD 7 = false ∧ Pl011.Same r0 r) → pl011Par c r = some r' →
    (r'.lcr.getLsbD 7 = false ∧ Pl011.Same r0 r') ∧ pl011Fmt r' = { pl011Fmt r with par := askedPar c } := by
  intro c r r' ⟨hs, hk, hb⟩ h
  unfold pl011Par at h
  split at h
  · rename_i hc
    rcases okPar_cases c hc with rfl | rfl | rfl <;> cases h <;> refine ⟨⟨?_, ?_, hb⟩, ?_⟩ <;> bits [pl011Fmt, Pl011.wr, askedPar]
  · cases h

theorem pl011_stop (r0 : Pl011) : ∀ c r r', (r.lcr.getLsbD 7 = false ∧ Pl011.Same r0 r) → pl011Stop c r = some r' →
    (r'.lcr.getLsbD 7 = false ∧ Pl011.Same r0 r') ∧ pl011Fmt r' = { pl011Fmt r with stop := askedStop c } := by
  intro c r r' ⟨hs, hk, hb⟩ h
  unfold pl011Stop at h
  split at h
  · rename_i hc
    rcases okStop_cases c hc with rfl | rfl <;> cases h <;> refine ⟨⟨?_, ?_, hb⟩, ?_⟩ <;> bits [pl011Fmt, Pl011.wr, askedStop]
  · cases h

/-- **C83, arm_pl011**: the format is the one asked for and nothing else in LCR_H changes (stick parity is off after init) -/
theorem pl011_fmt (b : Option Nat) (s : Settings) (r r' : Pl011) (hs : r.lcr.getLsbD 7 = false) (h : pl011Setup b s r = some r') :
    pl011Fmt r' = want s (pl011Fmt r) ∧ r'.lcr &&& pl011Keep = r.lcr &&& pl011Keep := by
  unfold pl011Setup at h
  cases b with
  | none =>
    obtain ⟨⟨_, h1, _⟩, h2⟩ := setup_some _ _ _ pl011Fmt _ (pl011_cs r) (pl011_par r) (pl011_stop r) s _ r' ⟨hs, rfl, rfl⟩ h
    exact ⟨h2, h1⟩
  | some v =>
    obtain ⟨⟨_, h1, _⟩, h2⟩ := setup_some _ _ _ pl011Fmt _ (pl011_cs (pl011Baud v r)) (pl011_par _) (pl011_stop _) s (pl011Baud v r) r' ⟨hs, rfl, rfl⟩ h
    exact ⟨h2, h1⟩

theorem pl011_refuses (b : Option Nat) (s : Settings) (r : Pl011) :
    pl011Setup b s r = none ↔ (s.cs ≠ 0 ∧ ¬ (5 ≤ s.cs ∧ s.cs ≤ 8)) ∨ 4 ≤ s.par ∨ 3 ≤ s.cstopb := by
  unfold pl011Setup
  refine setup_none _ _ _ (fun c => 5 ≤ c ∧ c ≤ 8) ?_ ?_ ?_ s _
  · intro c r _; unfold pl011Cs; split <;> simp_all
  · intro p r; unfold pl011Par; dsimp only; (repeat' split) <;> simp_all
  · intro p r; unfold pl011Stop; (repeat' split) <;> simp_all

/-- a setter called at all establishes `J` -/
theorem setup_any {R : Type} (setCs setPar setStop : Nat → R → Option R) (J : R → Prop)
    (hcs : ∀ c r r', setCs c r = some r' → J r') (hpar : ∀ p r r', setPar p r = some r' → J r') (hst : ∀ p r r', setStop p r = some r' → J r')
    (s : Settings) (r r' : R) (hn : s.cs ≠ 0 ∨ s.par ≠ 0 ∨ s.cstopb ≠ 0) (h : setup setCs setPar setStop s r = some r') : J r' := by
  unfold setup at h
  split at h
  · cases h
  · rename_i x hx
    split at h
    · cases h
    · rename_i y hy
      by_cases h3 : s.cstopb = 0
      · rw [if_neg (by simp [h3])] at h; cases h
        by_cases h2 : s.par = 0
        · rw [if_neg (by simp [h2])] at hy; cases hy
          rw [if_pos (by omega)] at hx
          exact hcs _ _ _ hx
        · rw [if_pos h2] at hy
          exact hpar _ _ _ hy
      · rw [if_pos h3] at h
        exact hst _ _ _ h

/-- **C83, arm_pl011**: with a format, the new divider is used -/
theorem pl011_baud (v : Nat) (s : Settings) (r r' : Pl011) (hs : r.lcr.getLsbD 7 = false) (hn : s.cs ≠ 0 ∨ s.par ≠ 0 ∨ s.cstopb ≠ 0)
    (h : pl011Setup (some v) s r = some r') : r'.latched = v := by
  unfold pl011Setup at h
  obtain ⟨⟨_, _, h1⟩, _⟩ := setup_some _ _ _ pl011Fmt _ (pl011_cs (pl011Baud v r)) (pl011_par _) (pl011_stop _) s (pl011Baud v r) r' ⟨hs, rfl, rfl⟩ h
  have := setup_any pl011Cs pl011Par pl011Stop (fun r => r.latched = r.brd) ?_ ?_ ?_ s _ r' hn h
  · rw [this, h1]; rfl
  · intro c r r' h; unfold pl011Cs at h; dsimp only at h; split at h <;> cases h; rfl
  · intro c r r' h; unfold pl011Par at h; dsimp only at h; (repeat' split at h) <;> cases h <;> rfl
  · intro c r r' h; unfold pl011Stop at h; (repeat' split at h) <;> cases h <;> rfl

/-- **C83, arm_pl011, refuted**: without one, uart_setup succeeds and the rate on the line is still the old one -/
theorem pl011_baud_lost (v : Nat) (r : Pl011) : ∃ r', pl011Setup (some v) ⟨0, 0, 0⟩ r = some r' ∧ r'.brd = v ∧ r'.latched = r.latched := ⟨_, rfl, rfl, rfl⟩

example : (pl011Setup (some 67) ⟨8, 1, 1⟩ ⟨0x10, 0, 0⟩).map (fun r => (r.lcr, r.latched)) = some (0x70, 67) := by decide

/-! ### sercom -/

/-- the format bits of CTRLA (FORM) and CTRLB (CHSIZE, SBMODE, PMODE) -/
def Sercom.Same (r0 r : Sercom) : Prop := r.ctrla &&& 0xf0ffffff = r0.ctrla &&& 0xf0ffffff ∧ r.ctrlb &&& 0xffffdfb8 = r0.ctrlb &&& 0xffffdfb8

theorem sercom_cs (r0 : Sercom) : ∀ c r r', Sercom.Same r0 r → c ≠ 0 → sercomCs c r = some r' → Sercom.Same r0 r' ∧ sercomFmt r' = { sercomFmt r with data := c } := by
  intro c r r' ⟨hk, hb⟩ _ h
  unfold sercomCs at h
  split at h
  · rename_i hc
    have hc' : c = 5 ∨ c = 6 ∨ c = 7 ∨ c = 8 ∨ c = 9 := by omega
    rcases hc' with rfl | rfl | rfl | rfl | rfl <;> cases h <;> refine ⟨⟨?_, ?_⟩, ?_⟩ <;> bits [sercomFmt]
  · cases h

theorem sercom_par (r0 : Sercom) : ∀ c r r', Sercom.Same r0 r → sercomPar c r = some r' → Sercom.Same r0 r' ∧ sercomFmt r' = { sercomFmt r with par := askedPar c } := by
  intro c r r' ⟨hk, hb⟩ h
  unfold sercomPar at h
  split at h
  · rename_i hc
    rcases okPar_cases c hc with rfl | rfl | rfl <;> cases h <;> refine ⟨⟨?_, ?_⟩, ?_⟩ <;> bits [sercomFmt, askedPar]
  · cases h

theorem sercom_stop (r0 : Sercom) : ∀ c r r', Sercom.Same r0 r → sercomStop c r = some r' → Sercom.Same r0 r' ∧ sercomFmt r' = { sercomFmt r with stop := askedStop c } := by
  intro c r r' ⟨hk, hb⟩ h
  unfold sercomStop at h
  split at h
  · rename_i hc
    rcases okStop_cases c hc with rfl | rfl <;> cases h <;> refine ⟨⟨?_, ?_⟩, ?_⟩ <;> bits [sercomFmt, askedStop]
  · cases h

/-- **C83, atmel_sercom**: data bits, parity and stop bits are those asked for, the UART is on, the order of the bits is as it was -/
theorem sercom_fmt (b : Bool) (s : Settings) (r r' : Sercom) (h : (sercomSetup b s r).1 = some r') :
    sercomFmt r' = want s (sercomFmt r) ∧ r'.ctrla.getLsbD 1 = true ∧ sercomLsbFirst r' = sercomLsbFirst r ∧ (sercomSetup b s r).2 = r' := by
  unfold sercomSetup at h ⊢
  dsimp only at h ⊢
  cases b with
  | false => cases h
  | true =>
    rw [if_pos rfl] at h ⊢
    split at h
    · cases h
    · rename_i x hx
      cases h
      obtain ⟨⟨h1, _⟩, h2⟩ := setup_some _ _ _ sercomFmt _ (sercom_cs { r with ctrla := r.ctrla &&& ~~~ 0x2 }) (sercom_par _) (sercom_stop _) s _ x ⟨rfl, rfl⟩ hx
      have e1 : ∀ y : Sercom, sercomFmt { y with ctrla := y.ctrla ||| 0x2 } = sercomFmt y := by intro y; simp [sercomFmt]
      have e2 : ∀ y : Sercom, sercomFmt { y with ctrla := y.ctrla &&& ~~~ 0x2 } = sercomFmt y := by intro y; simp [sercomFmt]
      refine ⟨by rw [e1, h2, e2], by simp, ?_, rfl⟩
      have := congrArg (fun v => v.getLsbD 30) h1
      simp at this
      simpa [sercomLsbFirst] using this

theorem sercom_refuses (b : Bool) (s : Settings) (r : Sercom) :
    (sercomSetup b s r).1 = none ↔ b = false ∨ (s.cs ≠ 0 ∧ ¬ (5 ≤ s.cs ∧ s.cs ≤ 9)) ∨ 4 ≤ s.par ∨ 3 ≤ s.cstopb := by
  unfold sercomSetup
  dsimp only
  cases b with
  | false => simp
  | true =>
    have := setup_none sercomCs sercomPar sercomStop (fun c => 5 ≤ c ∧ c ≤ 9)
      (by intro c r _; unfold sercomCs; split <;> simp_all)
      (by intro p r; unfold sercomPar; dsimp only; (repeat' split) <;> simp_all)
      (by intro p r; unfold sercomStop; (repeat' split) <;> simp_all) s { r with ctrla := r.ctrla &&& ~~~ 0x2 }
    rw [if_pos rfl]
    simp only [Bool.true_eq_false, false_or]
    rw [← this]
    split <;> simp_all

/-- **C83, atmel_sercom**: a refused setup leaves the UART off -/
theorem sercom_refused_off (b : Bool) (s : Settings) (r : Sercom) (h : (sercomSetup b s r).1 = none) : (sercomSetup b s r).2.ctrla.getLsbD 1 = false := by
  unfold sercomSetup at h ⊢
  dsimp only at h ⊢
  cases b with
  | false => simp
  | true =>
    rw [if_pos rfl] at h ⊢
    split at h
    · simp
    · cases h

/-- **C83, atmel_sercom, refuted**: after init and any setup, characters go most significant bit first -/
theorem sercom_msb (b : Bool) (s : Settings) (r' : Sercom) (h : (sercomSetup b s (sercomInit ⟨0, 0⟩)).1 = some r') : sercomLsbFirst r' = false := by
  rw [(sercom_fmt b s _ r' h).2.2.1]; decide

example : ((sercomSetup true ⟨8, 1, 1⟩ (sercomInit ⟨0, 0⟩)).1.map sercomFmt) = some ⟨8, .none, .one⟩ := by decide

/-! ### sam -/

theorem sam_par (r0 : BitVec 32) : ∀ c (r r' : BitVec 32), r &&& 0xfffff1ff = r0 &&& 0xfffff1ff → samPar c r = some r' →
    r' &&& 0xfffff1ff = r0 &&& 0xfffff1ff ∧ mrPar r' = askedPar c := by
  intro c r r' hk h
  unfold samPar at h
  split at h
  · rename_i hc
    rcases okPar_cases c hc with rfl | rfl | rfl <;> cases h <;> refine ⟨?_, ?_⟩ <;> bits [mrPar, askedPar]
  · cases h

/-- **C83, atsamx7x and sam3x**: what a success means -/
theorem sam_fmt (s : Settings) (r r' : BitVec 32) (h : samSetup s r = some r') :
    samFmt r' = want ⟨0, s.par, 0⟩ (samFmt r) ∧ r' &&& 0xfffff1ff = r &&& 0xfffff1ff := by
  unfold samSetup at h
  by_cases hc : s.par = 0
  · rw [if_neg (by simp [hc])] at h; cases h; simp [want, hc, samFmt]
  · rw [if_pos hc] at h
    obtain ⟨h1, h2⟩ := sam_par r s.par r r' rfl h
    exact ⟨by simp [want, hc, samFmt, h2], h1⟩

/-- ... so the format asked for is obtained exactly when 8 bits and one stop bit were (or nothing) -/
theorem sam_right (s : Settings) (r r' : BitVec 32) (h : samSetup s r = some r') :
    samFmt r' = want s (samFmt r) ↔ (s.cs = 0 ∨ s.cs = 8) ∧ (s.cstopb = 0 ∨ s.cstopb = 1) := by
  rw [(sam_fmt s r r' h).1]
  simp only [want, samFmt, Fmt.mk.injEq, if_true, true_and]
  have e : ∀ n, Stop.one = askedStop n ↔ n = 1 := by
    intro n; match n with
    | 0 => decide
    | 1 => decide
    | 2 => decide
    | n + 3 => simp [askedStop]
  by_cases h1 : s.cs = 0 <;> by_cases h2 : s.cstopb = 0 <;> simp [h1, h2, e, eq_comm (a := 8)]

/-- **C83, atsamx7x and sam3x, refuted**: 7 bits or two stop bits are accepted and not done -/
theorem sam_wrong (r : BitVec 32) : ∃ r', samSetup ⟨7, 1, 2⟩ r = some r' ∧ samFmt r' ≠ want ⟨7, 1, 2⟩ (samFmt r) :=
  ⟨_, rfl, by simp [want, samFmt]⟩

/-! ### usart -/

/-- the bits of US_MR that are not CHRL, PAR, NBSTOP; MODE9 = 0 -/
def UsartSame (r0 r : BitVec 32) : Prop := r.getLsbD 17 = false ∧ r &&& 0xffffc13f = r0 &&& 0xffffc13f

theorem usart_cs (r0 : BitVec 32) : ∀ c (r r' : BitVec 32), UsartSame r0 r → c ≠ 0 → usartCs c r = some r' → UsartSame r0 r' ∧ usartFmt r' = { usartFmt r with data := c } := by
  intro c r r' ⟨hs, hk⟩ _ h
  unfold usartCs at h
  split at h
  · rename_i hc
    have hc' : c = 5 ∨ c = 6 ∨ c = 7 ∨ c = 8 := by omega
    rcases hc' with rfl | rfl | rfl | rfl <;> cases h <;> refine ⟨⟨?_, ?_⟩, ?_⟩ <;> bits [usartFmt, mrPar]
  · cases h

theorem usart_par (r0 : BitVec 32) : ∀ c (r r' : BitVec 32), UsartSame r0 r → samPar c r = some r' → UsartSame r0 r' ∧ usartFmt r' = { usartFmt r with par := askedPar c } := by
  intro c r r' ⟨hs, hk⟩ h
  unfold samPar at h
  split at h
  · rename_i hc
    rcases okPar_cases c hc with rfl | rfl | rfl <;> cases h <;> refine ⟨⟨?_, ?_⟩, ?_⟩ <;> bits [usartFmt, askedPar, mrPar]
  · cases h

theorem usart_stop (r0 : BitVec 32) : ∀ c (r r' : BitVec 32), UsartSame r0 r → usartStop c r = some r' → UsartSame r0 r' ∧ usartFmt r' = { usartFmt r with stop := askedStop c } := by
  intro c r r' ⟨hs, hk⟩ h
  unfold usartStop at h
  split at h
  · rename_i hc
    rcases okStop_cases c hc with rfl | rfl <;> cases h <;> refine ⟨⟨?_, ?_⟩, ?_⟩ <;> bits [usartFmt, askedStop, mrPar]
  · cases h

/-- **C83, atsamx7x_usart**: the format is the one asked for -/
theorem usart_fmt (s : Settings) (r r' : BitVec 32) (hm : r.getLsbD 17 = false) (h : usartSetup s r = some r') :
    usartFmt r' = want s (usartFmt r) ∧ r' &&& 0xffffc13f = r &&& 0xffffc13f := by
  unfold usartSetup at h
  split at h
  · cases h
  · rename_i x hx
    have hc0 : s.cs ≠ 0 := by
      intro h0; rw [h0] at hx; cases hx
    obtain ⟨i1, e1⟩ := usart_cs r _ _ _ ⟨hm, rfl⟩ hc0 hx
    split at h
    · cases h
    · rename_i y hy
      have h2 : UsartSame r y ∧ usartFmt y = { usartFmt x with par := if s.par = 0 then (usartFmt x).par else askedPar s.par } := by
        by_cases hc : s.par = 0
        · rw [if_neg (by simp [hc])] at hy; cases hy; exact ⟨i1, by simp [hc]⟩
        · rw [if_pos hc] at hy; rw [if_neg hc]; exact usart_par r _ _ _ i1 hy
      obtain ⟨i3, e3⟩ := setup_some _ _ _ usartFmt (UsartSame r) (usart_cs r) (usart_par r) (usart_stop r) ⟨0, s.par, s.cstopb⟩ y r' h2.1 h
      refine ⟨?_, i3.2⟩
      rw [e3, h2.2, e1]
      by_cases hc : s.par = 0 <;> simp [want, hc, hc0]

/-- **C83, atsamx7x_usart, refuted**: `cs = 0` (ignore) is refused, whatever else is asked for -/
theorem usart_ignore_refused (p q : Nat) (r : BitVec 32) : usartSetup ⟨0, p, q⟩ r = none := rfl

example : usartSetup ⟨8, 3, 2⟩ 0 = some 0x20c0 ∧ usartFmt 0x20c0 = ⟨8, .even, .two⟩ := by decide

/-! ### avr -/

/-- the bits of UCSRnB and UCSRnC that are not the format -/
def Avr.Same (r0 r : Avr) : Prop := r.b &&& 0xfb = r0.b &&& 0xfb ∧ r.c &&& 0xc1 = r0.c &&& 0xc1

theorem avr_cs (r0 : Avr) : ∀ c (r r' : Avr), Avr.Same r0 r → c ≠ 0 → avrCs c r = some r' → Avr.Same r0 r' ∧ avrFmt r' = { avrFmt r with data := c } := by
  intro c r r' ⟨hk, hb⟩ _ h
  unfold avrCs at h
  split at h
  · rename_i hc
    have hc' : c = 5 ∨ c = 6 ∨ c = 7 ∨ c = 8 := by omega
    rcases hc' with rfl | rfl | rfl | rfl <;> cases h <;> refine ⟨⟨?_, ?_⟩, ?_⟩ <;> bits [avrFmt]
  · cases h

theorem avr_par (r0 : Avr) : ∀ c (r r' : Avr), Avr.Same r0 r → avrPar c r = some r' → Avr.Same r0 r' ∧ avrFmt r' = { avrFmt r with par := askedPar c } := by
  intro c r r' ⟨hk, hb⟩ h
  unfold avrPar at h
  split at h
  · rename_i hc
    rcases okPar_cases c hc with rfl | rfl | rfl <;> cases h <;> refine ⟨⟨?_, ?_⟩, ?_⟩ <;> bits [avrFmt, askedPar]
  · cases h

theorem avr_stop (r0 : Avr) : ∀ c (r r' : Avr), Avr.Same r0 r → avrStop c r = some r' → Avr.Same r0 r' ∧ avrFmt r' = { avrFmt r with stop := askedStop c } := by
  intro c r r' ⟨hk, hb⟩ h
  unfold avrStop at h
  split at h
  · rename_i hc
    rcases okStop_cases c hc with rfl | rfl <;> cases h <;> refine ⟨⟨?_, ?_⟩, ?_⟩ <;> bits [avrFmt, askedStop]
  · cases h

/-- **C83, avr and avr_irqdriven** -/
theorem avr_fmt (s : Settings) (r r' : Avr) (h : setup avrCs avrPar avrStop s r = some r') : avrFmt r' = want s (avrFmt r) ∧ Avr.Same r r' := by
  obtain ⟨h1, h2⟩ := setup_some _ _ _ avrFmt _ (avr_cs r) (avr_par r) (avr_stop r) s r r' ⟨rfl, rfl⟩ h
  exact ⟨h2, h1⟩

theorem avr_refuses (s : Settings) (r : Avr) : setup avrCs avrPar avrStop s r = none ↔ (s.cs ≠ 0 ∧ ¬ (5 ≤ s.cs ∧ s.cs ≤ 8)) ∨ 4 ≤ s.par ∨ 3 ≤ s.cstopb := by
  refine setup_none _ _ _ (fun c => 5 ≤ c ∧ c ≤ 8) ?_ ?_ ?_ s r
  · intro c r _
    unfold avrCs
    by_cases hc : 5 ≤ c ∧ c ≤ 8
    · rw [if_pos (by omega)]
      have hc' : c = 5 ∨ c = 6 ∨ c = 7 ∨ c = 8 := by omega
      rcases hc' with rfl | rfl | rfl | rfl <;> simp
    · rw [if_neg (by omega)]; simp [hc]
  · intro p r; unfold avrPar; (repeat' split) <;> simp_all
  · intro p r; unfold avrStop; (repeat' split) <;> simp_all

example : setup avrCs avrPar avrStop ⟨8, 2, 1⟩ ⟨0x18, 0x06⟩ = some ⟨0x18, 0x36⟩ ∧ avrFmt ⟨0x18, 0x36⟩ = ⟨8, .odd, .one⟩ := by decide

/-! ### tinyavr -/

/-- CMODE -/
def TinySame (r0 r : BitVec 8) : Prop := r &&& 0xc0 = r0 &&& 0xc0

theorem tiny_cs (r0 : BitVec 8) : ∀ c (r r' : BitVec 8), TinySame r0 r → c ≠ 0 → tinyCs c r = some r' → TinySame r0 r' ∧ tinyFmt r' = { tinyFmt r with data := c } := by
  intro c r r' (hk : r &&& 0xc0 = r0 &&& 0xc0) _ h
  unfold tinyCs at h
  split at h
  · rename_i hc
    have hc' : c = 5 ∨ c = 6 ∨ c = 7 ∨ c = 8 := by omega
    rcases hc' with rfl | rfl | rfl | rfl <;> cases h <;> refine ⟨?_, ?_⟩ <;> bits [tinyFmt, TinySame]
  · cases h

theorem tiny_par (r0 : BitVec 8) : ∀ c (r r' : BitVec 8), TinySame r0 r → tinyPar c r = some r' → TinySame r0 r' ∧ tinyFmt r' = { tinyFmt r with par := askedPar c } := by
  intro c r r' (hk : r &&& 0xc0 = r0 &&& 0xc0) h
  unfold tinyPar at h
  split at h
  · rename_i hc
    rcases okPar_cases c hc with rfl | rfl | rfl <;> cases h <;> refine ⟨?_, ?_⟩ <;> bits [tinyFmt, askedPar, TinySame]
  · cases h

theorem tiny_stop (r0 : BitVec 8) : ∀ c (r r' : BitVec 8), TinySame r0 r → tinyStop c r = some r' → TinySame r0 r' ∧ tinyFmt r' = { tinyFmt r with stop := askedStop c } := by
  intro c r r' (hk : r &&& 0xc0 = r0 &&& 0xc0) h
  unfold tinyStop at h
  split at h
  · rename_i hc
    rcases okStop_cases c hc with rfl | rfl <;> cases h <;> refine ⟨?_, ?_⟩ <;> bits [tinyFmt, askedStop, TinySame]
  · cases h

/-- **C83, tinyavr_usart** -/
theorem tiny_fmt (s : Settings) (r r' : BitVec 8) (h : setup tinyCs tinyPar tinyStop s r = some r') : tinyFmt r' = want s (tinyFmt r) ∧ r' &&& 0xc0 = r &&& 0xc0 := by
  obtain ⟨h1, h2⟩ := setup_some _ _ _ tinyFmt _ (tiny_cs r) (tiny_par r) (tiny_stop r) s r r' rfl h
  exact ⟨h2, h1⟩

theorem tiny_refuses (s : Settings) (r : BitVec 8) : setup tinyCs tinyPar tinyStop s r = none ↔ (s.cs ≠ 0 ∧ ¬ (5 ≤ s.cs ∧ s.cs ≤ 8)) ∨ 4 ≤ s.par ∨ 3 ≤ s.cstopb := by
  refine setup_none _ _ _ (fun c => 5 ≤ c ∧ c ≤ 8) ?_ ?_ ?_ s r
  · intro c r _
    unfold tinyCs
    by_cases hc : 5 ≤ c ∧ c ≤ 8
    · rw [if_pos (by omega)]
      have hc' : c = 5 ∨ c = 6 ∨ c = 7 ∨ c = 8 := by omega
      rcases hc' with rfl | rfl | rfl | rfl <;> simp
    · rw [if_neg (by omega)]; simp [hc]
  · intro p r; unfold tinyPar; (repeat' split) <;> simp_all
  · intro p r; unfold tinyStop; (repeat' split) <;> simp_all

example : setup tinyCs tinyPar tinyStop ⟨7, 3, 2⟩ 0x03 = some 0x2a ∧ tinyFmt 0x2a = ⟨7, .even, .two⟩ := by decide

/-! ### gd32vf103 -/

/-- words rather than data bits -/
def gdWord (r : Two) : Fmt := ⟨8 + (r.c0.getLsbD 12).toNat, pce r.c0, stb r.c1⟩

/-- the bits that are not the format -/
def GdSame (r0 r : Two) : Prop := r.c0 &&& 0xffffe9ff = r0.c0 &&& 0xffffe9ff ∧ r.c1 &&& 0xffffcfff = r0.c1 &&& 0xffffcfff

theorem gd_cs (r0 : Two) : ∀ c (r r' : Two), GdSame r0 r → c ≠ 0 → gdCs c r = some r' → GdSame r0 r' ∧ gdWord r' = { gdWord r with data := c } := by
  intro c r r' ⟨hk, hb⟩ _ h
  unfold gdCs at h
  split at h
  · rename_i hc
    have hc' : c = 8 ∨ c = 9 := by omega
    rcases hc' with rfl | rfl <;> cases h <;> refine ⟨⟨?_, ?_⟩, ?_⟩ <;> bits [gdWord, pce, stb]
  · cases h

theorem gd_par (r0 : Two) : ∀ c (r r' : Two), GdSame r0 r → gdPar c r = some r' → GdSame r0 r' ∧ gdWord r' = { gdWord r with par := askedPar c } := by
  intro c r r' ⟨hk, hb⟩ h
  unfold gdPar at h
  split at h
  · rename_i hc
    rcases okPar_cases c hc with rfl | rfl | rfl <;> cases h <;> refine ⟨⟨?_, ?_⟩, ?_⟩ <;> bits [gdWord, askedPar, pce, stb]
  · cases h

theorem gd_stop (r0 : Two) : ∀ c (r r' : Two), GdSame r0 r → gdStop c r = some r' → GdSame r0 r' ∧ gdWord r' = { gdWord r with stop := askedStop c } := by
  intro c r r' ⟨hk, hb⟩ h
  unfold gdStop at h
  split at h
  · rename_i hc
    rcases okStop_cases c hc with rfl | rfl <;> cases h <;> refine ⟨⟨?_, ?_⟩, ?_⟩ <;> bits [gdWord, askedStop, pce, stb]
  · cases h

theorem gd_refuses (s : Settings) (r : Two) : setup gdCs gdPar gdStop s r = none ↔ (s.cs ≠ 0 ∧ ¬ (8 ≤ s.cs ∧ s.cs ≤ 9)) ∨ 4 ≤ s.par ∨ 3 ≤ s.cstopb := by
  refine setup_none _ _ _ (fun c => 8 ≤ c ∧ c ≤ 9) ?_ ?_ ?_ s r
  · intro c r _
    unfold gdCs
    by_cases hc : 8 ≤ c ∧ c ≤ 9
    · rw [if_pos (by omega)]
      have hc' : c = 8 ∨ c = 9 := by omega
      rcases hc' with rfl | rfl <;> simp
    · rw [if_neg (by omega)]; simp [hc]
  · intro p r; unfold gdPar; (repeat' split) <;> simp_all
  · intro p r; unfold gdStop; (repeat' split) <;> simp_all

theorem pce_none (r : BitVec 32) : pce r = .none ↔ r.getLsbD 10 = false := by
  unfold pce; cases r.getLsbD 10 <;> simp <;> (split <;> simp)

/-- a parity bit, counted -/
def parBit (p : Parity) : Nat := if p = .none then 0 else 1

theorem gd_data (r : Two) : (gdFmt r).data = (gdWord r).data - parBit (pce r.c0) := by
  unfold gdFmt gdWord parBit
  dsimp only
  by_cases h : r.c0.getLsbD 10 = false
  · rw [if_pos ((pce_none _).2 h), h]; rfl
  · rw [if_neg (fun h' => h ((pce_none _).1 h'))]; rw [Bool.not_eq_false] at h; rw [h]; rfl

/-- **C83, gd32vf103**: parity and stop bits are those asked for; the data bits asked for (or those there were) include the parity bit -/
theorem gd_fmt (s : Settings) (r r' : Two) (h : setup gdCs gdPar gdStop s r = some r') :
    (gdFmt r').par = (want s (gdFmt r)).par ∧ (gdFmt r').stop = (want s (gdFmt r)).stop ∧
    (gdFmt r').data + parBit (gdFmt r').par = (if s.cs = 0 then (gdFmt r).data + parBit (gdFmt r).par else s.cs) ∧ GdSame r r' := by
  obtain ⟨h1, h2⟩ := setup_some _ _ _ gdWord _ (gd_cs r) (gd_par r) (gd_stop r) s r r' ⟨rfl, rfl⟩ h
  refine ⟨(by have := congrArg Fmt.par h2; exact this), (by have := congrArg Fmt.stop h2; exact this), ?_, h1⟩
  have hd := congrArg Fmt.data h2
  have p1 : ∀ p, parBit p ≤ 1 := by intro p; unfold parBit; split <;> omega
  have g8 : ∀ x, 8 ≤ (gdWord x).data := by intro x; unfold gdWord; dsimp only; omega
  have f : ∀ x : Two, (gdFmt x).par = pce x.c0 := fun _ => rfl
  rw [gd_data, gd_data, f, f, Nat.sub_add_cancel (by have := p1 (pce r'.c0); have := g8 r'; omega), Nat.sub_add_cancel (by have := p1 (pce r.c0); have := g8 r; omega)]
  exact hd

/-- ... so it is the format asked for when there is no parity, and with a parity never the data bits asked for -/
theorem gd_right (s : Settings) (r r' : Two) (h : setup gdCs gdPar gdStop s r = some r') (hc : s.cs ≠ 0) :
    gdFmt r' = want s (gdFmt r) ↔ (gdFmt r').par = .none := by
  obtain ⟨h1, h2, h3, _⟩ := gd_fmt s r r' h
  rw [if_neg hc] at h3
  have h8 : 8 ≤ s.cs := by
    have := mt (gd_refuses s r).2 (by rw [h]; simp); omega
  have hw : (want s (gdFmt r)).data = s.cs := by simp [want, hc]
  constructor
  · intro e
    rw [e, hw] at h3
    rw [e]
    unfold parBit at h3
    split at h3
    · assumption
    · omega
  · intro e
    rw [e] at h3
    have : (gdFmt r').data = (want s (gdFmt r)).data := by rw [hw]; exact h3
    generalize gdFmt r' = x at *
    generalize want s (gdFmt r) = y at *
    cases x; cases y; simp_all

/-- **C83, gd32vf103, refuted**: 8 bits, even parity: 7 bits are sent -/
theorem gd_wrong : ∃ r', setup gdCs gdPar gdStop ⟨8, 3, 1⟩ ⟨0x200c, 0⟩ = some r' ∧ gdFmt r' = ⟨7, .even, .one⟩ := ⟨_, rfl, by decide⟩

/-! ### stm32h7xx -/

/-- words rather than data bits -/
def stmWord (r : Two) : Fmt :=
  ⟨match r.c0.getLsbD 28, r.c0.getLsbD 12 with
    | false, false => 8
    | false, true => 9
    | true, false => 7
    | true, true => 0, pce r.c0, stb r.c1⟩

/-- the bits that are not the format -/
def StmSame (r0 r : Two) : Prop := r.c0 &&& 0xefffe9ff = r0.c0 &&& 0xefffe9ff ∧ r.c1 &&& 0xffffcfff = r0.c1 &&& 0xffffcfff

theorem stm_cs (r0 : Two) : ∀ c (r r' : Two), StmSame r0 r → c ≠ 0 → stmCs c r = some r' → StmSame r0 r' ∧ stmWord r' = { stmWord r with data := c } := by
  intro c r r' ⟨hk, hb⟩ _ h
  unfold stmCs at h
  split at h
  · rename_i hc
    have hc' : c = 7 ∨ c = 8 := by omega
    rcases hc' with rfl | rfl <;> cases h <;> refine ⟨⟨?_, ?_⟩, ?_⟩ <;> bits [stmWord, pce, stb]
  · cases h

theorem stm_par (r0 : Two) : ∀ c (r r' : Two), StmSame r0 r → gdPar c r = some r' → StmSame r0 r' ∧ stmWord r' = { stmWord r with par := askedPar c } := by
  intro c r r' ⟨hk, hb⟩ h
  unfold gdPar at h
  split at h
  · rename_i hc
    rcases okPar_cases c hc with rfl | rfl | rfl <;> cases h <;> refine ⟨⟨?_, ?_⟩, ?_⟩ <;> bits [stmWord, askedPar, pce, stb]
  · cases h

theorem stm_stop (r0 : Two) : ∀ c (r r' : Two), StmSame r0 r → gdStop c r = some r' → StmSame r0 r' ∧ stmWord r' = { stmWord r with stop := askedStop c } := by
  intro c r r' ⟨hk, hb⟩ h
  unfold gdStop at h
  split at h
  · rename_i hc
    rcases okStop_cases c hc with rfl | rfl <;> cases h <;> refine ⟨⟨?_, ?_⟩, ?_⟩ <;> bits [stmWord, askedStop, pce, stb]
  · cases h

theorem stm_refuses (s : Settings) (r : Two) : setup stmCs gdPar gdStop s r = none ↔ (s.cs ≠ 0 ∧ ¬ (7 ≤ s.cs ∧ s.cs ≤ 8)) ∨ 4 ≤ s.par ∨ 3 ≤ s.cstopb := by
  refine setup_none _ _ _ (fun c => 7 ≤ c ∧ c ≤ 8) ?_ ?_ ?_ s r
  · intro c r _
    unfold stmCs
    by_cases hc : 7 ≤ c ∧ c ≤ 8
    · rw [if_pos (by omega)]
      have hc' : c = 7 ∨ c = 8 := by omega
      rcases hc' with rfl | rfl <;> simp
    · rw [if_neg (by omega)]; simp [hc]
  · intro p r; unfold gdPar; (repeat' split) <;> simp_all
  · intro p r; unfold gdStop; (repeat' split) <;> simp_all

theorem stm_data (r : Two) : (stmFmt r).data = (stmWord r).data - parBit (pce r.c0) := by
  unfold stmFmt stmWord parBit
  dsimp only
  by_cases h : r.c0.getLsbD 10 = false
  · rw [if_pos ((pce_none _).2 h), h]; rfl
  · rw [if_neg (fun h' => h ((pce_none _).1 h'))]; rw [Bool.not_eq_false] at h; rw [h]; rfl

/-- **C83, stm32h7xx**: parity and stop bits are those asked for, the data bits include the parity bit, the UART is on -/
theorem stm_fmt (b : Bool) (s : Settings) (r r' : Two) (h : (stmSetup b s r).1 = some r') :
    (stmFmt r').par = (want s (stmFmt r)).par ∧ (stmFmt r').stop = (want s (stmFmt r)).stop ∧
    (s.cs ≠ 0 → (stmFmt r').data + parBit (stmFmt r').par = s.cs) ∧ r'.c0.getLsbD 0 = true ∧ (stmSetup b s r).2 = r' := by
  unfold stmSetup at h ⊢
  dsimp only at h ⊢
  cases b with
  | false => cases h
  | true =>
    rw [if_pos rfl] at h ⊢
    split at h
    · cases h
    · rename_i x hx
      cases h
      obtain ⟨h1, h2⟩ := setup_some _ _ _ stmWord _ (stm_cs { r with c0 := r.c0 &&& ~~~ 0x1 }) (stm_par _) (stm_stop _) s _ x ⟨rfl, rfl⟩ hx
      have e1 : ∀ y : Two, stmFmt { y with c0 := y.c0 ||| 0x1 } = stmFmt y := by intro y; simp [stmFmt, pce]
      have e2 : ∀ y : Two, stmFmt { y with c0 := y.c0 &&& ~~~ 0x1 } = stmFmt y := by intro y; simp [stmFmt, pce]
      have w2 : ∀ y : Two, stmWord { y with c0 := y.c0 &&& ~~~ 0x1 } = stmWord y := by intro y; simp [stmWord, pce]
      rw [e1]
      rw [w2] at h2
      refine ⟨(by have := congrArg Fmt.par h2; exact this), (by have := congrArg Fmt.stop h2; exact this), ?_, by simp, rfl⟩
      intro hc
      have hd := congrArg Fmt.data h2
      have h7 := mt (stm_refuses s { r with c0 := r.c0 &&& ~~~ 0x1 }).2 (by rw [hx]; simp)
      have p1 : ∀ p, parBit p ≤ 1 := by intro p; unfold parBit; split <;> omega
      have f : ∀ x : Two, (stmFmt x).par = pce x.c0 := fun _ => rfl
      have hw : (stmWord x).data = s.cs := by rw [hd]; simp [want, hc]
      rw [stm_data, f, Nat.sub_add_cancel (by have := p1 (pce x.c0); omega), hw]

theorem stm_refuses_iff (b : Bool) (s : Settings) (r : Two) :
    (stmSetup b s r).1 = none ↔ b = false ∨ (s.cs ≠ 0 ∧ ¬ (7 ≤ s.cs ∧ s.cs ≤ 8)) ∨ 4 ≤ s.par ∨ 3 ≤ s.cstopb := by
  unfold stmSetup
  dsimp only
  cases b with
  | false => simp
  | true =>
    rw [if_pos rfl, ← stm_refuses s { r with c0 := r.c0 &&& ~~~ 0x1 }]
    split <;> simp_all

/-- **C83, stm32h7xx**: a refused setup leaves the UART off -/
theorem stm_refused_off (b : Bool) (s : Settings) (r : Two) (h : (stmSetup b s r).1 = none) : (stmSetup b s r).2.c0.getLsbD 0 = false := by
  unfold stmSetup at h ⊢
  dsimp only at h ⊢
  cases b with
  | false => simp
  | true =>
    rw [if_pos rfl] at h ⊢
    split at h
    · simp
    · cases h

/-- **C83, stm32h7xx, refuted**: 8 bits, odd parity: 7 bits are sent; 8 bits with a parity cannot be had at all -/
theorem stm_wrong (b : Bool) (s : Settings) (r r' : Two) (hc : s.cs ≠ 0) (hp : s.par = 2 ∨ s.par = 3) (h : (stmSetup b s r).1 = some r') :
    (stmFmt r').data + 1 = s.cs ∧ (stmFmt r').data ≠ 8 := by
  obtain ⟨h1, _, h3, _⟩ := stm_fmt b s r r' h
  have h3 := h3 hc
  have h7 := mt (stm_refuses_iff b s r).2 (by rw [h]; simp)
  have : parBit (stmFmt r').par = 1 := by
    rw [h1]; rcases hp with hp | hp <;> simp [want, hp, askedPar, parBit]
  omega

/-! ### linflexd -/

/-- the bits that are not the format; PC1 = 0 -/
def LinSame (r0 r : Lin) : Prop := r.cr.getLsbD 6 = false ∧ r.cr &&& 0xfff9ff71 = r0.cr &&& 0xfff9ff71 ∧ r.gcr = r0.gcr

theorem lin_cs (r0 : Lin) : ∀ c (r r' : Lin), LinSame r0 r → c ≠ 0 → linCs c r = some r' → LinSame r0 r' ∧ linRx r' = { linRx r with data := c } := by
  intro c r r' ⟨hs, hk, hb⟩ _ h
  unfold linCs at h
  split at h
  · rename_i hc
    have hc' : c = 7 ∨ c = 8 := by omega
    rcases hc' with rfl | rfl <;> cases h <;> refine ⟨⟨?_, ?_, ?_⟩, ?_⟩ <;> bits [linRx, ne_eq, not_true_eq_false, not_false_eq_true, if_true, if_false, Nat.reduceEqDiff, reduceIte]
  · cases h

theorem lin_par (r0 : Lin) : ∀ c (r r' : Lin), LinSame r0 r → linPar c r = some r' → LinSame r0 r' ∧ linRx r' = { linRx r with par := askedPar c } := by
  intro c r r' ⟨hs, hk, hb⟩ h
  unfold linPar at h
  split at h
  · rename_i hc
    rcases okPar_cases c hc with rfl | rfl | rfl <;> cases h <;> refine ⟨⟨?_, ?_, ?_⟩, ?_⟩ <;> bits [linRx, askedPar, ne_eq, not_true_eq_false, not_false_eq_true, if_true, if_false, Nat.reduceEqDiff, reduceIte]
  · cases h

theorem lin_stop (r0 : Lin) : ∀ c (r r' : Lin), LinSame r0 r → linStop c r = some r' → LinSame r0 r' ∧ linRx r' = { linRx r with stop := askedStop c } := by
  intro c r r' ⟨hs, hk, hb⟩ h
  unfold linStop at h
  split at h
  · rename_i hc
    rcases okStop_cases c hc with rfl | rfl <;> cases h <;> refine ⟨⟨?_, ?_, ?_⟩, ?_⟩ <;> bits [linRx, askedStop, ne_eq, not_true_eq_false, not_false_eq_true, if_true, if_false, Nat.reduceEqDiff, reduceIte]
  · cases h

theorem lin_refuses (s : Settings) (r : Lin) : setup linCs linPar linStop s r = none ↔ (s.cs ≠ 0 ∧ ¬ (7 ≤ s.cs ∧ s.cs ≤ 8)) ∨ 4 ≤ s.par ∨ 3 ≤ s.cstopb := by
  refine setup_none _ _ _ (fun c => 7 ≤ c ∧ c ≤ 8) ?_ ?_ ?_ s r
  · intro c r _
    unfold linCs
    by_cases hc : 7 ≤ c ∧ c ≤ 8
    · rw [if_pos (by omega)]
      have hc' : c = 7 ∨ c = 8 := by omega
      rcases hc' with rfl | rfl <;> simp
    · rw [if_neg (by omega)]; simp [hc]
  · intro p r; unfold linPar; (repeat' split) <;> simp_all
  · intro p r; unfold linStop; (repeat' split) <;> simp_all

/-- **C83, nxp_linflexd**: the receiver's format is the one asked for (PC1 is 0 at reset and never written); the transmitter's is, but for the stop bits, which are left
as they were -/
theorem lin_fmt (s : Settings) (r r' : Lin) (hp : r.cr.getLsbD 6 = false) (h : setup linCs linPar linStop s r = some r') :
    linRx r' = want s (linRx r) ∧ linTx r' = { want s (linTx r) with stop := (linTx r).stop } ∧ LinSame r r' := by
  obtain ⟨h1, h2⟩ := setup_some _ _ _ linRx _ (lin_cs r) (lin_par r) (lin_stop r) s r r' ⟨hp, rfl, rfl⟩ h
  refine ⟨h2, ?_, h1⟩
  unfold linTx
  rw [h2, h1.2.2]
  simp [want]

/-- **C83, nxp_linflexd, refuted**: two stop bits are asked for, one is sent -/
theorem lin_wrong : ∃ r', setup linCs linPar linStop ⟨8, 1, 2⟩ ⟨0x31, 0⟩ = some r' ∧ (linRx r').stop = .two ∧ (linTx r').stop = .one := ⟨_, rfl, by decide⟩

/-! ### pic32mx -/

/-- the bits that are not the format -/
def PicSame (r0 r : BitVec 32) : Prop := r &&& 0xfffffff8 = r0 &&& 0xfffffff8

theorem pic_par (r0 : BitVec 32) : ∀ c (r r' : BitVec 32), PicSame r0 r → picPar c r = some r' → PicSame r0 r' ∧ picFmt r' = { picFmt r with data := 8, par := askedPar c } := by
  intro c r r' (hk : r &&& 0xfffffff8 = r0 &&& 0xfffffff8) h
  unfold picPar at h
  split at h
  · rename_i hc
    rcases okPar_cases c hc with rfl | rfl | rfl <;> cases h <;> refine ⟨?_, ?_⟩ <;> bits [picFmt, askedPar, PicSame]
  · cases h

theorem pic_stop (r0 : BitVec 32) : ∀ c (r r' : BitVec 32), PicSame r0 r → picStop c r = some r' → PicSame r0 r' ∧ picFmt r' = { picFmt r with stop := askedStop c } := by
  intro c r r' (hk : r &&& 0xfffffff8 = r0 &&& 0xfffffff8) h
  unfold picStop at h
  split at h
  · rename_i hc
    rcases okStop_cases c hc with rfl | rfl <;> cases h <;> refine ⟨?_, ?_⟩ <;> bits [picFmt, askedStop, PicSame]
  · cases h

/-- **C83, pic32mx**: what a success means: the parity and the stop bits asked for, 8 data bits when a parity is given (none included), the size asked for is ignored -/
theorem pic_fmt (s : Settings) (r r' : BitVec 32) (h : picSetup s r = some r') :
    picFmt r' = { want s (picFmt r) with data := if s.par = 0 then (picFmt r).data else 8 } ∧ PicSame r r' := by
  unfold picSetup setup at h
  rw [show (if s.cs ≠ 0 then (fun _ r => some r) s.cs r else some r) = some r by split <;> rfl] at h
  dsimp only at h
  have h2 : ∀ y, (if s.par ≠ 0 then picPar s.par r else some r) = some y →
      PicSame r y ∧ picFmt y = { picFmt r with data := if s.par = 0 then (picFmt r).data else 8, par := if s.par = 0 then (picFmt r).par else askedPar s.par } := by
    intro y hy
    by_cases hc : s.par = 0
    · rw [if_neg (by simp [hc])] at hy; cases hy; exact ⟨rfl, by simp [hc]⟩
    · rw [if_pos hc] at hy; rw [if_neg hc, if_neg hc]; exact pic_par r _ _ _ rfl hy
  split at h
  · cases h
  · rename_i y hy
    obtain ⟨i2, e2⟩ := h2 y hy
    by_cases hc : s.cstopb = 0
    · rw [if_neg (by simp [hc])] at h; cases h
      refine ⟨?_, i2⟩
      rw [e2, want, if_pos hc]
    · rw [if_pos hc] at h
      obtain ⟨i3, e3⟩ := pic_stop r _ _ _ i2 h
      refine ⟨?_, i3⟩
      rw [e3, e2, want, if_neg hc]

/-- ... so from 8 data bits the format asked for is obtained exactly when 8 data bits were (or nothing) -/
theorem pic_right (s : Settings) (r r' : BitVec 32) (h8 : (picFmt r).data = 8) (h : picSetup s r = some r') :
    picFmt r' = want s (picFmt r) ↔ s.cs = 0 ∨ s.cs = 8 := by
  rw [(pic_fmt s r r' h).1, h8]
  simp only [want, Fmt.mk.injEq, and_true, ite_self, h8]
  by_cases hc : s.cs = 0 <;> simp [hc, eq_comm (a := 8)]

/-! ### renesas -/

/-- the bits that are not the format -/
def RaSame (r0 r : Ra) : Prop := r.smr &&& 0x87 = r0.smr &&& 0x87 ∧ r.scmr &&& 0xef = r0.scmr &&& 0xef ∧ r.scr = r0.scr

theorem ra_cs (r0 : Ra) : ∀ c (r r' : Ra), RaSame r0 r → c ≠ 0 → raCs c r = some r' → RaSame r0 r' ∧ raFmt r' = { raFmt r with data := c } := by
  intro c r r' ⟨hk, hb, hd⟩ _ h
  unfold raCs at h
  split at h
  · rename_i hc
    have hc' : c = 7 ∨ c = 8 ∨ c = 9 := by omega
    rcases hc' with rfl | rfl | rfl <;> cases h <;> refine ⟨⟨?_, ?_, ?_⟩, ?_⟩ <;> bits [raFmt]
  · cases h

theorem ra_par (r0 : Ra) : ∀ c (r r' : Ra), RaSame r0 r → raPar c r = some r' → RaSame r0 r' ∧ raFmt r' = { raFmt r with par := askedPar c } := by
  intro c r r' ⟨hk, hb, hd⟩ h
  unfold raPar at h
  split at h
  · rename_i hc
    rcases okPar_cases c hc with rfl | rfl | rfl <;> cases h <;> refine ⟨⟨?_, ?_, ?_⟩, ?_⟩ <;> bits [raFmt, askedPar]
  · cases h

theorem ra_stop (r0 : Ra) : ∀ c (r r' : Ra), RaSame r0 r → raStop c r = some r' → RaSame r0 r' ∧ raFmt r' = { raFmt r with stop := askedStop c } := by
  intro c r r' ⟨hk, hb, hd⟩ h
  unfold raStop at h
  split at h
  · rename_i hc
    rcases okStop_cases c hc with rfl | rfl <;> cases h <;> refine ⟨⟨?_, ?_, ?_⟩, ?_⟩ <;> bits [raFmt, askedStop]
  · cases h

theorem ra_refuses (s : Settings) (r : Ra) : setup raCs raPar raStop s r = none ↔ (s.cs ≠ 0 ∧ ¬ (7 ≤ s.cs ∧ s.cs ≤ 9)) ∨ 4 ≤ s.par ∨ 3 ≤ s.cstopb := by
  refine setup_none _ _ _ (fun c => 7 ≤ c ∧ c ≤ 9) ?_ ?_ ?_ s r
  · intro c r _
    unfold raCs
    by_cases hc : 7 ≤ c ∧ c ≤ 9
    · rw [if_pos (by omega)]
      have hc' : c = 7 ∨ c = 8 ∨ c = 9 := by omega
      rcases hc' with rfl | rfl | rfl <;> simp
    · rw [if_neg (by omega)]; simp [hc]
  · intro p r; unfold raPar; (repeat' split) <;> simp_all
  · intro p r; unfold raStop; (repeat' split) <;> simp_all

/-- **C83, renesas_ra4_sci**: the format is the one asked for, the prescaler of the baud rate is in place, transmitter and receiver are on -/
theorem ra_fmt (b : Option (Option Nat)) (s : Settings) (r r' : Ra) (h : (raSetup b s r).1 = some r') :
    raFmt r' = want s (raFmt r) ∧ r'.scr.getLsbD 5 = true ∧ r'.scr.getLsbD 4 = true ∧ r'.smr &&& 0x84 = r.smr &&& 0x84 ∧ (raSetup b s r).2 = r' ∧
    (∀ i, b = some (some i) → r'.smr &&& 0x3 = BitVec.ofNat 8 i &&& 0x3) ∧ (b = none → r'.smr &&& 0x3 = r.smr &&& 0x3) := by
  have eb : ∀ i (y : Ra), raFmt (raBaud i y) = raFmt y := by
    intro i y
    simp [raBaud, raFmt]
  have e1 : ∀ y : Ra, raFmt { y with scr := y.scr ||| 0x30 } = raFmt y := fun _ => rfl
  have e2 : ∀ y : Ra, raFmt { y with scr := y.scr &&& ~~~ 0x30 } = raFmt y := fun _ => rfl
  have low : ∀ x y : BitVec 8, x &&& 0x87 = y &&& 0x87 → x &&& 0x84 = y &&& 0x84 ∧ x &&& 0x3 = y &&& 0x3 := by
    intro x y hxy
    constructor
    · have := congrArg (fun v => v &&& 0x84) hxy
      simp only [BitVec.and_assoc] at this
      exact this
    · have := congrArg (fun v => v &&& 0x3) hxy
      simp only [BitVec.and_assoc] at this
      exact this
  have bl : ∀ i (y : Ra), (raBaud i y).smr &&& 0x84 = y.smr &&& 0x84 ∧ (raBaud i y).smr &&& 0x3 = BitVec.ofNat 8 i &&& 0x3 := by
    intro i y
    unfold raBaud
    dsimp only
    generalize BitVec.ofNat 8 i = v
    generalize y.smr = u
    constructor <;> (ext j hj; have hj' : j = 0 ∨ j = 1 ∨ j = 2 ∨ j = 3 ∨ j = 4 ∨ j = 5 ∨ j = 6 ∨ j = 7 := by omega)
    all_goals (rcases hj' with rfl | rfl | rfl | rfl | rfl | rfl | rfl | rfl <;> simp)
  unfold raSetup at h ⊢
  dsimp only at h ⊢
  rcases b with _ | _ | i
  · dsimp only at h ⊢
    split at h
    · cases h
    · rename_i x hx
      cases h
      obtain ⟨h1, h2⟩ := setup_some _ _ _ raFmt _ (ra_cs { r with scr := r.scr &&& ~~~ 0x30 }) (ra_par _) (ra_stop _) s _ x ⟨rfl, rfl, rfl⟩ hx
      obtain ⟨l1, l2⟩ := low _ _ h1.1
      exact ⟨by rw [e1, h2, e2], by simp, by simp, l1, rfl, (by intro i hi; cases hi), fun _ => l2⟩
  · cases h
  · dsimp only at h ⊢
    split at h
    · cases h
    · rename_i x hx
      cases h
      obtain ⟨h1, h2⟩ := setup_some _ _ _ raFmt _ (ra_cs (raBaud i { r with scr := r.scr &&& ~~~ 0x30 })) (ra_par _) (ra_stop _) s _ x ⟨rfl, rfl, rfl⟩ hx
      obtain ⟨l1, l2⟩ := low _ _ h1.1
      obtain ⟨b1, b2⟩ := bl i { r with scr := r.scr &&& ~~~ 0x30 }
      refine ⟨by rw [e1, h2, eb, e2], by simp, by simp, l1.trans b1, rfl, ?_, (by intro hi; cases hi)⟩
      intro j hj
      cases hj
      exact l2.trans b2

example : ((raSetup (some (some 1)) ⟨7, 2, 2⟩ ⟨0, 0xf2, 0⟩).1.map raFmt) = some ⟨7, .odd, .two⟩ := by decide

/-! ### mc9s08ptxx_sci -/

/-- **C83, mc9s08ptxx_sci, refuted**: even parity turns parity off, and puts the receiver to sleep -/
theorem mc_even (q n : Nat) (r r' : Mc) (h : mcSetup ⟨n, 3, q⟩ r = some r') : (mcFmt r').par = .none ∧ mcSleeps r' = true := by
  cases h
  simp [mcFmt, mcSleeps]

/-- **C83, mc9s08ptxx_sci**: odd parity and none are obtained; sizes and stop bits are ignored -/
theorem mc_fmt (s : Settings) (r r' : Mc) (hp : s.par ≠ 3) (h : mcSetup s r = some r') :
    (mcFmt r').par = (want s (mcFmt r)).par ∧ (mcFmt r').stop = (mcFmt r).stop ∧ r'.c2 = r.c2 ∧ r'.c1 &&& 0xfc = r.c1 &&& 0xfc := by
  unfold mcSetup at h
  by_cases hc : s.par = 0
  · rw [if_neg (by simp [hc])] at h; cases h; simp [want, hc]
  · rw [if_pos hc] at h
    unfold mcPar at h
    split at h
    · rename_i hk
      rcases okPar_cases _ hk with e | e | e
      · rw [e] at h; cases h
        refine ⟨?_, rfl, rfl, ?_⟩
        · simp [mcFmt, want, e, askedPar]
        · simp (disch := decide) only [keep_and, keep_or]
      · rw [e] at h; cases h
        refine ⟨?_, rfl, rfl, ?_⟩
        · simp [mcFmt, want, e, askedPar]
        · simp (disch := decide) only [keep_and, keep_or]
      · exact absurd e hp
    · cases h

end Pico.UartFmt
