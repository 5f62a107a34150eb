import Verif.Drivers.UartTx
/-
Interrupt-driven UART drivers: transmission (C67).
-/
namespace Pico.Drv.Tx

open Pico.Fifo (Cfg)

variable {c : Cfg} {V : Type}

/-- the step of uart_write is past a push (or about to signal) -/
def late : Pc V → Prop
  | .look _ i | .put _ i | .fin _ i => 0 < i
  | .kick .. => True
  | .idle => False

def isKick : Pc V → Bool
  | .kick .. => true
  | _ => false

/-- what each driver maintains, `l` being the content of the fifo -/
def Extra (k : Kind) (s : St c V) (l : List V) : Prop :=
  match k with
  | .avr => (s.xfer = false → s.pc = .idle → l = []) ∧ (s.xfer = true → s.pc = .idle) ∧
      (∀ b i, s.pc = .look b i ∨ s.pc = .put b i ∨ s.pc = .fin b i → l.length ≤ i) ∧ (s.xfer = true → l ≠ [] → s.ie = true) ∧ isKick s.pc = false
  | .sam => l ≠ [] → s.ie = true ∨ late s.pc
  | _ => (l ≠ [] → s.ie = true ∨ s.busy = true ∨ late s.pc) ∧ s.overrun = false ∧
      s.trig.toNat + s.ie.toNat + s.busy.toNat + (isKick s.pc).toNat = 1

/-- the part common to all -/
def PcOk (c : Cfg) (l : List V) : Pc V → Prop
  | .look b i => i ≤ b.length
  | .put b i => i < b.length ∧ l.length < c.size - 2
  | .fin b i => i ≤ b.length
  | .kick b i => i ≤ b.length
  | .idle => True

structure Inv (k : Kind) (s : St c V) (l : List V) : Prop where
  q : Holds s.q l
  acc : s.out ++ l = s.acc
  pc : PcOk c l s.pc
  ex : Extra k s l

theorem inv_init (k : Kind) (old : Nat → V) : Inv k (init (c := c) old) [] := by
  refine ⟨holds_init old, rfl, trivial, ?_⟩
  cases k <;> simp [Extra, init, isKick]

theorem pcOk_tail {c : Cfg} {v : V} {l : List V} {p : Pc V} (h : PcOk c (v :: l) p) : PcOk c l p := by
  cases p <;> simp only [PcOk, List.length_cons] at * <;> omega

/-- one byte sent -/
theorem inv_send (hc : c.ok) {k : Kind} {s : St c V} {v : V} {l : List V} (h : Inv k s (v :: l)) :
    Holds (send s).q l ∧ (send s).out ++ l = (send s).acc ∧ PcOk c l (send s).pc := by
  obtain ⟨h1, h2⟩ := holds_pop hc h.q
  refine ⟨h1, ?_, pcOk_tail h.pc⟩
  show (s.out ++ [s.q.pop.last]) ++ l = s.acc
  rw [h2, ← h.acc, List.append_assoc]; rfl

theorem extra_send {k : Kind} (hk : k = .avr ∨ k = .sam) {s : St c V} {v : V} {l : List V} (h : Extra k s (v :: l)) : Extra k (send s) l := by
  rcases hk with rfl | rfl
  · obtain ⟨h1, h2, h3, h4, h5⟩ := h
    refine ⟨fun a b => ?_, h2, fun b i hb => ?_, fun a _ => h4 a (by simp), h5⟩
    · have := h1 a b; simp at this
    · have := h3 b i hb; rw [List.length_cons] at this; omega
  · exact fun _ => h (by simp)

theorem inv_isrAvr (hc : c.ok) : ∀ (rdy : List Bool) (s : St c V) (l : List V), Inv .avr s l → ∃ l', Inv .avr (isrAvr rdy s) l' := by
  have one : ∀ (s : St c V) (l : List V), Inv .avr s l → s.q.readable = true → ∃ l', Inv .avr (send s) l' := by
    intro s l h hr
    have hne := (readable_iff hc h.q).1 hr
    obtain ⟨v, l', rfl⟩ := List.exists_cons_of_ne_nil hne
    obtain ⟨a, b, d⟩ := inv_send hc h
    exact ⟨l', ⟨a, b, d, extra_send (Or.inl rfl) h.ex⟩⟩
  have off : ∀ (s : St c V) (l : List V), Inv .avr s l → ¬ s.q.readable = true → Inv .avr { s with ie := false } l := by
    intro s l h hr
    have hl : l = [] := Classical.byContradiction fun hn => hr ((readable_iff hc h.q).2 hn)
    obtain ⟨h1, h2, h3, h4, h5⟩ := h.ex
    exact ⟨h.q, h.acc, h.pc, h1, h2, h3, fun _ hn => absurd hl hn, h5⟩
  intro rdy
  induction rdy with
  | nil =>
    intro s l h
    unfold isrAvr
    split
    · exact one s l h (by assumption)
    · exact ⟨l, off s l h (by assumption)⟩
  | cons x rdy ih =>
    intro s l h
    unfold isrAvr
    split
    · obtain ⟨l', h'⟩ := one s l h (by assumption)
      split
      · exact ih _ l' h'
      · exact ⟨l', h'⟩
    · exact ⟨l, off s l h (by assumption)⟩

theorem inv_isrSam (hc : c.ok) : ∀ (rdy : List Bool) (s : St c V) (l : List V), Inv .sam s l → ∃ l', Inv .sam (isrSam rdy s) l' := by
  intro rdy
  induction rdy with
  | nil => intro s l h; exact ⟨l, h⟩
  | cons x rdy ih =>
    intro s l h
    unfold isrSam
    split
    · split
      · rename_i hr
        have hne := (readable_iff hc h.q).1 hr
        obtain ⟨v, l', rfl⟩ := List.exists_cons_of_ne_nil hne
        obtain ⟨a, b, d⟩ := inv_send hc h
        exact ih _ l' ⟨a, b, d, extra_send (Or.inr rfl) h.ex⟩
      · rename_i hr
        have hl : l = [] := Classical.byContradiction fun hn => hr ((readable_iff hc h.q).2 hn)
        exact ⟨l, ⟨h.q, h.acc, h.pc, fun hn => absurd hl hn⟩⟩
    · exact ⟨l, h⟩

theorem inv_isrTi (hc : c.ok) {k : Kind} (hk : k = .mcs51 ∨ k = .n76) {s : St c V} {l : List V} (h : Inv k s l) (hie : s.ie = true) :
    ∃ l', Inv k (isrTi s) l' := by
  have hex : (l ≠ [] → s.ie = true ∨ s.busy = true ∨ late s.pc) ∧ s.overrun = false ∧
      s.trig.toNat + s.ie.toNat + s.busy.toNat + (isKick s.pc).toNat = 1 := by
    rcases hk with rfl | rfl <;> exact h.ex
  obtain ⟨h1, h2, h3⟩ := hex
  rw [hie] at h3
  have hb : s.busy = false := by
    cases hb : s.busy
    · rfl
    · rw [hb] at h3; simp at h3; omega
  have ht : s.trig = false := by
    cases ht : s.trig
    · rfl
    · rw [ht] at h3; simp at h3; omega
  unfold isrTi
  split
  · rename_i hr
    have hne := (readable_iff hc h.q).1 hr
    obtain ⟨v, l', rfl⟩ := List.exists_cons_of_ne_nil hne
    obtain ⟨a, b, d⟩ := inv_send hc h
    refine ⟨l', ⟨a, b, d, ?_⟩⟩
    have : (l' ≠ [] → false = true ∨ true = true ∨ late s.pc) ∧ (s.overrun || s.busy) = false ∧
        s.trig.toNat + false.toNat + true.toNat + (isKick s.pc).toNat = 1 := by
      refine ⟨fun _ => Or.inr (Or.inl rfl), by rw [h2, hb]; rfl, ?_⟩
      rw [hb] at h3; simp at h3 ⊢; omega
    rcases hk with rfl | rfl <;> exact this
  · rename_i hr
    have hl : l = [] := Classical.byContradiction fun hn => hr ((readable_iff hc h.q).2 hn)
    refine ⟨l, ⟨h.q, h.acc, h.pc, ?_⟩⟩
    have : (l ≠ [] → false = true ∨ s.busy = true ∨ late s.pc) ∧ s.overrun = false ∧
        true.toNat + false.toNat + s.busy.toNat + (isKick s.pc).toNat = 1 := by
      refine ⟨fun hn => absurd hl hn, h2, ?_⟩
      rw [ht] at h3; simp at h3 ⊢; omega
    rcases hk with rfl | rfl <;> exact this

theorem inv_task (hc : c.ok) {k : Kind} {s : St c V} {l : List V} (h : Inv k s l) : ∃ l', Inv k (task k s) l' := by
  unfold task
  have hpc := h.pc
  have hex := h.ex
  cases hp : s.pc with
  | idle => exact ⟨l, h⟩
  | look b i =>
    rw [hp] at hpc
    simp only [PcOk] at hpc
    dsimp only
    split
    · rename_i hi
      split
      · rename_i hw
        have hl := (writable_iff hc h.q).1 hw
        refine ⟨l, ⟨h.q, h.acc, ⟨hi, hl⟩, ?_⟩⟩
        cases k <;> simp only [Extra, hp, late, isKick] at hex ⊢
        · obtain ⟨h1, h2, h3, h4, h6⟩ := hex
          refine ⟨by simp, fun hx => absurd (h2 hx) (by simp), fun b' i' hb => ?_, h4, trivial⟩
          have : b = b' ∧ i = i' := by simpa using hb
          exact h3 b' i' (Or.inl (by rw [this.1, this.2]))
        · exact hex
        · exact hex
        · exact hex
      · refine ⟨l, ⟨h.q, h.acc, ?_, ?_⟩⟩
        · show (if k = .n76 then i + 1 else i) ≤ b.length
          split <;> omega
        · cases k <;> simp only [Extra, hp, late, isKick] at hex ⊢
          · obtain ⟨h1, h2, h3, h4, h6⟩ := hex
            refine ⟨by simp, fun hx => absurd (h2 hx) (by simp), fun b' i' hb => ?_, h4, trivial⟩
            have : b = b' ∧ i = i' := by simpa using hb
            exact h3 b' i' (Or.inl (by rw [this.1, this.2]))
          · simpa using hex
          · simpa using hex
          · refine ⟨fun hn => ?_, hex.2⟩
            rcases hex.1 hn with e | e | e
            · exact Or.inl e
            · exact Or.inr (Or.inl e)
            · exact Or.inr (Or.inr (by simp))
    · refine ⟨l, ⟨h.q, h.acc, hpc, ?_⟩⟩
      cases k <;> simp only [Extra, hp, late, isKick] at hex ⊢
      · obtain ⟨h1, h2, h3, h4, h6⟩ := hex
        refine ⟨by simp, fun hx => absurd (h2 hx) (by simp), fun b' i' hb => ?_, h4, trivial⟩
        have : b = b' ∧ i = i' := by simpa using hb
        exact h3 b' i' (Or.inl (by rw [this.1, this.2]))
      · exact hex
      · exact hex
      · exact hex
  | put b i =>
    rw [hp] at hpc
    simp only [PcOk] at hpc
    dsimp only
    rw [List.getElem?_eq_getElem hpc.1]
    dsimp only
    refine ⟨l ++ [b[i]], ⟨holds_put hc h.q hpc.2 _, ?_, ?_, ?_⟩⟩
    · show s.out ++ (l ++ [b[i]]) = s.acc ++ [b[i]]
      rw [← h.acc, List.append_assoc]
    · show i + 1 ≤ b.length
      omega
    · cases k <;> simp only [Extra, hp, late, isKick] at hex ⊢
      · obtain ⟨h1, h2, h3, h4, h6⟩ := hex
        refine ⟨by simp, fun hx => absurd (h2 hx) (by simp), fun b' i' hb => ?_, fun hx => absurd (h2 hx) (by simp), trivial⟩
        have : b = b' ∧ i + 1 = i' := by simpa using hb
        have h5 := h3 b i (Or.inr (Or.inl rfl))
        rw [List.length_append, List.length_singleton]; omega
      · exact fun _ => Or.inr (by omega)
      · exact ⟨fun _ => Or.inr (Or.inr (by omega)), hex.2⟩
      · exact ⟨fun _ => Or.inr (Or.inr (by omega)), hex.2⟩
  | fin b i =>
    rw [hp] at hpc
    dsimp only
    split
    · rename_i h0
      subst h0
      refine ⟨l, ⟨h.q, h.acc, trivial, ?_⟩⟩
      cases k <;> simp only [Extra, hp, late, isKick] at hex ⊢
      · obtain ⟨h1, h2, h3, h4, h6⟩ := hex
        refine ⟨fun _ _ => ?_, fun _ => trivial, by simp, h4, trivial⟩
        have := h3 b 0 (Or.inr (Or.inr rfl))
        exact List.eq_nil_of_length_eq_zero (by omega)
      · exact fun hn => (hex hn).elim Or.inl (fun e => absurd e (by omega))
      · exact ⟨fun hn => (hex.1 hn).elim Or.inl (fun e => e.elim (fun e => Or.inr (Or.inl e)) (fun e => absurd e (by omega))), hex.2⟩
      · exact ⟨fun hn => (hex.1 hn).elim Or.inl (fun e => e.elim (fun e => Or.inr (Or.inl e)) (fun e => absurd e (by omega))), hex.2⟩
    · have trig2 : ∀ k', k = k' → (k' = .mcs51 ∨ k' = .n76) →
          ∃ l', Inv k (if s.trig = true then { s with trig := false, pc := .kick b i } else { s with pc := .idle, log := s.log ++ [(b, i)] }) l' := by
        intro k' hk hk'
        subst hk
        have hex' : (l ≠ [] → s.ie = true ∨ s.busy = true ∨ late s.pc) ∧ s.overrun = false ∧
            s.trig.toNat + s.ie.toNat + s.busy.toNat + (isKick s.pc).toNat = 1 := by
          rcases hk' with rfl | rfl <;> exact hex
        rw [hp] at hex'
        obtain ⟨e1, e2, e3⟩ := hex'
        split
        · rename_i ht
          refine ⟨l, ⟨h.q, h.acc, hpc, ?_⟩⟩
          have : (l ≠ [] → s.ie = true ∨ s.busy = true ∨ True) ∧ s.overrun = false ∧
            false.toNat + s.ie.toNat + s.busy.toNat + true.toNat = 1 := by
            refine ⟨fun _ => Or.inr (Or.inr trivial), e2, ?_⟩
            rw [ht] at e3; simp only [isKick, Bool.toNat_true, Bool.toNat_false] at e3 ⊢; omega
          rcases hk' with rfl | rfl <;> exact this
        · rename_i ht
          refine ⟨l, ⟨h.q, h.acc, trivial, ?_⟩⟩
          have : (l ≠ [] → s.ie = true ∨ s.busy = true ∨ False) ∧ s.overrun = false ∧
            s.trig.toNat + s.ie.toNat + s.busy.toNat + false.toNat = 1 := by
            refine ⟨fun _ => ?_, e2, e3⟩
            have ht' : s.trig = false := by simpa using ht
            rw [ht'] at e3
            cases hie : s.ie <;> cases hbu : s.busy <;> simp_all [isKick]
          rcases hk' with rfl | rfl <;> exact this
      cases k with
      | avr =>
        refine ⟨l, ⟨h.q, h.acc, trivial, ?_⟩⟩
        simp [Extra, isKick]
      | sam => exact ⟨l, ⟨h.q, h.acc, trivial, fun _ => Or.inl rfl⟩⟩
      | mcs51 => exact trig2 _ rfl (Or.inl rfl)
      | n76 => exact trig2 _ rfl (Or.inr rfl)
  | kick b i =>
    dsimp only
    refine ⟨l, ⟨h.q, h.acc, trivial, ?_⟩⟩
    cases k <;> simp only [Extra, hp, late, isKick] at hex ⊢
    · exact absurd hex.2.2.2.2 (by simp)
    · exact fun _ => Or.inl trivial
    · refine ⟨fun _ => Or.inl trivial, hex.2.1, ?_⟩
      have := hex.2.2
      simp only [Bool.toNat_true, Bool.toNat_false] at this ⊢
      have h0 : s.ie.toNat = 0 := by omega
      omega
    · refine ⟨fun _ => Or.inl trivial, hex.2.1, ?_⟩
      have := hex.2.2
      simp only [Bool.toNat_true, Bool.toNat_false] at this ⊢
      have h0 : s.ie.toNat = 0 := by omega
      omega

theorem inv_call (hc : c.ok) {k : Kind} {s : St c V} {l : List V} (b : List V) (hp : s.pc = .idle) (h : Inv k s l) : Inv k (call k b s) l := by
  unfold call
  have hex := h.ex
  split
  · rename_i hk
    obtain ⟨rfl, hx⟩ := hk
    split
    · exact h
    · rename_i hr
      have hl : l = [] := Classical.byContradiction fun hn => hr ((readable_iff hc h.q).2 hn)
      obtain ⟨h1, h2, h3, h4, h5⟩ := hex
      exact ⟨h.q, h.acc, h.pc, fun _ _ => hl, by simp, h3, by simp, h5⟩
  · rename_i hk
    refine ⟨h.q, h.acc, Nat.zero_le _, ?_⟩
    cases k <;> simp only [Extra, hp, late, isKick] at hex ⊢
    · obtain ⟨h1, h2, h3, h4, h5⟩ := hex
      have hx : s.xfer = false := by
        cases hx : s.xfer
        · rfl
        · exact absurd ⟨rfl, hx⟩ hk
      refine ⟨by simp, by simp [hx], fun b' i hb => ?_, h4, trivial⟩
      rw [h1 hx trivial]; simp
    · exact fun hn => (hex hn).elim Or.inl (fun e => e.elim)
    · exact ⟨fun hn => (hex.1 hn).elim Or.inl (fun e => e.elim (fun e => Or.inr (Or.inl e)) (fun e => e.elim)), hex.2⟩
    · exact ⟨fun hn => (hex.1 hn).elim Or.inl (fun e => e.elim (fun e => Or.inr (Or.inl e)) (fun e => e.elim)), hex.2⟩

theorem inv_step (hc : c.ok) {k : Kind} {s s' : St c V} {l : List V} {a : Cmd V} (h : Inv k s l) (hs : step k s a = some s') : ∃ l', Inv k s' l' := by
  cases a with
  | call b =>
    simp only [step] at hs
    split at hs
    · rename_i hp
      split at hs
      · cases hs
      · injection hs with hs
        rw [← hs]; exact ⟨l, inv_call hc b hp h⟩
    · cases hs
  | task =>
    simp only [step] at hs
    split at hs
    · cases hs
    · injection hs with hs
      rw [← hs]; exact inv_task hc h
  | isr rdy =>
    cases k <;> simp only [step] at hs
    · split at hs
      · injection hs with hs
        rw [← hs]; exact inv_isrAvr hc _ _ _ h
      · cases hs
    · injection hs with hs
      rw [← hs]; exact inv_isrSam hc _ _ _ h
    · split at hs
      · injection hs with hs
        rw [← hs]; exact inv_isrTi hc (Or.inl rfl) h (by assumption)
      · cases hs
    · split at hs
      · injection hs with hs
        rw [← hs]; exact inv_isrTi hc (Or.inr rfl) h (by assumption)
      · cases hs
  | hw =>
    have key : ∀ k', k = k' → (k' = .mcs51 ∨ k' = .n76) → s.busy = true → Inv k { s with busy := false, ie := true } l := by
      intro k' hk hk' hb
      subst hk
      have hex : (l ≠ [] → s.ie = true ∨ s.busy = true ∨ late s.pc) ∧ s.overrun = false ∧
          s.trig.toNat + s.ie.toNat + s.busy.toNat + (isKick s.pc).toNat = 1 := by
        rcases hk' with rfl | rfl <;> exact h.ex
      obtain ⟨e1, e2, e3⟩ := hex
      refine ⟨h.q, h.acc, h.pc, ?_⟩
      have : (l ≠ [] → true = true ∨ false = true ∨ late s.pc) ∧ s.overrun = false ∧
          s.trig.toNat + true.toNat + false.toNat + (isKick s.pc).toNat = 1 := by
        refine ⟨fun _ => Or.inl rfl, e2, ?_⟩
        rw [hb] at e3; simp only [Bool.toNat_true, Bool.toNat_false] at e3 ⊢
        have h0 : s.ie.toNat = 0 := by omega
        omega
      rcases hk' with rfl | rfl <;> exact this
    cases k <;> simp only [step] at hs
    · cases hs
    · cases hs
    · split at hs
      · injection hs with hs
        rw [← hs]; exact ⟨l, key _ rfl (Or.inl rfl) (by assumption)⟩
      · cases hs
    · split at hs
      · injection hs with hs
        rw [← hs]; exact ⟨l, key _ rfl (Or.inr rfl) (by assumption)⟩
      · cases hs

theorem inv_reach (hc : c.ok) {k : Kind} {ok : St c V → List V → Prop} {s : St c V} (h : Reach k ok s) : ∃ l, Inv k s l := by
  induction h with
  | init old => exact ⟨[], inv_init k old⟩
  | step a _ _ hs ih => obtain ⟨l, hi⟩ := ih; exact inv_step hc hi hs

/-! ### C67: what is accepted is sent -/

/-- **C67a**: whatever the driver, the interleaving and the calls, what was given to the UART is the beginning of what was accepted, in order, nothing
twice; and all of it once the fifo is empty. -/
theorem tx_in_order (hc : c.ok) {k : Kind} {ok : St c V → List V → Prop} {s : St c V} (h : Reach k ok s) :
    s.out <+: s.acc ∧ (s.q.readable = false → s.out = s.acc) := by
  obtain ⟨l, hi⟩ := inv_reach hc h
  refine ⟨⟨l, hi.acc⟩, fun hr => ?_⟩
  have hl : l = [] := Classical.byContradiction fun hn => by
    have := (readable_iff hc hi.q).2 hn
    rw [hr] at this; exact absurd this (by simp)
  rw [← hi.acc, hl, List.append_nil]

/-- the routine, when it runs with something to send and the UART ready, sends -/
theorem isr_sends (hc : c.ok) {k : Kind} {s : St c V} {l : List V} (hi : Inv k s l) (hl : l ≠ []) (hie : s.ie = true) (rdy : List Bool)
    (hr : k = .sam → ∃ x, rdy = true :: x) : ∃ s', step k s (.isr rdy) = some s' ∧ s.out.length < s'.out.length := by
  have hread : s.q.readable = true := (readable_iff hc hi.q).2 hl
  have grow : s.out.length < (send s).out.length := by show _ < (s.out ++ [_]).length; simp
  have monoA : ∀ (r : List Bool) (x : St c V), x.out.length ≤ (isrAvr r x).out.length := by
    intro r
    induction r with
    | nil => intro x; unfold isrAvr; split <;> simp [send]
    | cons y r ih =>
      intro x; unfold isrAvr; split
      · split
        · exact Nat.le_trans (by simp [send]) (ih (send x))
        · simp [send]
      · simp
  have monoS : ∀ (r : List Bool) (x : St c V), x.out.length ≤ (isrSam r x).out.length := by
    intro r
    induction r with
    | nil => intro x; exact Nat.le_refl _
    | cons y r ih =>
      intro x; unfold isrSam; split
      · split
        · exact Nat.le_trans (by simp [send]) (ih (send x))
        · simp
      · simp
  cases k with
  | avr =>
    refine ⟨isrAvr rdy s, by simp only [step]; rw [if_pos hie], ?_⟩
    cases rdy with
    | nil => unfold isrAvr; rw [if_pos hread]; exact grow
    | cons y r =>
      unfold isrAvr; rw [if_pos hread]
      split
      · exact Nat.lt_of_lt_of_le grow (monoA r _)
      · exact grow
  | sam =>
    obtain ⟨x, rfl⟩ := hr rfl
    refine ⟨isrSam (true :: x) s, rfl, ?_⟩
    unfold isrSam
    rw [if_pos rfl, if_pos hread]
    exact Nat.lt_of_lt_of_le grow (monoS x _)
  | mcs51 | n76 =>
    refine ⟨isrTi s, by simp only [step]; rw [if_pos hie], ?_⟩
    unfold isrTi; rw [if_pos hread]; exact grow

/-- **C67b**: no accepted byte is left behind: when uart_write has returned and something is still to be sent, the interrupt is enabled (or, on 8051,
the UART is transmitting and will request it), and the routine sends at least one byte when it finds the UART ready. -/
theorem tx_progress (hc : c.ok) {k : Kind} {ok : St c V → List V → Prop} {s : St c V} (h : Reach k ok s) (hp : s.pc = .idle) (hn : s.out ≠ s.acc) :
    (s.ie = true ∨ ((k = .mcs51 ∨ k = .n76) ∧ s.busy = true)) ∧
    ∀ rdy, s.ie = true → (k = .sam → ∃ x, rdy = true :: x) → ∃ s', step k s (.isr rdy) = some s' ∧ s.out.length < s'.out.length := by
  obtain ⟨l, hi⟩ := inv_reach hc h
  have hl : l ≠ [] := by
    intro e; apply hn; rw [← hi.acc, e, List.append_nil]
  refine ⟨?_, fun rdy hie hr => isr_sends hc hi hl hie rdy hr⟩
  have hex := hi.ex
  cases k with
  | avr =>
    obtain ⟨h1, h2, h3, h4, h5⟩ := hex
    left
    refine h4 ?_ hl
    cases hx : s.xfer
    · exact absurd (h1 hx hp) hl
    · rfl
  | sam =>
    rcases hex hl with e | e
    · exact Or.inl e
    · rw [hp] at e; exact e.elim
  | mcs51 =>
    rcases hex.1 hl with e | e | e
    · exact Or.inl e
    · exact Or.inr ⟨Or.inl rfl, e⟩
    · rw [hp] at e; exact e.elim
  | n76 =>
    rcases hex.1 hl with e | e | e
    · exact Or.inl e
    · exact Or.inr ⟨Or.inr rfl, e⟩
    · rw [hp] at e; exact e.elim

/-- **C67c**: the 8051 drivers never write a byte over the one being transmitted. -/
theorem tx_no_overrun (hc : c.ok) {k : Kind} (hk : k = .mcs51 ∨ k = .n76) {ok : St c V → List V → Prop} {s : St c V} (h : Reach k ok s) : s.overrun = false := by
  obtain ⟨l, hi⟩ := inv_reach hc h
  have hex := hi.ex
  rcases hk with rfl | rfl
  · exact hex.2.1
  · exact hex.2.1

/-! ### C67: what uart_write returns -/

/-- bytes of the call under way already accepted -/
def part : Pc V → List V
  | .look b i | .put b i | .fin b i | .kick b i => b.take i
  | .idle => []

theorem send_fields (s : St c V) : (send s).acc = s.acc ∧ (send s).log = s.log ∧ (send s).pc = s.pc ∧ (send s).xfer = s.xfer ∧
    (send s).cur = s.cur ∧ (send s).sent = s.sent := ⟨rfl, rfl, rfl, rfl, rfl, rfl⟩

/-- the routine touches none of these -/
theorem isr_fields {k : Kind} {s s' : St c V} {rdy : List Bool} (h : step k s (.isr rdy) = some s') :
    s'.acc = s.acc ∧ s'.log = s.log ∧ s'.pc = s.pc ∧ s'.xfer = s.xfer ∧ s'.cur = s.cur ∧ s'.sent = s.sent := by
  have hA : ∀ (r : List Bool) (x : St c V), (isrAvr r x).acc = x.acc ∧ (isrAvr r x).log = x.log ∧ (isrAvr r x).pc = x.pc ∧
      (isrAvr r x).xfer = x.xfer ∧ (isrAvr r x).cur = x.cur ∧ (isrAvr r x).sent = x.sent := by
    intro r
    induction r with
    | nil => intro x; unfold isrAvr; split <;> exact ⟨rfl, rfl, rfl, rfl, rfl, rfl⟩
    | cons y r ih =>
      intro x; unfold isrAvr; split
      · split
        · exact ih (send x)
        · exact ⟨rfl, rfl, rfl, rfl, rfl, rfl⟩
      · exact ⟨rfl, rfl, rfl, rfl, rfl, rfl⟩
  have hS : ∀ (r : List Bool) (x : St c V), (isrSam r x).acc = x.acc ∧ (isrSam r x).log = x.log ∧ (isrSam r x).pc = x.pc ∧
      (isrSam r x).xfer = x.xfer ∧ (isrSam r x).cur = x.cur ∧ (isrSam r x).sent = x.sent := by
    intro r
    induction r with
    | nil => intro x; exact ⟨rfl, rfl, rfl, rfl, rfl, rfl⟩
    | cons y r ih =>
      intro x; unfold isrSam; split
      · split
        · exact ih (send x)
        · exact ⟨rfl, rfl, rfl, rfl, rfl, rfl⟩
      · exact ⟨rfl, rfl, rfl, rfl, rfl, rfl⟩
  have hT : ∀ x : St c V, (isrTi x).acc = x.acc ∧ (isrTi x).log = x.log ∧ (isrTi x).pc = x.pc ∧
      (isrTi x).xfer = x.xfer ∧ (isrTi x).cur = x.cur ∧ (isrTi x).sent = x.sent := by
    intro x; unfold isrTi; split <;> exact ⟨rfl, rfl, rfl, rfl, rfl, rfl⟩
  cases k <;> simp only [step] at h
  · split at h
    · injection h with h; rw [← h]; exact hA _ _
    · cases h
  · injection h with h; rw [← h]; exact hS _ _
  · split at h
    · injection h with h; rw [← h]; exact hT _
    · cases h
  · split at h
    · injection h with h; rw [← h]; exact hT _
    · cases h

theorem hw_fields {k : Kind} {s s' : St c V} (h : step k s .hw = some s') :
    s'.acc = s.acc ∧ s'.log = s.log ∧ s'.pc = s.pc ∧ s'.xfer = s.xfer ∧ s'.cur = s.cur ∧ s'.sent = s.sent := by
  cases k <;> simp only [step] at h
  · cases h
  · cases h
  all_goals
    split at h
    · injection h with h; rw [← h]; exact ⟨rfl, rfl, rfl, rfl, rfl, rfl⟩
    · cases h

theorem said_log {s : St c V} {b : List V} {n : Nat} (L : List (List V × Nat)) (h : L = s.log ++ [(b, n)]) :
    (L.flatMap fun p => p.1.take p.2) = said s ++ b.take n := by
  rw [h]; simp [said]

/-- **C67d, atsamx7x, 8051**: uart_write returns the number of bytes it accepted: after any number of calls, what it said it had written is what was accepted
(and will be sent, C67a and C67b). -/
theorem tx_said_accepted {k : Kind} (hk : k = .sam ∨ k = .mcs51) {ok : St c V → List V → Prop} {s : St c V} (h : Reach k ok s) :
    s.acc = said s ++ part s.pc := by
  induction h with
  | init old => rfl
  | @step s s' a hr _ hs ih =>
    cases a with
    | call b =>
      simp only [step] at hs
      split at hs
      · rename_i hp
        split at hs
        · cases hs
        · injection hs with hs
          rw [← hs]
          unfold call
          rw [if_neg (by rcases hk with rfl | rfl <;> simp)]
          rw [hp] at ih
          show s.acc = said s ++ b.take 0
          rw [ih]; simp [part]
      · cases hs
    | isr rdy =>
      obtain ⟨h1, h2, h3, _⟩ := isr_fields hs
      unfold said
      rw [h1, h2, h3]; exact ih
    | hw =>
      obtain ⟨h1, h2, h3, _⟩ := hw_fields hs
      unfold said
      rw [h1, h2, h3]; exact ih
    | task =>
      have hs' : task k s = s' := by
        simp only [step] at hs
        split at hs
        · cases hs
        · injection hs
      rw [← hs']
      unfold task
      cases hp : s.pc with
      | idle => rw [hp] at ih; dsimp only; rw [hp]; exact ih
      | look b i =>
        rw [hp] at ih
        have hk' : ¬ k = .n76 := by rcases hk with rfl | rfl <;> simp
        dsimp only
        rw [if_neg hk']
        split
        · split <;> exact ih
        · exact ih
      | put b i =>
        rw [hp] at ih
        dsimp only
        split
        · rename_i v hv
          show s.acc ++ [v] = said s ++ b.take (i + 1)
          rw [ih, List.take_add_one, hv]
          simp [part]
        · rw [hp]; exact ih
      | fin b i =>
        rw [hp] at ih
        dsimp only
        split
        · rename_i h0; subst h0
          show s.acc = said s ++ []
          rw [ih]; simp [part]
        · rcases hk with rfl | rfl
          · show s.acc = ((s.log ++ [(b, i)]).flatMap fun p => p.1.take p.2) ++ []
            rw [said_log _ rfl, ih, List.append_nil]; rfl
          · dsimp only
            split
            · exact ih
            · show s.acc = ((s.log ++ [(b, i)]).flatMap fun p => p.1.take p.2) ++ []
              rw [said_log _ rfl, ih, List.append_nil]; rfl
      | kick b i =>
        rw [hp] at ih
        show s.acc = ((s.log ++ [(b, i)]).flatMap fun p => p.1.take p.2) ++ []
        rw [said_log _ rfl, ih, List.append_nil]; rfl

/-! #### n76e003 -/

/-- room for `b` in the fifo when uart_write is called -/
def room (s : St c V) (b : List V) : Prop := s.acc.length - s.out.length + b.length ≤ c.size - 2

/-- n76: while a call that has room is under way -/
def Room (s : St c V) (l : List V) : Prop :=
  match s.pc with
  | .look b i | .put b i => l.length + (b.length - i) ≤ c.size - 2 ∧ i ≤ b.length
  | _ => True

theorem n76_inv (hc : c.ok) {s : St c V} (h : Reach .n76 room s) : ∃ l, Inv .n76 s l ∧ Room s l ∧ s.acc = said s ++ part s.pc := by
  induction h with
  | init old => exact ⟨[], inv_init _ old, trivial, rfl⟩
  | @step s s' a hr hok hs ih =>
    obtain ⟨l, hi, hroom, hacc⟩ := ih
    obtain ⟨l', hi'⟩ := inv_step hc hi hs
    cases a with
    | call b =>
      have hb := hok b rfl
      simp only [step] at hs
      split at hs
      · rename_i hp
        split at hs
        · cases hs
        · injection hs with hs
          subst hs
          have hcall : Inv .n76 (call .n76 b s) l := inv_call hc b hp hi
          refine ⟨l, hcall, ?_, ?_⟩
          · show l.length + (b.length - 0) ≤ c.size - 2 ∧ 0 ≤ b.length
            unfold room at hb
            rw [← hi.acc, List.length_append] at hb
            omega
          · rw [hp] at hacc
            show s.acc = said s ++ b.take 0
            rw [hacc]; simp [part]
      · cases hs
    | isr rdy =>
      obtain ⟨h1, h2, h3, _⟩ := isr_fields hs
      refine ⟨l', hi', ?_, by unfold said; rw [h1, h2, h3]; exact hacc⟩
      have hlen : l'.length ≤ l.length := by
        have e1 := congrArg List.length hi'.acc
        have e2 := congrArg List.length hi.acc
        have hmono : s.out.length ≤ s'.out.length := by
          simp only [step] at hs
          split at hs
          · injection hs with hs
            rw [← hs]; unfold isrTi; split <;> simp [send]
          · cases hs
        rw [List.length_append, h1] at e1
        rw [List.length_append] at e2
        omega
      unfold Room at hroom ⊢
      rw [h3]
      cases hp : s.pc <;> rw [hp] at hroom <;> dsimp only at hroom ⊢ <;> first | exact trivial | omega
    | hw =>
      obtain ⟨h1, h2, h3, _⟩ := hw_fields hs
      refine ⟨l', hi', ?_, by unfold said; rw [h1, h2, h3]; exact hacc⟩
      have hlen : l'.length = l.length := by
        have e1 := congrArg List.length hi'.acc
        have e2 := congrArg List.length hi.acc
        have hmono : s.out.length = s'.out.length := by
          simp only [step] at hs
          split at hs
          · injection hs with hs
            rw [← hs]
          · cases hs
        rw [List.length_append, h1] at e1
        rw [List.length_append] at e2
        omega
      unfold Room at hroom ⊢
      rw [h3]
      cases hp : s.pc <;> rw [hp] at hroom <;> dsimp only at hroom ⊢ <;> first | exact trivial | omega
    | task =>
      have hs' : task .n76 s = s' := by
        simp only [step] at hs
        split at hs
        · cases hs
        · injection hs
      have hpcOk := hi.pc
      have hl' : s.out ++ l' = s'.acc ∨ s'.out ≠ s.out := by
        by_cases e : s'.out = s.out
        · left; rw [← e]; exact hi'.acc
        · right; exact e
      refine ⟨l', hi', ?_⟩
      unfold task at hs'
      cases hp : s.pc with
      | idle => rw [hp] at hs'; subst hs'; exact ⟨by unfold Room; rw [hp]; trivial, hacc⟩
      | look b i =>
        rw [hp] at hs' hacc hpcOk
        unfold Room at hroom
        rw [hp] at hroom
        dsimp only at hs' hroom
        have same : ∀ p : Pc V, s' = { s with pc := p } → l'.length = l.length := by
          intro p e
          have e1 := congrArg List.length hi'.acc
          have e2 := congrArg List.length hi.acc
          rw [e, List.length_append] at e1
          rw [List.length_append] at e2
          dsimp only at e1
          omega
        by_cases hib : i < b.length
        · have hw : s.q.writable = true := (writable_iff hc hi.q).2 (by omega)
          rw [if_pos hib, if_pos hw] at hs'
          have := same _ hs'.symm
          subst hs'
          exact ⟨⟨by omega, by omega⟩, hacc⟩
        · rw [if_neg hib] at hs'
          subst hs'
          exact ⟨trivial, hacc⟩
      | put b i =>
        rw [hp] at hs' hacc hpcOk
        unfold Room at hroom
        rw [hp] at hroom
        dsimp only at hs' hroom
        simp only [PcOk] at hpcOk
        rw [List.getElem?_eq_getElem hpcOk.1] at hs'
        dsimp only at hs'
        subst hs'
        refine ⟨?_, ?_⟩
        · show l'.length + (b.length - (i + 1)) ≤ c.size - 2 ∧ i + 1 ≤ b.length
          have e1 := congrArg List.length hi'.acc
          have e2 := congrArg List.length hi.acc
          rw [List.length_append] at e1 e2
          simp only [List.length_append, List.length_singleton] at e1
          omega
        · show s.acc ++ [b[i]] = said s ++ b.take (i + 1)
          rw [hacc, List.take_add_one, List.getElem?_eq_getElem hpcOk.1]
          simp [part]
      | fin b i =>
        rw [hp] at hs' hacc
        dsimp only at hs'
        split at hs'
        · rename_i h0; subst h0; subst hs'
          refine ⟨trivial, ?_⟩
          show s.acc = said s ++ []
          rw [hacc]; simp [part]
        · split at hs'
          · subst hs'; exact ⟨trivial, hacc⟩
          · subst hs'
            refine ⟨trivial, ?_⟩
            show s.acc = ((s.log ++ [(b, i)]).flatMap fun p => p.1.take p.2) ++ []
            rw [said_log _ rfl, hacc, List.append_nil]; rfl
      | kick b i =>
        rw [hp] at hs' hacc
        dsimp only at hs'
        subst hs'
        refine ⟨trivial, ?_⟩
        show s.acc = ((s.log ++ [(b, i)]).flatMap fun p => p.1.take p.2) ++ []
        rw [said_log _ rfl, hacc, List.append_nil]; rfl

/-- **C67d, n76e003, partial**: provided uart_write is only given buffers for which there is room, what it said it had written is what was accepted. -/
theorem n76_said_partial (hc : c.ok) {s : St c V} (h : Reach .n76 room s) (hp : s.pc = .idle) : s.acc = said s := by
  obtain ⟨_, _, _, h3⟩ := n76_inv hc h
  rw [h3, hp]; simp [part]

/-- **C67d, n76e003, refuted**: whenever the fifo is full (`size - 2` bytes), uart_write, not interrupted, returns 1 and drops the byte. -/
theorem n76_said_wrong (hc : c.ok) (hsz : 2 < c.size) {ok : St c V → List V → Prop} {s : St c V} (h : Reach .n76 ok s) (hp : s.pc = .idle)
    (hfull : s.acc.length = s.out.length + (c.size - 2)) (v : V) (b : List V) :
    ∃ s', (step .n76 s (.call (v :: b))).bind (fun x => (step .n76 x .task).bind fun x => step .n76 x .task) = some s' ∧ s'.pc = .idle ∧
      s'.log = s.log ++ [(v :: b, 1)] ∧ s'.acc = s.acc ∧ said s' = said s ++ [v] := by
  obtain ⟨l, hi⟩ := inv_reach hc h
  have hl : l.length = c.size - 2 := by
    rw [← hi.acc, List.length_append] at hfull; omega
  have hw : s.q.writable = false := by
    cases e : s.q.writable
    · rfl
    · have := (writable_iff hc hi.q).1 e; omega
  have hne : l ≠ [] := by intro e; rw [e] at hl; simp at hl; omega
  have ht : s.trig = false := by
    obtain ⟨e1, e2, e3⟩ := hi.ex
    rw [hp] at e1 e3
    cases ht : s.trig
    · rfl
    · rw [ht] at e3
      simp only [isKick, Bool.toNat_true, Bool.toNat_false] at e3
      rcases e1 hne with e | e | e
      · rw [e] at e3; simp at e3; omega
      · rw [e] at e3; simp at e3
      · exact e.elim
  have h1 : step .n76 s (.call (v :: b)) = some { s with pc := .look (v :: b) 0 } := by
    simp only [step, hp]; simp [call]
  have h2 : step .n76 { s with pc := .look (v :: b) 0 } .task = some { s with pc := .fin (v :: b) 1 } := by
    simp [step, task, hw]
  have h3 : step .n76 { s with pc := .fin (v :: b) 1 } .task = some { s with pc := .idle, log := s.log ++ [(v :: b, 1)] } := by
    simp [step, task, ht]
  refine ⟨{ s with pc := .idle, log := s.log ++ [(v :: b, 1)] }, ?_, rfl, rfl, rfl, ?_⟩
  · rw [h1, Option.bind_some, h2, Option.bind_some, h3]
  · show (s.log ++ [(v :: b, 1)]).flatMap (fun p : List V × Nat => p.1.take p.2) = _
    rw [List.flatMap_append]; simp [said]

/-! ### C67d on avr: uart_write returns the size of the buffer once the fifo is empty (uart-avr_irqdriven.c:251, 256-264) -/

/-- the buffer of a new transfer fits in the fifo -/
def fits (_ : St c V) (b : List V) : Prop := b.length ≤ c.size - 2

/-- accepted, but not returned yet -/
def held (s : St c V) : List V :=
  match s.pc with
  | .idle => if s.xfer then s.cur else []
  | .look b i | .put b i | .fin b i | .kick b i => b.take i

/-- what holds when buffers fit -/
def Fit (s : St c V) : Prop :=
  s.acc = said s ++ held s ∧ (s.xfer = true → s.sent = s.cur.length) ∧
  match s.pc with
  | .look b _ | .put b _ => b.length ≤ c.size - 2
  | .fin b i => b.length = i
  | _ => True

theorem avr_inv (hc : c.ok) {s : St c V} (h : Reach .avr fits s) : ∃ l, Inv .avr s l ∧ Fit s := by
  induction h with
  | init old => exact ⟨[], inv_init _ _, rfl, fun h => by simp [init] at h, trivial⟩
  | @step s s' a _ hok hs ih =>
    obtain ⟨l, hi, hacc, hsent, hpc⟩ := ih
    obtain ⟨l', hi'⟩ := inv_step hc hi hs
    refine ⟨l', hi', ?_⟩
    obtain ⟨e1, e2, e3, e4, e5⟩ := hi.ex
    have hpcok := hi.pc
    cases a with
    | call b =>
      have hb : b.length ≤ c.size - 2 := hok b rfl
      simp only [step] at hs
      split at hs
      · rename_i hp
        split at hs
        · cases hs
        · injection hs with hs
          unfold call at hs
          split at hs
          · rename_i hx
            split at hs
            · rw [← hs]; exact ⟨hacc, hsent, hpc⟩
            · rw [← hs]
              refine ⟨?_, fun h => by simp at h, by simp only [hp]⟩
              have hh : held s = s.cur := by simp [held, hp, hx.2]
              rw [hh] at hacc
              have h2 : held { s with xfer := false, log := s.log ++ [(s.cur, s.sent)] } = [] := by simp [held, hp]
              rw [h2, List.append_nil]
              show s.acc = (s.log ++ [(s.cur, s.sent)]).flatMap (fun p : List V × Nat => p.1.take p.2)
              rw [said_log _ rfl, hsent hx.2, List.take_length]
              exact hacc
          · rename_i hx
            have hx : s.xfer = false := by
              cases e : s.xfer
              · rfl
              · exact absurd ⟨rfl, e⟩ hx
            rw [← hs]
            refine ⟨?_, hsent, hb⟩
            have hh : held s = [] := by simp [held, hp, hx]
            rw [hh] at hacc
            exact hacc
      · cases hs
    | isr rdy =>
      obtain ⟨f1, f2, f3, f4, f5, f6⟩ := isr_fields hs
      refine ⟨?_, ?_, ?_⟩
      · rw [f1, hacc]; unfold said held; rw [f2, f3, f4, f5]
      · rw [f4, f5, f6]; exact hsent
      · rw [f3]; exact hpc
    | hw => simp [step] at hs
    | task =>
      cases hp : s.pc with
      | idle => simp [step, hp] at hs
      | look b i =>
        have hx : s.xfer = false := by
          cases e : s.xfer
          · rfl
          · have := e2 e; rw [hp] at this; cases this
        simp only [step, hp] at hs
        injection hs with hs
        simp only [task, hp] at hs
        simp only [hp] at hpc
        rw [hp] at hpcok
        have hil : i ≤ b.length := hpcok
        have hh : held s = b.take i := by simp only [held, hp]
        rw [hh] at hacc
        split at hs
        · rename_i hlt
          have hl := e3 b i (Or.inl hp)
          have hw := (writable_iff hc hi.q).2 (by omega)
          rw [hw] at hs
          rw [if_pos rfl] at hs
          rw [← hs]
          exact ⟨hacc, hsent, hpc⟩
        · rename_i hlt
          rw [← hs]
          exact ⟨hacc, hsent, by show b.length = i; omega⟩
      | put b i =>
        simp only [step, hp] at hs
        injection hs with hs
        simp only [task, hp] at hs
        simp only [hp] at hpc
        rw [hp] at hpcok
        have hil : i < b.length := hpcok.1
        have hh : held s = b.take i := by simp only [held, hp]
        rw [hh] at hacc
        rw [List.getElem?_eq_getElem hil] at hs
        dsimp only at hs
        rw [← hs]
        refine ⟨?_, hsent, hpc⟩
        show s.acc ++ [b[i]] = said s ++ b.take (i + 1)
        rw [hacc, List.append_assoc, List.take_append_getElem hil]
      | fin b i =>
        simp only [step, hp] at hs
        injection hs with hs
        simp only [task, hp] at hs
        simp only [hp] at hpc
        have hx : s.xfer = false := by
          cases e : s.xfer
          · rfl
          · have := e2 e; rw [hp] at this; cases this
        have hh : held s = b.take i := by simp only [held, hp]
        rw [hh] at hacc
        split at hs
        · rename_i h0
          rw [← hs]
          refine ⟨?_, hsent, trivial⟩
          have h2 : held { s with pc := .idle } = [] := by simp [held, hx]
          rw [h2, hacc, h0]; rfl
        · rw [← hs]
          refine ⟨?_, fun _ => rfl, trivial⟩
          have h2 : held { s with ie := true, xfer := true, sent := b.length, cur := b, pc := .idle } = b := by simp [held]
          rw [h2]
          show s.acc = said s ++ b
          rw [hacc, ← hpc, List.take_length]
      | kick b i => rw [hp] at e5; simp [isKick] at e5

/-- **C67d, avr, partial**: if no buffer given to uart_write is longer than what the fifo holds (`size - 2` bytes), then between two transfers uart_write has
said it wrote exactly the bytes that were sent. -/
theorem avr_said_partial (hc : c.ok) {s : St c V} (h : Reach .avr fits s) (hp : s.pc = .idle) (hx : s.xfer = false) :
    s.acc = said s ∧ s.out = said s := by
  obtain ⟨l, hi, hacc, _⟩ := avr_inv hc h
  have hl : l = [] := hi.ex.1 hx hp
  have hh : held s = [] := by simp [held, hp, hx]
  rw [hh, List.append_nil] at hacc
  refine ⟨hacc, ?_⟩
  rw [← hacc, ← hi.acc, hl, List.append_nil]

/-- an uninterrupted uart_write -/
theorem fill (hc : c.ok) (k : Kind) (old : Nat → V) {b : List V} (hb : b ≠ []) : ∀ i, i ≤ b.length → i ≤ c.size - 2 →
    ∃ s : St c V, Reach k any s ∧ s.pc = .look b i ∧ Holds s.q (b.take i) ∧ s.acc = b.take i ∧ s.out = [] ∧ s.log = [] ∧ s.trig = true ∧ s.xfer = false := by
  intro i
  induction i with
  | zero =>
    intro _ _
    refine ⟨{ init old with pc := .look b 0 }, .step (.call b) (.init old) (fun _ _ => trivial) ?_, rfl, holds_init old, rfl, rfl, rfl, rfl, rfl⟩
    simp [step, init, hb, call]
  | succ i ih =>
    intro h1 h2
    obtain ⟨s, hr, hp, hq, ha, ho, hl, ht, hx⟩ := ih (by omega) (by omega)
    have hlen : (b.take i).length = i := by rw [List.length_take]; omega
    have hw := (writable_iff hc hq).2 (by omega)
    have s1 : step k s .task = some { s with pc := .put b i } := by
      simp only [step, hp, task]
      rw [if_pos (by omega), if_pos hw]
    have s2 : step k { s with pc := .put b i } .task = some { s with q := s.q.put b[i], acc := s.acc ++ [b[i]], pc := .look b (i + 1) } := by
      simp only [step, task]
      rw [List.getElem?_eq_getElem (by omega)]
    have e : b.take i ++ [b[i]] = b.take (i + 1) := List.take_append_getElem (by omega)
    refine ⟨_, .step .task (.step .task hr (fun _ h => by cases h) s1) (fun _ h => by cases h) s2, rfl, ?_, ?_, ho, hl, ht, hx⟩
    · rw [← e]; exact holds_put hc hq (by omega) _
    · show s.acc ++ [b[i]] = _
      rw [ha, e]

/-- the routine empties the fifo -/
theorem avr_drain (hc : c.ok) : ∀ (l : List V) (s : St c V), Reach .avr any s → Inv .avr s l → s.xfer = true →
    ∃ s' : St c V, Reach .avr any s' ∧ Inv .avr s' [] ∧ s'.xfer = true ∧ s'.log = s.log ∧ s'.cur = s.cur ∧ s'.sent = s.sent ∧ s'.acc = s.acc := by
  intro l
  induction l with
  | nil => intro s hr hi hx; exact ⟨s, hr, hi, hx, rfl, rfl, rfl, rfl⟩
  | cons v l ih =>
    intro s hr hi hx
    have hie : s.ie = true := hi.ex.2.2.2.1 hx (by simp)
    have hrd : s.q.readable = true := (readable_iff hc hi.q).2 (by simp)
    have hs : step .avr s (.isr []) = some (send s) := by
      simp only [step, hie, isrAvr, hrd]; rfl
    obtain ⟨h1, h2, h3⟩ := inv_send hc hi
    obtain ⟨s', r1, r2, r3, r4, r5, r6, r7⟩ := ih (send s) (.step _ hr (fun _ h => by cases h) hs) ⟨h1, h2, h3, extra_send (Or.inl rfl) hi.ex⟩ hx
    exact ⟨s', r1, r2, r3, r4, r5, r6, r7⟩

/-- **C67d, avr, refuted**: a buffer longer than `size - 2` bytes, the first one uart_write is given: it returns the size of the buffer, but only its first
`size - 2` bytes were sent. -/
theorem avr_said_wrong (hc : c.ok) (hsz : 2 < c.size) (old : Nat → V) (b : List V) (hb : c.size - 2 < b.length) :
    ∃ s : St c V, Reach .avr any s ∧ s.pc = .idle ∧ s.xfer = false ∧ s.log = [(b, b.length)] ∧ s.out = b.take (c.size - 2) ∧ s.acc = s.out := by
  have hne : b ≠ [] := by intro e; rw [e] at hb; simp at hb
  obtain ⟨s, hr, hp, hq, ha, ho, hl, ht, hx⟩ := fill hc .avr old hne (c.size - 2) (by omega) (Nat.le_refl _)
  have hw : s.q.writable = false := by
    cases e : s.q.writable
    · rfl
    · have := (writable_iff hc hq).1 e; rw [List.length_take] at this; omega
  have s1 : step .avr s .task = some { s with pc := .fin b (c.size - 2) } := by
    simp only [step, hp, task]
    rw [if_pos hb, hw]; rfl
  have s2 : step .avr { s with pc := .fin b (c.size - 2) } .task = some { s with ie := true, xfer := true, sent := b.length, cur := b, pc := .idle } := by
    simp only [step, task]
    rw [if_neg (by omega)]
  have r2 := Reach.step .task (Reach.step .task hr (fun _ h => by cases h) s1) (fun _ h => by cases h) s2
  obtain ⟨l, hi⟩ := inv_reach hc r2
  obtain ⟨t, r3, hi3, x3, l3, c3, n3, a3⟩ := avr_drain hc l _ r2 hi rfl
  have p3 : t.pc = .idle := hi3.ex.2.1 x3
  have hrd : t.q.readable = false := by
    cases e : t.q.readable
    · rfl
    · exact absurd rfl ((readable_iff hc hi3.q).1 e)
  have s4 : step .avr t (.call b) = some { t with xfer := false, log := t.log ++ [(t.cur, t.sent)] } := by
    simp only [step, p3, call, x3, hrd]
    rw [if_neg hne, if_pos (by simp)]; rfl
  have e3 : t.out = t.acc := by have := hi3.acc; rw [List.append_nil] at this; exact this
  refine ⟨_, .step (.call b) r3 (fun _ _ => trivial) s4, p3, rfl, ?_, ?_, e3.symm⟩
  · show t.log ++ [(t.cur, t.sent)] = _
    rw [l3, c3, n3]; show s.log ++ [(b, b.length)] = _; rw [hl]; rfl
  · show t.out = _
    rw [e3, a3]; exact ha

/-- The hypotheses of n76_said_wrong are met: from the start, a buffer of `size - 2` bytes fills the fifo. -/
theorem n76_full (hc : c.ok) (hsz : 2 < c.size) (old : Nat → V) (b : List V) (hb : b.length = c.size - 2) :
    ∃ s : St c V, Reach .n76 any s ∧ s.pc = .idle ∧ s.acc.length = s.out.length + (c.size - 2) ∧ s.acc = b := by
  have hne : b ≠ [] := by intro e; rw [e] at hb; simp at hb; omega
  obtain ⟨s, hr, hp, hq, ha, ho, hl, ht, hx⟩ := fill hc .n76 old hne (c.size - 2) (by omega) (Nat.le_refl _)
  have s1 : step .n76 s .task = some { s with pc := .fin b (c.size - 2) } := by
    simp only [step, hp, task]
    rw [if_neg (by omega)]
  have s2 : step .n76 { s with pc := .fin b (c.size - 2) } .task = some { s with trig := false, pc := .kick b (c.size - 2) } := by
    simp only [step, task]
    rw [if_neg (by omega), if_pos ht]
  have s3 : step .n76 { s with trig := false, pc := .kick b (c.size - 2) } .task =
      some { s with trig := false, ie := true, pc := .idle, log := s.log ++ [(b, c.size - 2)] } := by
    simp only [step, task]
  have ha : s.acc = b := by rw [ha, List.take_of_length_le (by omega)]
  refine ⟨_, .step .task (.step .task (.step .task hr (fun _ h => by cases h) s1) (fun _ h => by cases h) s2) (fun _ h => by cases h) s3, rfl, ?_, ha⟩
  show s.acc.length = s.out.length + _
  rw [ha, ho, hb]; simp

/-! ### demonstrations -/

def runs (k : Kind) (s : St c V) (l : List (Cmd V)) : Option (St c V) := l.foldlM (step k) s

theorem reach_runs {k : Kind} : ∀ (l : List (Cmd V)) {s s' : St c V}, Reach k any s → runs k s l = some s' → Reach k any s'
  | [], s, s', h, e => by simp [runs] at e; rw [← e]; exact h
  | a :: l, s, s', h, e => by
    simp only [runs, List.foldlM_cons] at e
    cases hs : step k s a with
    | none => rw [hs] at e; cases e
    | some t => rw [hs] at e; exact reach_runs l (.step a h (fun _ _ => trivial) hs) e

/-- eight elements, indices on 8 bits -/
def c8 : Cfg := ⟨8, 7⟩

/-- C67, sam: two buffers, the first one half sent when the second one is given -/
example : c8.ok ∧ ∃ s : St c8 Nat, Reach .sam any s ∧ s.out = [1, 2, 3, 4] ∧ s.acc = [1, 2, 3, 4, 5] ∧ s.log = [([1, 2, 3], 3), ([4, 5], 2)] ∧ s.ie = true :=
  ⟨by unfold Cfg.ok; decide, _, reach_runs [.call [1, 2, 3], .task, .task, .task, .task, .isr [true, true], .task, .task, .task, .task, .isr [true, false],
    .call [4, 5], .task, .task, .task, .isr [true], .task, .task, .task] (.init fun _ => 0) rfl, rfl, rfl, rfl, rfl⟩

/-- C67, 8051: the last byte is in SBUF while a new one is given -/
example : c8.ok ∧ ∃ s : St c8 Nat, Reach .mcs51 any s ∧ s.out = [1, 2] ∧ s.acc = [1, 2, 3] ∧ s.log = [([1, 2], 2), ([3], 1)] ∧ s.busy = true ∧ s.trig = false :=
  ⟨by unfold Cfg.ok; decide, _, reach_runs [.call [1, 2], .task, .task, .task, .task, .task, .task, .task, .isr [], .hw, .isr [],
    .call [3], .task, .task, .task, .task] (.init fun _ => 0) rfl, rfl, rfl, rfl, rfl, rfl⟩

/-- C67, avr: a buffer that fits -/
example : ∃ s : St c8 Nat, Reach .avr fits s ∧ s.pc = .idle ∧ s.xfer = false ∧ s.log = [([1], 1)] ∧ s.out = [1] := by
  refine ⟨_, .step (.call [1]) (.step (.isr [false]) (.step .task (.step .task (.step .task (.step .task (.step (.call [1]) (.init fun _ => 0)
    ?_ rfl) ?_ rfl) ?_ rfl) ?_ rfl) ?_ rfl) ?_ rfl) ?_ rfl, rfl, rfl, rfl, rfl⟩ <;> intro b hb <;> cases hb <;> (show (1 : Nat) ≤ c8.size - 2) <;> decide

end Pico.Drv.Tx
