import Verif.Arch.Core1
/- C103: the start of the second core of the RP2040 -/
namespace Pico.Core1

/-- none of the three words is 0 (the boot ROM takes a 0 for a restart) -/
def Seq.Ok (q : Seq) : Prop := q.vtor ≠ 0#32 ∧ q.sp ≠ 0#32 ∧ q.entry ≠ 0#32

/-- core 1 has left its boot ROM, with these -/
def Rom.left (r : Rom) (v p e : Word) : Prop := r = .started v p e ∨ r = .idles v p e

/-- nothing is in the FIFO to core 1; its ROM, and the FIFO to core 0, are anyhow -/
def Clean (s : St) : Prop := Before s ∧ s.tx = []

theorem run_trans {q : Seq} {b : Bool} {s t u : St} (h1 : Run q b s t) (h2 : Run q b t u) : Run q b s u := by
  induction h2 with
  | refl => exact h1
  | step a _ p e ih => exact ih.step a p e

theorem run_one {q : Seq} {b : Bool} {s t : St} (a : Cmd) (p : b = true → a ≠ .giveUp) (e : step q s a = some t) : Run q b s t :=
  (Run.refl).step a p e

/-- the words are taken one by one by a ROM that is not done -/
inductive Chain : Rom → List Word → Rom → Prop where
  | nil {r} : Chain r [] r
  | cons {r w l r'} : (∀ v p e, ¬ r.left v p e) → Chain (r.take w) l r' → Chain r (w :: l) r'

theorem Chain.snoc {r l r'} (h : Chain r l r') (n : ∀ v p e, ¬ r'.left v p e) (w : Word) : Chain r (l ++ [w]) (r'.take w) := by
  induction h with
  | nil => exact .cons n .nil
  | cons m _ ih => exact .cons m (ih n)

/-- `idles` seen as `started` -/
def Rom.core : Rom → Rom
  | .idles v p e => .started v p e
  | r => r

theorem left_core (r : Rom) (v p e : Word) : r.left v p e ↔ r.core = .started v p e := by
  cases r <;> simp [Rom.left, Rom.core]

/-- where the boot ROM is once core 0 has seen the echo of word i - 1 -/
def prog (q : Seq) : Nat → Rom
  | 3 => .one
  | 4 => .vtor q.vtor
  | 5 => .sp q.vtor q.sp
  | 6 => .started q.vtor q.sp q.entry
  | _ => .idle

theorem take_word {q : Seq} (hq : q.Ok) {i : Nat} (h1 : 2 ≤ i) (h5 : i ≤ 5) : (prog q i).take (q.word i) = prog q (i + 1) := by
  obtain ⟨a, b, c⟩ := hq
  rcases (show i = 2 ∨ i = 3 ∨ i = 4 ∨ i = 5 by omega) with e | e | e | e <;> subst e <;> simp [prog, Rom.take, Seq.word, a, b, c]

theorem take_zero {r : Rom} (n : ∀ v p e, ¬ r.left v p e) : r.take 0#32 = .idle := by
  cases r with
  | idle => simp [Rom.take]
  | one => simp [Rom.take]
  | vtor v => simp [Rom.take]
  | sp v s => simp [Rom.take]
  | started v s e => exact absurd (Or.inl rfl) (n v s e)
  | idles v s e => exact absurd (Or.inr rfl) (n v s e)

/-- what holds at each place of core 0 -/
def At (q : Seq) (s : St) : Prop :=
  match s.pc with
  | .lock => True
  | .flush i => i = 0 ∨ (i = 1 ∧ ∃ r, Chain r s.rx s.rom.core)
  | .send i => i ≤ 5 ∧ ∃ r, Chain r s.rx s.rom.core ∧ (2 ≤ i → r = prog q i)
  | .wait i => i ≤ 5 ∧ ∃ r, Chain r s.rx s.rom.core ∧ (2 ≤ i → r = prog q i)
  | .lock2 => s.rom.left q.vtor q.sp q.entry
  | .done => s.rom.left q.vtor q.sp q.entry

theorem core_eq {r : Rom} (n : ∀ v p e, ¬ r.left v p e) : r.core = r := by
  cases r with
  | idles v p e => exact absurd (Or.inr rfl) (n v p e)
  | _ => rfl

theorem core_take {r : Rom} (n : ∀ v p e, r ≠ .idles v p e) (w : Word) : (r.take w).core = r.take w := by
  cases r with
  | idles v p e => exact absurd rfl (n v p e)
  | idle => by_cases h : w = 1#32 <;> simp [Rom.take, Rom.core, h]
  | one => by_cases h : w = 0#32 <;> simp [Rom.take, Rom.core, h]
  | vtor v => by_cases h : w = 0#32 <;> simp [Rom.take, Rom.core, h]
  | sp v s => by_cases h : w = 0#32 <;> simp [Rom.take, Rom.core, h]
  | started v s e => rfl

/-- a step of core 1 -/
theorem step_core1 {q : Seq} {s s' : St} (h : step q s .core1 = some s') :
    (∀ v p e, ¬ s.rom.left v p e) ∧ ∃ w t, s.tx = w :: t ∧ s.rx.length < 8 ∧ s' = { s with tx := t, rx := s.rx ++ [w], rom := s.rom.take w } := by
  obtain ⟨pc, tx, rx, rom, lk⟩ := s
  cases rom <;> cases tx <;> simp [step] at h
  all_goals (obtain ⟨h1, h2⟩ := h; refine ⟨?_, _, _, rfl, h1, h2.symm⟩; intro v p e hh; rcases hh with hh | hh <;> cases hh)

theorem step_idle {q : Seq} {s s' : St} (h : step q s .idle = some s') :
    ∃ v p e, s.rom = .started v p e ∧ s' = { s with rom := .idles v p e, locked := false } := by
  obtain ⟨pc, tx, rx, rom, lk⟩ := s
  cases rom <;> simp [step] at h
  exact ⟨_, _, _, rfl, h.symm⟩

theorem step_giveUp {q : Seq} {s s' : St} (h : step q s .giveUp = some s') :
    (∃ i, s.pc = .send i ∨ s.pc = .wait i) ∧ s' = { s with pc := .flush 0 } := by
  obtain ⟨pc, tx, rx, rom, lk⟩ := s
  cases pc <;> simp [step] at h
  · exact ⟨⟨_, .inl rfl⟩, h.symm⟩
  · exact ⟨⟨_, .inr rfl⟩, h.symm⟩

theorem at_step {q : Seq} (hq : q.Ok) {s s' : St} (a : Cmd) (i : At q s) (h : step q s a = some s') : At q s' := by
  cases a with
  | giveUp => obtain ⟨_, rfl⟩ := step_giveUp h; exact .inl rfl
  | idle =>
    obtain ⟨v, p, e, hr, rfl⟩ := step_idle h
    obtain ⟨pc, tx, rx, rom, lk⟩ := s
    dsimp only at hr
    subst hr
    cases pc with
    | lock2 => rcases i with i | i <;> cases i; exact .inr rfl
    | done => rcases i with i | i <;> cases i; exact .inr rfl
    | lock => exact i
    | flush _ => exact i
    | send _ => exact i
    | wait _ => exact i
  | core1 =>
    obtain ⟨n, w, t, _, _, rfl⟩ := step_core1 h
    obtain ⟨pc, tx, rx, rom, lk⟩ := s
    have c1 : rom.core = rom := core_eq n
    have c2 : (rom.take w).core = rom.take w := core_take (fun v p e hh => n v p e (.inr hh)) w
    have k : ∀ r, Chain r rx rom.core → Chain r (rx ++ [w]) (rom.take w).core := by
      intro r hc; rw [c2]; rw [c1] at hc; exact hc.snoc n w
    cases pc with
    | lock => exact i
    | flush j =>
      rcases i with i | ⟨i, r, hc⟩
      · exact .inl i
      · exact .inr ⟨i, r, k r hc⟩
    | send j => obtain ⟨i, r, hc, hp⟩ := i; exact ⟨i, r, k r hc, hp⟩
    | wait j => obtain ⟨i, r, hc, hp⟩ := i; exact ⟨i, r, k r hc, hp⟩
    | lock2 => exact absurd i (n _ _ _)
    | done => exact absurd i (n _ _ _)
  | core0 =>
    obtain ⟨pc, tx, rx, rom, lk⟩ := s
    cases pc with
    | lock => cases lk <;> simp [step] at h; subst h; exact .inl rfl
    | flush j =>
      cases rx with
      | nil =>
        simp [step] at h; subst h
        rcases i with i | ⟨i, r, hc⟩
        · exact ⟨by omega, rom.core, .nil, fun h2 => by omega⟩
        · exact ⟨by omega, r, hc, fun h2 => by omega⟩
      | cons w t =>
        simp [step] at h; subst h
        rcases i with i | ⟨i, r, hc⟩
        · exact .inl i
        · cases hc with
          | cons _ hc => exact .inr ⟨i, _, hc⟩
    | send j =>
      simp [step] at h; obtain ⟨_, rfl⟩ := h; exact i
    | wait j =>
      cases rx with
      | nil => simp [step] at h
      | cons w t =>
        simp only [step, Option.some.injEq] at h
        obtain ⟨hj, r, hc, hp⟩ := i
        cases hc with
        | cons n hc =>
        by_cases hw : w = q.word j
        · rw [if_pos hw] at h
          subst hw
          by_cases h5 : j = 5
          · have e : next j = .lock2 := by simp [next, h5]
            rw [e] at h; subst h
            subst h5
            rw [hp (by omega), take_word hq (by omega) (by omega)] at hc
            show rom.left _ _ _
            rw [left_core]
            have : ∀ l r', Chain (prog q 6) l r' → r' = prog q 6 := by
              intro l r' hh
              cases hh with
              | nil => rfl
              | cons m _ => exact absurd (Or.inl rfl) (m q.vtor q.sp q.entry)
            exact this _ _ hc
          · by_cases h0 : j = 0
            · have e : next j = .flush 1 := by simp [next, h0]
              rw [e] at h; subst h
              exact .inr ⟨rfl, _, hc⟩
            · have e : next j = .send (j + 1) := by simp [next, h0, h5]
              rw [e] at h; subst h
              refine ⟨by omega, _, hc, fun _ => ?_⟩
              by_cases h1 : j = 1
              · subst h1; exact take_zero n
              · rw [hp (by omega), take_word hq (by omega) (by omega)]
        · rw [if_neg hw] at h
          subst h
          exact .inl rfl
    | lock2 => cases lk <;> simp [step] at h; subst h; exact i
    | done => simp [step] at h

theorem at_run {q : Seq} (hq : q.Ok) {b : Bool} {s0 s : St} (h0 : Before s0) (r : Run q b s0 s) : At q s := by
  induction r with
  | refl => unfold At; rw [h0.1]; trivial
  | step a _ _ e ih => exact at_step hq a ih e

/-- Safety. Whatever was in the FIFOs and wherever core 1 was in its boot ROM: when core 0 takes the sequence for passed, core 1 has been started with exactly this table, this stack and this entry point. -/
theorem passed_right {q : Seq} (hq : q.Ok) {b : Bool} {s0 s : St} (h0 : Before s0) (r : Run q b s0 s) (h : s.pc = .lock2 ∨ s.pc = .done) :
    s.rom.left q.vtor q.sp q.entry := by
  have i := at_run hq h0 r
  unfold At at i
  rcases h with h | h <;> rw [h] at i <;> exact i

/-- the lock is held from the first step until core 1 idles -/
def Held (s : St) : Prop :=
  (s.pc ≠ .lock → s.pc ≠ .done → s.locked = false → ∃ v p e, s.rom = .idles v p e) ∧ (s.pc = .done → ∃ v p e, s.rom = .idles v p e)

theorem held_step {q : Seq} {s s' : St} (a : Cmd) (i : Held s) (h : step q s a = some s') : Held s' := by
  cases a with
  | giveUp =>
    obtain ⟨⟨j, hj⟩, rfl⟩ := step_giveUp h
    refine ⟨fun _ _ hl => i.1 ?_ ?_ hl, fun hh => Pc.noConfusion hh⟩ <;> rcases hj with hj | hj <;> rw [hj] <;> intro hh <;> cases hh
  | idle => obtain ⟨v, p, e, hr, rfl⟩ := step_idle h; exact ⟨fun _ _ _ => ⟨v, p, e, rfl⟩, fun _ => ⟨v, p, e, rfl⟩⟩
  | core1 =>
    obtain ⟨n, w, t, _, _, rfl⟩ := step_core1 h
    refine ⟨fun a b c => ?_, fun a => ?_⟩
    · obtain ⟨v, p, e, hh⟩ := i.1 a b c; exact absurd (Or.inr hh) (n v p e)
    · obtain ⟨v, p, e, hh⟩ := i.2 a; exact absurd (Or.inr hh) (n v p e)
  | core0 =>
    obtain ⟨pc, tx, rx, rom, lk⟩ := s
    have keep : ∀ (pc' : Pc) tx' rx', pc ≠ .lock → pc ≠ .done → pc' ≠ .done → Held ⟨pc', tx', rx', rom, lk⟩ := by
      intro pc' tx' rx' h1 h2 h3
      exact ⟨fun _ _ c => i.1 h1 h2 c, fun c => absurd c h3⟩
    cases pc with
    | lock => cases lk <;> simp [step] at h; subst h; exact ⟨fun _ _ c => Bool.noConfusion c, fun c => Pc.noConfusion c⟩
    | flush j =>
      cases rx <;> simp [step] at h <;> subst h <;> exact keep _ _ _ Pc.noConfusion Pc.noConfusion Pc.noConfusion
    | send j => simp [step] at h; obtain ⟨_, rfl⟩ := h; exact keep _ _ _ Pc.noConfusion Pc.noConfusion Pc.noConfusion
    | wait j =>
      cases rx with
      | nil => simp [step] at h
      | cons w t =>
        simp only [step, Option.some.injEq] at h
        subst h
        refine keep _ _ _ Pc.noConfusion Pc.noConfusion ?_
        unfold next
        by_cases hw : w = q.word j
        · rw [if_pos hw]; by_cases h5 : j = 5
          · rw [if_pos h5]; exact Pc.noConfusion
          · rw [if_neg h5]; by_cases h0 : j = 0
            · rw [if_pos h0]; exact Pc.noConfusion
            · rw [if_neg h0]; exact Pc.noConfusion
        · rw [if_neg hw]; exact Pc.noConfusion
    | lock2 =>
      cases lk <;> simp [step] at h; subst h
      obtain ⟨v, p, e, hh⟩ := i.1 Pc.noConfusion Pc.noConfusion rfl
      exact ⟨fun _ c => absurd rfl c, fun _ => ⟨v, p, e, hh⟩⟩
    | done => simp [step] at h

/-- Handshake. arch_core_init returns only once core 1 runs its idle task, started as asked. -/
theorem done_idles {q : Seq} (hq : q.Ok) {b : Bool} {s0 s : St} (h0 : Before s0) (r : Run q b s0 s) (h : s.pc = .done) :
    s.rom = .idles q.vtor q.sp q.entry := by
  have i : Held s := by
    clear h
    induction r with
    | refl => refine ⟨fun c => absurd h0.1 c, fun c => ?_⟩; rw [h0.1] at c; cases c
    | step a _ _ e ih => exact held_step a ih e
  obtain ⟨v, p, e, hr⟩ := i.2 h
  have k := passed_right hq h0 r (.inr h)
  rw [hr] at k ⊢
  rcases k with k | k <;> cases k; rfl

/-! only the right triple -/

/-- if it has left its ROM, with the words asked -/
def Good (q : Seq) (r : Rom) : Prop := ∀ v p e, r.left v p e → v = q.vtor ∧ p = q.sp ∧ e = q.entry

def AllGood (q : Seq) : Rom → List Word → Prop
  | r, [] => Good q r
  | r, w :: l => Good q r ∧ AllGood q (r.take w) l

theorem AllGood.head {q : Seq} {r : Rom} {l : List Word} (h : AllGood q r l) : Good q r := by
  cases l with
  | nil => exact h
  | cons _ _ => exact h.1

theorem AllGood.snoc {q : Seq} {l : List Word} {w : Word} : ∀ {r : Rom}, AllGood q r l → Good q ((l.foldl (fun r w => r.take w) r).take w) → AllGood q r (l ++ [w]) := by
  induction l with
  | nil => intro r h g; exact ⟨h, g⟩
  | cons x l ih => intro r h g; exact ⟨h.1, ih h.2 g⟩

theorem fold_started (v p e : Word) (l : List Word) : l.foldl (fun (r : Rom) w => r.take w) (.started v p e) = Rom.started v p e := by
  induction l with
  | nil => rfl
  | cons x l ih => exact ih
theorem fold_idles (v p e : Word) (l : List Word) : l.foldl (fun (r : Rom) w => r.take w) (.idles v p e) = Rom.idles v p e := by
  induction l with
  | nil => rfl
  | cons x l ih => exact ih

/-- where the ROM will be once it has taken all that was sent -/
def fin (s : St) : Rom := s.tx.foldl (fun r w => r.take w) s.rom

/-- the word core 0 sends next -/
def upTo : Pc → Option Nat
  | .send i => some i
  | .wait i => some (i + 1)
  | .flush 1 => some 1
  | _ => none

def Right (q : Seq) (s : St) : Prop :=
  AllGood q s.rom s.tx ∧ (∀ i, (s.pc = .send i ∨ s.pc = .wait i → i ≤ 5) ∧ (s.pc = .flush i → i ≤ 1)) ∧
  ∀ i, upTo s.pc = some i → 2 ≤ i → fin s = prog q i ∨ (fin s).left q.vtor q.sp q.entry

theorem good_prog (q : Seq) (i : Nat) : Good q (prog q i) := by
  intro v p e h
  unfold prog at h
  split at h <;> rcases h with h | h <;> cases h; exact ⟨rfl, rfl, rfl⟩

theorem good_left {q : Seq} {r : Rom} (h : r.left q.vtor q.sp q.entry) : Good q r := by
  intro v p e k
  rcases h with h | h <;> rcases k with k | k <;> rw [h] at k <;> cases k <;> exact ⟨rfl, rfl, rfl⟩

theorem take_left {r : Rom} {v p e : Word} (h : r.left v p e) (w : Word) : r.take w = r := by
  rcases h with h | h <;> rw [h] <;> rfl

theorem allGood_fin {q : Seq} {l : List Word} : ∀ {r : Rom}, AllGood q r l → Good q (l.foldl (fun r w => r.take w) r) := by
  induction l with
  | nil => intro r h; exact h
  | cons x l ih => intro r h; exact ih h.2

theorem right_step {q : Seq} (hq : q.Ok) {s s' : St} (a : Cmd) (i : Right q s) (h : step q s a = some s') : Right q s' := by
  obtain ⟨g, b, f⟩ := i
  cases a with
  | giveUp =>
    obtain ⟨_, rfl⟩ := step_giveUp h
    exact ⟨g, fun i => ⟨fun hh => (by rcases hh with hh | hh <;> cases hh), fun hh => (by cases hh; omega)⟩, fun i hh => (by cases hh)⟩
  | idle =>
    obtain ⟨v, p, e, hr, rfl⟩ := step_idle h
    obtain ⟨pc, tx, rx, rom, lk⟩ := s
    dsimp only at hr
    subst hr
    obtain ⟨e1, e2, e3⟩ := g.head v p e (.inl rfl)
    subst e1 e2 e3
    refine ⟨?_, b, fun i _ _ => .inr ?_⟩
    · have k : ∀ l, AllGood q (.idles q.vtor q.sp q.entry) l := by
        intro l
        induction l with
        | nil => exact good_left (.inr rfl)
        | cons x l ih => exact ⟨good_left (.inr rfl), ih⟩
      exact k tx
    · exact .inr (fold_idles _ _ _ _)
  | core1 =>
    obtain ⟨n, w, t, ht, _, rfl⟩ := step_core1 h
    obtain ⟨pc, tx, rx, rom, lk⟩ := s
    dsimp only at ht
    subst ht
    exact ⟨g.2, b, f⟩
  | core0 =>
    obtain ⟨pc, tx, rx, rom, lk⟩ := s
    cases pc with
    | lock =>
      cases lk <;> simp [step] at h; subst h
      exact ⟨g, fun i => ⟨fun hh => (by rcases hh with hh | hh <;> cases hh), fun hh => (by cases hh; try omega)⟩, fun i hh => (by cases hh)⟩
    | flush j =>
      have hj := (b j).2 rfl
      cases rx with
      | nil =>
        simp [step] at h; subst h
        exact ⟨g, fun i => ⟨fun hh => (by rcases hh with hh | hh <;> cases hh; omega), fun hh => (by cases hh)⟩, fun i hh h2 => (by cases hh; omega)⟩
      | cons w t =>
        simp [step] at h; subst h
        exact ⟨g, b, f⟩
    | send j =>
      simp [step] at h; obtain ⟨_, rfl⟩ := h
      have bj := (b j).1 (.inl rfl)
      have e : fin ⟨.wait j, tx ++ [q.word j], rx, rom, lk⟩ = (tx.foldl (fun r w => r.take w) rom).take (q.word j) := by
        simp [fin, List.foldl_append]
      have k : (tx.foldl (fun r w => r.take w) rom).take (q.word j) = prog q (j + 1) ∨ ((tx.foldl (fun r w => r.take w) rom).take (q.word j)).left q.vtor q.sp q.entry := by
        by_cases n : ∀ v p e, ¬ (tx.foldl (fun r w => r.take w) rom).left v p e
        · by_cases h2 : 2 ≤ j
          · rcases f j rfl h2 with hf | hf
            · have hf : tx.foldl (fun r w => r.take w) rom = prog q j := hf
              rw [hf]; exact .inl (take_word hq h2 bj)
            · exact absurd hf (n _ _ _)
          · have e0 : q.word j = 0#32 := by rcases (show j = 0 ∨ j = 1 by omega) with r | r <;> subst r <;> rfl
            rw [e0, take_zero n]
            exact .inl (by rcases (show j = 0 ∨ j = 1 by omega) with r | r <;> subst r <;> rfl)
        · simp only [Classical.not_forall, Classical.not_not] at n
          obtain ⟨v, p, e, hl⟩ := n
          obtain ⟨e1, e2, e3⟩ := allGood_fin g v p e hl
          subst e1 e2 e3
          rw [take_left hl]
          exact .inr hl
      refine ⟨g.snoc ?_, fun i => ?_, fun i hh _ => ?_⟩
      · rcases k with k | k
        · rw [k]; exact good_prog _ _
        · exact good_left k
      · exact ⟨fun hh => (by rcases hh with hh | hh <;> cases hh; exact bj), fun hh => (by cases hh)⟩
      · rw [e]; cases hh; exact k
    | wait j =>
      cases rx with
      | nil => simp [step] at h
      | cons w t =>
        simp only [step, Option.some.injEq] at h
        have bj := (b j).1 (.inr rfl)
        by_cases hw : w = q.word j
        · rw [if_pos hw] at h
          unfold next at h
          by_cases h5 : j = 5
          · rw [if_pos h5] at h; subst h
            exact ⟨g, fun i => ⟨fun hh => (by rcases hh with hh | hh <;> cases hh), fun hh => (by cases hh; try omega)⟩, fun i hh => (by cases hh)⟩
          · rw [if_neg h5] at h
            by_cases h0 : j = 0
            · rw [if_pos h0] at h; subst h
              exact ⟨g, fun i => ⟨fun hh => (by rcases hh with hh | hh <;> cases hh), fun hh => (by cases hh; try omega)⟩, fun i hh h2 => (by cases hh; omega)⟩
            · rw [if_neg h0] at h; subst h
              exact ⟨g, fun i => ⟨fun hh => (by rcases hh with hh | hh <;> cases hh; omega), fun hh => (by cases hh)⟩, fun i hh h2 => f i hh h2⟩
        · rw [if_neg hw] at h; subst h
          exact ⟨g, fun i => ⟨fun hh => (by rcases hh with hh | hh <;> cases hh), fun hh => (by cases hh; try omega)⟩, fun i hh => (by cases hh)⟩
    | lock2 =>
      cases lk <;> simp [step] at h; subst h
      exact ⟨g, fun i => ⟨fun hh => (by rcases hh with hh | hh <;> cases hh), fun hh => (by cases hh; try omega)⟩, fun i hh => (by cases hh)⟩
    | done => simp [step] at h

theorem right_run {q : Seq} (hq : q.Ok) {b : Bool} {s0 s : St} (h0 : Clean s0) (r : Run q b s0 s) : Right q s := by
  induction r with
  | refl =>
    obtain ⟨⟨hp, _, n1, n2⟩, ht⟩ := h0
    refine ⟨?_, fun i => ⟨fun hh => ?_, fun hh => ?_⟩, fun i hh => ?_⟩
    · rw [ht]; intro v p e hh; rcases hh with hh | hh
      · exact absurd hh (n1 v p e)
      · exact absurd hh (n2 v p e)
    · rw [hp] at hh; rcases hh with hh | hh <;> cases hh
    · rw [hp] at hh; cases hh
    · rw [hp] at hh; cases hh
  | step a _ _ e ih => exact right_step hq a ih e

/-- Never wrong. With nothing on its way to core 1 beforehand, and whatever waits run out, core 1 leaves its boot ROM with nothing but what core 0 asked. -/
theorem only_right {q : Seq} (hq : q.Ok) {b : Bool} {s0 s : St} (h0 : Clean s0) (r : Run q b s0 s) {v p e : Word} (h : s.rom.left v p e) :
    v = q.vtor ∧ p = q.sp ∧ e = q.entry := (right_run hq h0 r).1.head v p e h

/-- it is needed that nothing is on its way: four words left there start core 1 elsewhere, and core 0 waits -/
theorem wrong_if_not_clean : ∃ (q : Seq) (s0 s : St), q.Ok ∧ Before s0 ∧ Run q true s0 s ∧ s.rom = .started 2#32 3#32 4#32 ∧ q.entry ≠ 4#32 :=
  ⟨⟨5#32, 6#32, 7#32⟩, ⟨.lock, [1#32, 2#32, 3#32, 4#32], [], .idle, false⟩, ⟨.lock, [], [1#32, 2#32, 3#32, 4#32], .started 2#32 3#32 4#32, false⟩,
    ⟨by decide, by decide, by decide⟩, ⟨rfl, rfl, fun _ _ _ h => Rom.noConfusion h, fun _ _ _ h => Rom.noConfusion h⟩,
    run_trans (run_trans (run_trans (run_one .core1 (fun _ h => Cmd.noConfusion h) rfl) (run_one .core1 (fun _ h => Cmd.noConfusion h) rfl))
      (run_one .core1 (fun _ h => Cmd.noConfusion h) rfl)) (run_one .core1 (fun _ h => Cmd.noConfusion h) rfl), rfl, by decide⟩

end Pico.Core1
