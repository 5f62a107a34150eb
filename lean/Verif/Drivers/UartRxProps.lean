import Verif.Drivers.UartRx
/-
Interrupt-driven UART drivers: reception (C68).
-/
namespace Pico.Drv.Rx

open Pico.Fifo (Cfg)

variable {c : Cfg} {V : Type}

/-- popped, not yet in the buffer -/
def hand (s : St c V) : List V :=
  match s.pc with
  | .mid .. => [s.q.last]
  | _ => []

/-- what uart_read returns is bounded by what it was asked -/
def PcOk (l : List V) : Pc V → Prop
  | .idle => True
  | .look n g | .fin n g => g.length ≤ n
  | .mid n g => g.length < n
  | .took n g v => g.length < n ∧ ∃ l', l = v :: l'

structure Inv (s : St c V) (l : List V) : Prop where
  q : Holds s.q l
  eq : s.stored = read s ++ hand s ++ l
  pc : PcOk l s.pc
  log : ∀ p ∈ s.log, p.2.length ≤ p.1

theorem read_log {s : St c V} {n : Nat} {g : List V} (h : s.pc = .fin n g) : read { s with pc := .idle, log := s.log ++ [(n, g)] } = read s := by
  simp [read, part, h]

theorem inv_rx (hc : c.ok) {s : St c V} {l : List V} (h : Inv s l) (v : V) : ∃ l', Inv (rx v s) l' := by
  unfold rx
  split
  · rename_i hw
    have hl := (writable_iff hc h.q).1 hw
    refine ⟨l ++ [v], holds_put hc h.q hl v, ?_, ?_, h.log⟩
    · have e : hand { s with q := s.q.put v, line := s.line ++ [v], stored := s.stored ++ [v] } = hand s := by
        unfold hand
        cases hp : s.pc <;> simp
        exact last_put hc h.q hl v
      rw [e]
      show s.stored ++ [v] = read s ++ hand s ++ (l ++ [v])
      rw [h.eq]; simp
    · have := h.pc
      show PcOk (l ++ [v]) s.pc
      cases hp : s.pc <;> rw [hp] at this
      case took n g w =>
        obtain ⟨h1, l', h2⟩ := this
        exact ⟨h1, l' ++ [v], by rw [h2]; rfl⟩
      all_goals exact this
  · exact ⟨l, h.q, h.eq, h.pc, h.log⟩

theorem inv_task (hc : c.ok) {k : Kind} {s : St c V} {l : List V} (h : Inv s l) : ∃ l', Inv (task k s) l' := by
  have hpc := h.pc
  have heq := h.eq
  cases hp : s.pc with
  | idle => simp only [task, hp]; exact ⟨l, h⟩
  | look n g =>
    rw [hp] at hpc
    have hg : g.length ≤ n := hpc
    have hh : hand s = [] := by simp [hand, hp]
    rw [hh, List.append_nil] at heq
    simp only [task, hp]
    split
    · rename_i hn
      split
      · rename_i hr
        have hne := (readable_iff hc h.q).1 hr
        match l, h, hne, heq with
        | v :: l, h, _, heq =>
          obtain ⟨h1, h2⟩ := holds_pop hc h.q
          cases k
          · refine ⟨l, h1, ?_, by show g.length < n; omega, h.log⟩
            show s.stored = read { s with q := s.q.pop, pc := .mid n g } ++ [s.q.pop.last] ++ l
            rw [h2, heq]; simp [read, part, hp]
          · refine ⟨v :: l, h.q, ?_, ⟨by omega, l, by rw [h2]⟩, h.log⟩
            show s.stored = read { s with pc := .took n g s.q.pop.last } ++ [] ++ (v :: l)
            rw [heq]; simp [read, part, hp]
      · refine ⟨l, h.q, ?_, hg, h.log⟩
        show s.stored = read { s with pc := .fin n g } ++ [] ++ l
        rw [heq]; simp [read, part, hp]
    · refine ⟨l, h.q, ?_, hg, h.log⟩
      show s.stored = read { s with pc := .fin n g } ++ [] ++ l
      rw [heq]; simp [read, part, hp]
  | mid n g =>
    rw [hp] at hpc
    have hg : g.length < n := hpc
    simp only [task, hp]
    refine ⟨l, h.q, ?_, by show (g ++ [s.q.last]).length ≤ n; simp; omega, h.log⟩
    show s.stored = read { s with pc := .look n (g ++ [s.q.last]) } ++ [] ++ l
    rw [heq]; simp [read, part, hand, hp]
  | took n g v =>
    rw [hp] at hpc
    obtain ⟨hg, l', hl⟩ := hpc
    subst hl
    obtain ⟨h1, h2⟩ := holds_pop hc h.q
    simp only [task, hp]
    refine ⟨l', h1, ?_, by show (g ++ [v]).length ≤ n; simp; omega, h.log⟩
    show s.stored = read { s with q := s.q.pop, pc := .look n (g ++ [v]) } ++ [] ++ l'
    rw [heq]; simp [read, part, hand, hp]
  | fin n g =>
    rw [hp] at hpc
    simp only [task, hp]
    refine ⟨l, h.q, ?_, trivial, ?_⟩
    · show s.stored = read { s with pc := .idle, log := s.log ++ [(n, g)] } ++ [] ++ l
      rw [read_log hp, heq]; simp [hand, hp]
    · intro p hm
      rcases List.mem_append.1 hm with hm | hm
      · exact h.log p hm
      · rw [List.mem_singleton] at hm; rw [hm]; exact hpc

theorem inv_step (hc : c.ok) {k : Kind} {s s' : St c V} {a : Cmd V} {l : List V} (h : Inv s l) (hs : step k s a = some s') : ∃ l', Inv s' l' := by
  cases a with
  | call n =>
    simp only [step] at hs
    split at hs
    · rename_i hp
      split at hs
      · cases hs
      · injection hs with hs; subst hs
        refine ⟨l, h.q, ?_, Nat.zero_le _, h.log⟩
        have := h.eq
        show s.stored = read { s with pc := .look n [] } ++ [] ++ l
        rw [this]; simp [read, part, hand, hp]
    · cases hs
  | task =>
    simp only [step] at hs
    split at hs
    · cases hs
    · injection hs with hs; subst hs; exact inv_task hc h
  | rx v =>
    simp only [step] at hs
    injection hs with hs; subst hs; exact inv_rx hc h v

theorem inv_reach (hc : c.ok) {k : Kind} {s : St c V} (h : Reach k s) : ∃ l, Inv s l := by
  induction h with
  | init old => exact ⟨[], holds_init old, rfl, trivial, fun p h => by simp [init] at h⟩
  | step a _ hs ih => obtain ⟨l, hi⟩ := ih; exact inv_step hc hi hs

/-- **C68a**: what the calls of uart_read have put in their buffers is, in order, what the routine stored, at most `size - 1` bytes late, and no call puts more than
it was asked for. -/
theorem rx_in_order (hc : c.ok) {k : Kind} {s : St c V} (h : Reach k s) :
    read s <+: s.stored ∧ s.stored.length ≤ (read s).length + (c.size - 1) ∧ (s.pc = .idle → s.stored.length ≤ (read s).length + (c.size - 2)) ∧
      ∀ p ∈ s.log, p.2.length ≤ p.1 := by
  obtain ⟨l, hi⟩ := inv_reach hc h
  have hl := holds_length hi.q
  have e : s.stored.length = (read s).length + (hand s).length + l.length := by rw [hi.eq]; simp; omega
  refine ⟨⟨hand s ++ l, by rw [hi.eq]; simp⟩, ?_, fun hp => ?_, hi.log⟩
  · rcases Nat.lt_or_ge 1 c.size with hs | hs
    · have : (hand s).length ≤ 1 := by unfold hand; split <;> simp
      omega
    · -- a fifo of size 1 is never readable
      have h0 : l.length = 0 := by omega
      cases hp : s.pc with
      | mid n g =>
        exfalso
        have aux : ∀ {s : St c V}, Reach k s → ∀ n g, s.pc ≠ .mid n g := by
          intro s h
          induction h with
          | init old => intro n g e; simp [init] at e
          | @step s s' a hr hs' ih =>
            intro n g e
            obtain ⟨l, hi⟩ := inv_reach hc hr
            have hl := holds_length hi.q
            have hnr : s.q.readable = false := by
              cases er : s.q.readable
              · rfl
              · have := (readable_iff hc hi.q).1 er
                exact absurd (List.eq_nil_of_length_eq_zero (by omega)) this
            cases a with
            | call m =>
              simp only [step] at hs'
              split at hs'
              · split at hs'
                · cases hs'
                · injection hs' with hs'; subst hs'; simp at e
              · cases hs'
            | rx v =>
              simp only [step] at hs'
              injection hs' with hs'; subst hs'
              unfold rx at e
              split at e
              · exact ih n g e
              · exact ih n g e
            | task =>
              simp only [step] at hs'
              split at hs'
              · cases hs'
              · injection hs' with hs'; subst hs'
                unfold task at e
                split at e
                · exact ih n g e
                · split at e
                  · rw [hnr] at e; simp at e
                  · simp at e
                · simp at e
                · simp at e
                · simp at e
        exact aux h n g hp
      | _ => simp [hand, hp] at e; omega
  · simp [hand, hp] at e; omega

/-- **C68b**: a byte that comes on the line is stored, unless at least `size - 2` bytes are waiting for uart_read. -/
theorem rx_stored (hc : c.ok) {k : Kind} {s s' : St c V} (h : Reach k s) {v : V} (hs : step k s (.rx v) = some s') :
    s'.line = s.line ++ [v] ∧ (s'.stored = s.stored ++ [v] ∨ s'.stored = s.stored ∧ (read s).length + (c.size - 2) ≤ s.stored.length) := by
  obtain ⟨l, hi⟩ := inv_reach hc h
  have e : s.stored.length = (read s).length + (hand s).length + l.length := by rw [hi.eq]; simp; omega
  simp only [step] at hs
  injection hs with hs; subst hs
  unfold rx
  split
  · exact ⟨rfl, Or.inl rfl⟩
  · rename_i hw
    refine ⟨rfl, Or.inr ⟨rfl, ?_⟩⟩
    have : ¬ l.length < c.size - 2 := fun hl => hw ((writable_iff hc hi.q).2 hl)
    omega

/-- Reachable states in which no byte came on the line while `size - 2` bytes were waiting. -/
inductive Calm (k : Kind) : St c V → Prop where
  | init (old : Nat → V) : Calm k (init old)
  | step {s s' : St c V} (a : Cmd V) : Calm k s → (∀ v, a = .rx v → s.stored.length < (read s).length + (c.size - 2)) → step k s a = some s' → Calm k s'

theorem calm_reach {k : Kind} {s : St c V} (h : Calm k s) : Reach k s := by
  induction h with
  | init old => exact .init old
  | step a _ _ hs ih => exact .step a ih hs

theorem step_keeps {k : Kind} {s s' : St c V} {a : Cmd V} (ha : ∀ v, a ≠ .rx v) (hs : step k s a = some s') : s'.line = s.line ∧ s'.stored = s.stored := by
  cases a with
  | rx v => exact absurd rfl (ha v)
  | call n =>
    simp only [step] at hs
    split at hs
    · split at hs
      · cases hs
      · injection hs with hs; subst hs; exact ⟨rfl, rfl⟩
    · cases hs
  | task =>
    simp only [step] at hs
    split at hs
    · cases hs
    · injection hs with hs; subst hs
      unfold task
      split
      · exact ⟨rfl, rfl⟩
      · split
        · split
          · cases k <;> exact ⟨rfl, rfl⟩
          · exact ⟨rfl, rfl⟩
        · exact ⟨rfl, rfl⟩
      · exact ⟨rfl, rfl⟩
      · exact ⟨rfl, rfl⟩
      · exact ⟨rfl, rfl⟩

/-- **C68b**: if the task keeps up, what uart_read has put in buffers is the beginning of what came on the line, nothing lost, nothing twice. -/
theorem rx_no_loss (hc : c.ok) {k : Kind} {s : St c V} (h : Calm k s) : read s <+: s.line := by
  have : s.stored = s.line := by
    induction h with
    | init old => rfl
    | @step s s' a hr hcalm hs ih =>
      by_cases ha : ∃ v, a = .rx v
      · obtain ⟨v, rfl⟩ := ha
        obtain ⟨h1, h2⟩ := rx_stored hc (calm_reach hr) hs
        have := hcalm v rfl
        rcases h2 with h2 | ⟨_, h2⟩
        · rw [h1, h2, ih]
        · omega
      · obtain ⟨h1, h2⟩ := step_keeps (fun v e => ha ⟨v, e⟩) hs
        rw [h1, h2, ih]
  rw [← this]
  exact (rx_in_order hc (calm_reach h)).1

/-- **C68c**: uart_read stops short of what it was asked only when it has read everything stored so far. -/
theorem rx_short (hc : c.ok) {k : Kind} {s s' : St c V} (h : Reach k s) {n m : Nat} {g g' : List V} (hp : s.pc = .look n g) (hs : step k s .task = some s')
    (hf : s'.pc = .fin m g') (hn : g'.length < m) : read s' = s'.stored := by
  obtain ⟨l, hi⟩ := inv_reach hc h
  simp only [step, hp] at hs
  injection hs with hs; subst hs
  have heq := hi.eq
  have hh : hand s = [] := by simp [hand, hp]
  rw [hh, List.append_nil] at heq
  by_cases hgn : g.length = n
  · have e : task k s = { s with pc := .fin n g } := by
      simp only [task, hp]; rw [if_neg (by simp [hgn])]
    rw [e] at hf
    injection hf with h1 h2
    subst h1; subst h2; omega
  · cases hr : s.q.readable
    · have hl : l = [] := by
        cases l with
        | nil => rfl
        | cons v l => have := (readable_iff hc hi.q).2 (by simp); rw [hr] at this; cases this
      have e : task k s = { s with pc := .fin n g } := by
        simp only [task, hp]; rw [if_pos hgn, hr]; rfl
      rw [e]
      show read { s with pc := .fin n g } = s.stored
      rw [heq, hl, List.append_nil]; simp [read, part, hp]
    · exfalso
      simp only [task, hp] at hf
      rw [if_pos hgn, hr] at hf
      cases k <;> simp at hf

/-- **C68d**: while uart_read runs and no byte comes, it returns after at most `2 (n - g.length) + 2` steps (no deadlock; a call always ends). -/
def left : Pc V → Nat
  | .idle => 0
  | .look n g => 2 * (n - g.length) + 2
  | .mid n g | .took n g _ => 2 * (n - g.length) + 1
  | .fin .. => 1

theorem rx_returns (hc : c.ok) {k : Kind} {s s' : St c V} (h : Reach k s) (hs : step k s .task = some s') : left s'.pc < left s.pc := by
  obtain ⟨l, hi⟩ := inv_reach hc h
  have hpc := hi.pc
  cases hp : s.pc with
  | idle => simp [step, hp] at hs
  | look n g =>
    rw [hp] at hpc
    have hg : g.length ≤ n := hpc
    simp only [step, hp] at hs
    injection hs with hs; subst hs
    simp only [task, hp]
    split
    · split
      · cases k <;> simp only [left] <;> omega
      · simp only [left]; omega
    · simp only [left]; omega
  | mid n g =>
    rw [hp] at hpc
    have hg : g.length < n := hpc
    simp only [step, hp] at hs
    injection hs with hs; subst hs
    simp only [task, hp, left, List.length_append, List.length_singleton]; omega
  | took n g v =>
    rw [hp] at hpc
    have hg : g.length < n := hpc.1
    simp only [step, hp] at hs
    injection hs with hs; subst hs
    simp only [task, hp, left, List.length_append, List.length_singleton]; omega
  | fin n g =>
    simp only [step, hp] at hs
    injection hs with hs; subst hs
    simp [task, hp, left]

/-! ### demonstrations -/

def runs (k : Kind) (s : St c V) (l : List (Cmd V)) : Option (St c V) := l.foldlM (step k) s

theorem reach_runs {k : Kind} : ∀ (l : List (Cmd V)) {s s' : St c V}, Reach k s → runs k s l = some s' → Reach k s'
  | [], s, s', h, e => by simp [runs] at e; rw [← e]; exact h
  | a :: l, s, s', h, e => by
    simp only [runs, List.foldlM_cons] at e
    cases hs : step k s a with
    | none => rw [hs] at e; cases e
    | some t => rw [hs] at e; exact reach_runs l (.step a h hs) e

/-- four elements: two bytes at most wait -/
def c4 : Cfg := ⟨8, 3⟩

/-- the second byte comes between the pop and the load; the fourth is dropped -/
example : c4.ok ∧ ∃ s : St c4 Nat, Reach .pop s ∧ s.line = [1, 2, 3, 4] ∧ s.stored = [1, 2, 3] ∧ s.log = [(1, [1])] ∧ read s = [1] :=
  ⟨by unfold Cfg.ok; decide, _, reach_runs [.rx 1, .call 1, .task, .rx 2, .task, .task, .task, .rx 3, .rx 4] (.init fun _ => 0) rfl, rfl, rfl, rfl, rfl⟩

example : ∃ s : St c4 Nat, Reach .load s ∧ s.line = [1, 2] ∧ s.stored = [1, 2] ∧ s.log = [(5, [1, 2])] ∧ read s = [1, 2] :=
  ⟨_, reach_runs [.rx 1, .call 5, .task, .rx 2, .task, .task, .task, .task, .task] (.init fun _ => 0) rfl, rfl, rfl, rfl, rfl⟩

/-- a task that keeps up -/
example : ∃ s : St c4 Nat, Calm .pop s ∧ s.line = [1, 2] ∧ read s = [] := by
  refine ⟨_, .step (.rx 2) (.step (.rx 1) (.init fun _ => 0) ?_ rfl) ?_ rfl, rfl, rfl⟩ <;> intro v _ <;> decide

end Pico.Drv.Rx
