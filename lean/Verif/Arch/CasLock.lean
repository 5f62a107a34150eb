/-
C53 (continued): the two ports whose compare-and-swap is built on a lock word: c28x and the RP2040 SMP port. Any number of tasks/cores
call it at the same time, interleaved access by access; others store into the same word with plain stores (`*futex = 0`).
-/
import Verif.Arch.Cas
namespace Pico.Arch.Lock

/-- Where a caller is inside `arch_compare_and_swap` (arch/c2000/c28x/picoRTOS_port.c:92-109, arch/arm/armv6-m/mach-rp2040/picoRTOS-SMP_port.c:265-281).
`idle` outside; `enter` before `arch_test_and_set(&lock)` / the read of SIO_SPINLOCK1 (both claim the lock atomically if it is free); `read` lock held,
before `res = *var`; `check` `res` read, before the compare; `write` before `*var = val`; `unlock` before `lock = 0` / `*SIO_SPINLOCK1 = 1`;
`done` returned. -/
inductive Pc (w : Nat)
  | idle
  | enter
  | read
  | check (res : BitVec w)
  | write (res : BitVec w)
  | unlock (res : BitVec w)
  | done (res : BitVec w)
  deriving DecidableEq

/-- One caller: arguments, position, the stores of the present call (content before, value stored). -/
structure Caller (w : Nat) where
  old : BitVec w
  val : BitVec w
  pc : Pc w
  own : List (BitVec w × BitVec w)

structure Sys (w : Nat) where
  mem : BitVec w
  lock : Bool
  who : Nat → Caller w

inductive Ev (w : Nat)
  | call (i : Nat) (old val : BitVec w)
  | go (i : Nat)
  | store (v : BitVec w)

def upd {w : Nat} (f : Nat → Caller w) (i : Nat) (c : Caller w) : Nat → Caller w := fun j => if j = i then c else f j

/-- One access. A `call` starts on an idle caller or on one that has returned. -/
def step {w : Nat} (s : Sys w) : Ev w → Option (Sys w)
  | .call i old val =>
    match (s.who i).pc with
    | .idle | .done _ => some { s with who := upd s.who i ⟨old, val, .enter, []⟩ }
    | _ => none
  | .store v => some { s with mem := v }
  | .go i =>
    let c := s.who i
    match c.pc with
    | .idle | .done _ => none
    | .enter =>
      if s.lock then some { s with who := upd s.who i { c with pc := .done c.val } }
      else some { s with lock := true, who := upd s.who i { c with pc := .read } }
    | .read => some { s with who := upd s.who i { c with pc := .check s.mem } }
    | .check res => some { s with who := upd s.who i { c with pc := if res = c.old then .write res else .unlock res } }
    | .write res => some { s with mem := c.val, who := upd s.who i { c with pc := .unlock res, own := c.own ++ [(s.mem, c.val)] } }
    | .unlock res => some { s with lock := false, who := upd s.who i { c with pc := .done res } }

/-- The lock is initially free (`static … lock = 0`; SPINLOCK1 free after reset) and nobody is inside. -/
def Init {w : Nat} (s : Sys w) : Prop := s.lock = false ∧ ∀ i, (s.who i).pc = .idle

/-- What the callers in the repository do with the word (ipc/picoRTOS_futex.c:39,76-80, ipc/picoRTOS_mutex.c:48,98-108): every compare-and-swap is from
`free` to something else, and a plain store (unlock) is made only while the word is not `free`. -/
def Allowed {w : Nat} (free : BitVec w) (s : Sys w) : Ev w → Prop
  | .call _ old val => old = free ∧ val ≠ free
  | .store _ => s.mem ≠ free
  | .go _ => True

inductive Reach {w : Nat} (free : BitVec w) : Sys w → Prop
  | init (s) : Init s → Reach free s
  | step (s e s') : Reach free s → Allowed free s e → step s e = some s' → Reach free s'

def Inside {w : Nat} : Pc w → Prop
  | .read | .check _ | .write _ | .unlock _ => True
  | _ => False

structure Inv {w : Nat} (free : BitVec w) (s : Sys w) : Prop where
  lock : ∀ i, Inside (s.who i).pc → s.lock = true
  mutex : ∀ i j, Inside (s.who i).pc → Inside (s.who j).pc → i = j
  args : ∀ i, (s.who i).pc ≠ .idle → (s.who i).old = free ∧ (s.who i).val ≠ free
  fresh : ∀ i, ((s.who i).pc = .enter ∨ (s.who i).pc = .read) → (s.who i).own = []
  seen : ∀ i res, (s.who i).pc = .check res → (s.who i).own = [] ∧ (res = free → s.mem = free)
  towrite : ∀ i res, (s.who i).pc = .write res → (s.who i).own = [] ∧ res = free ∧ s.mem = free
  after : ∀ i res, ((s.who i).pc = .unlock res ∨ (s.who i).pc = .done res) → CasOk (s.who i).old (s.who i).val res (s.who i).own

theorem inv_init {w : Nat} {free : BitVec w} {s : Sys w} (h : Init s) : Inv free s := by
  obtain ⟨h1, h2⟩ := h
  constructor <;> intro i <;> simp [h2, Inside]

theorem inv_step {w : Nat} {free : BitVec w} {s s' : Sys w} {e : Ev w} (hi : Inv free s) (ha : Allowed free s e) (h : step s e = some s') :
    Inv free s' := by
  cases e with
  | store v =>
    simp only [step, Option.some.injEq] at h
    subst h
    obtain ⟨a, b, c, d, e, f, g⟩ := hi
    simp only [Allowed] at ha
    refine ⟨a, b, c, d, ?_, ?_, g⟩
    · intro i res hp
      exact ⟨(e i res hp).1, fun hr => absurd ((e i res hp).2 hr) ha⟩
    · intro i res hp
      exact absurd (f i res hp).2.2 ha
  | call i old val =>
    simp only [step] at h
    have hnot : ¬ Inside (s.who i).pc ∧ s' = { s with who := upd s.who i ⟨old, val, .enter, []⟩ } := by
      cases hp : (s.who i).pc <;> simp [hp] at h <;> simp [Inside, h]
    obtain ⟨hin, rfl⟩ := hnot
    obtain ⟨a, b, c, d, e, f, g⟩ := hi
    simp only [Allowed] at ha
    refine ⟨?_, ?_, ?_, ?_, ?_, ?_, ?_⟩
    · intro j; simp only [upd]; split
      · simp [Inside]
      · exact a j
    · intro j k; simp only [upd]; split
      · simp [Inside]
      · split
        · simp [Inside]
        · exact b j k
    · intro j; simp only [upd]; split
      · intro _; exact ha
      · exact c j
    · intro j; simp only [upd]; split
      · simp
      · exact d j
    · intro j res; simp only [upd]; split
      · simp
      · exact e j res
    · intro j res; simp only [upd]; split
      · simp
      · exact f j res
    · intro j res; simp only [upd]; split
      · simp
      · exact g j res
  | go i =>
    obtain ⟨a, b, c, d, e, f, g⟩ := hi
    simp only [step] at h
    have hne : ∀ j, j ≠ i → Inside (s.who i).pc → ¬ Inside (s.who j).pc := fun j hj h1 h2 => hj (b j i h2 h1)
    cases hp : (s.who i).pc with
    | idle => simp [hp] at h
    | done r => simp [hp] at h
    | enter =>
      have hargs := c i (by simp [hp])
      have hfresh := d i (by simp [hp])
      cases hl : s.lock with
      | true =>
        simp only [hp, hl, if_true, Option.some.injEq] at h
        subst h
        refine ⟨?_, ?_, ?_, ?_, ?_, ?_, ?_⟩
        · intro j; simp only [upd]; split
          · simp [Inside]
          · intro _; trivial
        · intro j k; simp only [upd]; split
          · simp [Inside]
          · split
            · simp [Inside]
            · exact b j k
        · intro j; simp only [upd]; split
          · intro _; exact hargs
          · exact c j
        · intro j; simp only [upd]; split
          · simp
          · exact d j
        · intro j res; simp only [upd]; split
          · simp
          · exact e j res
        · intro j res; simp only [upd]; split
          · simp
          · exact f j res
        · intro j res; simp only [upd]; split
          · simp only [reduceCtorEq, false_or, Pc.done.injEq]
            intro hr; subst hr
            simp [CasOk, hfresh, hargs.1, hargs.2]
          · exact g j res
      | false =>
        simp only [hp, hl, Bool.false_eq_true, if_false, Option.some.injEq] at h
        subst h
        have hnone : ∀ j, ¬ Inside (s.who j).pc := fun j hj => by simp [a j hj] at hl
        refine ⟨?_, ?_, ?_, ?_, ?_, ?_, ?_⟩
        · intro j _; rfl
        · intro j k; simp only [upd]; split
          · split
            · intros; omega
            · intro _ h2; exact absurd h2 (hnone k)
          · intro h1; exact absurd h1 (hnone j)
        · intro j; simp only [upd]; split
          · intro _; exact hargs
          · exact c j
        · intro j; simp only [upd]; split
          · intro _; exact hfresh
          · exact d j
        · intro j res; simp only [upd]; split
          · simp
          · exact e j res
        · intro j res; simp only [upd]; split
          · simp
          · exact f j res
        · intro j res; simp only [upd]; split
          · simp
          · exact g j res
    | read =>
      have hargs := c i (by simp [hp])
      have hfresh := d i (by simp [hp])
      have hl := a i (by simp [hp, Inside])
      have hne := fun j hj => hne j hj (by simp [hp, Inside])
      simp only [hp, Option.some.injEq] at h
      subst h
      refine ⟨?_, ?_, ?_, ?_, ?_, ?_, ?_⟩
      · intro j _; exact hl
      · intro j k; simp only [upd]; split
        · split
          · intros; omega
          · rename_i h1 h2; intro _ h3; exact absurd h3 (hne k h2)
        · rename_i h1; intro h3; exact absurd h3 (hne j h1)
      · intro j; simp only [upd]; split
        · intro _; exact hargs
        · exact c j
      · intro j; simp only [upd]; split
        · simp
        · exact d j
      · intro j res; simp only [upd]; split
        · simp only [Pc.check.injEq]
          intro hr; subst hr
          exact ⟨hfresh, fun h => h⟩
        · exact e j res
      · intro j res; simp only [upd]; split
        · simp
        · exact f j res
      · intro j res; simp only [upd]; split
        · simp
        · exact g j res
    | check r =>
      have hargs := c i (by simp [hp])
      have hsee := e i r hp
      have hl := a i (by simp [hp, Inside])
      have hne := fun j hj => hne j hj (by simp [hp, Inside])
      simp only [hp, Option.some.injEq] at h
      subst h
      refine ⟨?_, ?_, ?_, ?_, ?_, ?_, ?_⟩
      · intro j _; exact hl
      · intro j k; simp only [upd]
        by_cases hj : j = i <;> by_cases hk : k = i
        · intros; omega
        · simp only [hk, if_false]; intro _ h3; exact absurd h3 (hne k hk)
        · simp only [hj, if_false]; intro h3; exact absurd h3 (hne j hj)
        · simp only [hj, if_false]; intro h3; exact absurd h3 (hne j hj)
      · intro j; simp only [upd]; split
        · intro _; exact hargs
        · exact c j
      · intro j; simp only [upd]; split
        · split <;> simp
        · exact d j
      · intro j res; simp only [upd]; split
        · split <;> simp
        · exact e j res
      · intro j res; simp only [upd]; split
        · split
          · rename_i hr
            simp only [Pc.write.injEq]
            intro h; subst h
            exact ⟨hsee.1, by rw [hr, hargs.1], hsee.2 (by rw [hr, hargs.1])⟩
          · simp
        · exact f j res
      · intro j res; simp only [upd]; split
        · split
          · simp
          · rename_i hr
            simp only [Pc.unlock.injEq, reduceCtorEq, or_false]
            intro h; subst h
            exact ⟨fun h => absurd h hr, by simp [hsee.1]⟩
        · exact g j res
    | write r =>
      have hargs := c i (by simp [hp])
      have hsee := f i r hp
      have hl := a i (by simp [hp, Inside])
      have hne := fun j hj => hne j hj (by simp [hp, Inside])
      simp only [hp, Option.some.injEq] at h
      subst h
      refine ⟨?_, ?_, ?_, ?_, ?_, ?_, ?_⟩
      · intro j _; exact hl
      · intro j k; simp only [upd]; split
        · split
          · intros; omega
          · rename_i h1 h2; intro _ h3; exact absurd h3 (hne k h2)
        · rename_i h1; intro h3; exact absurd h3 (hne j h1)
      · intro j; simp only [upd]; split
        · intro _; exact hargs
        · exact c j
      · intro j; simp only [upd]; split
        · simp
        · exact d j
      · intro j res; simp only [upd]; split
        · simp
        · rename_i h1; intro h2; exact absurd (by simp [h2, Inside]) (hne j h1)
      · intro j res; simp only [upd]; split
        · simp
        · rename_i h1; intro h2; exact absurd (by simp [h2, Inside]) (hne j h1)
      · intro j res; simp only [upd]; split
        · simp only [Pc.unlock.injEq, reduceCtorEq, or_false]
          intro h; subst h
          refine ⟨fun _ => ?_, fun h => absurd (by rw [hsee.2.1, hargs.1]) h⟩
          simp [hsee.1, hsee.2.2, hargs.1]
        · exact g j res
    | unlock r =>
      have hargs := c i (by simp [hp])
      have hg := g i r (Or.inl hp)
      have hne := fun j hj => hne j hj (by simp [hp, Inside])
      simp only [hp, Option.some.injEq] at h
      subst h
      refine ⟨?_, ?_, ?_, ?_, ?_, ?_, ?_⟩
      · intro j; simp only [upd]; split
        · simp [Inside]
        · rename_i h1; intro h2; exact absurd h2 (hne j h1)
      · intro j k; simp only [upd]; split
        · simp [Inside]
        · rename_i h1; intro h2; exact absurd h2 (hne j h1)
      · intro j; simp only [upd]; split
        · intro _; exact hargs
        · exact c j
      · intro j; simp only [upd]; split
        · simp
        · exact d j
      · intro j res; simp only [upd]; split
        · simp
        · exact e j res
      · intro j res; simp only [upd]; split
        · simp
        · exact f j res
      · intro j res; simp only [upd]; split
        · simp only [reduceCtorEq, false_or, Pc.done.injEq]
          intro h; subst h; exact hg
        · exact g j res

theorem reach_inv {w : Nat} {free : BitVec w} {s : Sys w} (h : Reach free s) : Inv free s := by
  induction h with
  | init s h => exact inv_init h
  | step s e s' _ ha h ih => exact inv_step ih ha h

/-- C53, c28x and RP2040 SMP: in every interleaving of any number of callers and unlocking stores, every finished call returned `old` exactly when it
replaced `old` by `val` in one store, and otherwise stored nothing. -/
theorem cas_lock_ok {w : Nat} {free : BitVec w} {s : Sys w} (h : Reach free s) (i : Nat) (r : BitVec w) (hd : (s.who i).pc = .done r) :
    CasOk (s.who i).old (s.who i).val r (s.who i).own ∧ (r ≠ (s.who i).old → (s.who i).own = []) := by
  have hi := reach_inv h
  refine ⟨hi.after i r (Or.inr hd), ?_⟩
  -- a call that stored returned `old`: follows from the form of the stores
  have : ∀ s : Sys w, Reach free s → ∀ i r, ((s.who i).pc = .unlock r ∨ (s.who i).pc = .done r) → r ≠ (s.who i).old → (s.who i).own = [] := by
    intro s h
    induction h with
    | init s h => intro i r hp; simp [h.2] at hp
    | step s e s' hr ha h ih =>
      have hi := reach_inv hr
      intro j r
      cases e with
      | store v => simp only [step, Option.some.injEq] at h; subst h; exact ih j r
      | call i old val =>
        simp only [step] at h
        have : s' = { s with who := upd s.who i ⟨old, val, .enter, []⟩ } := by
          cases hp : (s.who i).pc <;> simp [hp] at h <;> simp [h]
        subst this
        simp only [upd]; split
        · simp
        · exact ih j r
      | go i =>
        simp only [step] at h
        cases hp : (s.who i).pc with
        | idle => simp [hp] at h
        | done r => simp [hp] at h
        | enter =>
          have hf := hi.fresh i (by simp [hp])
          cases hl : s.lock <;> simp [hp, hl] at h <;> subst h <;> simp only [upd] <;> split
          · simp
          · exact ih j r
          · intro _ _; exact hf
          · exact ih j r
        | read =>
          simp [hp] at h; subst h; simp only [upd]; split
          · simp
          · exact ih j r
        | check r' =>
          have hf := hi.seen i r' hp
          simp [hp] at h; subst h; simp only [upd]; split
          · intro _ _; exact hf.1
          · exact ih j r
        | write r' =>
          have hf := hi.towrite i r' hp
          have hargs := hi.args i (by simp [hp])
          simp [hp] at h; subst h; simp only [upd]; split
          · simp only [Pc.unlock.injEq, reduceCtorEq, or_false]
            intro h1 h2; subst h1
            exact absurd (by rw [hf.2.1, hargs.1]) h2
          · exact ih j r
        | unlock r' =>
          have hf := ih i r' (Or.inl hp)
          simp [hp] at h; subst h; simp only [upd]; split
          · simp only [reduceCtorEq, false_or, Pc.done.injEq]
            intro h1 h2; subst h1
            exact hf h2
          · exact ih j r
  exact this s h i r (Or.inr hd)

/-- A caller alone (lock free, word `free`) does get it: four accesses lead to the swap and the result `old`. -/
theorem cas_lock_effective {w : Nat} {s : Sys w} (i : Nat) (hl : s.lock = false) (hp : (s.who i).pc = .enter) (hm : s.mem = (s.who i).old) :
    ∃ s', (((((step s (.go i)).bind (step · (.go i))).bind (step · (.go i))).bind (step · (.go i))).bind (step · (.go i))) = some s' ∧
      (s'.who i).pc = .done (s.who i).old ∧ s'.mem = (s.who i).val ∧ s'.lock = false := by
  simp [step, upd, hl, hp, hm]

def run {w : Nat} : List (Ev w) → Sys w → Option (Sys w)
  | [], s => some s
  | e :: l, s => (step s e).bind (run l)

/-- Without the discipline of the callers the operation is not atomic: a plain store that falls between the compare and the write is lost (here somebody
stores 7 into a word that holds 0 while a compare-and-swap 0 → 1 is in progress; the call reports success and the word holds 1). -/
theorem cas_lock_loses_store : ∃ s' : Sys 16, run [.call 0 0 1, .go 0, .go 0, .go 0, .store 7, .go 0, .go 0]
      ⟨0, false, fun _ => ⟨0, 0, .idle, []⟩⟩ = some s' ∧ (s'.who 0).pc = .done 0 ∧ s'.mem = 1 ∧ (s'.who 0).own = [(7, 1)] :=
  ⟨_, rfl, by decide, by decide, by decide⟩

/-- Two callers at once: one of them swaps, the other one fails because the lock is taken, although the word held `old` when it tried: spurious
failures do happen. -/
theorem cas_lock_spurious : ∃ s' : Sys 16, run [.call 0 0 1, .call 1 0 2, .go 0, .go 1, .go 0, .go 0, .go 0, .go 0]
      ⟨0, false, fun _ => ⟨0, 0, .idle, []⟩⟩ = some s' ∧ (s'.who 0).pc = .done 0 ∧ (s'.who 1).pc = .done 2 ∧ s'.mem = 1 :=
  ⟨_, rfl, by decide, by decide, by decide⟩

theorem reach_of_run {w : Nat} {free : BitVec w} : ∀ (l : List (Ev w)) (s s' : Sys w), Reach free s →
    (∀ e ∈ l, ∃ i old val, (e = .call i old val ∧ old = free ∧ val ≠ free) ∨ e = .go i) → run l s = some s' → Reach free s'
  | [], s, s', h, _, hr => by cases hr; exact h
  | e :: l, s, s', h, ha, hr => by
    simp only [run] at hr
    cases h1 : step s e with
    | none => simp [h1] at hr
    | some s1 =>
      simp only [h1, Option.bind_some] at hr
      refine reach_of_run l s1 s' (.step s e s1 h ?_ h1) (fun e he => ha e (List.mem_cons_of_mem _ he)) hr
      obtain ⟨i, old, val, h | h⟩ := ha e (List.mem_cons_self ..)
      · rw [h.1]; exact h.2
      · rw [h]; trivial

/-- The hypotheses of `cas_lock_ok` are met by a reachable state in which a call has succeeded and another has failed. -/
example : ∃ s : Sys 16, Reach 0 s ∧ (s.who 0).pc = .done 0 ∧ (s.who 1).pc = .done 2 := by
  obtain ⟨s', h, h0, h1, _⟩ := cas_lock_spurious
  refine ⟨s', reach_of_run _ _ _ (.init _ ⟨rfl, fun _ => rfl⟩) ?_ h, h0, h1⟩
  intro e he
  simp only [List.mem_cons, List.not_mem_nil, or_false] at he
  rcases he with rfl | rfl | rfl | rfl | rfl | rfl | rfl | rfl
  · exact ⟨0, 0, 1, .inl ⟨rfl, rfl, by decide⟩⟩
  · exact ⟨1, 0, 2, .inl ⟨rfl, rfl, by decide⟩⟩
  · exact ⟨0, 0, 0, .inr rfl⟩
  · exact ⟨1, 0, 0, .inr rfl⟩
  · exact ⟨0, 0, 0, .inr rfl⟩
  · exact ⟨0, 0, 0, .inr rfl⟩
  · exact ⟨0, 0, 0, .inr rfl⟩
  · exact ⟨0, 0, 0, .inr rfl⟩

end Pico.Arch.Lock
