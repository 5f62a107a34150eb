import Verif.Arch.Core1Props
/- C103, second part: it ends; and a case where it never does -/
namespace Pico.Core1

/-- the states of an execution in which no wait runs out -/
inductive Phase (q : Seq) : St → Prop where
  | lock {rx r} : (∀ v p e, ¬ r.left v p e) → Phase q ⟨.lock, [], rx, r, false⟩
  | flush0 {rx r} : (∀ v p e, ¬ r.left v p e) → Phase q ⟨.flush 0, [], rx, r, true⟩
  | flush1 : Phase q ⟨.flush 1, [], [], .idle, true⟩
  | send {i r} : i ≤ 5 → (∀ v p e, ¬ r.left v p e) → (1 ≤ i → r = prog q i) → Phase q ⟨.send i, [], [], r, true⟩
  | sent {i r} : i ≤ 5 → (∀ v p e, ¬ r.left v p e) → (1 ≤ i → r = prog q i) → Phase q ⟨.wait i, [q.word i], [], r, true⟩
  | echoed {i} : i ≤ 5 → Phase q ⟨.wait i, [], [q.word i], prog q (i + 1), true⟩
  | early : Phase q ⟨.wait 5, [], [q.word 5], .idles q.vtor q.sp q.entry, false⟩
  | lock2 : Phase q ⟨.lock2, [], [], .started q.vtor q.sp q.entry, true⟩
  | lock2' : Phase q ⟨.lock2, [], [], .idles q.vtor q.sp q.entry, false⟩
  | done : Phase q ⟨.done, [], [], .idles q.vtor q.sp q.entry, false⟩

theorem prog_not_left {q : Seq} {i : Nat} (h : i ≤ 5) (v p e : Word) : ¬ (prog q i).left v p e := by
  intro hh
  unfold prog at hh
  split at hh <;> rcases hh with hh | hh <;> cases hh; omega

theorem take_any {q : Seq} (hq : q.Ok) {i : Nat} {r : Rom} (hi : i ≤ 5) (n : ∀ v p e, ¬ r.left v p e) (hr : 1 ≤ i → r = prog q i) :
    r.take (q.word i) = prog q (i + 1) := by
  by_cases h2 : 2 ≤ i
  · rw [hr (by omega), take_word hq h2 hi]
  · have e0 : q.word i = 0#32 := by rcases (show i = 0 ∨ i = 1 by omega) with r | r <;> subst r <;> rfl
    rw [e0, take_zero n]
    rcases (show i = 0 ∨ i = 1 by omega) with r | r <;> subst r <;> rfl

theorem core1_no {q : Seq} {s : St} (h : s.tx = []) : step q s .core1 = none := by
  obtain ⟨pc, tx, rx, rom, lk⟩ := s
  dsimp only at h; subst h
  cases rom <;> rfl

theorem idle_no {q : Seq} {s : St} (n : ∀ v p e, ¬ s.rom.left v p e) : step q s .idle = none := by
  obtain ⟨pc, tx, rx, rom, lk⟩ := s
  cases rom with
  | started v p e => exact absurd (Or.inl rfl) (n v p e)
  | _ => rfl

theorem phase_step {q : Seq} (hq : q.Ok) {s s' : St} (a : Cmd) (na : a ≠ .giveUp) (i : Phase q s) (h : step q s a = some s') : Phase q s' := by
  cases a with
  | giveUp => exact absurd rfl na
  | core1 =>
    cases i with
    | sent hi n hr =>
      obtain ⟨_, w, t, ht, _, e⟩ := step_core1 h
      cases ht
      rw [e]
      have k := take_any hq hi n hr
      have : Phase q ⟨.wait _, [], [q.word _], prog q (_ + 1), true⟩ := .echoed hi
      rw [← k] at this
      exact this
    | lock _ => rw [core1_no rfl] at h; cases h
    | flush0 _ => rw [core1_no rfl] at h; cases h
    | flush1 => rw [core1_no rfl] at h; cases h
    | send _ _ _ => rw [core1_no rfl] at h; cases h
    | echoed _ => rw [core1_no rfl] at h; cases h
    | early => rw [core1_no rfl] at h; cases h
    | lock2 => rw [core1_no rfl] at h; cases h
    | lock2' => rw [core1_no rfl] at h; cases h
    | done => rw [core1_no rfl] at h; cases h
  | idle =>
    cases i with
    | lock n => rw [idle_no n] at h; cases h
    | flush0 n => rw [idle_no n] at h; cases h
    | flush1 => cases h
    | send _ n _ => rw [idle_no n] at h; cases h
    | sent _ n _ => rw [idle_no n] at h; cases h
    | @echoed i hi =>
      by_cases h5 : i = 5
      · subst h5; cases h; exact .early
      · rw [idle_no (prog_not_left (by omega))] at h; cases h
    | early => cases h
    | lock2 => cases h; exact .lock2'
    | lock2' => cases h
    | done => cases h
  | core0 =>
    cases i with
    | lock n => cases h; exact .flush0 n
    | @flush0 rx r n =>
      cases rx with
      | nil => cases h; exact .send (by omega) n (fun h => by omega)
      | cons w t => cases h; exact .flush0 n
    | flush1 => cases h; exact .send (by omega) (prog_not_left (q := q) (i := 1) (by omega)) (fun _ => rfl)
    | send hi n hr => cases h; exact .sent hi n hr
    | sent _ _ _ => cases h
    | @echoed i hi =>
      simp only [step, Option.some.injEq, if_true] at h
      unfold next at h
      by_cases h5 : i = 5
      · rw [if_pos h5] at h; subst h5; subst h; exact .lock2
      · rw [if_neg h5] at h
        by_cases h0 : i = 0
        · rw [if_pos h0] at h; subst h0; subst h; exact .flush1
        · rw [if_neg h0] at h; subst h; exact .send (by omega) (prog_not_left (by omega)) (fun _ => rfl)
    | early => simp only [step, Option.some.injEq, if_true] at h; subst h; exact .lock2'
    | lock2 => cases h
    | lock2' => cases h; exact .done
    | done => cases h

theorem phase_run {q : Seq} (hq : q.Ok) {s0 s : St} (h0 : Clean s0) (r : Run q true s0 s) : Phase q s := by
  induction r with
  | refl =>
    obtain ⟨⟨hp, hl, n1, n2⟩, ht⟩ := h0
    obtain ⟨pc, tx, rx, rom, lk⟩ := s0
    dsimp only at hp hl ht n1 n2
    subst hp hl ht
    exact .lock (fun v p e hh => by rcases hh with hh | hh; exact n1 v p e hh; exact n2 v p e hh)
  | step a _ p e ih => exact phase_step hq a (p rfl) ih e

theorem c0 {q : Seq} {s t : St} (e : step q s .core0 = some t) : Run q true s t := run_one .core0 (fun _ h => Cmd.noConfusion h) e
theorem c1 {q : Seq} {s t : St} (e : step q s .core1 = some t) : Run q true s t := run_one .core1 (fun _ h => Cmd.noConfusion h) e
theorem ci {q : Seq} {s t : St} (e : step q s .idle = some t) : Run q true s t := run_one .idle (fun _ h => Cmd.noConfusion h) e

def Ends (q : Seq) (s : St) : Prop := ∃ t, Run q true s t ∧ t.pc = .done

theorem ends_of {q : Seq} {s t : St} (r : Run q true s t) (h : Ends q t) : Ends q s := by
  obtain ⟨u, h, e⟩ := h; exact ⟨u, run_trans r h, e⟩

theorem end_lock2' (q : Seq) : Ends q ⟨.lock2, [], [], .idles q.vtor q.sp q.entry, false⟩ := ⟨_, c0 rfl, rfl⟩
theorem end_lock2 (q : Seq) : Ends q ⟨.lock2, [], [], .started q.vtor q.sp q.entry, true⟩ := ends_of (ci rfl) (end_lock2' q)

theorem next_run (q : Seq) (i : Nat) (r : Rom) (lk : Bool) : Run q true ⟨.wait i, [], [q.word i], r, lk⟩ ⟨next i, [], [], r, lk⟩ :=
  c0 (by simp [step])

theorem core1_take {q : Seq} {r : Rom} (pc : Pc) (w : Word) (lk : Bool) (n : ∀ v p e, ¬ r.left v p e) :
    step q ⟨pc, [w], [], r, lk⟩ .core1 = some ⟨pc, [], [w], r.take w, lk⟩ := by
  cases r with
  | started v p e => exact absurd (Or.inl rfl) (n v p e)
  | idles v p e => exact absurd (Or.inr rfl) (n v p e)
  | _ => rfl

/-- by the number of words still to send -/
theorem end_send {q : Seq} (hq : q.Ok) (k : Nat) : ∀ {i : Nat} {r : Rom}, i + k = 5 → (∀ v p e, ¬ r.left v p e) → (1 ≤ i → r = prog q i) →
    Ends q ⟨.wait i, [q.word i], [], r, true⟩ ∧ Ends q ⟨.wait i, [], [q.word i], prog q (i + 1), true⟩ ∧ Ends q ⟨.send i, [], [], r, true⟩ := by
  induction k with
  | zero =>
    intro i r hi n hr
    have e : i = 5 := by omega
    have b : Ends q ⟨.wait i, [], [q.word i], prog q (i + 1), true⟩ := by
      refine ends_of (next_run q i _ _) ?_
      subst e; exact end_lock2 q
    have a : Ends q ⟨.wait i, [q.word i], [], r, true⟩ := by
      refine ends_of (c1 (core1_take _ _ _ n)) ?_
      rw [take_any hq (by omega) n hr]; exact b
    exact ⟨a, b, ends_of (c0 rfl) a⟩
  | succ k ih =>
    intro i r hi n hr
    have b : Ends q ⟨.wait i, [], [q.word i], prog q (i + 1), true⟩ := by
      refine ends_of (next_run q i _ _) ?_
      have g := (ih (i := i + 1) (r := prog q (i + 1)) (by omega) (prog_not_left (by omega)) (fun _ => rfl)).2.2
      unfold next
      rw [if_neg (by omega)]
      by_cases h0 : i = 0
      · rw [if_pos h0]; subst h0; exact ends_of (c0 rfl) g
      · rw [if_neg h0]; exact g
    have a : Ends q ⟨.wait i, [q.word i], [], r, true⟩ := by
      refine ends_of (c1 (core1_take _ _ _ n)) ?_
      rw [take_any hq (by omega) n hr]; exact b
    exact ⟨a, b, ends_of (c0 rfl) a⟩

theorem end_flush {q : Seq} (hq : q.Ok) {r : Rom} (n : ∀ v p e, ¬ r.left v p e) (rx : List Word) : Ends q ⟨.flush 0, [], rx, r, true⟩ := by
  induction rx with
  | nil => exact ends_of (c0 rfl) (end_send hq 5 (i := 0) (by omega) n (fun h => by omega)).2.2
  | cons w t ih => exact ends_of (c0 rfl) ih

theorem phase_ends {q : Seq} (hq : q.Ok) {s : St} (h : Phase q s) : Ends q s := by
  cases h with
  | lock n => exact ends_of (c0 rfl) (end_flush hq n _)
  | flush0 n => exact end_flush hq n _
  | flush1 => exact ends_of (c0 rfl) (end_send hq 4 (i := 1) (r := .idle) (by omega) (prog_not_left (q := q) (i := 1) (by omega)) (fun _ => rfl)).2.2
  | @send i r hi n hr => exact (end_send hq (5 - i) (by omega) n hr).2.2
  | @sent i r hi n hr => exact (end_send hq (5 - i) (by omega) n hr).1
  | @echoed i hi => exact (end_send hq (5 - i) (i := i) (r := prog q i) (by omega) (prog_not_left hi) (fun _ => rfl)).2.1
  | early => exact ends_of (next_run q 5 _ _) (end_lock2' q)
  | lock2 => exact end_lock2 q
  | lock2' => exact end_lock2' q
  | done => exact ⟨_, .refl, rfl⟩

/-- It ends. While no wait runs out, and with nothing on its way to core 1 beforehand (whatever the FIFO to core 0 holds, wherever the boot ROM was), arch_core_init can always still return, whatever was done so far. -/
theorem ends {q : Seq} (hq : q.Ok) {s0 s : St} (h0 : Clean s0) (r : Run q true s0 s) : ∃ t, Run q true s t ∧ t.pc = .done ∧ t.rom = .idles q.vtor q.sp q.entry := by
  obtain ⟨t, h, e⟩ := phase_ends hq (phase_run hq h0 r)
  exact ⟨t, h, e, done_idles hq h0.1 (run_trans r h) e⟩

/-- and something can always be done until it has returned: no deadlock -/
theorem no_deadlock {q : Seq} (hq : q.Ok) {s0 s : St} (h0 : Clean s0) (r : Run q true s0 s) (n : s.pc ≠ .done) : ∃ a s', a ≠ .giveUp ∧ step q s a = some s' := by
  obtain ⟨t, h, e⟩ := phase_ends hq (phase_run hq h0 r)
  clear r
  induction h with
  | refl => exact absurd e n
  | @step u u' a ru p es ih =>
    by_cases k : u.pc = .done
    · exact ih k
    · cases ru with
      | refl => exact ⟨a, _, p rfl, es⟩
      | @step v _ b rv p' es' =>
        have : ∀ {x y : St}, Run q true x y → x = y ∨ ∃ a z, a ≠ .giveUp ∧ step q x a = some z := by
          intro x y hxy
          induction hxy with
          | refl => exact .inl rfl
          | step a _ p e ih =>
            rcases ih with ih | ih
            · rw [← ih] at e; exact .inr ⟨a, _, p rfl, e⟩
            · exact .inr ih
        rcases this (rv.step b p' es') with hh | hh
        · rw [← hh] at es; exact ⟨a, _, p rfl, es⟩
        · exact hh

/-- core 1 has left its boot ROM, and core 0 begins the sequence again -/
def Lost (s : St) : Prop :=
  (∃ v p e, s.rom.left v p e) ∧ ((s.pc = .flush 0) ∨ ((s.pc = .send 0 ∨ s.pc = .wait 0) ∧ s.rx = []))

/-- The defect. If the last wait of core 0 runs out after core 1 has taken the entry point, the sequence is sent again to a core that is no longer in its boot ROM: arch_core_init never succeeds. -/
theorem lost_forever {q : Seq} {b : Bool} {s s' : St} (h : Lost s) (r : Run q b s s') : Lost s' ∧ s'.pc ≠ .lock2 ∧ s'.pc ≠ .done := by
  have k : Lost s' := by
    induction r with
    | refl => exact h
    | @step u u' a _ _ e ih =>
      obtain ⟨⟨v, p, e', hl⟩, hp⟩ := ih
      cases a with
      | giveUp => obtain ⟨_, rfl⟩ := step_giveUp e; exact ⟨⟨v, p, e', hl⟩, .inl rfl⟩
      | idle => obtain ⟨v', p', e'', _, rfl⟩ := step_idle e; exact ⟨⟨v', p', e'', .inr rfl⟩, hp⟩
      | core1 => exact absurd hl ((step_core1 e).1 _ _ _)
      | core0 =>
        obtain ⟨pc, tx, rx, rom, lk⟩ := u
        rcases hp with hp | ⟨hp | hp, hx⟩
        · dsimp only at hp; subst hp
          cases rx with
          | nil => cases e; exact ⟨⟨v, p, e', hl⟩, .inr ⟨.inl rfl, rfl⟩⟩
          | cons w t => cases e; exact ⟨⟨v, p, e', hl⟩, .inl rfl⟩
        · dsimp only at hp hx; subst hp hx
          simp [step] at e; obtain ⟨_, rfl⟩ := e
          exact ⟨⟨v, p, e', hl⟩, .inr ⟨.inr rfl, rfl⟩⟩
        · dsimp only at hp hx; subst hp hx
          cases e
  refine ⟨k, ?_⟩
  obtain ⟨_, k | ⟨k | k, _⟩⟩ := k <;> rw [k] <;> exact ⟨Pc.noConfusion, Pc.noConfusion⟩

/-- from a reset, a wait that runs out one step before the echo of the entry point leads there -/
theorem lost_reachable (q : Seq) (hq : q.Ok) : ∃ s, Run q false fresh s ∧ Lost s := by
  have pat : ∀ {s t : St}, Run q true s t → Run q false s t := by
    intro s t h
    induction h with
    | refl => exact .refl
    | step a _ _ e ih => exact ih.step a (fun h => Bool.noConfusion h) e
  have one : ∀ {i : Nat} {r : Rom}, i ≤ 5 → (∀ v p e, ¬ r.left v p e) → (1 ≤ i → r = prog q i) →
      Run q true ⟨.send i, [], [], r, true⟩ ⟨.wait i, [], [q.word i], prog q (i + 1), true⟩ := by
    intro i r hi n hr
    refine run_trans (c0 rfl) (c1 ?_)
    rw [← take_any hq hi n hr]; exact core1_take _ _ _ n
  have nx : ∀ {i : Nat}, 1 ≤ i → i ≤ 4 → Run q true ⟨.wait i, [], [q.word i], prog q (i + 1), true⟩ ⟨.wait (i + 1), [], [q.word (i + 1)], prog q (i + 2), true⟩ := by
    intro i h1 h4
    refine run_trans (next_run q i _ _) ?_
    have e : next i = .send (i + 1) := by unfold next; rw [if_neg (by omega), if_neg (by omega)]
    rw [e]
    exact one (by omega) (prog_not_left (by omega)) (fun _ => rfl)
  have a : Run q true fresh ⟨.wait 0, [], [q.word 0], prog q 1, true⟩ :=
    run_trans (run_trans (c0 rfl) (c0 rfl)) (one (i := 0) (by omega) (prog_not_left (q := q) (i := 0) (by omega)) (fun _ => rfl))
  have b : Run q true ⟨.wait 0, [], [q.word 0], prog q 1, true⟩ ⟨.wait 1, [], [q.word 1], prog q 2, true⟩ :=
    run_trans (next_run q 0 _ _) (run_trans (c0 rfl) (one (i := 1) (by omega) (prog_not_left (q := q) (i := 1) (by omega)) (fun _ => rfl)))
  have c := run_trans a (run_trans b (run_trans (nx (i := 1) (by omega) (by omega)) (run_trans (nx (i := 2) (by omega) (by omega))
    (run_trans (nx (i := 3) (by omega) (by omega)) (nx (i := 4) (by omega) (by omega))))))
  exact ⟨_, (pat c).step .giveUp (fun h => Bool.noConfusion h) rfl, ⟨⟨_, _, _, .inl rfl⟩, .inl rfl⟩⟩

/-- the stack given to core 1 is the last word of its area, where the stack pointer of its idle task was written -/
theorem stackOf_eq {bottom top : Nat} (h : bottom < top) (ht : top < 2 ^ 32) (a : (top - bottom) % 4 = 0) :
    (stackOf (BitVec.ofNat 32 bottom) (BitVec.ofNat 32 top)).toNat = top - 4 := by
  have e1 : (BitVec.ofNat 32 top - BitVec.ofNat 32 bottom).toNat = top - bottom := by
    rw [BitVec.toNat_sub, BitVec.toNat_ofNat, BitVec.toNat_ofNat, Nat.mod_eq_of_lt (show bottom < 2 ^ 32 by omega), Nat.mod_eq_of_lt ht]
    omega
  have e2 : (((BitVec.ofNat 32 top - BitVec.ofNat 32 bottom) >>> 2) - 1#32).toNat = (top - bottom) / 4 - 1 := by
    rw [BitVec.toNat_sub, BitVec.toNat_ushiftRight, e1, Nat.shiftRight_eq_div_pow]
    have : (1#32 : BitVec 32).toNat = 1 := rfl
    rw [this]
    omega
  unfold stackOf
  rw [BitVec.toNat_add, BitVec.toNat_mul, e2, BitVec.toNat_ofNat, Nat.mod_eq_of_lt (show bottom < 2 ^ 32 by omega)]
  have : (4#32 : BitVec 32).toNat = 4 := rfl
  rw [this]
  omega

/-- hypotheses are met: the RP2040's own addresses, and an area of 1 KB -/
example : (⟨0x20000000#32, stackOf 0x20041000#32 0x20041400#32, 0x20000101#32⟩ : Seq).Ok ∧ Clean fresh ∧ stackOf 0x20041000#32 0x20041400#32 = 0x200413fc#32 :=
  ⟨⟨by decide, by decide, by decide⟩, ⟨⟨rfl, rfl, fun _ _ _ h => Rom.noConfusion h, fun _ _ _ h => Rom.noConfusion h⟩, rfl⟩, by decide⟩
/-- words left in the FIFO to core 0, and a boot ROM in the middle of a sequence, are allowed -/
example : Clean ⟨.lock, [], [0#32, 1#32, 7#32], .sp 3#32 4#32, false⟩ :=
  ⟨⟨rfl, rfl, fun _ _ _ h => Rom.noConfusion h, fun _ _ _ h => Rom.noConfusion h⟩, rfl⟩

end Pico.Core1
