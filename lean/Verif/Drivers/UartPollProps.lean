/-
The UART drivers (C84): polled I/O, theorems.
-/
import Verif.Drivers.UartPoll
namespace Pico.UartPoll

/-! ### writing -/

/-- all the bytes given to the transmitter, in order -/
def Tx.all (t : Tx) : List Byte := t.line ++ t.q

theorem drain_all (k : Nat) (t : Tx) : (t.drain k).all = t.all := by
  simp [Tx.drain, Tx.all]

theorem drain_len (k : Nat) (t : Tx) : (t.drain k).q.length ≤ t.q.length := by simp [Tx.drain]

theorem txLoop_all (D : Nat) (rdy : Tx → Bool) (hr : ∀ t, rdy t = true → t.q.length < D) (e : Nat → Nat) :
    ∀ bs i t, (txLoop D rdy e bs i t).1 ≤ bs.length ∧ (txLoop D rdy e bs i t).2.all = t.all ++ bs.take (txLoop D rdy e bs i t).1 ∧
      (t.q.length ≤ D → (txLoop D rdy e bs i t).2.q.length ≤ D) := by
  intro bs
  induction bs with
  | nil => intro i t; simp [txLoop]
  | cons b bs ih =>
    intro i t
    rw [txLoop]
    dsimp only
    by_cases h : rdy (t.drain (e i)) = true
    · rw [if_pos h]
      obtain ⟨h1, h2, h3⟩ := ih (i + 1) ((t.drain (e i)).push D b)
      have hl := hr _ h
      have hp : ((t.drain (e i)).push D b).all = t.all ++ [b] := by
        rw [← drain_all (e i) t]
        simp [Tx.push, hl, Tx.all]
      refine ⟨by simp only [List.length_cons]; omega, ?_, ?_⟩
      · rw [h2, hp, List.take_succ_cons]; simp
      · intro _
        refine h3 ?_
        simp only [Tx.push, hl, if_true, List.length_append, List.length_cons, List.length_nil]; omega
    · rw [if_neg h]
      refine ⟨by omega, by simp [drain_all], fun h' => Nat.le_trans (drain_len _ _) h'⟩

/-- **C84, writing**: the bytes on the line and in the transmitter are those before, then exactly the first `n` of the buffer, `n` being the value returned; on -EAGAIN
nothing was sent -/
theorem write_all (D : Nat) (rdy : Tx → Bool) (hr : ∀ t, rdy t = true → t.q.length < D) (e : Nat → Nat) (buf : List Byte) (t : Tx) :
    (write D rdy e buf t).2.all = t.all ++ buf.take (write D rdy e buf t).1.count ∧ (write D rdy e buf t).1.count ≤ buf.length ∧
    ((write D rdy e buf t).1 = .einval ↔ buf = []) ∧ ∀ n, (write D rdy e buf t).1 = .sent n → 0 < n := by
  unfold write
  split
  · simp [WRes.count, *]
  · obtain ⟨h1, h2, _⟩ := txLoop_all D rdy hr e buf 0 t
    dsimp only
    split
    · rename_i h0
      rw [h0] at h2
      exact ⟨by simpa [WRes.count] using h2, by simp [WRes.count], by simp [*], by intro n h; cases h⟩
    · rename_i h0
      exact ⟨h2, h1, by simp [*], by intro n h; cases h; omega⟩

/-- **C84, writing, any number of calls**: what was on its way, then the parts accepted of every buffer, in order, once -/
theorem writes_all (D : Nat) (rdy : Tx → Bool) (hr : ∀ t, rdy t = true → t.q.length < D) : ∀ l t,
    (writes D rdy l t).2.line ++ (writes D rdy l t).2.q = t.line ++ t.q ++ (writes D rdy l t).1 := by
  intro l
  induction l with
  | nil => intro t; simp [writes]
  | cons x l ih =>
    obtain ⟨buf, e, k⟩ := x
    intro t
    rw [writes]
    dsimp only
    rw [ih]
    have h1 := (write_all D rdy hr e buf t).1
    have h2 := drain_all k (write D rdy e buf t).2
    unfold Tx.all at h1 h2
    rw [h2, h1]
    simp

/-- **C84, writing**: something is written if the transmitter is ready at the first poll -/
theorem write_progress (D : Nat) (rdy : Tx → Bool) (e : Nat → Nat) (buf : List Byte) (t : Tx) (hb : buf ≠ []) :
    (write D rdy e buf t).1 = .again ↔ rdy (t.drain (e 0)) = false := by
  unfold write
  rw [if_neg hb]
  cases buf with
  | nil => exact absurd rfl hb
  | cons b bs =>
    rw [txLoop]
    dsimp only
    cases h : rdy (t.drain (e 0)) <;> simp

/-- the status bits polled are right: FIFO of depth `D` -/
theorem notFull_ok (D : Nat) : ∀ t, notFull D t = true → t.q.length < D := by intro t h; simpa [notFull] using h
/-- ... and TXEMPTY -/
theorem empty_ok (D : Nat) (hD : 0 < D) : ∀ t, empty t = true → t.q.length < D := by
  intro t h; simp [empty] at h; simp [h, hD]

/-- **C84, writing, polled drivers on a FIFO or a holding register** (pl011, sercom, sam, avr, gd32vf103, pic32mx, renesas, stm32, tinyavr, mc9s08) -/
theorem fifo_writes (D : Nat) (l : List (List Byte × (Nat → Nat) × Nat)) (t : Tx) :
    (writes D (notFull D) l t).2.line ++ (writes D (notFull D) l t).2.q = t.line ++ t.q ++ (writes D (notFull D) l t).1 := writes_all D _ (notFull_ok D) l t
/-- **C84, writing, atsamx7x_usart** -/
theorem usart_writes (l : List (List Byte × (Nat → Nat) × Nat)) (t : Tx) :
    (writes 1 empty l t).2.line ++ (writes 1 empty l t).2.q = t.line ++ t.q ++ (writes 1 empty l t).1 := writes_all 1 _ (empty_ok 1 (by decide)) l t
/-- ... which accepts a byte as soon as nothing is left -/
theorem fifo_progress (D : Nat) (hD : 0 < D) (e : Nat → Nat) (buf : List Byte) (t : Tx) (hb : buf ≠ []) (hl : t.q.length ≤ e 0) :
    (write D (notFull D) e buf t).1 ≠ .again ∧ (write 1 empty e buf t).1 ≠ .again := by
  rw [Ne, Ne, write_progress _ _ _ _ _ hb, write_progress _ _ _ _ _ hb]
  have : (t.drain (e 0)).q = [] := by simp [Tx.drain, List.drop_eq_nil_iff, hl]
  simp [notFull, empty, this, hD]

example : (write 2 (notFull 2) (fun _ => 0) [1, 2, 3] ⟨[], []⟩) = (.sent 2, ⟨[1, 2], []⟩) := by decide
example : (writes 1 (notFull 1) [([1, 2], fun _ => 0, 1), ([2, 3], fun _ => 1, 0)] ⟨[], []⟩).1 = [1, 2, 3] := by decide

/-! ### reading -/

/-- what is held follows what was delivered: in order, once; complete if nothing was lost -/
structure RInv (r : Rx) (out : List Byte) : Prop where
  sub : (out ++ r.q).Sublist r.arr
  full : r.lost = 0 → out ++ r.q = r.arr
  count : (out ++ r.q).length + r.lost = r.arr.length

theorem rinv_arrive (D : Nat) (stall : Bool) (r : Rx) (b : Byte) (out : List Byte) (h : RInv r out) : RInv (r.arrive D stall b) out := by
  obtain ⟨h1, h2, h3⟩ := h
  unfold Rx.arrive
  split
  · refine ⟨?_, ?_, ?_⟩
    · rw [← List.append_assoc]; exact h1.append (List.Sublist.refl _)
    · intro hl; rw [← List.append_assoc, h2 hl]
    · simp at h3 ⊢; omega
  · refine ⟨?_, ?_, ?_⟩
    · exact h1.trans (List.sublist_append_left _ _)
    · intro hl; simp at hl
    · simp at h3 ⊢; omega

theorem rinv_foldl (D : Nat) (stall : Bool) (l : List Byte) : ∀ (r : Rx) (out : List Byte), RInv r out → RInv (l.foldl (Rx.arrive D stall) r) out := by
  induction l with
  | nil => intro r out h; exact h
  | cons b l ih => intro r out h; exact ih _ _ (rinv_arrive D stall r b out h)

theorem rinv_loop (D : Nat) (stall : Bool) (e : Nat → List Byte) : ∀ n i r out, RInv r out → RInv (rxLoop D stall e n i r).2 (out ++ (rxLoop D stall e n i r).1) := by
  intro n
  induction n with
  | zero => intro i r out h; simpa [rxLoop] using h
  | succ n ih =>
    intro i r out h
    have h' := rinv_foldl D stall (e i) r out h
    rw [rxLoop]
    dsimp only
    generalize (e i).foldl (Rx.arrive D stall) r = s at h'
    cases hq : s.q with
    | nil => simpa using h'
    | cons b q =>
      dsimp only
      have h2 : RInv { s with q := q } (out ++ [b]) := by
        obtain ⟨a1, a2, a3⟩ := h'
        rw [hq] at a1 a2 a3
        exact ⟨by simpa using a1, by simpa using a2, by simpa using a3⟩
      have := ih (i + 1) { s with q := q } (out ++ [b]) h2
      simpa using this

theorem rinv_read (D : Nat) (stall zero : Bool) (e : Nat → List Byte) (n : Nat) (r : Rx) (out : List Byte) (h : RInv r out) :
    RInv (read D stall zero e n r).2 (out ++ (read D stall zero e n r).1.bytes) := by
  have := rinv_loop D stall e n 0 r out h
  unfold read
  split
  · simpa [RRes.bytes] using h
  · dsimp only
    split
    · rename_i hx; rw [hx.1] at this; simpa [RRes.bytes] using this
    · exact this

theorem rinv_reads (D : Nat) (stall zero : Bool) : ∀ l r out, RInv r out → RInv (reads D stall zero l r).2 (out ++ (reads D stall zero l r).1) := by
  intro l
  induction l with
  | nil => intro r out h; simpa [reads] using h
  | cons x l ih =>
    obtain ⟨n, e, a⟩ := x
    intro r out h
    have h1 := rinv_foldl D stall a _ _ (rinv_read D stall zero e n r out h)
    have h2 := ih _ _ h1
    rw [reads]
    simpa using h2

/-- **C84, reading, any number of calls**: the bytes delivered (and then those still held) are the bytes that arrived, in order, once; only as many are missing as arrived
while the receiver was full -/
theorem reads_all (D : Nat) (stall zero : Bool) (l : List (Nat × (Nat → List Byte) × List Byte)) :
    let x := reads D stall zero l ⟨[], [], 0, false⟩
    (x.1 ++ x.2.q).Sublist x.2.arr ∧ (x.1 ++ x.2.q).length + x.2.lost = x.2.arr.length ∧ (x.2.lost = 0 → x.1 ++ x.2.q = x.2.arr) := by
  have := rinv_reads D stall zero l ⟨[], [], 0, false⟩ [] ⟨by simp, by simp, by simp⟩
  simp only [List.nil_append] at this
  exact ⟨this.sub, this.count, this.full⟩

theorem rxLoop_len (D : Nat) (stall : Bool) (e : Nat → List Byte) : ∀ n i r, (rxLoop D stall e n i r).1.length ≤ n := by
  intro n
  induction n with
  | zero => intro i r; simp [rxLoop]
  | succ n ih =>
    intro i r
    rw [rxLoop]
    dsimp only
    split
    · simp
    · simp [ih]

/-- **C84, reading**: never more bytes than asked for; -EAGAIN exactly when there is nothing -/
theorem read_len (D : Nat) (stall : Bool) (e : Nat → List Byte) (n : Nat) (r : Rx) (hn : 0 < n) :
    (read D stall false e n r).1.bytes.length ≤ n ∧ ((read D stall false e n r).1 = .again ↔ ((e 0).foldl (Rx.arrive D stall) r).q = []) := by
  unfold read
  rw [if_neg (by omega)]
  have hl := rxLoop_len D stall e n 0 r
  dsimp only
  have hk : (rxLoop D stall e n 0 r).1 = [] ↔ ((e 0).foldl (Rx.arrive D stall) r).q = [] := by
    obtain ⟨m, rfl⟩ : ∃ m, n = m + 1 := ⟨n - 1, by omega⟩
    rw [rxLoop]
    dsimp only
    split
    · rename_i h; simp [h]
    · rename_i h; simp [h]
  split
  · rename_i h; simp [RRes.bytes, hk.1 h.1]
  · rename_i h
    refine ⟨hl, ?_⟩
    rw [← hk]
    constructor
    · intro h'; cases h'
    · intro h'; exact absurd ⟨h', rfl⟩ h

/-- **C84, arm_pl011, refuted**: reading nothing returns 0, not -EAGAIN -/
theorem pl011_zero (D : Nat) (e : Nat → List Byte) (n : Nat) (r : Rx) (hn : 0 < n) (h : ((e 0).foldl (Rx.arrive D false) r).q = []) :
    (read D false true e n r).1 = .got [] := by
  unfold read
  rw [if_neg (by omega)]
  obtain ⟨m, rfl⟩ : ∃ m, n = m + 1 := ⟨n - 1, by omega⟩
  rw [rxLoop]
  dsimp only
  rw [h]
  simp

theorem foldl_dead (D : Nat) (l : List Byte) : ∀ r : Rx, r.dead = true → r.q = [] → (l.foldl (Rx.arrive D true) r).dead = true ∧ (l.foldl (Rx.arrive D true) r).q = [] := by
  induction l with
  | nil => intro r h1 h2; exact ⟨h1, h2⟩
  | cons b l ih =>
    intro r h1 h2
    refine ih _ ?_ ?_ <;> simp [Rx.arrive, h1, h2]

/-- **C84, renesas_ra4_sci and pic32mx, refuted**: an overrun stops the receiver until its flag is cleared, which the driver never does: once the bytes held are read,
whatever arrives, nothing is ever read again -/
theorem overrun_forever (D : Nat) : ∀ (l : List (Nat × (Nat → List Byte) × List Byte)) (r : Rx), r.dead = true → r.q = [] → (reads D true false l r).1 = [] := by
  intro l
  induction l with
  | nil => intro r _ _; rfl
  | cons x l ih =>
    obtain ⟨n, e, a⟩ := x
    intro r h1 h2
    have hr : (read D true false e n r).1.bytes = [] ∧ (read D true false e n r).2.dead = true ∧ (read D true false e n r).2.q = [] := by
      unfold read
      split
      · exact ⟨rfl, h1, h2⟩
      · obtain ⟨m, rfl⟩ : ∃ m, n = m + 1 := ⟨n - 1, by omega⟩
        obtain ⟨h3, h4⟩ := foldl_dead D (e 0) r h1 h2
        rw [rxLoop]
        dsimp only
        rw [h4]
        exact ⟨rfl, h3, h4⟩
    obtain ⟨h5, h6⟩ := foldl_dead D a _ hr.2.1 hr.2.2
    rw [reads]
    dsimp only
    rw [hr.1, ih _ h5 h6]
    rfl

/-- ... and an overrun is only as many bytes away as the receiver holds -/
theorem overrun_reached : (reads 1 true false [(1, fun _ => [1, 2], []), (1, fun _ => [3], []), (5, fun _ => [4, 5], [])] ⟨[], [], 0, false⟩).1 = [1] ∧
    (reads 1 false false [(1, fun _ => [1, 2], []), (1, fun _ => [3], []), (5, fun _ => [4], [])] ⟨[], [], 0, false⟩).1 = [1, 3, 4, 4, 4, 4, 4] := by decide

/-! ### tinyavr: framing errors -/

theorem tiny_stuck_step (e : Nat → List (Byte × Bool)) (n : Nat) (b : Byte) (q : List (Byte × Bool)) :
    (tinyRead e n ⟨(b, true) :: q⟩).1.bytes = [] ∧ ∃ q', (tinyRead e n ⟨(b, true) :: q⟩).2.q = (b, true) :: q' := by
  unfold tinyRead
  split
  · exact ⟨rfl, q, rfl⟩
  · obtain ⟨m, rfl⟩ : ∃ m, n = m + 1 := ⟨n - 1, by omega⟩
    rw [tinyLoop]
    simp [RRes.bytes]

/-- reads in a row, with what arrives in between -/
def tinyReads : List (Nat × (Nat → List (Byte × Bool)) × List (Byte × Bool)) → RxF → List Byte
  | [], _ => []
  | (n, e, a) :: l, r =>
    let x := tinyRead e n r
    x.1.bytes ++ tinyReads l ⟨x.2.q ++ a⟩

/-- **C84, tinyavr_usart, refuted**: a byte received with a framing error is never taken out: nothing is ever read again -/
theorem tiny_stuck : ∀ (l : List (Nat × (Nat → List (Byte × Bool)) × List (Byte × Bool))) (b : Byte) (q : List (Byte × Bool)), tinyReads l ⟨(b, true) :: q⟩ = [] := by
  intro l
  induction l with
  | nil => intro b q; rfl
  | cons x l ih =>
    obtain ⟨n, e, a⟩ := x
    intro b q
    obtain ⟨h1, q', h2⟩ := tiny_stuck_step e n b q
    rw [tinyReads, h1, h2, List.cons_append, ih]
    rfl

/-- **C84, tinyavr_usart**: without framing errors the bytes delivered, then those held, are those held before and those that arrived, in order, once -/
theorem tiny_ok (e : Nat → List (Byte × Bool)) (he : ∀ i, ∀ x ∈ e i, x.2 = false) : ∀ n i (q : List (Byte × Bool)), (∀ x ∈ q, x.2 = false) →
    ∃ k, (tinyLoop e n i ⟨q⟩).1 ++ (tinyLoop e n i ⟨q⟩).2.q.map (·.1) = q.map (·.1) ++ (List.range' i k).flatMap (fun j => (e j).map (·.1)) ∧
      (tinyLoop e n i ⟨q⟩).1.length ≤ n ∧ ∀ x ∈ (tinyLoop e n i ⟨q⟩).2.q, x.2 = false := by
  intro n
  induction n with
  | zero => intro i q hq; exact ⟨0, by simp [tinyLoop], by simp [tinyLoop], hq⟩
  | succ n ih =>
    intro i q hq
    have ha : ∀ x ∈ q ++ e i, x.2 = false := by
      intro x hx
      rcases List.mem_append.1 hx with h | h
      · exact hq x h
      · exact he i x h
    rw [tinyLoop]
    dsimp only
    cases hqq : q ++ e i with
    | nil => exact ⟨0, by have := List.append_eq_nil_iff.1 hqq; simp [this.1], by simp, by simp⟩
    | cons x rest =>
      obtain ⟨b, f⟩ := x
      rw [hqq] at ha
      have hf : f = false := ha (b, f) (by simp)
      subst hf
      simp only [Bool.false_eq_true, if_false]
      obtain ⟨k, h1, h2, h3⟩ := ih (i + 1) rest (fun x hx => ha x (by simp [hx]))
      refine ⟨k + 1, ?_, by simp [h2], h3⟩
      rw [List.cons_append, h1, List.range'_succ, List.flatMap_cons, ← List.append_assoc, ← List.map_append, hqq]
      simp

example : (tinyRead (fun _ => []) 4 ⟨[(1, false), (2, true), (3, false)]⟩).1 = .got [1] := by decide

/-! ### 8051 -/

/-- nothing is in the shifter when the driver believes so -/
def T51.Ok (t : T51) : Prop := (t.ti = true ∨ t.trig = true) ↔ t.cur = none

/-- the bytes gone, then the one being sent -/
def T51.all (t : T51) : List Byte := t.line ++ t.cur.toList

theorem tick51 (g : Bool) (t : T51) (h : t.Ok) : (t.tick g).Ok ∧ (t.tick g).all = t.all := by
  unfold T51.tick
  cases hc : t.cur with
  | none => exact ⟨h, rfl⟩
  | some b =>
    cases g with
    | false => simp only [Bool.false_eq_true, if_false]; exact ⟨h, trivial⟩
    | true => simp [T51.Ok, T51.all, hc]

theorem loop51_all (e : Nat → Bool) : ∀ bs i t, t.Ok → (loop51 e bs i t).1 ≤ bs.length ∧ (loop51 e bs i t).2.Ok ∧
    (loop51 e bs i t).2.all = t.all ++ bs.take (loop51 e bs i t).1 := by
  intro bs
  induction bs with
  | nil => intro i t h; simp [loop51, h]
  | cons b bs ih =>
    intro i t h
    obtain ⟨h1, h2⟩ := tick51 (e i) t h
    rw [loop51]
    dsimp only
    generalize t.tick (e i) = u at h1 h2
    by_cases hr : u.ti = false ∧ u.trig = false
    · rw [if_pos hr]; simp [h1, h2]
    · rw [if_neg hr]
      have hc : u.cur = none := by
        rw [← show _ ↔ _ from h1]; cases ht : u.ti <;> cases hg : u.trig <;> simp_all
      obtain ⟨a1, a2, a3⟩ := ih (i + 1) { u with ti := false, cur := some b, trig := false } (by simp [T51.Ok])
      refine ⟨by simp only [List.length_cons]; omega, a2, ?_⟩
      rw [a3, ← h2]
      simp [T51.all, hc, List.take_succ_cons]

/-- **C84, 8051**: the same, without a holding register: no byte is written over one being sent -/
theorem write51_all (e : Nat → Bool) (buf : List Byte) (t : T51) (h : t.Ok) : (write51 e buf t).2.Ok ∧
    (write51 e buf t).2.line ++ (write51 e buf t).2.cur.toList = t.line ++ t.cur.toList ++ buf.take (write51 e buf t).1.count ∧ (write51 e buf t).1.count ≤ buf.length := by
  unfold write51
  split
  · simp [WRes.count, h]
  · obtain ⟨h1, h2, h3⟩ := loop51_all e buf 0 t h
    dsimp only
    split
    · rename_i h0
      rw [h0] at h3
      exact ⟨h2, by simpa [WRes.count, T51.all] using h3, by simp [WRes.count]⟩
    · exact ⟨h2, h3, h1⟩

/-- ... it holds after init (uart-8051.c:38-45), and between the calls (`tick51`) -/
theorem init51_ok (line : List Byte) : T51.Ok ⟨none, false, true, line⟩ := by simp [T51.Ok]

/-! ### n76e003 -/

/-- busy: a byte is in the shifter, or TI tells it is gone -/
def T76.Ok (t : T76) : Prop := (t.busy = true ↔ (t.cur ≠ none ∨ t.ti = true)) ∧ ¬ (t.cur ≠ none ∧ t.ti = true)

theorem tick76 (g : Bool) (t : T76) (h : t.Ok) : (t.tick g).Ok ∧ (t.tick g).line ++ (t.tick g).cur.toList = t.line ++ t.cur.toList ∧ (t.tick g).busy = t.busy := by
  unfold T76.tick
  cases hc : t.cur with
  | none => exact ⟨h, by simp [hc], rfl⟩
  | some b =>
    cases g with
    | false => simp only [Bool.false_eq_true, if_false]; exact ⟨h, by simp [hc], trivial⟩
    | true =>
      have hb : t.busy = true := h.1.2 (Or.inl (by simp [hc]))
      simp [T76.Ok, hb]

/-- `k` bytes are counted, the line gets those and one more if the transmitter is left busy; `d`: the byte it was busy with at the beginning is counted for the first of the
buffer, whatever that is -/
theorem loop76_all (e : Nat → Bool) : ∀ bs i t, t.Ok → (loop76 e bs i t).2.Ok ∧ (loop76 e bs i t).1 ≤ bs.length ∧
    (loop76 e bs i t).2.line ++ (loop76 e bs i t).2.cur.toList = t.line ++ t.cur.toList ++
      (bs.take ((loop76 e bs i t).1 + (if (loop76 e bs i t).2.busy then 1 else 0))).drop (if t.busy then 1 else 0) := by
  intro bs
  induction bs with
  | nil => intro i t h; simp [loop76, h]
  | cons b bs ih =>
    intro i t h
    rw [loop76]
    dsimp only
    have hu : T76.Ok (if t.busy then t else { t with cur := some b, busy := true }) ∧ (if t.busy then t else { t with cur := some b, busy := true }).busy = true ∧
        (if t.busy then t else { t with cur := some b, busy := true }).line ++ (if t.busy then t else { t with cur := some b, busy := true }).cur.toList =
          t.line ++ t.cur.toList ++ [b].drop (if t.busy then 1 else 0) := by
      cases hb : t.busy with
      | true => simp [h, hb]
      | false =>
        have hn := h.1
        rw [hb] at hn
        have hc : t.cur = none := by
          cases hc : t.cur with
          | none => rfl
          | some x => simp [hc] at hn
        have ht : t.ti = false := by
          cases ht : t.ti with
          | false => rfl
          | true => simp [ht] at hn
        simp [T76.Ok, hc, ht]
    generalize (if t.busy then t else { t with cur := some b, busy := true }) = u at hu
    obtain ⟨u1, u2, u3⟩ := hu
    obtain ⟨v1, v2, v3⟩ := tick76 (e i) u u1
    generalize u.tick (e i) = v at v1 v2 v3
    rw [u2] at v3
    by_cases hti : v.ti = false
    · rw [if_pos hti]
      refine ⟨v1, by simp, ?_⟩
      rw [v2, u3, v3]
      simp
    · rw [if_neg hti]
      rw [Bool.not_eq_false] at hti
      have hc : v.cur = none := by
        cases hc : v.cur with
        | none => rfl
        | some x => exact absurd ⟨by simp [hc], hti⟩ v1.2
      obtain ⟨a1, a2, a3⟩ := ih (i + 1) { v with ti := false, busy := false } (by simp [T76.Ok, hc])
      refine ⟨a1, by simp only [List.length_cons]; omega, ?_⟩
      rw [a3]
      dsimp only
      rw [v2, u3]
      rw [Nat.add_right_comm, List.take_succ_cons]
      cases htb : t.busy <;> simp

/-- **C84, n76e003 (UART0)**: from idle, the line gets the bytes counted, and one more if the driver is left waiting for it -/
theorem write76_all (e : Nat → Bool) (buf : List Byte) (t : T76) (h : t.Ok) : (write76 e buf t).2.Ok ∧ (write76 e buf t).1.count ≤ buf.length ∧
    (buf ≠ [] → (write76 e buf t).2.line ++ (write76 e buf t).2.cur.toList = t.line ++ t.cur.toList ++
      (buf.take ((write76 e buf t).1.count + (if (write76 e buf t).2.busy then 1 else 0))).drop (if t.busy then 1 else 0)) := by
  unfold write76
  split
  · rename_i hb; simp [WRes.count, h, hb]
  · obtain ⟨h1, h2, h3⟩ := loop76_all e buf 0 t h
    dsimp only
    split
    · rename_i h0
      rw [h0] at h3
      exact ⟨h1, by simp [WRes.count], fun _ => h3⟩
    · exact ⟨h1, h2, fun _ => h3⟩

theorem tick76_busy (g : Bool) (t : T76) : (t.tick g).busy = t.busy := by
  unfold T76.tick
  split
  · split <;> rfl
  · rfl

theorem loop76_zero (e : Nat → Bool) (bs : List Byte) (i : Nat) (t : T76) (hb : bs ≠ []) (h0 : (loop76 e bs i t).1 = 0) : (loop76 e bs i t).2.busy = true := by
  cases bs with
  | nil => exact absurd rfl hb
  | cons b bs =>
    rw [loop76] at h0 ⊢
    dsimp only at h0 ⊢
    by_cases hh : (T76.tick (e i) (if t.busy = true then t else { t with cur := some b, busy := true })).ti = false
    · rw [if_pos hh, tick76_busy]
      cases ht : t.busy <;> simp [ht]
    · rw [if_neg hh] at h0; cases h0

theorem loop76_full (e : Nat → Bool) : ∀ bs i t, (loop76 e bs i t).1 = bs.length → bs ≠ [] → (loop76 e bs i t).2.busy = false := by
  intro bs
  induction bs with
  | nil => intro i t _ hx; exact absurd rfl hx
  | cons b bs ih =>
    intro i t
    rw [loop76]
    dsimp only
    by_cases hh : (T76.tick (e i) (if t.busy = true then t else { t with cur := some b, busy := true })).ti = false
    · rw [if_pos hh]; intro hx; simp at hx
    · rw [if_neg hh]
      intro hx _
      simp only [List.length_cons, Nat.add_right_cancel_iff] at hx
      by_cases hbs : bs = []
      · subst hbs; rfl
      · exact ih _ _ hx hbs

/-- the rest of a message is offered until it is accepted -/
def resume76 : List (Nat → Bool) → List Byte → T76 → List Byte × T76
  | [], buf, t => (buf, t)
  | e :: es, buf, t =>
    let r := write76 e buf t
    resume76 es (buf.drop r.1.count) r.2

/-- **C84, n76e003 (UART0)**: a caller that goes on with the rest of the same message sends it in order, once: when it is all accepted, the line got exactly it -/
theorem resume76_all : ∀ (es : List (Nat → Bool)) (buf : List Byte) (t : T76), t.Ok → (t.busy = true → buf ≠ []) →
    (resume76 es buf t).2.Ok ∧
    (resume76 es buf t).2.line ++ (resume76 es buf t).2.cur.toList ++ (resume76 es buf t).1.drop (if (resume76 es buf t).2.busy then 1 else 0) =
      t.line ++ t.cur.toList ++ buf.drop (if t.busy then 1 else 0) := by
  intro es
  induction es with
  | nil => intro buf t h _; exact ⟨h, rfl⟩
  | cons e es ih =>
    intro buf t h hb
    rw [resume76]
    obtain ⟨h1, h2, h3⟩ := write76_all e buf t h
    by_cases hn : buf = []
    · subst hn
      have hb' : t.busy = false := by cases hh : t.busy with | false => rfl | true => exact absurd rfl (hb hh)
      have he : write76 e [] t = (.einval, t) := rfl
      rw [he]
      exact ih [] t h hb
    · have h3 := h3 hn
      have hlt : (write76 e buf t).2.busy = true → buf.drop (write76 e buf t).1.count ≠ [] := by
        intro hbz hd
        rw [List.drop_eq_nil_iff] at hd
        unfold write76 at hbz hd
        rw [if_neg hn] at hbz hd
        have key := loop76_full e
        dsimp only at hbz hd
        have hle := (loop76_all e buf 0 t h).2.1
        have hpos : 0 < buf.length := List.length_pos_iff.2 hn
        split at hd
        · simp only [WRes.count] at hd; omega
        · simp only [WRes.count] at hd
          rename_i h0
          rw [if_neg h0] at hbz
          have := key buf 0 t (by omega) hn
          simp only at hbz
          rw [this] at hbz
          cases hbz
      have hz0 : (write76 e buf t).1.count + (if (write76 e buf t).2.busy then 1 else 0) ≠ 0 := by
        have hz := loop76_zero e buf 0 t hn
        unfold write76
        rw [if_neg hn]
        dsimp only
        split
        · rename_i h0; simp [hz h0]
        · rename_i h0; simp [WRes.count, h0]
      obtain ⟨g1, g2⟩ := ih (buf.drop (write76 e buf t).1.count) (write76 e buf t).2 h1 hlt
      refine ⟨g1, ?_⟩
      rw [g2, h3, List.append_assoc]
      congr 1
      rw [List.drop_drop]
      generalize (write76 e buf t).1.count = k at *
      generalize hz : (if (write76 e buf t).2.busy then 1 else 0) = z at *
      have hd : (if t.busy then 1 else 0) ≤ k + z := by
        split
        · omega
        · omega
      generalize (if t.busy then 1 else 0) = d at *
      have hr : buf.drop d = (buf.take (k + z) ++ buf.drop (k + z)).drop d := by rw [List.take_append_drop]
      rw [hr, List.drop_append]
      by_cases hl : k + z ≤ buf.length
      · rw [List.length_take, Nat.min_eq_left hl, Nat.sub_eq_zero_of_le hd, List.drop_zero]
      · rw [List.drop_eq_nil_of_le (show buf.length ≤ k + z by omega)]; simp

/-- **C84, n76e003, refuted**: after -EAGAIN the byte is on its way; if the next call offers another one, that one is counted and never sent -/
theorem n76_other (a b : Byte) : ∃ t1 t2, write76 (fun _ => false) [a] ⟨none, false, false, []⟩ = (.again, t1) ∧ write76 (fun _ => true) [b] t1 = (.sent 1, t2) ∧
    t2.line = [a] ∧ t2.cur = none := ⟨_, _, rfl, rfl, rfl, rfl⟩

example : (resume76 [fun _ => false, fun i => i < 2, fun _ => true] [1, 2, 3] ⟨none, false, false, []⟩).2.line = [1, 2, 3] := by decide

/-! ### linflexd -/

/-- nothing is in the shifter when the driver believes so -/
def Lin.Ok (t : Lin) : Prop := ((t.start = true ∨ t.dtf = true) ↔ t.cur = none) ∧ ¬ (t.start = true ∧ t.dtf = true)

/-- the bytes gone, then the one being sent -/
def Lin.all (t : Lin) : List Byte := t.line ++ t.cur.toList

theorem lin_tick (x : Bool × Option Byte) (t : Lin) (h : t.Ok) : (t.tick x).Ok ∧ (t.tick x).all = t.all ∧ (t.tick x).start = t.start := by
  obtain ⟨g, a⟩ := x
  unfold Lin.tick
  cases hc : t.cur with
  | none => cases a <;> exact ⟨h, rfl, rfl⟩
  | some b =>
    cases g <;> cases a <;> simp only [Bool.false_eq_true, if_false, if_true]
    · exact ⟨h, trivial, trivial⟩
    · exact ⟨h, rfl, trivial⟩
    · have := h.1; simp [hc] at this; simp [Lin.Ok, Lin.all, hc, this.1]
    · have := h.1; simp [hc] at this; simp [Lin.Ok, Lin.all, hc, this.1]

theorem linLoop_all (e : Nat → Bool × Option Byte) : ∀ bs i t, t.Ok → (linLoop e bs i t).2.Ok ∧
    (∀ n, (linLoop e bs i t).1 = some n → n = bs.length ∧ (linLoop e bs i t).2.all = t.all ++ bs) ∧
    ((linLoop e bs i t).1 = none → ∃ k, k < bs.length ∧ (linLoop e bs i t).2.all = t.all ++ bs.take k) := by
  intro bs
  induction bs with
  | nil => intro i t h; exact ⟨h, by intro n hn; cases hn; simp [linLoop], by intro hn; cases hn⟩
  | cons b bs ih =>
    intro i t h
    rw [linLoop]
    have step : ∀ (j : Nat) (u : Lin), u.Ok → u.cur = some b → u.all = t.all ++ [b] →
        (linLoop e bs j u).2.Ok ∧
        (∀ n, (linLoop e bs j u).1.map (· + 1) = some n → n = (b :: bs).length ∧ (linLoop e bs j u).2.all = t.all ++ b :: bs) ∧
        ((linLoop e bs j u).1.map (· + 1) = none → ∃ k, k < (b :: bs).length ∧ (linLoop e bs j u).2.all = t.all ++ (b :: bs).take k) := by
      intro j u hu _ ha
      obtain ⟨a1, a2, a3⟩ := ih j u hu
      refine ⟨a1, ?_, ?_⟩
      · intro n hn
        cases hr : (linLoop e bs j u).1 with
        | none => rw [hr] at hn; cases hn
        | some m =>
          rw [hr] at hn; cases hn
          obtain ⟨c1, c2⟩ := a2 m hr
          exact ⟨by simp [c1], by rw [c2, ha]; simp⟩
      · intro hn
        rw [Option.map_eq_none_iff] at hn
        obtain ⟨k, c1, c2⟩ := a3 hn
        exact ⟨k + 1, by simp [c1], by rw [c2, ha]; simp [List.take_succ_cons]⟩
    by_cases hs : t.start = true
    · rw [if_pos hs]
      have hc : t.cur = none := by exact h.1.1 (Or.inl hs)
      refine step i { t with start := false, cur := some b } ?_ rfl (by simp [Lin.all, hc])
      have hd : t.dtf = false := by
        cases hd : t.dtf with
        | false => rfl
        | true => exact absurd ⟨hs, hd⟩ h.2
      simp [Lin.Ok, hd]
    · rw [if_neg hs]
      obtain ⟨h1, h2, h3⟩ := lin_tick (e i) t h
      dsimp only
      generalize t.tick (e i) = u at h1 h2 h3
      by_cases hd : u.dtf = false
      · rw [if_pos hd]
        exact ⟨h1, (by intro n hn; cases hn), fun _ => ⟨0, by simp, by simp [h2]⟩⟩
      · rw [if_neg hd]
        have hc : u.cur = none := by exact h1.1.1 (Or.inr (by simpa using hd))
        refine step (i + 1) { u with dtf := false, drf := false, cur := some b } ?_ rfl (by rw [← h2]; simp [Lin.all, hc])
        simp [Lin.Ok, h3, hs]

/-- **C84, nxp_linflexd**: a number is returned only for the whole buffer, and then it was sent; -EAGAIN means that some first part of it, possibly not empty, was sent -/
theorem lin_write (e : Nat → Bool × Option Byte) (buf : List Byte) (t : Lin) (h : t.Ok) (hb : buf ≠ []) : (linWrite e buf t).2.Ok ∧
    (∀ n, (linWrite e buf t).1 = .sent n → n = buf.length ∧ (linWrite e buf t).2.line ++ (linWrite e buf t).2.cur.toList = t.line ++ t.cur.toList ++ buf) ∧
    ((linWrite e buf t).1 = .again → ∃ k, k < buf.length ∧ (linWrite e buf t).2.line ++ (linWrite e buf t).2.cur.toList = t.line ++ t.cur.toList ++ buf.take k) := by
  obtain ⟨h1, h2, h3⟩ := linLoop_all e buf 0 t h
  unfold linWrite
  rw [if_neg hb]
  generalize linLoop e buf 0 t = r at *
  obtain ⟨o, u⟩ := r
  cases o with
  | none => exact ⟨h1, (by intro n hn; cases hn), fun _ => h3 rfl⟩
  | some m => exact ⟨h1, (by intro n hn; cases hn; exact h2 m rfl), (by intro hn; cases hn)⟩

/-- **C84, nxp_linflexd, refuted**: with a byte on its way, a buffer of two or more is cut short with -EAGAIN after bytes were sent, whatever the buffer, unless each byte is
over when the next is polled for: here the first is in time, the second is not -/
theorem lin_again_sent (a b c : Byte) (l : List Byte) (t : Lin) (hs : t.start = false) (ht : t.dtf = true) (hc : t.cur = none) :
    (linWrite (fun i => (i == 1, none)) (a :: b :: c :: l) t).1 = .again ∧
    (linWrite (fun i => (i == 1, none)) (a :: b :: c :: l) t).2.line ++ (linWrite (fun i => (i == 1, none)) (a :: b :: c :: l) t).2.cur.toList = t.line ++ [a, b] := by
  simp [linWrite, linLoop, Lin.tick, hs, ht, hc]

/-- ... so a caller that tries again sends them twice -/
theorem lin_twice : ∃ t1 t2, linWrite (fun _ => (false, none)) [1, 2] ⟨true, none, false, false, 0, []⟩ = (.again, t1) ∧
    linWrite (fun _ => (true, none)) [1, 2] t1 = (.sent 2, t2) ∧ t2.line ++ t2.cur.toList = [1, 1, 2] := ⟨_, _, rfl, rfl, by decide⟩

/-- **C84, nxp_linflexd, refuted**: a byte received and not yet read is lost when one is written -/
theorem lin_rx_lost (b : Byte) (t : Lin) (hs : t.start = false) (ht : t.dtf = true) (hd : t.drf = true) (hc : t.cur = none) :
    (linRead1 t).1 = .got [t.rxd] ∧ (linWrite (fun _ => (false, none)) [b] t).1 = .sent 1 ∧ (linRead1 (linWrite (fun _ => (false, none)) [b] t).2).1 = .again := by
  simp [linRead1, linWrite, linLoop, Lin.tick, hs, ht, hd, hc]

/-- after init -/
theorem lin_init_ok (rxd : Byte) (line : List Byte) (drf : Bool) : Lin.Ok ⟨true, none, false, drf, rxd, line⟩ := by simp [Lin.Ok]

end Pico.UartPoll
