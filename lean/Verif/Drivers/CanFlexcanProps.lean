import Verif.Drivers.CanFlexcan
import Verif.Drivers.CanMcanProps
/-
C72, C73, C74 for drivers/can/can-nxp_flexcan.c
-/
namespace Pico.Can.Flexcan
open Pico.Can.Mcan (m29 shl1)

theorem cs_code (m : Mb) : (m.cs >>> 24) &&& 0xf = code m := by
  rw [show (m.cs >>> 24) &&& 0xf = (m.cs >>> 24) % 2 ^ 4 from Nat.and_two_pow_sub_one_eq_mod _ 4, Nat.shiftRight_eq_div_pow]
  rfl

theorem cs_dlc (m : Mb) : (m.cs >>> 16) &&& 0xf = bits m.cs 16 4 := by
  rw [show (m.cs >>> 16) &&& 0xf = (m.cs >>> 16) % 2 ^ 4 from Nat.and_two_pow_sub_one_eq_mod _ 4, Nat.shiftRight_eq_div_pow]
  rfl

theorem id_eq (m : Mb) : (if m.cs &&& 1 <<< 21 ≠ 0 then m.id &&& 0x1fffffff else (m.id >>> 18) &&& 0x7ff) = (frame m).id := by
  have hb := bits_lt m.cs 21 1
  rw [shl1, m29, show (m.id >>> 18) &&& 0x7ff = (m.id >>> 18) % 2 ^ 11 from Nat.and_two_pow_sub_one_eq_mod _ 11, Nat.shiftRight_eq_div_pow]
  by_cases h : m.cs &&& 2 ^ 21 = 0
  · have h0 := (and_bit m.cs 21).1 h
    rw [if_neg (by simpa using h)]
    simp only [frame, h0]
    simp [bits]
  · have h1 : bits m.cs 21 1 = 1 := by
      rcases Nat.lt_or_ge (bits m.cs 21 1) 1 with hh | hh
      · exact absurd ((and_bit m.cs 21).2 (by omega)) h
      · omega
    rw [if_pos h]
    simp only [frame, h1, if_true]
    simp [bits]

theorem data_length (m : Mb) (h : bits m.cs 16 4 ≤ 8) : (frame m).data.length = bits m.cs 16 4 := by
  simp [frame, beBytes]; omega

theorem tx_cs (id n : Nat) (hn : n ≤ 8) :
    let cs := fld 0xf 24 0xc ||| (fld 0xf 16 n ||| if id ≥ 2048 then 1 <<< 22 ||| 1 <<< 21 else 0)
    bits cs 24 4 = 0xc ∧ bits cs 21 1 = (if id ≥ 2048 then 1 else 0) ∧ bits cs 16 4 = n := by
  intro cs
  by_cases hi : id ≥ 2048
  · have e : cs = 0xc * 2 ^ 24 + (1 * 2 ^ 22 + (1 * 2 ^ 21 + (n * 2 ^ 16 + 0))) := by
      show fld 0xf 24 0xc ||| (fld 0xf 16 n ||| if id ≥ 2048 then 1 <<< 22 ||| 1 <<< 21 else 0) = _
      rw [if_pos hi, e4, e4, Nat.shiftLeft_eq, Nat.shiftLeft_eq, Nat.or_comm (n % 16 * 2 ^ 16), Nat.or_assoc, or_mul_two_pow 21 1 _ (by omega),
        or_mul_two_pow 22 1 _ (by omega), or_mul_two_pow 24 _ _ (by omega)]
      omega
    rw [if_pos hi, e, bits_top _ 24 _ _ (by omega), bits_low _ 24 _ 21 1 (by omega), bits_low _ 24 _ 16 4 (by omega), bits_low _ 22 _ 21 1 (by omega),
      bits_low _ 22 _ 16 4 (by omega), bits_top _ 21 _ _ (by omega), bits_low _ 21 _ 16 4 (by omega), bits_top _ 16 _ _ (by omega)]
    omega
  · have e : cs = 0xc * 2 ^ 24 + (0 * 2 ^ 21 + (n * 2 ^ 16 + 0)) := by
      show fld 0xf 24 0xc ||| (fld 0xf 16 n ||| if id ≥ 2048 then 1 <<< 22 ||| 1 <<< 21 else 0) = _
      rw [if_neg hi, e4, e4, Nat.or_zero, or_mul_two_pow 24 _ _ (by omega)]
      omega
    rw [if_neg hi, e, bits_top _ 24 _ _ (by omega), bits_low _ 24 _ 21 1 (by omega), bits_low _ 24 _ 16 4 (by omega), bits_top _ 21 _ _ (by omega),
      bits_low _ 21 _ 16 4 (by omega), bits_top _ 16 _ _ (by omega)]
    omega

theorem tx_id (id : Nat) (h : id < 2 ^ 29) :
    let w := if id ≥ 2048 then id &&& 0x1fffffff else fld 0x7ff 18 id
    (id ≥ 2048 → bits w 0 29 = id) ∧ (¬ id ≥ 2048 → bits w 18 11 = id) := by
  intro w
  constructor
  · intro hi
    have e : w = id := by show (if id ≥ 2048 then id &&& 0x1fffffff else fld 0x7ff 18 id) = _; rw [if_pos hi, m29]; omega
    rw [e, bits_all _ _ h]
  · intro hi
    have e : w = id * 2 ^ 18 + 0 := by show (if id ≥ 2048 then id &&& 0x1fffffff else fld 0x7ff 18 id) = _; rw [if_neg hi, e11]; omega
    rw [e, bits_top _ _ _ _ (by omega)]; omega

theorem tx_frame (id n : Nat) (buf : List Byte) (hid : id < 2 ^ 29) (hn : n ≤ 8) (hb : n ≤ buf.length) :
    let m : Mb := ⟨fld 0xf 24 0xc ||| (fld 0xf 16 n ||| if id ≥ 2048 then 1 <<< 22 ||| 1 <<< 21 else 0),
      if id ≥ 2048 then id &&& 0x1fffffff else fld 0x7ff 18 id, (packBE buf n).1, (packBE buf n).2⟩
    code m = 0xc ∧ frame m = asked id buf n := by
  intro m
  obtain ⟨h1, h2, h3⟩ := tx_cs id n hn
  obtain ⟨h4, h5⟩ := tx_id id hid
  refine ⟨h1, ?_⟩
  have e2 : bits m.cs 21 1 = if id ≥ 2048 then 1 else 0 := h2
  have e3 : bits m.cs 16 4 = n := h3
  simp only [frame, asked, e3, Frame.mk.injEq]
  refine ⟨?_, ?_, packBE_bytes buf n hn hb⟩
  · rw [e2]; split <;> simp <;> omega
  · rw [e2]
    by_cases hi : id ≥ 2048
    · rw [if_pos hi, if_pos rfl]; exact h4 hi
    · rw [if_neg hi, if_neg (by omega)]; exact h5 hi

/-- **C72, drivers/can/can-nxp_flexcan.c**: when can_write returns n, one free tx mailbox now waits to send exactly the frame asked and the others are as they were; when
it returns an error nothing waiting to be sent has changed (without automatic abort, which the driver never turns on). -/
theorem flexcan_write {id n : Nat} {buf : List Byte} (s : St) (hs : s.Ok) (ha : s.abort = false) (hid : id < 2 ^ 29) (hb : n ≤ buf.length) :
    ((write id buf n s).1.Ok) ∧
    (((write id buf n s).2 = .ok n ∧ ∃ j, s.rxc ≤ j ∧ j < s.cnt ∧ s.out j = none ∧ (write id buf n s).1.out j = some (asked id buf n) ∧
        ∀ i, i ≠ j → (write id buf n s).1.out i = s.out i) ∨
     ((∀ m, (write id buf n s).2 ≠ .ok m) ∧ (write id buf n s).1.out = s.out)) := by
  obtain ⟨hc, ht, hr⟩ := hs
  unfold write
  split
  · refine ⟨⟨hc, ht, hr⟩, Or.inr ⟨(by intro m h; cases h), rfl⟩⟩
  rename_i hn
  have hmod : (s.txi + 1) % s.txc < s.txc := Nat.mod_lt _ (by omega)
  simp only [writeMailbox]
  rw [if_neg (by omega), if_neg (by omega), cs_code]
  split
  · rw [if_neg (by simp [ha])]
    refine ⟨⟨hc, hmod, hr⟩, Or.inr ⟨(by intro m h; cases h), rfl⟩⟩
  rename_i hcode
  have hcode : ¬ code (s.mb (s.rxc + s.txi)) = 0xc := hcode
  refine ⟨⟨hc, hmod, hr⟩, Or.inl ⟨rfl, s.rxc + s.txi, by omega, by omega, ?_, ?_, ?_⟩⟩
  · simp [St.out, hcode]
  · obtain ⟨h1, h2⟩ := tx_frame id n buf hid (by omega) hb
    simp only [St.out, setMb, if_true]
    rw [if_pos ⟨by omega, by omega, h1⟩, h2]
  · intro i hi
    simp [St.out, setMb, hi]

/-! ### Reception -/

/-- **C73 (partial), drivers/can/can-nxp_flexcan.c**: can_read takes the frame of the last mailbox that has one and gives its identifier and its bytes, when it has 1 to 8
of them and the buffer is large enough. Missing: an empty frame is lost (`flexcan_read_zero`) and a frame larger than the buffer overflows it (`flexcan_read_overflow`). -/
theorem flexcan_read_partial {n old i : Nat} {p : Nat → Byte} (s : St) (hs : s.Ok) (hn0 : 0 < n) (hn : n ≤ 8) (hi : i < s.rxi)
    (hf : s.flag i = true) (hlast : ∀ j, i < j → j < s.rxi → s.flag j = false) (hc : code (s.mb i) = 2 ∨ code (s.mb i) = 6)
    (hd : 1 ≤ bits (s.mb i).cs 16 4) (hd' : bits (s.mb i).cs 16 4 ≤ 8) (_hfit : (frame (s.mb i)).data.length ≤ n) :
    let r := read p old n s
    let f := frame (s.mb i)
    r.res = .ok f.data.length ∧ r.id = f.id ∧ r.buf = received f.data p ∧ r.st.mb = s.mb ∧ (∀ j, r.st.flag j = (s.flag j && decide (j ≠ i))) := by
  have key : ∀ k, i < k → k ≤ s.rxi →
      readLoop p old n k s = ⟨{ s with flag := fun j => if j = i then false else s.flag j }, received (frame (s.mb i)).data p, (frame (s.mb i)).id, .ok (frame (s.mb i)).data.length⟩ := by
    intro k
    induction k with
    | zero => intro h; omega
    | succ k ih =>
      intro h1 h2
      rw [readLoop]
      by_cases he : k = i
      · subst he
        have hr : readMailbox k p old n s = ⟨{ s with flag := fun j => if j = k then false else s.flag j }, received (frame (s.mb k)).data p, (frame (s.mb k)).id,
            .ok (frame (s.mb k)).data.length⟩ := by
          unfold readMailbox
          have := hs.2.2
          rw [if_neg (by omega), if_neg (by omega), if_neg (by simp [hf])]
          simp only [cs_code, cs_dlc, id_eq]
          rw [if_neg (by rcases hc with h | h <;> rw [h] <;> decide), if_neg (by omega), if_pos hc, if_neg (by omega), unpackBE_eq _ _ _ hd', data_length _ hd']
          rfl
        simp [hr]
      · have hr : readMailbox k p old n s = ⟨s, p, old, .eagain⟩ := by
          unfold readMailbox
          have := hs.2.2
          rw [if_neg (by omega), if_neg (by omega), if_pos (by simp [hlast k (by omega) (by omega)])]
        simp only [hr, if_true]
        exact ih (by omega) (by omega)
  intro r f
  have hr : r = readLoop p old n s.rxi s := by show read p old n s = _; unfold read; rw [if_neg (by omega)]
  rw [hr, key s.rxi hi (Nat.le_refl _)]
  refine ⟨rfl, rfl, rfl, rfl, ?_⟩
  intro j
  by_cases hj : j = i <;> simp [hj]

/-- with no frame in any mailbox: -EAGAIN, nothing touched -/
theorem flexcan_read_empty {n old : Nat} {p : Nat → Byte} (s : St) (hs : s.Ok) (hn0 : 0 < n) (hn : n ≤ 8) (h : ∀ j, j < s.rxi → s.flag j = false) :
    read p old n s = ⟨s, p, old, .eagain⟩ := by
  unfold read
  rw [if_neg (by omega)]
  have : ∀ k, k ≤ s.rxi → readLoop p old n k s = ⟨s, p, old, .eagain⟩ := by
    intro k
    induction k with
    | zero => intro _; rfl
    | succ k ih =>
      intro hk
      rw [readLoop]
      have hr : readMailbox k p old n s = ⟨s, p, old, .eagain⟩ := by
        unfold readMailbox
        have := hs.2.2
        rw [if_neg (by omega), if_neg (by omega), if_pos (by simp [h k (by omega)])]
      simp only [hr, if_true]
      exact ih (by omega)
  exact this _ (Nat.le_refl _)

/-- a frame without data is acknowledged and reported as an invalid argument: it is lost -/
theorem flexcan_read_zero {n old i : Nat} {p : Nat → Byte} (s : St) (hs : s.Ok) (hn0 : 0 < n) (hn : n ≤ 8) (hi : i < s.rxi)
    (hf : s.flag i = true) (hc : code (s.mb i) = 2 ∨ code (s.mb i) = 6) (hd : bits (s.mb i).cs 16 4 = 0) :
    (readMailbox i p old n s).res = .einval ∧ (readMailbox i p old n s).st.flag i = false ∧ (frame (s.mb i)).data = [] := by
  have := hs.2.2
  unfold readMailbox
  rw [if_neg (by omega), if_neg (by omega), if_neg (by simp [hf])]
  simp only [cs_code, cs_dlc, id_eq]
  rw [if_neg (by rcases hc with h | h <;> rw [h] <;> decide), if_neg (by omega), if_pos hc, if_pos (Or.inl hd)]
  refine ⟨rfl, by simp, by simp [frame, hd]⟩

/-- the size given by the caller is not looked at -/
theorem flexcan_read_overflow {n old i : Nat} {p : Nat → Byte} (s : St) (hs : s.Ok) (hn0 : 0 < n) (hn : n ≤ 8) (hi : i < s.rxi)
    (hf : s.flag i = true) (hc : code (s.mb i) = 2 ∨ code (s.mb i) = 6) (hd : n < bits (s.mb i).cs 16 4) (hd' : bits (s.mb i).cs 16 4 ≤ 8) :
    (readMailbox i p old n s).buf = received (frame (s.mb i)).data p ∧ n < (frame (s.mb i)).data.length := by
  have := hs.2.2
  unfold readMailbox
  rw [if_neg (by omega), if_neg (by omega), if_neg (by simp [hf])]
  simp only [cs_code, cs_dlc, id_eq]
  rw [if_neg (by rcases hc with h | h <;> rw [h] <;> decide), if_neg (by omega), if_pos hc, if_neg (by omega), unpackBE_eq _ _ _ hd', data_length _ hd']
  exact ⟨rfl, hd⟩

/-! ### Acceptance -/

theorem accept_mb (id mask : Nat) (s : St) (hid : id < 2 ^ 29) (hm : mask < 2 ^ 29) (hr : s.rxi < s.rxc) :
    let s' := (accept id mask s).1
    (accept id mask s).2 = .ok 0 ∧ s'.rxi = s.rxi + 1 ∧ s'.rxc = s.rxc ∧ (∀ j, j ≠ s.rxi → s'.mb j = s.mb j) ∧
      code (s'.mb s.rxi) = 4 ∧ bits (s'.mb s.rxi).cs 21 1 = (decide (2048 ≤ id)).toNat ∧ (s'.mb s.rxi).id = (if 2048 ≤ id then id else id * 2 ^ 18) := by
  have c1 : bits (fld 0xf 24 4) 24 4 = 4 ∧ bits (fld 0xf 24 4) 21 1 = 0 := by decide
  have c2 : bits (fld 0xf 24 4 ||| 1 <<< 21) 24 4 = 4 ∧ bits (fld 0xf 24 4 ||| 1 <<< 21) 21 1 = 1 := by decide
  unfold accept
  rw [if_neg (by omega), if_neg (by omega), if_neg (by omega)]
  simp only []
  by_cases hi : id < 2048
  · have d : decide (2048 ≤ id) = false := by simp; omega
    have w : fld 0x7ff 18 id = id * 2 ^ 18 := by rw [e11]; omega
    rw [if_pos hi, d, if_neg (by omega : ¬ 2048 ≤ id)]
    split <;> refine ⟨by simp, by simp, by simp [setMb], ?_, ?_, ?_, ?_⟩
    · intro j hj; simp [setMb, hj]
    · simpa [setMb, code] using c1.1
    · simpa [setMb] using c1.2
    · simpa [setMb] using w
    · intro j hj; simp [setMb, hj]
    · simpa [setMb, code] using c1.1
    · simpa [setMb] using c1.2
    · simpa [setMb] using w
  · have d : decide (2048 ≤ id) = true := by simp; omega
    have w : id &&& 0x1fffffff = id := by rw [m29]; omega
    rw [if_neg hi, d, if_pos (by omega : 2048 ≤ id)]
    split <;> refine ⟨by simp, by simp, by simp [setMb], ?_, ?_, ?_, ?_⟩
    · intro j hj; simp [setMb, hj]
    · simpa [setMb, code] using c2.1
    · simpa [setMb] using c2.2
    · simpa [setMb] using w
    · intro j hj; simp [setMb, hj]
    · simpa [setMb, code] using c2.1
    · simpa [setMb] using c2.2
    · simpa [setMb] using w

/-- mailbox j is set for the call c -/
def For (s : St) (j : Nat) (c : Nat × Nat) : Prop :=
  code (s.mb j) = 4 ∧ bits (s.mb j).cs 21 1 = (decide (2048 ≤ c.1)).toNat ∧ (s.mb j).id = (if 2048 ≤ c.1 then c.1 else c.1 * 2 ^ 18) ∧ c.1 < 2 ^ 29

structure AInv (s : St) (h : List (Nat × Nat)) : Prop where
  len : s.rxi ≤ s.rxc
  on : ∀ c ∈ h, ∃ j < s.rxi, For s j c
  off : ∀ j, j < s.rxi → ∃ c ∈ h, For s j c
  dis : ∀ j, s.rxi ≤ j → j < s.rxc → code (s.mb j) = 0

theorem ainv_accept {s : St} {h : List (Nat × Nat)} (hi : AInv s h) (id mask : Nat) :
    (∃ s', accept id mask s = (s', .ok 0) ∧ AInv s' (h ++ [(id, mask)]) ∧ s'.rxc = s.rxc) ∨ ((∀ m, (accept id mask s).2 ≠ .ok m) ∧ (accept id mask s).1 = s) := by
  by_cases h1 : id ≥ 2 ^ 29
  · right; unfold accept; rw [if_pos h1]; exact ⟨(by intro m h; cases h), rfl⟩
  by_cases h2 : mask ≥ 2 ^ 29
  · right; unfold accept; rw [if_neg h1, if_pos h2]; exact ⟨(by intro m h; cases h), rfl⟩
  by_cases h3 : s.rxi ≥ s.rxc
  · right; unfold accept; rw [if_neg h1, if_neg h2, if_pos h3]; exact ⟨(by intro m h; cases h), rfl⟩
  left
  obtain ⟨e1, e2, e3, e4, e5, e6, e7⟩ := accept_mb id mask s (by omega) (by omega) (by omega)
  refine ⟨(accept id mask s).1, by rw [← e1], ⟨by omega, ?_, ?_, ?_⟩, e3⟩
  · intro c hc
    rcases List.mem_append.1 hc with hc | hc
    · obtain ⟨j, hj, hf⟩ := hi.on c hc
      refine ⟨j, by omega, ?_⟩
      unfold For
      rw [e4 j (by omega)]
      exact hf
    · simp at hc; subst hc
      exact ⟨s.rxi, by omega, e5, e6, e7, by show id < 2 ^ 29; omega⟩
  · intro j hj
    by_cases he : j = s.rxi
    · subst he; exact ⟨(id, mask), by simp, e5, e6, e7, by show id < 2 ^ 29; omega⟩
    · obtain ⟨c, hc, hf⟩ := hi.off j (by omega)
      refine ⟨c, List.mem_append_left _ hc, ?_⟩
      unfold For
      rw [e4 j he]
      exact hf
  · intro j hj hj'
    rw [e4 j (by omega)]
    exact hi.dis j (by omega) (by omega)

theorem ainv_all (l : List (Nat × Nat)) : ∀ (s : St) (h : List (Nat × Nat)), AInv s h →
    AInv (acceptAll l s).1 (h ++ (acceptAll l s).2) ∧ (acceptAll l s).1.rxc = s.rxc := by
  induction l with
  | nil => intro s h hi; simpa [acceptAll] using hi
  | cons c t ih =>
    intro s h hi
    rcases ainv_accept hi c.1 c.2 with ⟨s', he, hi', hx⟩ | ⟨he, hs⟩
    · have := ih s' _ hi'
      simp only [acceptAll, he]
      rw [hx] at this
      simpa [List.append_assoc] using this
    · have := ih s h hi
      rcases hr : accept c.1 c.2 s with ⟨s', r⟩
      rw [hr] at he hs
      simp only at he hs
      cases r with
      | ok m => exact absurd rfl (he m)
      | _ => simp only [acceptAll, hr]; rw [hs]; exact this

/-- **C74 (partial), drivers/can/can-nxp_flexcan.c**: the masks have no effect (individual masks are never enabled in the controller): exactly the frames with the
identifiers given are received. Missing: the other identifiers that a mask accepts, in particular CAN_ACCEPT_ANY (`flexcan_any_refused`). -/
theorem flexcan_accept_partial (s : St) (hs : s.Reset) (l : List (Nat × Nat)) (f : Frame) (hf : f.Ok) :
    (∃ j < s.rxc, takes false (acceptAll l s).1 j f) ↔ ∃ c ∈ (acceptAll l s).2, f.ext = decide (2048 ≤ c.1) ∧ f.id = c.1 := by
  have h0 : AInv s [] := ⟨by rw [hs.1]; omega, by simp, (by intro j hj; rw [hs.1] at hj; omega), fun j _ h => hs.2.1 j h⟩
  obtain ⟨hi, hx⟩ := ainv_all l s [] h0
  simp only [List.nil_append] at hi
  generalize hS : (acceptAll l s).1 = s1 at *
  generalize hH : (acceptAll l s).2 = h at *
  have hmask : ∀ j, (effMask false s1 j &&& 0x1fffffff) = 0x1fffffff := by intro j; simp [effMask]
  have key : ∀ j c, For s1 j c → (takes false s1 j f ↔ f.ext = decide (2048 ≤ c.1) ∧ f.id = c.1) := by
    intro j c ⟨k1, k2, k3, k4⟩
    unfold takes
    rw [hmask, k1, k2, k3, m29, m29]
    have hok := hf.1
    rcases hx : f.ext with _ | _
    · rw [hx] at hok; simp at hok
      by_cases hc : 2048 ≤ c.1
      · simp [hc]
      · simp only [hc, decide_false, if_false]
        simp
        omega
    · rw [hx] at hok; simp at hok
      by_cases hc : 2048 ≤ c.1
      · simp only [hc, decide_true, if_true]
        simp
        omega
      · simp [hc]
  constructor
  · rintro ⟨j, hj, ht⟩
    rcases Nat.lt_or_ge j s1.rxi with hl | hl
    · obtain ⟨c, hc, hfor⟩ := hi.off j hl
      exact ⟨c, hc, (key j c hfor).1 ht⟩
    · have := hi.dis j hl (by omega)
      have := ht.1
      omega
  · rintro ⟨c, hc, h1⟩
    obtain ⟨j, hj, hfor⟩ := hi.on c hc
    exact ⟨j, by have := hi.len; omega, (key j c hfor).2 h1⟩

/-- can_accept(ctx, 0x123, CAN_ACCEPT_ANY) returns 0 and a frame 0x124, that it should accept, is not received -/
theorem flexcan_any_refused (s : St) (hs : s.Reset) (hr : 0 < s.rxc) :
    (acceptAll [(0x123, 0)] s).2 = [(0x123, 0)] ∧ accepts 0x123 0 ⟨false, 0x124, []⟩ ∧ ¬ ∃ j < s.rxc, takes false (acceptAll [(0x123, 0)] s).1 j ⟨false, 0x124, []⟩ := by
  have h1 : (acceptAll [(0x123, 0)] s).2 = [(0x123, 0)] := by
    have := (accept_mb 0x123 0 s (by omega) (by omega) (by rw [hs.1]; exact hr)).1
    rcases hr' : accept 0x123 0 s with ⟨s', r⟩
    rw [hr'] at this
    simp only at this
    subst this
    simp [acceptAll, hr']
  refine ⟨h1, by simp [accepts], ?_⟩
  rw [flexcan_accept_partial s hs _ _ (by simp [Frame.Ok]), h1]
  simp

/-! ### Non-vacuity -/

def s0 : St := { mb := fun _ => ⟨0, 0, 0, 0⟩, flag := fun _ => false, rximr := fun _ => 0xffffffff, cnt := 16, rxc := 12, txc := 4, rxi := 0, txi := 0, abort := false }

example : s0.Ok := ⟨rfl, by decide, by decide⟩
example : s0.Reset := ⟨rfl, fun _ _ => (by show code ⟨0, 0, 0, 0⟩ = 0; decide), fun _ => rfl⟩
example : (write 0x12345 [1, 2, 3] 3 s0).1.out 12 = some ⟨true, 0x12345, [1, 2, 3]⟩ := by decide
example : (read (fun _ => 0) 0 8 { s0 with rxi := 2, flag := fun j => j == 1, mb := fun _ => ⟨0x02040000, 0x123 * 2 ^ 18, 0x01020304, 0⟩ }).id = 0x123 := by decide

/-- frames of the same identifier do not leave in the order they were written: the controller sends the lowest mailbox first. A goes to mailbox 12, B to 13 (two tx
mailboxes); A is sent; C goes to mailbox 12, and leaves before B. -/
theorem flexcan_reorder : ∃ s s1 s2 s3 : St, s.Ok ∧ write 5 [1] 1 s = (s1, .ok 1) ∧ write 5 [2] 1 s1 = (s2, .ok 1) ∧
    (∃ m : Mb, s3 = setMb s2 14 { m with cs := fld 0xf 24 0x8 }) ∧ (write 5 [3] 1 s3).2 = .ok 1 ∧
    (write 5 [3] 1 s3).1.out 14 = some ⟨false, 5, [3]⟩ ∧ (write 5 [3] 1 s3).1.out 15 = some ⟨false, 5, [2]⟩ := by
  let a : St := { s0 with rxc := 14, txc := 2 }
  refine ⟨a, (write 5 [1] 1 a).1, (write 5 [2] 1 (write 5 [1] 1 a).1).1, setMb (write 5 [2] 1 (write 5 [1] 1 a).1).1 14 ⟨fld 0xf 24 0x8, 0, 0, 0⟩, ?_, Prod.ext rfl ?_, Prod.ext rfl ?_, ⟨⟨0, 0, 0, 0⟩, rfl⟩, ?_, ?_, ?_⟩
  · exact ⟨rfl, by decide, by decide⟩
  · decide
  · decide
  · decide
  · decide
  · decide

end Pico.Can.Flexcan
