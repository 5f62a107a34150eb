import Verif.Drivers.CanDcan
import Verif.Drivers.CanMcanProps
/-
C72, C73, C74 for drivers/can/can-ti_dcan.c
-/
namespace Pico.Can.Dcan
open Pico.Can.Mcan (m29 shl1)

/-- the bytes of a buffer of cells -/
def bytes (buf : List (BitVec 16)) : List Byte := buf.map (·.setWidth 8)

theorem cc_eq (buf : List (BitVec 16)) (h : ∀ c ∈ buf, c.toNat < 256) (n k s : Nat) (hs : s ≤ 24) : cc buf n k s = cs (bytes buf) n k s := by
  unfold cc cs bytes
  split
  · have e : ((buf.map (BitVec.setWidth 8)).getD k 0).toNat = (buf.getD k 0).toNat := by
      rw [List.getD_eq_getElem?_getD, List.getD_eq_getElem?_getD, List.getElem?_map]
      rcases hk : buf[k]? with _ | c
      · rfl
      · have := h c (List.mem_of_getElem? hk)
        simp; omega
    rw [e, Nat.shiftLeft_eq]
    have hc : (buf.getD k 0).toNat < 256 := by
      rw [← e]; exact (BitVec.isLt _)
    have : (buf.getD k 0).toNat * 2 ^ s < 2 ^ 8 * 2 ^ 24 :=
      Nat.lt_of_lt_of_le (Nat.mul_lt_mul_of_pos_right (by omega : _ < 2 ^ 8) (Nat.two_pow_pos s)) (Nat.mul_le_mul_left _ (Nat.pow_le_pow_right (by omega) hs))
    omega
  · rfl

theorem pack_eq (buf : List (BitVec 16)) (h : ∀ c ∈ buf, c.toNat < 256) (n : Nat) :
    packCells buf n = ((packLE (bytes buf) n).1, if 4 < n then some (packLE (bytes buf) n).2 else none) := by
  unfold packCells packLE
  simp only [cc_eq buf h n _ _ (by omega : 0 ≤ 24), cc_eq buf h n _ _ (by omega : 8 ≤ 24), cc_eq buf h n _ _ (by omega : 16 ≤ 24),
    cc_eq buf h n _ _ (by omega : 24 ≤ 24), Nat.zero_or]

theorem take_low (a b b' n : Nat) (h : n ≤ 4) : (leBytes a b).take n = (leBytes a b').take n := by
  have : n = 0 ∨ n = 1 ∨ n = 2 ∨ n = 3 ∨ n = 4 := by omega
  rcases this with rfl | rfl | rfl | rfl | rfl <;> rfl

theorem arb_eq (id : Nat) (h : id < 2048) : (id <<< 18) ||| 1 <<< 31 ||| 1 <<< 29 = 1 * 2 ^ 31 + (0 * 2 ^ 30 + (1 * 2 ^ 29 + (id * 2 ^ 18 + 0))) := by
  rw [Nat.shiftLeft_eq, Nat.shiftLeft_eq, Nat.shiftLeft_eq, Nat.or_assoc, Nat.or_comm, Nat.or_assoc, or_mul_two_pow 29 1 _ (by omega), or_mul_two_pow 31 1 _ (by omega)]
  omega

theorem arb_bits (id : Nat) (h : id < 2048) :
    let a := (id <<< 18) ||| 1 <<< 31 ||| 1 <<< 29
    bits a 31 1 = 1 ∧ bits a 30 1 = 0 ∧ bits a 29 1 = 1 ∧ bits a 18 11 = id := by
  intro a
  have e : a = _ := arb_eq id h
  rw [e, bits_top _ 31 _ _ (by omega), bits_low _ 31 _ 30 1 (by omega), bits_low _ 31 _ 29 1 (by omega), bits_low _ 31 _ 18 11 (by omega),
    bits_top _ 30 _ _ (by omega), bits_low _ 30 _ 29 1 (by omega), bits_low _ 30 _ 18 11 (by omega), bits_top _ 29 _ _ (by omega), bits_low _ 29 _ 18 11 (by omega),
    bits_top _ 18 _ _ (by omega)]
  omega

theorem mctl_bits (n : Nat) (h : n ≤ 8) :
    let m := n ||| (1 <<< 7 ||| 1 <<< 8)
    bits m 0 4 = n ∧ bits m 8 1 = 1 := by
  have : ∀ n, n < 9 → bits (n ||| (1 <<< 7 ||| 1 <<< 8)) 0 4 = n ∧ bits (n ||| (1 <<< 7 ||| 1 <<< 8)) 8 1 = 1 := by decide
  exact this n (by omega)

/-- **C72, drivers/can/can-ti_dcan.c** (11-bit identifiers; the others are refused): when can_write returns n, one free tx object now waits to send exactly the frame
asked and the others are as they were; when it returns an error nothing waiting to be sent has changed. Whatever value `1 << index` takes. -/
theorem dcan_write {tm : Nat → Nat} {id n : Nat} {buf : List (BitVec 16)} (s : St) (hs : s.Ok) (hbuf : ∀ c ∈ buf, c.toNat < 256) (hb : n ≤ buf.length) :
    ((write tm id buf n s).1.Ok) ∧
    (((write tm id buf n s).2 = .ok n ∧ ∃ j, s.rxc ≤ j ∧ j < 32 ∧ s.out j = none ∧ (write tm id buf n s).1.out j = some (asked id (bytes buf) n) ∧
        ∀ i, i ≠ j → (write tm id buf n s).1.out i = s.out i) ∨
     ((∀ m, (write tm id buf n s).2 ≠ .ok m) ∧ (write tm id buf n s).1.out = s.out)) := by
  obtain ⟨hc, ht, hr⟩ := hs
  have hmod : (s.txi + 1) % s.txc < s.txc := Nat.mod_lt _ (by omega)
  unfold write
  split
  · exact ⟨⟨hc, ht, hr⟩, Or.inr ⟨(by intro m h; cases h), rfl⟩⟩
  rename_i hn
  simp only []
  split
  · exact ⟨⟨hc, ht, hr⟩, Or.inr ⟨(by intro m h; cases h), rfl⟩⟩
  simp only [transferTx]
  rw [shl1 8]
  by_cases hq : (s.ob (s.rxc + s.txi)).mctl &&& 2 ^ 8 = 0
  · rw [if_neg (by simpa using hq)]
    refine ⟨⟨hc, hmod, hr⟩, Or.inl ⟨rfl, s.rxc + s.txi, by omega, by omega, ?_, ?_, ?_⟩⟩
    · have := (and_bit _ 8).1 hq
      simp [St.out, Obj.txrq, this]
    · obtain ⟨a1, a2, a3, a4⟩ := arb_bits id (by omega)
      obtain ⟨m1, m2⟩ := mctl_bits n (by omega)
      rw [shl1 8] at m1 m2
      simp only [St.out, setOb, if_true, Obj.txrq]
      rw [if_pos ⟨by omega, by omega, a1, a3, by rw [m2]; rfl⟩]
      simp only [frame, asked, a2, a4, m1]
      have d : ¬ 2048 ≤ id := by omega
      simp only [d, decide_false, if_neg (by omega : ¬ (0 = 1))]
      refine congrArg some (Frame.mk.injEq .. ▸ ⟨rfl, rfl, ?_⟩)
      rw [pack_eq buf hbuf]
      have hl : n ≤ (bytes buf).length := by simpa [bytes] using hb
      by_cases h4 : 4 < n
      · simp only [h4, if_true]
        exact packLE_bytes _ n (by omega) hl
      · simp only [h4, if_false]
        rw [take_low _ _ (packLE (bytes buf) n).2 n (by omega)]
        exact packLE_bytes _ n (by omega) hl
    · intro i hi
      simp [St.out, setOb, hi]
  · rw [if_pos hq]
    exact ⟨⟨hc, hmod, hr⟩, Or.inr ⟨(by intro m h; cases h), rfl⟩⟩

/-! ### Reception -/

theorem cell_low (v k : Nat) : (BitVec.ofNat 16 (v >>> (8 * k))).setWidth 8 = byteAt v k := by
  apply BitVec.eq_of_toNat_eq
  simp [byteAt, bits, Nat.shiftRight_eq_div_pow]

theorem unpack_low (a b n : Nat) (hn : n ≤ 8) (p : Nat → BitVec 16) :
    (∀ i, i < n → (unpackCells a b n p i).setWidth 8 = ((leBytes a b).take n).getD i 0) ∧ ∀ i, n ≤ i → unpackCells a b n p i = p i := by
  constructor
  · intro i hi
    rw [List.getD_eq_getElem?_getD, List.getElem?_take_of_lt hi]
    have m : ∀ v, BitVec.ofNat 8 v &&& 255#8 = byteAt v 0 := by
      intro v
      rw [show (255#8) = BitVec.allOnes 8 from rfl, BitVec.and_allOnes]
      exact cast_shift v 0
    have : i = 0 ∨ i = 1 ∨ i = 2 ∨ i = 3 ∨ i = 4 ∨ i = 5 ∨ i = 6 ∨ i = 7 := by omega
    rcases this with h | h | h | h | h | h | h | h <;> subst h <;> simp only [unpackCells, wr, hi, leBytes] <;> simp [m]
    · exact cast_shift a 1
    · exact cast_shift a 2
    · exact cast_shift a 3
    · exact cast_shift b 1
    · exact cast_shift b 2
    · exact cast_shift b 3
  · intro i hi
    unfold unpackCells wr
    repeat rw [if_neg (by omega)]

theorem dlc_eq (w : Nat) : w &&& 0xf = bits w 0 4 := by
  rw [show w &&& 0xf = w % 2 ^ 4 from Nat.and_two_pow_sub_one_eq_mod _ 4]; simp [bits]

theorem take_three (a b b' n : Nat) (h : ¬ n > 3) : (leBytes a b).take n = (leBytes a b').take n := take_low a b b' n (by omega)

theorem ndat_iff (o : Obj) : o.ndat = true ↔ o.mctl &&& 1 <<< 15 ≠ 0 := by
  have hb := bits_lt o.mctl 15 1
  rw [shl1]
  constructor
  · intro h hh
    have := (and_bit o.mctl 15).1 hh
    simp [Obj.ndat, this] at h
  · intro h
    have : bits o.mctl 15 1 ≠ 0 := fun hh => h ((and_bit o.mctl 15).2 hh)
    simp [Obj.ndat]; omega

/-- **C73 (partial), drivers/can/can-ti_dcan.c**: can_read takes the frame of the last object that has one, of 1 to 8 bytes: it returns its length, the low 8 bits of each
cell of the buffer are its bytes and no other cell is written. The identifier is the one of the last can_accept call (what IF2ARB was last given).
Missing: the right identifier when can_accept was called more than once (`dcan_read_wrong_id`), the high 8 bits of cells 1, 2, 5, 6 (`dcan_cells`), the size of the
caller's buffer, which is not looked at. -/
theorem dcan_read_partial {rm n old i : Nat} {p : Nat → BitVec 16} (s : St) (hs : s.Ok) (hn0 : 0 < n) (hn : n ≤ 8) (hi : i < s.rxi)
    (hm : ∀ j, j < s.rxi → rm.testBit j = true) (hnd : (s.ob i).ndat = true) (hlast : ∀ j, i < j → j < s.rxi → (s.ob j).ndat = false)
    (hd0 : 0 < bits (s.ob i).mctl 0 4) (hd : bits (s.ob i).mctl 0 4 ≤ 8) :
    let r := read rm p old n s
    let f := frame (s.ob i)
    r.res = .ok f.data.length ∧ (∀ k, k < f.data.length → (r.buf k).setWidth 8 = f.data.getD k 0) ∧ (∀ k, f.data.length ≤ k → r.buf k = p k) ∧
      r.id = bits s.if2.arb 18 11 ∧ (∀ j, j ≠ i → r.st.ob j = s.ob j) ∧ (r.st.ob i).ndat = false := by
  have key : ∀ k, i < k → k ≤ s.rxi → readLoop (fun i => (s.ob i).ndat && rm.testBit i) p old k s = transferRx i p old s := by
    intro k
    induction k with
    | zero => intro h; omega
    | succ k ih =>
      intro h1 h2
      rw [readLoop]
      by_cases he : k = i
      · subst he; rw [if_pos (by simp [hnd, hm k hi])]
      · rw [if_neg (by simp [hlast k (by omega) (by omega)])]; exact ih (by omega) (by omega)
  intro r f
  have hr : r = transferRx i p old s := by
    show read rm p old n s = _
    unfold read
    rw [if_neg (by omega)]
    simp only []
    rw [if_neg, key _ hi (Nat.le_refl _)]
    have h1 := hs.2.2
    have h2 := hs.1
    simp only [List.all_eq_true, List.mem_range]
    intro h
    have := h i (by omega)
    rw [hnd, hm i hi] at this
    cases this
  have hl : f.data.length = bits (s.ob i).mctl 0 4 := by simp [f, frame, leBytes]; omega
  have hnd' := (ndat_iff _).1 hnd
  rw [hr, hl]
  unfold transferRx
  simp only []
  have hok : 0 < bits (s.ob i).mctl 0 4 ∧ bits (s.ob i).mctl 0 4 ≤ 8 := ⟨hd0, hd⟩
  rw [if_pos hnd', dlc_eq]
  simp only [if_pos hok]
  have hf : f.data = (leBytes (s.ob i).da (s.ob i).db).take (bits (s.ob i).mctl 0 4) := rfl
  obtain ⟨u1, u2⟩ := unpack_low (s.ob i).da (if bits (s.ob i).mctl 0 4 > 3 then (s.ob i).db else s.if2.db) _ hd p
  refine ⟨trivial, ?_, ?_, ?_, ?_, ?_⟩
  · intro k hk
    rw [hf]
    refine (u1 k hk).trans ?_
    by_cases h3 : bits (s.ob i).mctl 0 4 > 3
    · rw [if_pos h3]
    · rw [if_neg h3, take_three _ _ (s.ob i).db _ h3]
  · exact u2
  · show (s.if2.arb &&& 0x1fffffff) >>> 18 = _
    rw [m29, Nat.shiftRight_eq_div_pow]
    unfold bits
    omega
  · intro j hj; simp [setOb, hj]
  · simp only [setOb, if_true, Obj.ndat]
    have : bits ((s.ob i).mctl &&& (2 ^ 32 - 1 - 1 <<< 15)) 15 1 = 0 := by
      rw [← and_bit, Nat.and_assoc]
      have : (2 ^ 32 - 1 - 1 <<< 15) &&& 2 ^ 15 = 0 := by decide
      rw [this]; simp
    rw [this]; rfl

/-- with no frame: -EAGAIN, nothing touched -/
theorem dcan_read_empty {rm n old : Nat} {p : Nat → BitVec 16} (s : St) (hn0 : 0 < n) (hn : n ≤ 8) (h : ∀ j, j < 32 → (s.ob j).ndat = false) :
    read rm p old n s = ⟨s, p, old, .eagain⟩ := by
  unfold read
  rw [if_neg (by omega)]
  simp only []
  rw [if_pos]
  simp only [List.all_eq_true, List.mem_range]
  intro i hi
  rw [h i hi]; rfl

/-- two bytes in the second cell: buf[1] is byte 1 + 256 × byte 2 -/
theorem dcan_cells (a b n : Nat) (hn : 1 < n) (p : Nat → BitVec 16) : (unpackCells a b n p 1).toNat = (byteAt a 1).toNat + 256 * (byteAt a 2).toNat := by
  simp only [unpackCells, wr, hn]
  simp [byteAt, bits, Nat.shiftRight_eq_div_pow]
  omega

/-! ### Acceptance -/

theorem rarb_bits (id : Nat) (h : id < 2048) :
    let a := (id <<< 18) ||| 1 <<< 31
    bits a 31 1 = 1 ∧ bits a 30 1 = 0 ∧ bits a 29 1 = 0 ∧ bits a 18 11 = id := by
  intro a
  have e : a = 1 * 2 ^ 31 + (0 * 2 ^ 30 + (0 * 2 ^ 29 + (id * 2 ^ 18 + 0))) := by
    show (id <<< 18) ||| 1 <<< 31 = _
    rw [Nat.shiftLeft_eq, Nat.shiftLeft_eq, Nat.or_comm, or_mul_two_pow 31 1 _ (by omega)]; omega
  rw [e, bits_top _ 31 _ _ (by omega), bits_low _ 31 _ 30 1 (by omega), bits_low _ 31 _ 29 1 (by omega), bits_low _ 31 _ 18 11 (by omega),
    bits_top _ 30 _ _ (by omega), bits_low _ 30 _ 29 1 (by omega), bits_low _ 30 _ 18 11 (by omega), bits_top _ 29 _ _ (by omega), bits_low _ 29 _ 18 11 (by omega),
    bits_top _ 18 _ _ (by omega)]
  omega

/-- object j is set for the call c -/
def For (s : St) (j : Nat) (c : Nat × Nat) : Prop := (s.ob j).arb = (c.1 <<< 18) ||| 1 <<< 31 ∧ (s.ob j).mctl = 0 ∧ c.1 < 2048

structure AInv (s : St) (h : List (Nat × Nat)) : Prop where
  len : s.rxi ≤ s.rxc
  on : ∀ c ∈ h, ∃ j < s.rxi, For s j c
  off : ∀ j, j < s.rxi → ∃ c ∈ h, For s j c
  dis : ∀ j, s.rxi ≤ j → j < s.rxc → (s.ob j).arb = 0

theorem ainv_accept {s : St} {h : List (Nat × Nat)} (hi : AInv s h) (id mask : Nat) :
    (∃ s', accept id mask s = (s', .ok 0) ∧ AInv s' (h ++ [(id, mask)]) ∧ s'.rxc = s.rxc) ∨ ((∀ m, (accept id mask s).2 ≠ .ok m) ∧ (accept id mask s).1 = s) := by
  by_cases h1 : id ≥ 2048
  · right; unfold accept; rw [if_pos h1]; exact ⟨(by intro m h; cases h), rfl⟩
  by_cases h2 : mask ≥ 2048
  · right; unfold accept; rw [if_neg h1, if_pos h2]; exact ⟨(by intro m h; cases h), rfl⟩
  by_cases h3 : s.rxi ≥ s.rxc
  · right; unfold accept; rw [if_neg h1, if_neg h2, if_pos h3]; exact ⟨(by intro m h; cases h), rfl⟩
  left
  unfold accept
  rw [if_neg h1, if_neg h2, if_neg h3]
  refine ⟨_, rfl, ⟨?_, ?_, ?_, ?_⟩, rfl⟩
  · show s.rxi + 1 ≤ s.rxc; omega
  · intro c hc
    rcases List.mem_append.1 hc with hc | hc
    · obtain ⟨j, hj, hf⟩ := hi.on c hc
      refine ⟨j, by show j < s.rxi + 1; omega, ?_⟩
      have : j ≠ s.rxi := by omega
      simpa [For, setOb, this] using hf
    · simp at hc; subst hc
      refine ⟨s.rxi, by show s.rxi < s.rxi + 1; omega, ?_⟩
      simp only [For, setOb, if_true]
      exact ⟨trivial, trivial, by omega⟩
  · intro j hj
    have hj : j < s.rxi + 1 := hj
    by_cases he : j = s.rxi
    · subst he
      refine ⟨(id, mask), by simp, ?_⟩
      simp only [For, setOb, if_true]
      exact ⟨trivial, trivial, by omega⟩
    · obtain ⟨c, hc, hf⟩ := hi.off j (by omega)
      exact ⟨c, List.mem_append_left _ hc, by simpa [For, setOb, he] using hf⟩
  · intro j hj hj'
    have hj : s.rxi + 1 ≤ j := hj
    have : j ≠ s.rxi := by omega
    simp only [setOb, this, if_false]
    exact hi.dis j (by omega) hj'

theorem ainv_all (l : List (Nat × Nat)) : ∀ (s : St) (h : List (Nat × Nat)), AInv s h →
    AInv (acceptAll l s).1 (h ++ (acceptAll l s).2) ∧ (acceptAll l s).1.rxc = s.rxc := by
  induction l with
  | nil => intro s h hi; simpa [acceptAll] using hi
  | cons c t ih =>
    intro s h hi
    rcases ainv_accept hi c.1 c.2 with ⟨s', he, hi', hx⟩ | ⟨he, hs⟩
    · have := ih s' _ hi'
      simp only [acceptAll, he]
      rw [hx] at this
      simpa [List.append_assoc] using this
    · have := ih s h hi
      rcases hr : accept c.1 c.2 s with ⟨s', r⟩
      rw [hr] at he hs
      simp only at he hs
      cases r with
      | ok m => exact absurd rfl (he m)
      | _ => simp only [acceptAll, hr]; rw [hs]; exact this

/-- **C74 (partial), drivers/can/can-ti_dcan.c**: the masks have no effect (the mask is not transferred to the object, whose UMask bit is 0): exactly the 11-bit frames
with the identifiers given are received. Missing: the other identifiers that a mask accepts (`dcan_any_refused`). -/
theorem dcan_accept_partial (s : St) (hs : s.Reset) (l : List (Nat × Nat)) (f : Frame) :
    (∃ j < s.rxc, takes ((acceptAll l s).1.ob j) f) ↔ ∃ c ∈ (acceptAll l s).2, f.ext = false ∧ f.id = c.1 := by
  have h0 : AInv s [] := ⟨by rw [hs.1]; omega, by simp, (by intro j hj; rw [hs.1] at hj; omega), fun j _ _ => hs.2 j⟩
  obtain ⟨hi, hx⟩ := ainv_all l s [] h0
  simp only [List.nil_append] at hi
  generalize hS : (acceptAll l s).1 = s1 at *
  generalize hH : (acceptAll l s).2 = h at *
  have key : ∀ j c, For s1 j c → (takes (s1.ob j) f ↔ f.ext = false ∧ f.id = c.1) := by
    intro j c ⟨k1, k2, k3⟩
    obtain ⟨a1, a2, a3, a4⟩ := rarb_bits c.1 k3
    unfold takes
    rw [k1, a1, a2, a3, a4, k2]
    have z : bits 0 12 1 = 0 := by decide
    rw [z]
    rcases hx : f.ext with _ | _ <;> simp
  constructor
  · rintro ⟨j, hj, ht⟩
    rcases Nat.lt_or_ge j s1.rxi with hl | hl
    · obtain ⟨c, hc, hfor⟩ := hi.off j hl
      exact ⟨c, hc, (key j c hfor).1 ht⟩
    · have h1 := hi.dis j hl (by omega)
      have h2 := ht.1
      rw [h1] at h2
      exact absurd h2 (by decide)
  · rintro ⟨c, hc, h1⟩
    obtain ⟨j, hj, hfor⟩ := hi.on c hc
    exact ⟨j, by have := hi.len; omega, (key j c hfor).2 h1⟩

/-- can_accept(ctx, 0x123, CAN_ACCEPT_ANY) returns 0 and a frame 0x124 is not received -/
theorem dcan_any_refused (s : St) (hs : s.Reset) (hr : 0 < s.rxc) :
    (acceptAll [(0x123, 0)] s).2 = [(0x123, 0)] ∧ accepts 0x123 0 ⟨false, 0x124, []⟩ ∧ ¬ ∃ j < s.rxc, takes ((acceptAll [(0x123, 0)] s).1.ob j) ⟨false, 0x124, []⟩ := by
  have h1 : (acceptAll [(0x123, 0)] s).2 = [(0x123, 0)] := by
    simp only [acceptAll, accept]
    rw [if_neg (by omega), if_neg (by omega), if_neg (by rw [hs.1]; omega)]
  refine ⟨h1, by simp [accepts], ?_⟩
  rw [dcan_accept_partial s hs _ _, h1]
  simp

/-- hardware: a frame arrives in object j: its DLC and NewDat go to MCTL, its bytes to the data registers -/
def arrive (j dlc da db : Nat) (s : St) : St :=
  setOb s j { s.ob j with mctl := 2 ^ 15 + dlc, da := da, db := db }

/-- after can_accept(a) and can_accept(b), a frame `a` is read with the identifier `b` -/
theorem dcan_read_wrong_id {a b dlc da db rm n old : Nat} {p : Nat → BitVec 16} (s : St) (hs : s.Reset) (hok : s.Ok) (hrx : 2 ≤ s.rxc) (ha : a < 2048) (hb : b < 2048)
    (hd0 : 0 < dlc) (hd : dlc ≤ 8) (hn0 : 0 < n) (hn : n ≤ 8) (hrm : rm.testBit 0 = true ∧ rm.testBit 1 = true) :
    let s2 := (acceptAll [(a, 0x7ff), (b, 0x7ff)] s).1
    let s3 := arrive 0 dlc da db s2
    (frame (s3.ob 0)).id = a ∧ (frame (s3.ob 0)).ext = false ∧ (read rm p old n s3).id = b := by
  intro s2 s3
  have e2 : s2 = (accept b 0x7ff (accept a 0x7ff s).1).1 := by
    show (acceptAll [(a, 0x7ff), (b, 0x7ff)] s).1 = _
    simp only [acceptAll, accept]
    rw [if_neg (by omega), if_neg (by omega), if_neg (by rw [hs.1]; omega)]
    simp only []
    rw [if_neg (by omega), if_neg (by omega), if_neg (by show ¬ s.rxi + 1 ≥ s.rxc; rw [hs.1]; omega)]
  have hr0 := hs.1
  have e1 : accept a 0x7ff s = ({ setOb { s with if2 := { s.if2 with arb := (a <<< 18) ||| 1 <<< 31, msk := 0x7ff <<< 18, mctl := 0 } } 0
      { s.ob 0 with arb := (a <<< 18) ||| 1 <<< 31, mctl := 0 } with rxi := 1 }, .ok 0) := by
    unfold accept
    rw [if_neg (by omega), if_neg (by omega), if_neg (by rw [hs.1]; omega), hr0]
  have o0 : (s2.ob 0).arb = (a <<< 18) ||| 1 <<< 31 := by
    rw [e2, e1]
    unfold accept
    rw [if_neg (by omega), if_neg (by omega), if_neg (by show ¬ 1 ≥ s.rxc; omega)]
    simp [setOb]
  have o1 : (s2.ob 1).mctl = 0 ∧ s2.if2.arb = (b <<< 18) ||| 1 <<< 31 ∧ s2.rxi = 2 ∧ s2.rxc = s.rxc ∧ s2.txc = s.txc ∧ s2.txi = s.txi := by
    rw [e2, e1]
    unfold accept
    rw [if_neg (by omega), if_neg (by omega), if_neg (by show ¬ 1 ≥ s.rxc; omega)]
    simp [setOb]
  obtain ⟨a1, a2, a3, a4⟩ := rarb_bits a ha
  obtain ⟨b1, b2, b3, b4⟩ := rarb_bits b hb
  have hob : s3.ob 0 = { s2.ob 0 with mctl := 2 ^ 15 + dlc, da := da, db := db } := by simp [s3, arrive, setOb]
  have hdl : bits (2 ^ 15 + dlc) 0 4 = dlc := by unfold bits; omega
  have hnd : bits (2 ^ 15 + dlc) 15 1 = 1 := by unfold bits; omega
  refine ⟨?_, ?_, ?_⟩
  · rw [hob]
    simp only [frame, o0, a2]
    rw [if_neg (by omega)]
    exact a4
  · rw [hob]
    simp only [frame, o0, a2]
    rfl
  · have := dcan_read_partial (rm := rm) (n := n) (old := old) (i := 0) (p := p) s3
      ⟨by show s2.rxc + s2.txc = 32; rw [o1.2.2.2.1, o1.2.2.2.2.1]; exact hok.1, by show s2.txi < s2.txc; rw [o1.2.2.2.2.1, o1.2.2.2.2.2]; exact hok.2.1,
        by show s2.rxi ≤ s2.rxc; omega⟩
      hn0 hn (by show 0 < s2.rxi; omega) ?_ (by rw [hob]; simp [Obj.ndat, hnd]) ?_ (by rw [hob]; show 0 < bits (2 ^ 15 + dlc) 0 4; omega)
      (by rw [hob]; show bits (2 ^ 15 + dlc) 0 4 ≤ 8; omega)
    · rw [this.2.2.2.1]
      show bits s2.if2.arb 18 11 = b
      rw [o1.2.1, b4]
    · intro j (hj : j < s2.rxi)
      have : j = 0 ∨ j = 1 := by omega
      rcases this with rfl | rfl
      · exact hrm.1
      · exact hrm.2
    · intro j h1 (hj : j < s2.rxi)
      have : j = 1 := by omega
      subst this
      have : s3.ob 1 = s2.ob 1 := by simp [s3, arrive, setOb]
      rw [this, Obj.ndat, o1.1]; decide

/-! ### Non-vacuity -/

def s0 : St := { ob := fun _ => ⟨0, 0, 0, 0, 0⟩, if1 := ⟨0, 0, 0, 0, 0⟩, if2 := ⟨0, 0, 0, 0, 0⟩, rxc := 30, txc := 2, rxi := 0, txi := 0 }

example : s0.Ok := ⟨rfl, by decide, by decide⟩
example : s0.Reset := ⟨rfl, fun _ => rfl⟩
example : (write (fun _ => 0) 0x123 [1, 2, 3, 4, 5] 5 s0).1.out 30 = some ⟨false, 0x123, [1, 2, 3, 4, 5]⟩ := by decide
example : (read 3 (fun _ => 0) 0 8 (arrive 0 3 0x030201 0 (acceptAll [(1, 0x7ff), (2, 0x7ff)] s0).1)).id = 2 := by decide

end Pico.Can.Dcan
