import Verif.Drivers.C55fmcProps
/-
C112: flash_erase, flash_lock, flash_unlock and blankcheck of the MPC57xx; flash-sam3x.
-/
namespace Pico.C55
open Pico.FlashInt (Byte Mem programmed Res erased)

/-! ## Specification -/

/-- contents after block `b` has been erased -/
def blockErased (b : Blk) (m : Mem) : Mem := fun x => if b.start ≤ x ∧ x ≤ b.last then 0xff else m x

/-- block `b` is locked -/
def Locked (lock : Nat → BitVec 32) (b : Blk) : Prop := lock b.reg &&& mask b ≠ 0

/-- the table of the driver `M` has the blocks of the device `H`, with their first addresses and their bits in SEL and LOCK; no two blocks
share a bit -/
structure Fits (H M : List Blk) : Prop where
  len : M.length = H.length
  same : ∀ (i : Nat) (b h : Blk), M[i]? = some b → H[i]? = some h → b.start = h.start ∧ b.reg = h.reg ∧ b.bit = h.bit
  bits : ∀ h ∈ H, h.bit < 32
  apart : ∀ (i j : Nat) (b d : Blk), H[i]? = some b → H[j]? = some d → b.reg = d.reg → b.bit = d.bit → i = j

/-- the same with lists that are small enough to be looked through -/
def fitsB (H M : List Blk) : Bool :=
  (M.length == H.length) && (M.zip H).all (fun p => decide (p.1.start = p.2.start ∧ p.1.reg = p.2.reg ∧ p.1.bit = p.2.bit)) &&
  H.all (fun h => decide (h.bit < 32)) &&
  (List.range H.length).all (fun i => (List.range H.length).all (fun j =>
    match H[i]?, H[j]? with | some b, some d => decide (b.reg = d.reg ∧ b.bit = d.bit → i = j) | _, _ => true))

theorem fits_of {H M : List Blk} (h : fitsB H M = true) : Fits H M := by
  unfold fitsB at h
  simp only [Bool.and_eq_true, beq_iff_eq, List.all_eq_true, decide_eq_true_eq, List.mem_range] at h
  obtain ⟨⟨⟨h1, h2⟩, h3⟩, h4⟩ := h
  refine ⟨h1, ?_, h3, ?_⟩
  · intro i b d hb hd
    have hz : (M.zip H)[i]? = some (b, d) := by
      rw [List.getElem?_zip_eq_some]; exact ⟨hb, hd⟩
    exact h2 (b, d) (List.mem_of_getElem? hz)
  · intro i j b d hb hd e1 e2
    have hi : i < H.length := (List.getElem?_eq_some_iff.mp hb).1
    have hj : j < H.length := (List.getElem?_eq_some_iff.mp hd).1
    have := h4 i hi j hj
    rw [hb, hd] at this
    simp only [decide_eq_true_eq] at this
    exact this ⟨e1, e2⟩

/-- the blocks of the MPC577x: what the table says, but for the last addresses of blocks 7, 8 and 9 -/
def hw577x : List Blk := map577x.map (fun b => if b.last < b.start then { b with last := b.start + 0x3ffff } else b)

theorem fits_577x : Fits hw577x map577x := fits_of (by decide +kernel)
theorem fits_574x : Fits map574x map574x := fits_of (by decide +kernel)

/-! ## The bits -/

theorem mask_and : ∀ i j : Fin 32, (0x80000000#32 >>> i.val) &&& (0x80000000#32 >>> j.val) ≠ 0 ↔ i = j := by decide +kernel

theorem mask_apart {a b : Blk} (ha : a.bit < 32) (hb : b.bit < 32) : mask a &&& mask b ≠ 0 ↔ a.bit = b.bit := by
  have := mask_and ⟨a.bit, ha⟩ ⟨b.bit, hb⟩
  unfold mask
  rw [this]
  exact ⟨fun h => congrArg Fin.val h, fun h => Fin.ext h⟩

theorem set_at (f : Nat → BitVec 32) (i : Nat) (v : BitVec 32) : set f i v i = v := by simp [set]
theorem set_off (f : Nat → BitVec 32) {i j : Nat} (v : BitVec 32) (h : j ≠ i) : set f i v j = f j := by simp [set, h]

/-! ## Erase -/

/-- with nothing but block `i` selected, exactly block `i` is erased, if it is not locked -/
theorem wipe_one {H M : List Blk} (hf : Fits H M) {i : Nat} {b h : Blk} (hb : M[i]? = some b) (hh : H[i]? = some h) (lock : Nat → BitVec 32)
    (hl : ¬ Locked lock h) (m : Mem) : wipe H (set (fun _ => 0) b.reg (mask b)) lock m = blockErased h m := by
  obtain ⟨_, e2, e3⟩ := hf.same i b h hb hh
  have hm : mask b = mask h := by unfold mask; rw [e3]
  funext x
  unfold wipe blockErased
  have key : (H.any (fun d => decide (d.start ≤ x ∧ x ≤ d.last ∧ set (fun _ => 0) b.reg (mask b) d.reg &&& mask d ≠ 0 ∧ lock d.reg &&& mask d = 0)) = true) ↔ (h.start ≤ x ∧ x ≤ h.last) := by
    rw [List.any_eq_true]
    constructor
    · rintro ⟨d, hd, hx⟩
      have hx := of_decide_eq_true hx
      obtain ⟨x1, x2, x3, _⟩ := hx
      obtain ⟨j, hj⟩ := List.mem_iff_getElem?.mp hd
      have hr : d.reg = b.reg := by
        apply Classical.byContradiction
        intro hn
        rw [set_off _ _ hn] at x3
        simp at x3
      rw [hr, set_at, hm] at x3
      have hbit := (mask_apart (hf.bits h (List.mem_of_getElem? hh)) (hf.bits d hd)).mp x3
      have := hf.apart i j h d hh hj (by rw [← e2, hr]) hbit
      subst this
      rw [hh] at hj
      cases hj
      exact ⟨x1, x2⟩
    · rintro ⟨x1, x2⟩
      refine ⟨h, List.mem_of_getElem? hh, decide_eq_true ⟨x1, x2, ?_, ?_⟩⟩
      · rw [e2, set_at, hm]
        exact (mask_apart (hf.bits h (List.mem_of_getElem? hh)) (hf.bits h (List.mem_of_getElem? hh))).mpr rfl
      · exact Classical.byContradiction hl
  by_cases hc : h.start ≤ x ∧ x ≤ h.last
  · rw [if_pos hc, if_pos (key.mpr hc)]
  · rw [if_neg hc, if_neg (fun hk => hc (key.mp hk))]

/-- before the first call; erasing; erased, or not; told so -/
inductive EPh (b h : Blk) (lock : Nat → BitVec 32) (m : Mem) (c : St × Option Res) : Prop where
  | before (hr : c.2 = none) (hs : c.1 = rest lock m)
  | erasing (hr : c.2 = some .eagain) (hs : c.1 = { rest lock m with ers := true, sel := set (fun _ => 0) b.reg (mask b), ehv := true, done := false, busy := true })
  | well (hr : c.2 = some .eagain) (hs : c.1 = { rest lock m with ers := true, sel := set (fun _ => 0) b.reg (mask b), ehv := true, busy := true, mem := blockErased h m })
  | badly (hr : c.2 = some .eagain) (hs : c.1 = { rest lock m with ers := true, sel := set (fun _ => 0) b.reg (mask b), ehv := true, busy := true, peg := false })
  | ok (hr : c.2 = some (.ok 0)) (hs : c.1 = rest lock (blockErased h m))
  | failed (hr : c.2 = some .eio) (hs : c.1 = { rest lock m with peg := false })

theorem set_set (i : Nat) (v : BitVec 32) : set (set (fun _ => 0) i v) i 0 = fun _ => 0 := by
  funext j; unfold set; split <;> rfl

theorem eph_step {H M : List Blk} (hf : Fits H M) {i : Nat} {b h : Blk} (hb : M[i]? = some b) (hh : H[i]? = some h) (hi : i < totalSize M)
    {lock : Nat → BitVec 32} (hl : ¬ Locked lock h) {m : Mem} (c : St × Option Res) (e : Ev) (hc : EPh b h lock m c) : EPh b h lock m (eraseStep H M i c e) := by
  obtain ⟨s, r⟩ := c
  have hw := wipe_one hf hb hh lock hl m
  cases e with
  | fin g =>
    show EPh b h lock m (fin H g s, r)
    rcases hc with ⟨hr, hs⟩ | ⟨hr, hs⟩ | ⟨hr, hs⟩ | ⟨hr, hs⟩ | ⟨hr, hs⟩ | ⟨hr, hs⟩ <;> dsimp only at hr hs <;> subst hs
    · exact .before hr (by simp [fin, rest])
    · cases g with
      | true => exact .well hr (by simp only [rest] at hw ⊢; simp only [fin]; simp; exact hw)
      | false => exact .badly hr (by simp [fin, rest])
    · exact .well hr (by simp [fin, rest])
    · exact .badly hr (by simp [fin, rest])
    · exact .ok hr (by simp [fin, rest])
    · exact .failed hr (by simp [fin, rest])
  | call =>
    have h1 : ¬ (i ≥ totalSize M) := by omega
    rcases hc with ⟨hr, hs⟩ | ⟨hr, hs⟩ | ⟨hr, hs⟩ | ⟨hr, hs⟩ | ⟨hr, hs⟩ | ⟨hr, hs⟩ <;> dsimp only at hr hs <;> subst hs <;> subst hr
    · exact .erasing (by simp [eraseStep, erase, h1, rest, eraseIdle, hb]) (by simp [eraseStep, erase, h1, rest, eraseIdle, hb])
    · exact .erasing (by simp [eraseStep, erase, h1, rest, eraseBusy, hb]) (by simp [eraseStep, erase, h1, rest, eraseBusy, hb])
    · exact .ok (by simp [eraseStep, erase, h1, rest, eraseBusy, hb]) (by simp [eraseStep, erase, h1, rest, eraseBusy, hb]; exact set_set _ _)
    · exact .failed (by simp [eraseStep, erase, h1, rest, eraseBusy, hb]) (by simp [eraseStep, erase, h1, rest, eraseBusy, hb]; exact set_set _ _)
    · exact .ok rfl rfl
    · exact .failed rfl rfl

/-- **flash_erase of a block number.** Whatever the schedule, calling flash_erase(ctx, i) until it does not return -EAGAIN: when it returns 0
block number `i` (not locked) is erased and nothing else has changed; when it returns -EIO nothing has changed; nothing stays
selected. -/
theorem c55_erase_partial {H M : List Blk} (hf : Fits H M) {i : Nat} {b h : Blk} (hb : M[i]? = some b) (hh : H[i]? = some h) (hi : i < totalSize M)
    {lock : Nat → BitVec 32} (hl : ¬ Locked lock h) (m : Mem) (l : List Ev) :
    let c := eraseRun H M i l (rest lock m, none)
    (c.2 = some (.ok 0) → c.1 = rest lock (blockErased h m)) ∧ (c.2 = some .eio → c.1.mem = m ∧ c.1.busy = false ∧ c.1.sel = fun _ => 0) ∧
    (c.1.mem = m ∨ c.1.mem = blockErased h m) ∧ (c.2 = none ∨ c.2 = some .eagain ∨ c.2 = some (.ok 0) ∨ c.2 = some .eio) := by
  have key : ∀ (l : List Ev) (c : St × Option Res), EPh b h lock m c → EPh b h lock m (eraseRun H M i l c) := by
    intro l
    induction l with
    | nil => intro c hc; exact hc
    | cons e l ih => intro c hc; exact ih _ (eph_step hf hb hh hi hl c e hc)
  have hc := key l (rest lock m, none) (.before rfl rfl)
  dsimp only
  generalize eraseRun H M i l (rest lock m, none) = c at hc
  obtain ⟨s, r⟩ := c
  rcases hc with ⟨hr, hs⟩ | ⟨hr, hs⟩ | ⟨hr, hs⟩ | ⟨hr, hs⟩ | ⟨hr, hs⟩ | ⟨hr, hs⟩ <;> dsimp only at hr hs <;> subst hs <;> subst hr <;> simp [rest]

/-- it ends: two calls, with the end of the erasure in between -/
theorem c55_erase_ends {H M : List Blk} (hf : Fits H M) {i : Nat} {b h : Blk} (hb : M[i]? = some b) (hh : H[i]? = some h) (hi : i < totalSize M)
    {lock : Nat → BitVec 32} (hl : ¬ Locked lock h) (m : Mem) : (eraseRun H M i [.call, .fin true, .call] (rest lock m, none)).2 = some (.ok 0) := by
  have h1 : ¬ (i ≥ totalSize M) := by omega
  simp [eraseRun, eraseStep, erase, h1, rest, eraseIdle, eraseBusy, hb, fin]

/-- **Refuted for offsets.** An offset that is not smaller than the number of blocks is refused, though flash_probe announces the whole range and
only block offsets 0 .. COUNT - 1 are ever reached: no address of blocks other than the first can be given, as an offset, for erasure or locking. -/
theorem c55_offset_refused (M : List Blk) (offset : Nat) (ho : M.length ≤ offset) (s : St) (hs : s.busy = false) :
    erase M offset s = (s, .einval) ∧ lockOp M offset s = (s, .einval) ∧ unlockOp M offset s = (s, .einval) := by
  have hn : M[offset]? = none := List.getElem?_eq_none ho
  unfold erase lockOp unlockOp eraseIdle
  rw [hs, hn]
  refine ⟨?_, ?_, ?_⟩ <;> split <;> simp

/-- and one that is (0x10 bytes into the flash of the MPC577x, say) erases the block of that number: block 16, at 0xb80000 -/
theorem c55_offset_wrong (lock : Nat → BitVec 32) (hl : ¬ Locked lock ⟨0xb80000, 0xbbffff, 2, 14⟩) (m : Mem) :
    (eraseRun hw577x map577x 0x10 [.call, .fin true, .call] (rest lock m, none)).1.mem = blockErased ⟨0xb80000, 0xbbffff, 2, 14⟩ m ∧
    (blockErased ⟨0xb80000, 0xbbffff, 2, 14⟩ m) 0x600010 = m 0x600010 := by
  have hb : map577x[0x10]? = some ⟨0xb80000, 0xbbffff, 2, 14⟩ := by decide
  have hh : hw577x[0x10]? = some ⟨0xb80000, 0xbbffff, 2, 14⟩ := by decide
  have hi : 0x10 < totalSize map577x := by decide
  have h1 := c55_erase_ends fits_577x hb hh hi hl m
  have h2 := (c55_erase_partial fits_577x hb hh hi hl m [.call, .fin true, .call]).1 h1
  rw [h2]
  refine ⟨rfl, ?_⟩
  unfold blockErased
  rw [if_neg (by decide)]

/-! ## Lock, unlock -/

theorem and_or_ne {w : Nat} (a b c : BitVec w) : (a ||| b) &&& c ≠ 0 ↔ a &&& c ≠ 0 ∨ b &&& c ≠ 0 := by
  constructor
  · intro h
    apply Classical.byContradiction
    intro hn
    have h1 : a &&& c = 0 := Classical.byContradiction fun x => hn (.inl x)
    have h2 : b &&& c = 0 := Classical.byContradiction fun x => hn (.inr x)
    apply h
    have : (a ||| b) &&& c = (a &&& c) ||| (b &&& c) := by
      apply BitVec.eq_of_getLsbD_eq
      intro i _
      simp only [BitVec.getLsbD_and, BitVec.getLsbD_or]
      cases a.getLsbD i <;> cases b.getLsbD i <;> cases c.getLsbD i <;> rfl
    rw [this, h1, h2]
    simp
  · intro h hz
    have g : ∀ x : BitVec w, (∀ i, i < w → x.getLsbD i = false) → x = 0 := by
      intro x hx
      apply BitVec.eq_of_getLsbD_eq
      intro i hi
      rw [hx i hi]; simp
    have hb : ∀ i, i < w → ((a ||| b) &&& c).getLsbD i = false := by intro i _; rw [hz]; simp
    rcases h with h | h
    · apply h; apply g; intro i hi
      have := hb i hi
      simp only [BitVec.getLsbD_and, BitVec.getLsbD_or] at this ⊢
      revert this
      cases a.getLsbD i <;> cases b.getLsbD i <;> cases c.getLsbD i <;> simp
    · apply h; apply g; intro i hi
      have := hb i hi
      simp only [BitVec.getLsbD_and, BitVec.getLsbD_or] at this ⊢
      revert this
      cases a.getLsbD i <;> cases b.getLsbD i <;> cases c.getLsbD i <;> simp

theorem mask_not : ∀ i j : Fin 32, i ≠ j → ~~~(0x80000000#32 >>> i.val) &&& (0x80000000#32 >>> j.val) = (0x80000000#32 >>> j.val) := by decide +kernel
theorem mask_not_self : ∀ i : Fin 32, ~~~(0x80000000#32 >>> i.val) &&& (0x80000000#32 >>> i.val) = 0 := by decide +kernel

/-- **flash_lock of a block number** locks that block, and no other. -/
theorem c55_lock_partial {H M : List Blk} (hf : Fits H M) {i : Nat} {b : Blk} (hb : M[i]? = some b) (hi : i < totalSize M) (s : St) :
    (lockOp M i s).2 = .ok 0 ∧ (lockOp M i s).1.mem = s.mem ∧
    ∀ (j : Nat) (h : Blk), H[j]? = some h → (Locked (lockOp M i s).1.lock h ↔ Locked s.lock h ∨ j = i) := by
  have h1 : ¬ (i ≥ totalSize M) := by omega
  have e : lockOp M i s = ({ s with lock := set s.lock b.reg (s.lock b.reg ||| mask b) }, .ok 0) := by
    unfold lockOp; rw [if_neg h1, hb]
  rw [e]
  refine ⟨rfl, rfl, ?_⟩
  intro j h hj
  have hilt : i < H.length := by rw [← hf.len]; exact (List.getElem?_eq_some_iff.mp hb).1
  have hhi : H[i]? = some H[i] := List.getElem?_eq_getElem hilt
  obtain ⟨_, e2, e3⟩ := hf.same i b _ hb hhi
  have hm : mask b = mask H[i] := by unfold mask; rw [e3]
  have hbi := hf.bits _ (List.mem_of_getElem? hhi)
  have hbj := hf.bits _ (List.mem_of_getElem? hj)
  show set s.lock b.reg (s.lock b.reg ||| mask b) h.reg &&& mask h ≠ 0 ↔ _
  by_cases hr : h.reg = b.reg
  · rw [hr, set_at, and_or_ne, hm, mask_apart hbi hbj]
    unfold Locked
    rw [hr]
    constructor
    · rintro (x | x)
      · exact .inl x
      · exact .inr (hf.apart i j _ h hhi hj (by rw [← e2, hr]) x).symm
    · rintro (x | x)
      · exact .inl x
      · subst x
        rw [hhi] at hj
        exact .inr (congrArg Blk.bit (Option.some.inj hj))
  · rw [set_off _ _ hr]
    constructor
    · exact .inl
    · rintro (x | x)
      · exact x
      · subst x
        rw [hhi] at hj
        exact absurd (by rw [← Option.some.inj hj, ← e2]) hr

/-- **flash_unlock of a block number** unlocks that block, and no other. -/
theorem c55_unlock_partial {H M : List Blk} (hf : Fits H M) {i : Nat} {b : Blk} (hb : M[i]? = some b) (hi : i < totalSize M) (s : St) :
    (unlockOp M i s).2 = .ok 0 ∧ (unlockOp M i s).1.mem = s.mem ∧
    ∀ (j : Nat) (h : Blk), H[j]? = some h → (Locked (unlockOp M i s).1.lock h ↔ Locked s.lock h ∧ j ≠ i) := by
  have h1 : ¬ (i ≥ totalSize M) := by omega
  have e : unlockOp M i s = ({ s with lock := set s.lock b.reg (s.lock b.reg &&& ~~~mask b) }, .ok 0) := by
    unfold unlockOp; rw [if_neg h1, hb]
  rw [e]
  refine ⟨rfl, rfl, ?_⟩
  intro j h hj
  have hilt : i < H.length := by rw [← hf.len]; exact (List.getElem?_eq_some_iff.mp hb).1
  have hhi : H[i]? = some H[i] := List.getElem?_eq_getElem hilt
  obtain ⟨_, e2, e3⟩ := hf.same i b _ hb hhi
  have hm : mask b = mask H[i] := by unfold mask; rw [e3]
  have hbi := hf.bits _ (List.mem_of_getElem? hhi)
  have hbj := hf.bits _ (List.mem_of_getElem? hj)
  show set s.lock b.reg (s.lock b.reg &&& ~~~mask b) h.reg &&& mask h ≠ 0 ↔ _
  by_cases hji : j = i
  · subst hji
    rw [hhi] at hj
    have hh := Option.some.inj hj
    subst hh
    rw [← e2, set_at, hm, BitVec.and_assoc]
    have := mask_not_self ⟨_, hbi⟩
    rw [show ~~~mask H[j] &&& mask H[j] = 0 from this]
    simp
  · by_cases hr : h.reg = b.reg
    · have hne : (H[i]).bit ≠ h.bit := fun x => hji (hf.apart i j _ h hhi hj (by rw [← e2, hr]) x).symm
      rw [hr, set_at, hm, BitVec.and_assoc]
      have := mask_not ⟨_, hbi⟩ ⟨_, hbj⟩ (fun x => hne (congrArg Fin.val x))
      rw [show ~~~mask H[i] &&& mask h = mask h from this]
      unfold Locked
      rw [hr]
      exact ⟨fun x => ⟨x, hji⟩, fun x => x.1⟩
    · rw [set_off _ _ hr]
      exact ⟨fun x => ⟨x, hji⟩, fun x => x.1⟩

/-! ## blankcheck -/

theorem blankLoop_iff (m : Mem) : ∀ (c p : Nat), blankLoop m c p = true ↔ ∀ x, p ≤ x → x < p + 4 * c → m x = 0xff := by
  intro c
  induction c with
  | zero => intro p; exact ⟨fun _ x h1 h2 => by omega, fun _ => rfl⟩
  | succ c ih =>
    intro p
    unfold blankLoop
    by_cases h : m p = 0xff ∧ m (p + 1) = 0xff ∧ m (p + 2) = 0xff ∧ m (p + 3) = 0xff
    · rw [if_pos h, ih]
      constructor
      · intro g x h1 h2
        by_cases c1 : p + 4 ≤ x
        · exact g x c1 (by omega)
        · have : x = p ∨ x = p + 1 ∨ x = p + 2 ∨ x = p + 3 := by omega
          rcases this with e | e | e | e <;> subst e
          · exact h.1
          · exact h.2.1
          · exact h.2.2.1
          · exact h.2.2.2
      · intro g x h1 h2
        exact g x (by omega) (by omega)
    · rw [if_neg h]
      constructor
      · intro x; cases x
      · intro g
        exact absurd ⟨g p (by omega) (by omega), g (p + 1) (by omega) (by omega), g (p + 2) (by omega) (by omega), g (p + 3) (by omega) (by omega)⟩ h

/-- the table is right about block `b` -/
def Sane (b : Blk) : Prop := b.start ≤ b.last ∧ b.last < 2 ^ 32 - 1 ∧ (b.last - b.start + 1) % 4 = 0

theorem words_sane {b : Blk} (h : Sane b) : 4 * words b = b.last - b.start + 1 := by
  obtain ⟨h1, h2, h3⟩ := h
  unfold words
  rw [BitVec.toNat_add, BitVec.toNat_sub, BitVec.toNat_ofNat, BitVec.toNat_ofNat]
  have e1 : b.last % 2 ^ 32 = b.last := Nat.mod_eq_of_lt (by omega)
  have e2 : b.start % 2 ^ 32 = b.start := Nat.mod_eq_of_lt (by omega)
  rw [e1, e2]
  have e3 : (2 ^ 32 - b.start + b.last) % 2 ^ 32 = b.last - b.start := by
    rw [show 2 ^ 32 - b.start + b.last = (b.last - b.start) + 2 ^ 32 by omega, Nat.add_mod_right]
    exact Nat.mod_eq_of_lt (by omega)
  rw [e3]
  have e4 : (1 : BitVec 32).toNat = 1 := rfl
  rw [e4, Nat.mod_eq_of_lt (by omega)]
  omega

/-- **blankcheck** of a block the table is right about returns 0 exactly when every byte of it is 0xff. -/
theorem c55_blankcheck_partial {M : List Blk} {i : Nat} {b : Blk} (hb : M[i]? = some b) (hs : Sane b) (m : Mem) :
    (blankcheck M i m = .ok 0 ↔ ∀ x, b.start ≤ x → x ≤ b.last → m x = 0xff) ∧ (blankcheck M i m = .ok 0 ∨ blankcheck M i m = .efault) := by
  unfold blankcheck
  rw [hb]
  simp only []
  have hw := words_sane hs
  have key := blankLoop_iff m (words b) b.start
  obtain ⟨h1, h2, h3⟩ := hs
  constructor
  · constructor
    · intro h
      split at h
      · rename_i hl
        intro x x1 x2
        exact key.mp hl x x1 (by omega)
      · cases h
    · intro g
      rw [if_pos (key.mpr (fun x x1 x2 => g x x1 (by omega)))]
  · split
    · exact .inl rfl
    · exact .inr rfl

/-- every block of the MPC574x is such, and every block of the MPC577x but 7, 8 and 9 -/
theorem sane_574x : ∀ b ∈ map574x, Sane b := by unfold Sane; decide +kernel
theorem sane_577x : ∀ b ∈ map577x, b.start = 0x940000 ∨ b.start = 0x980000 ∨ b.start = 0x9c0000 ∨ Sane b := by unfold Sane; decide +kernel

/-- **Refuted on the MPC577x**: blankcheck of block 7 returns 0 whatever the flash holds; those of blocks 8 and 9 read on to the end of the address space and around
(2^30 words less the size of the gap). -/
theorem c55_blankcheck_577x (m : Mem) : blankcheck map577x 7 m = .ok 0 ∧
    (∀ b, map577x[8]? = some b → words b = (2 ^ 32 - 0x40000) / 4) ∧ (∀ b, map577x[9]? = some b → words b = (2 ^ 32 - 0x80000) / 4) := by
  refine ⟨?_, ?_, ?_⟩
  · have hb : map577x[7]? = some ⟨0x940000, 0x93ffff, 2, 5⟩ := by decide
    have hw : words ⟨0x940000, 0x93ffff, 2, 5⟩ = 0 := by decide
    unfold blankcheck
    rw [hb]
    simp only []
    rw [hw]
    rfl
  · intro b hb
    have : map577x[8]? = some ⟨0x980000, 0x93ffff, 2, 6⟩ := by decide
    rw [this] at hb
    rw [← Option.some.inj hb]
    decide
  · intro b hb
    have : map577x[9]? = some ⟨0x9c0000, 0x93ffff, 2, 7⟩ := by decide
    rw [this] at hb
    rw [← Option.some.inj hb]
    decide

/-! ## flash-sam3x -/

namespace Sam3x

/-- **Refuted**: flash_sam3x_init always gives up with -EBUSY, whatever the controller answers ... -/
theorem sam3x_init_fails : ∀ (d : Nat) (f : Nat → Fsr) (s : St), s.busy = false → waitDescr d f s = none := by
  intro d
  induction d with
  | zero => intro f s hs; unfold waitDescr runCmd; rw [hs]; rfl
  | succ d ih => intro f s hs; unfold waitDescr runCmd; rw [hs]; exact ih _ _ rfl

/-- ... and flash_erase, flash_lock and flash_unlock of an idle driver give the command again at every call, and return -EAGAIN for ever. -/
theorem sam3x_never_ends (op : Nat → Nat → Fsr → St → St × Res) (ho : op = erase ∨ op = lock ∨ op = unlock) {pages block : Nat} (hb : block < pages) :
    ∀ (fs : List Fsr) (s : St), s.busy = false →
      ∀ f, (op pages block f (fs.foldl (fun s f => (op pages block f s).1) s)).2 = .eagain ∧
        (fs.foldl (fun s f => (op pages block f s).1) s).fcr.length = s.fcr.length + fs.length := by
  have h1 : ∀ (f : Fsr) (s : St), s.busy = false → (op pages block f s).2 = .eagain ∧ (op pages block f s).1.busy = false ∧
      (op pages block f s).1.fcr.length = s.fcr.length + 1 := by
    intro f s hs
    rcases ho with e | e | e <;> subst e
    · unfold erase runCmd; rw [if_neg (by omega), hs]; simp [hs]
    · unfold lock runCmd; rw [if_neg (by omega), hs]; simp [hs]
    · unfold unlock runCmd; rw [if_neg (by omega), hs]; simp [hs]
  intro fs
  induction fs with
  | nil => intro s hs f; exact ⟨(h1 f s hs).1, rfl⟩
  | cons f0 fs ih =>
    intro s hs f
    obtain ⟨a, b⟩ := ih _ (h1 f0 s hs).2.1 f
    refine ⟨a, ?_⟩
    simp only [List.foldl_cons, List.length_cons]
    rw [b, (h1 f0 s hs).2.2]
    omega

example : (⟨false, []⟩ : St).busy = false := rfl

end Sam3x

/-! ## Cases -/

/-- the hypotheses of the theorems about blocks: block 3 of the MPC577x, with the flash locked but for it -/
example : ∃ b h, map577x[3]? = some b ∧ hw577x[3]? = some h ∧ 3 < totalSize map577x ∧ b = h := ⟨_, _, rfl, rfl, by decide, rfl⟩
example : (eraseRun hw577x map577x 3 [.call, .call, .fin true, .call] (rest (fun _ => 0) (fun _ => 0), none)).2 = some (.ok 0) ∧
    (eraseRun hw577x map577x 3 [.call, .call, .fin true, .call] (rest (fun _ => 0) (fun _ => 0), none)).1.mem 0x840000 = 0xff ∧
    (eraseRun hw577x map577x 3 [.call, .call, .fin true, .call] (rest (fun _ => 0) (fun _ => 0), none)).1.mem 0x83ffff = 0 := by decide +kernel
example : totalSize map577x = 0x600000 ∧ totalSize map574x = 0x5f4000 := by decide

end Pico.C55
