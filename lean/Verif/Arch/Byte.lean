import Verif.Arch.Ctx
/-
A byte machine: 8-bit registers, a 16-bit stack pointer, byte memory on 16-bit addresses, and a stack that grows
down and points at the next free byte - AVR, STM8 and HCS08 all work this way.  The program counter is held in
byte registers too (its value is the address of the next instruction to execute).
-/
namespace Pico.Ctx8

open Pico.Ctx (Port)

abbrev Byte := BitVec 8
abbrev Addr := BitVec 16

structure St (R : Type) where
  reg : R → Byte
  sp : Addr
  mem : Addr → Byte

/-- function update -/
def upd {α β : Type} [DecidableEq α] (f : α → β) (a : α) (b : β) : α → β := fun x => if x = a then b else f x

theorem upd_same {α β : Type} [DecidableEq α] (f : α → β) (a : α) (b : β) : upd f a b a = b := if_pos rfl
theorem upd_ne {α β : Type} [DecidableEq α] (f : α → β) {a : α} (b : β) {x : α} (h : x ≠ a) : upd f a b x = f x :=
  if_neg h

def hi (x : Addr) : Byte := BitVec.ofNat 8 (x.toNat / 256)
def lo (x : Addr) : Byte := BitVec.ofNat 8 x.toNat
/-- the 16-bit word made of two bytes, most significant first -/
def cat (h l : Byte) : Addr := BitVec.ofNat 16 (h.toNat * 256 + l.toNat)

theorem cat_hi_lo (x : Addr) : cat (hi x) (lo x) = x := by
  apply BitVec.eq_of_toNat_eq
  have := x.isLt
  simp only [cat, hi, lo, BitVec.toNat_ofNat]
  omega

theorem hi_cat (h l : Byte) : hi (cat h l) = h := by
  apply BitVec.eq_of_toNat_eq
  have := h.isLt
  have := l.isLt
  simp only [cat, hi, BitVec.toNat_ofNat]
  omega

theorem lo_cat (h l : Byte) : lo (cat h l) = l := by
  apply BitVec.eq_of_toNat_eq
  have := h.isLt
  have := l.isLt
  simp only [cat, lo, BitVec.toNat_ofNat]
  omega

variable {R : Type} [DecidableEq R]

def push (r : R) (s : St R) : St R := { s with mem := upd s.mem s.sp (s.reg r), sp := s.sp - 1 }
def pop (r : R) (s : St R) : St R := { s with reg := upd s.reg r (s.mem (s.sp + 1)), sp := s.sp + 1 }
def mv (d r : R) (s : St R) : St R := { s with reg := upd s.reg d (s.reg r) }
def li (d : R) (v : Byte) (s : St R) : St R := { s with reg := upd s.reg d v }
/-- push a constant -/
def pushv (v : Byte) (s : St R) : St R := { s with mem := upd s.mem s.sp v, sp := s.sp - 1 }

/-- several pushes, first of the list first -/
def pushes : List R → St R → St R
  | [], s => s
  | r :: l, s => pushes l (push r s)
/-- several pops, first of the list first -/
def pops : List R → St R → St R
  | [], s => s
  | r :: l, s => pops l (pop r s)
def pushvs : List Byte → St R → St R
  | [], s => s
  | v :: l, s => pushvs l (pushv v s)

omit [DecidableEq R] in
theorem pushes_reg (l : List R) : ∀ s : St R, (pushes l s).reg = s.reg := by
  induction l with
  | nil => exact fun _ => rfl
  | cons r l ih => exact fun s => ih (push r s)

omit [DecidableEq R] in
theorem pushes_eq (l : List R) : ∀ s : St R, pushes l s = pushvs (l.map s.reg) s := by
  induction l with
  | nil => exact fun _ => rfl
  | cons r l ih =>
    intro s
    show pushes l (push r s) = pushvs (l.map s.reg) (pushv (s.reg r) s)
    rw [ih]; rfl

omit [DecidableEq R] in
theorem pushvs_append (l l' : List Byte) : ∀ s : St R, pushvs (l ++ l') s = pushvs l' (pushvs l s) := by
  induction l with
  | nil => exact fun _ => rfl
  | cons r l ih => exact fun s => ih (pushv r s)

omit [DecidableEq R] in
theorem pushvs_reg (l : List Byte) : ∀ s : St R, (pushvs l s).reg = s.reg := by
  induction l with
  | nil => exact fun _ => rfl
  | cons r l ih => exact fun s => ih (pushv r s)

omit [DecidableEq R] in
theorem pushvs_sp (l : List Byte) : ∀ s : St R, (pushvs l s).sp = s.sp - BitVec.ofNat 16 l.length := by
  induction l with
  | nil => intro s; show s.sp = s.sp - 0#16; simp
  | cons r l ih =>
    intro s
    show (pushvs l (pushv r s)).sp = _
    rw [ih]
    show s.sp - 1 - BitVec.ofNat 16 l.length = s.sp - BitVec.ofNat 16 (l.length + 1)
    rw [BitVec.ofNat_add]; grind

omit [DecidableEq R] in
/-- memory not below the stack pointer (within the pushes) is as before -/
theorem pushvs_out (l : List Byte) (a : Addr) : ∀ s : St R, ¬ (s.sp - a).toNat < l.length →
    (pushvs l s).mem a = s.mem a := by
  induction l with
  | nil => exact fun _ _ => rfl
  | cons r l ih =>
    intro s h
    show (pushvs l (pushv r s)).mem a = _
    have h1 : a ≠ s.sp := fun e => h (by rw [e]; simp)
    rw [ih]
    · exact upd_ne _ _ h1
    · intro h2
      apply h
      have h3 : (s.sp - a) = (s.sp - 1 - a) + 1 := by grind
      have h4 : (s.sp - 1 - a).toNat < l.length := h2
      rw [h3, BitVec.toNat_add]
      have := Nat.mod_le ((s.sp - 1 - a).toNat + (1#16).toNat) (2 ^ 16)
      simp only [List.length_cons]
      have e1 : (1#16).toNat = 1 := rfl
      have e2 : (1 : Addr).toNat = 1 := rfl
      omega

omit [DecidableEq R] in
theorem pushvs_in (l : List Byte) (i : Nat) (hl : l.length ≤ 65536) (hi : i < l.length) : ∀ s : St R,
    (pushvs l s).mem (s.sp - BitVec.ofNat 16 i) = l[i] := by
  induction l generalizing i with
  | nil => exact absurd hi (by simp)
  | cons r l ih =>
    intro s
    show (pushvs l (pushv r s)).mem _ = _
    simp only [List.length_cons] at hl hi
    cases i with
    | zero =>
      rw [pushvs_out]
      · show upd s.mem s.sp r (s.sp - 0#16) = r
        rw [show s.sp - 0#16 = s.sp by simp, upd_same]
      · show ¬ (s.sp - 1 - (s.sp - 0#16)).toNat < _
        rw [show s.sp - 1 - (s.sp - 0#16) = -1#16 by grind]
        have : (-1#16).toNat = 65535 := by decide
        omega
    | succ i =>
      have h := ih i (by omega) (by omega) (pushv r s)
      rw [show (pushv r s).sp = s.sp - 1 from rfl] at h
      rw [show s.sp - BitVec.ofNat 16 (i + 1) = s.sp - 1 - BitVec.ofNat 16 i by rw [BitVec.ofNat_add]; grind, h]
      rfl

theorem pops_mem (l : List R) : ∀ s : St R, (pops l s).mem = s.mem := by
  induction l with
  | nil => exact fun _ => rfl
  | cons r l ih => exact fun s => ih (pop r s)

theorem pops_sp (l : List R) : ∀ s : St R, (pops l s).sp = s.sp + BitVec.ofNat 16 l.length := by
  induction l with
  | nil => intro s; show s.sp = s.sp + 0#16; simp
  | cons r l ih =>
    intro s
    show (pops l (pop r s)).sp = _
    rw [ih]
    show s.sp + 1 + BitVec.ofNat 16 l.length = s.sp + BitVec.ofNat 16 (l.length + 1)
    rw [BitVec.ofNat_add]; grind

theorem pops_out (l : List R) (r : R) (h : r ∉ l) : ∀ s : St R, (pops l s).reg r = s.reg r := by
  induction l with
  | nil => exact fun _ => rfl
  | cons q l ih =>
    intro s
    simp only [List.mem_cons, not_or] at h
    show (pops l (pop q s)).reg r = _
    rw [ih h.2]
    exact upd_ne _ _ h.1

theorem pops_in (l : List R) (hn : l.Nodup) (i : Nat) (hi : i < l.length) : ∀ s : St R,
    (pops l s).reg l[i] = s.mem (s.sp + 1 + BitVec.ofNat 16 i) := by
  induction l generalizing i with
  | nil => exact absurd hi (by simp)
  | cons q l ih =>
    intro s
    rw [List.nodup_cons] at hn
    show (pops l (pop q s)).reg _ = _
    cases i with
    | zero =>
      show (pops l (pop q s)).reg q = _
      rw [pops_out l q hn.1]
      show upd s.reg q (s.mem (s.sp + 1)) q = _
      rw [upd_same]; simp
    | succ i =>
      simp only [List.length_cons] at hi
      show (pops l (pop q s)).reg l[i] = _
      rw [ih hn.2 i (by omega)]
      show s.mem (s.sp + 1 + 1 + _) = _
      congr 1
      rw [BitVec.ofNat_add]; grind

/-- `t` is `s` after pushing the bytes `l`, registers aside -/
def Pushed (s : St R) (l : List Byte) (t : St R) : Prop := t.mem = (pushvs l s).mem ∧ t.sp = (pushvs l s).sp

omit [DecidableEq R] in
theorem Pushed.refl (s : St R) : Pushed s [] s := ⟨rfl, rfl⟩

omit [DecidableEq R] in
theorem Pushed.regs {s t : St R} {l : List Byte} (h : Pushed s l t) (f : R → Byte) :
    Pushed s l { t with reg := f } := h

omit [DecidableEq R] in
theorem pushvs_congr (l : List Byte) : ∀ s t : St R, s.mem = t.mem → s.sp = t.sp →
    (pushvs l s).mem = (pushvs l t).mem ∧ (pushvs l s).sp = (pushvs l t).sp := by
  induction l with
  | nil => exact fun s t h1 h2 => ⟨h1, h2⟩
  | cons v l ih =>
    intro s t h1 h2
    refine ih (pushv v s) (pushv v t) ?_ ?_
    · show upd s.mem s.sp v = upd t.mem t.sp v
      rw [h1, h2]
    · show s.sp - 1 = t.sp - 1
      rw [h2]

omit [DecidableEq R] in
theorem Pushed.pushes {s t : St R} {l : List Byte} (h : Pushed s l t) (L : List R) :
    Pushed s (l ++ L.map t.reg) (pushes L t) := by
  unfold Pushed
  rw [pushes_eq, pushvs_append]
  exact pushvs_congr _ _ _ h.1 h.2

theorem Pushed.cell {s t : St R} {L : List R} {V : R → Byte} (h : Pushed s (L.map V) t) (hl : L.length ≤ 65536) (r : R)
    (hr : r ∈ L) : t.mem (s.sp - BitVec.ofNat 16 (L.idxOf r)) = V r := by
  have hi := List.idxOf_lt_length_of_mem hr
  rw [h.1, pushvs_in _ _ (by rw [List.length_map]; omega) (by rw [List.length_map]; exact hi), List.getElem_map,
    List.getElem_idxOf]

omit [DecidableEq R] in
theorem Pushed.sp {s t : St R} {l : List Byte} (h : Pushed s l t) : t.sp = s.sp - BitVec.ofNat 16 l.length := by
  rw [h.2, pushvs_sp]

omit [DecidableEq R] in
theorem Pushed.out {s t : St R} {l : List Byte} (h : Pushed s l t) (a : Addr) (ha : ¬ (s.sp - a).toNat < l.length) :
    t.mem a = s.mem a := by
  rw [h.1]; exact pushvs_out _ _ _ ha

/-- bytes `h + 1 .. h + n` are the `n` bytes from `h + n` down -/
theorem frame_below (n : Nat) (hn : n < 65536) (p a : Addr) :
    (a - (p - BitVec.ofNat 16 n) + (-1#16)).toNat < (BitVec.ofNat 16 n).toNat ↔ (p - a).toNat < n := by
  rw [show a - (p - BitVec.ofNat 16 n) + (-1#16) = BitVec.ofNat 16 n - (p - a) - 1#16 by grind]
  generalize p - a = d
  have := d.isLt
  have e : (BitVec.ofNat 16 n).toNat = n := by
    rw [BitVec.toNat_ofNat, Nat.mod_eq_of_lt (by omega)]
  rw [BitVec.toNat_sub, BitVec.toNat_sub, e, show (1#16).toNat = 1 by decide]
  omega

/-! ## Ports with a frame of saved registers below the stack pointer -/

variable {Kind : Type}

/-- The effect of the code of such a port, register by register.  The frame saved at `h` is the `n` bytes from
`h - low` up; register `r` is at `h + off r`, restored through `dec r`; the task's stack pointer was `h + up`. -/
structure FrameEff (p : Port (St R) Addr Byte ((R → Byte) × Addr) Kind) (ok : St R → Prop) (low n up : Addr)
    (vis : R → Bool) (off : R → Addr) (dec : R → Byte → Byte) : Prop where
  mem : p.mem = St.mem
  ctx : p.ctx = fun x => (fun r => if vis r = true then x.reg r else 0, x.sp)
  frame : p.frame = fun h a => (a - h + low).toNat < n.toNat
  off_lt : ∀ r, vis r = true → (off r + low).toNat < n.toNat
  resume_sp : ∀ k c, (p.resume k c).2 = c.2
  resume_hidden : ∀ k c r, vis r = false → c.1 r = 0 → (p.resume k c).1 r = 0
  enter_arg : ∀ k s, ok s → p.arg (p.enter k s) = s.sp - up
  enter_cell : ∀ k s r, ok s → vis r = true → (∀ a, (a - (s.sp - up) + low).toNat < n.toNat → ¬ p.io a) →
    dec r ((p.enter k s).mem (s.sp - up + off r)) = (p.resume k (p.ctx s)).1 r
  enter_out : ∀ k s a, ok s → ¬ (a - (s.sp - up) + low).toNat < n.toNat → ¬ p.io a → (p.enter k s).mem a = s.mem a
  enter_csp : ∀ k s, ok s → p.csp k (p.enter k s) = p.ksp s
  leave_sp : ∀ k e, p.cok k e → (p.leave k e).sp = p.ret e + up
  leave_reg : ∀ k e r, p.cok k e → vis r = true → (∀ a, (a - p.ret e + low).toNat < n.toNat → ¬ p.io a) →
    (p.leave k e).reg r = dec r (e.mem (p.ret e + off r))
  leave_mem : ∀ k e a, p.cok k e → ¬ p.io a → (p.leave k e).mem a = e.mem a
  leave_ksp : ∀ k e, p.cok k e → p.ksp (p.leave k e) = p.csp k e

omit [DecidableEq R] in
/-- memory that holds, at the right offsets, the registers of a context holds that context -/
theorem FrameEff.holds {p : Port (St R) Addr Byte ((R → Byte) × Addr) Kind} {ok : St R → Prop} {low n up : Addr}
    {vis : R → Bool} {off : R → Addr} {dec : R → Byte → Byte} (F : FrameEff p ok low n up vis off dec) (h : Addr) (c : (R → Byte) × Addr)
    (m : St R) (hio : ∀ a, (a - h + low).toNat < n.toNat → ¬ p.io a) (hsp : c.2 = h + up)
    (hcl : ∀ r, vis r = true → dec r (m.mem (h + off r)) = c.1 r) (hh : ∀ r, vis r = false → c.1 r = 0) :
    p.Holds h c m := by
  refine ⟨by rw [F.frame]; exact hio, fun k e hc hr hm => ?_⟩
  rw [F.frame, F.mem] at hm
  rw [F.ctx]
  refine Prod.ext (funext fun r => ?_) ?_
  · simp only []
    by_cases hv : vis r = true
    · rw [if_pos hv, F.leave_reg k e r hc hv (by rw [hr]; exact hio), hr, hm _ (by
        show (h + off r - h + low).toNat < n.toNat
        rw [show h + off r - h + low = off r + low by grind]; exact F.off_lt r hv), hcl r hv]
    · rw [if_neg hv, hh r (by simpa using hv)]
  · show (p.leave k e).sp = c.2
    rw [F.leave_sp k e hc, hr, hsp]

omit [DecidableEq R] in
theorem FrameEff.sound {p : Port (St R) Addr Byte ((R → Byte) × Addr) Kind} {ok : St R → Prop} {low n up : Addr}
    {vis : R → Bool} {off : R → Addr} {dec : R → Byte → Byte} (F : FrameEff p ok low n up vis off dec) : p.Sound ok where
  restores := fun k s hok hio => by
    rw [F.frame, F.enter_arg k s hok] at hio
    rw [F.enter_arg k s hok]
    refine F.holds _ _ _ hio ?_ (fun r hv => F.enter_cell k s r hok hv hio) fun r hv => ?_
    · rw [F.resume_sp, F.ctx]; simp only []; grind
    · refine F.resume_hidden k _ r hv ?_
      rw [F.ctx]; simp [hv]
  saves_only_frame := fun k s a hok hf hio => by
    rw [F.frame, F.enter_arg k s hok] at hf
    rw [F.mem]
    exact F.enter_out k s a hok hf hio
  leaves_memory := fun k e a hc ha => by rw [F.mem]; exact F.leave_mem k e a hc ha
  kernel_stack := ⟨F.enter_csp, F.leave_ksp⟩

end Pico.Ctx8
