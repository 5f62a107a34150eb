import Verif.Drivers.Dmasg
/-
C115: scatter-gather DMA of the MPC57xx.
-/
namespace Pico.Dmasg
open Pico.Field

/-! ### Addresses -/

theorem place_zero (m : Nat) (a off : Addr) : place m a off 0 = a := by
  unfold place
  split
  · simp
  · rw [Nat.zero_mul, Nat.add_zero, Nat.div_add_mod']; simp

theorem lt_of_hi (m q : Nat) (hm : m < 32) (a r : Nat) (ha : a < 2 ^ 32) (hq : q = a / 2 ^ m) (hr : r < 2 ^ m) : q * 2 ^ m + r < 2 ^ 32 := by
  subst hq
  have e : 2 ^ 32 = 2 ^ (32 - m) * 2 ^ m := by rw [← Nat.pow_add]; congr 1; omega
  have h1 : a / 2 ^ m < 2 ^ (32 - m) := by
    apply (Nat.div_lt_iff_lt_mul (Nat.two_pow_pos m)).2; rw [← e]; exact ha
  have h2 : (a / 2 ^ m + 1) * 2 ^ m ≤ 2 ^ (32 - m) * 2 ^ m := Nat.mul_le_mul_right _ h1
  rw [← e, Nat.add_mul, Nat.one_mul] at h2
  omega

theorem nxt_place (m : Nat) (hm : m < 32) (a off : Addr) (k : Nat) : nxt m off (place m a off k) = place m a off (k + 1) := by
  unfold nxt place
  by_cases h : m = 0
  · simp only [h, if_true]
    apply BitVec.eq_of_toNat_eq
    simp only [BitVec.toNat_add, BitVec.toNat_ofNat, Nat.add_mul, Nat.one_mul]
    omega
  · simp only [h, if_false]
    have hp := Nat.two_pow_pos m
    have hlt := lt_of_hi m _ hm a.toNat ((a.toNat + k * off.toNat) % 2 ^ m) a.isLt rfl (Nat.mod_lt _ hp)
    rw [BitVec.toNat_ofNat, Nat.mod_eq_of_lt hlt]
    congr 1
    rw [Nat.add_comm (a.toNat / 2 ^ m * 2 ^ m), Nat.add_mul_div_right _ _ hp, Nat.div_eq_of_lt (Nat.mod_lt _ hp), Nat.zero_add,
      Nat.add_right_comm, Nat.add_mul_mod_self_right, Nat.mod_add_mod, Nat.add_assoc, ← Nat.succ_mul]

theorem nxtN_place (m : Nat) (hm : m < 32) (a off : Addr) (j : Nat) : ∀ k, nxtN m off j (place m a off k) = place m a off (k + j) := by
  induction j with
  | zero => intro k; rfl
  | succ j ih => intro k; rw [nxtN, nxt_place m hm, ih]; congr 1; omega

/-! ### The fields of ATTR -/

theorem attr_smod (a b c d : BitVec 32) :
    get 5 11 ((((a &&& 0x1f#32) <<< 11) ||| ((b &&& 0x1f#32) <<< 3) ||| ((c &&& 7#32) <<< 8) ||| (d &&& 7#32)).setWidth 16) = (a &&& 0x1f#32).setWidth 16 := by
  apply BitVec.eq_of_getLsbD_eq
  intro i hi
  rw [get_bit]
  have : i = 0 ∨ i = 1 ∨ i = 2 ∨ i = 3 ∨ i = 4 ∨ i = 5 ∨ i = 6 ∨ i = 7 ∨ i = 8 ∨ i = 9 ∨ i = 10 ∨ i = 11 ∨ i = 12 ∨ i = 13 ∨ i = 14 ∨ i = 15 := by omega
  rcases this with h | h | h | h | h | h | h | h | h | h | h | h | h | h | h | h <;> subst h <;> simp

theorem attr_dmod (a b c d : BitVec 32) :
    get 5 3 ((((a &&& 0x1f#32) <<< 11) ||| ((b &&& 0x1f#32) <<< 3) ||| ((c &&& 7#32) <<< 8) ||| (d &&& 7#32)).setWidth 16) = (b &&& 0x1f#32).setWidth 16 := by
  apply BitVec.eq_of_getLsbD_eq
  intro i hi
  rw [get_bit]
  have : i = 0 ∨ i = 1 ∨ i = 2 ∨ i = 3 ∨ i = 4 ∨ i = 5 ∨ i = 6 ∨ i = 7 ∨ i = 8 ∨ i = 9 ∨ i = 10 ∨ i = 11 ∨ i = 12 ∨ i = 13 ∨ i = 14 ∨ i = 15 := by omega
  rcases this with h | h | h | h | h | h | h | h | h | h | h | h | h | h | h | h <;> subst h <;> simp

theorem attr_scode (a b c d : BitVec 32) :
    get 3 8 ((((a &&& 0x1f#32) <<< 11) ||| ((b &&& 0x1f#32) <<< 3) ||| ((c &&& 7#32) <<< 8) ||| (d &&& 7#32)).setWidth 16) = (c &&& 7#32).setWidth 16 := by
  apply BitVec.eq_of_getLsbD_eq
  intro i hi
  rw [get_bit]
  have : i = 0 ∨ i = 1 ∨ i = 2 ∨ i = 3 ∨ i = 4 ∨ i = 5 ∨ i = 6 ∨ i = 7 ∨ i = 8 ∨ i = 9 ∨ i = 10 ∨ i = 11 ∨ i = 12 ∨ i = 13 ∨ i = 14 ∨ i = 15 := by omega
  rcases this with h | h | h | h | h | h | h | h | h | h | h | h | h | h | h | h <;> subst h <;> simp

theorem attr_dcode (a b c d : BitVec 32) :
    get 3 0 ((((a &&& 0x1f#32) <<< 11) ||| ((b &&& 0x1f#32) <<< 3) ||| ((c &&& 7#32) <<< 8) ||| (d &&& 7#32)).setWidth 16) = (d &&& 7#32).setWidth 16 := by
  apply BitVec.eq_of_getLsbD_eq
  intro i hi
  rw [get_bit]
  have : i = 0 ∨ i = 1 ∨ i = 2 ∨ i = 3 ∨ i = 4 ∨ i = 5 ∨ i = 6 ∨ i = 7 ∨ i = 8 ∨ i = 9 ∨ i = 10 ∨ i = 11 ∨ i = 12 ∨ i = 13 ∨ i = 14 ∨ i = 15 := by omega
  rcases this with h | h | h | h | h | h | h | h | h | h | h | h | h | h | h | h <;> subst h <;> simp

theorem low5 (n : Nat) (h : n < 32) : ((BitVec.ofNat 32 n &&& 0x1f#32).setWidth 16).toNat = n := by
  have : ∀ n : Fin 32, ((BitVec.ofNat 32 n.val &&& 0x1f#32).setWidth 16).toNat = n.val := by decide +kernel
  exact this ⟨n, h⟩

/-! ### A descriptor that holds a transfer -/

structure Conf (x : Xfer) (t : Tcd) : Prop where
  saddr : t.saddr = x.saddr
  daddr : t.daddr = x.daddr
  smod : t.smod = x.smod
  dmod : t.dmod = x.dmod
  ss : t.ss = x.ssize
  ds : t.ds = x.dsize
  sc : t.scode < 4
  dc : t.dcode < 4
  soff : t.soff.signExtend 32 = x.soff
  doff : t.doff.signExtend 32 = x.doff
  nbytes : t.nbytes = x.count
  slast : t.slast = x.slast
  dlast : t.dlast = x.dlast
  citer : t.citer = 1#16
  biter : t.biter = 1#16

theorem code_size (n : Nat) (h : n = 1 ∨ n = 2 ∨ n = 4 ∨ n = 8) : ((dataSize n &&& 7#32).setWidth 16).toNat < 4 ∧ 2 ^ ((dataSize n &&& 7#32).setWidth 16).toNat = n := by
  rcases h with h | h | h | h <;> subst h <;> decide

/-- the descriptor written by setup_tcd -/
def wr (x : Xfer) (t : Tcd) : Tcd :=
  { t with
    saddr := x.saddr
    attr := (attrOf x).setWidth 16
    soff := x.soff.setWidth 16
    nbytes := x.count
    citer := 1#16
    slast := x.slast
    daddr := x.daddr
    doff := x.doff.setWidth 16
    dlast := x.dlast
    biter := 1#16 }

theorem wr_conf (x : Xfer) (hv : x.Valid) (t : Tcd) : Conf x (wr x t) where
  saddr := rfl
  daddr := rfl
  smod := by
    show (get 5 11 ((attrOf x).setWidth 16)).toNat = _
    rw [attrOf, attr_smod]; exact low5 _ hv.sm
  dmod := by
    show (get 5 3 ((attrOf x).setWidth 16)).toNat = _
    rw [attrOf, attr_dmod]; exact low5 _ hv.dm
  ss := by
    show 2 ^ (get 3 8 ((attrOf x).setWidth 16)).toNat = _
    rw [attrOf, attr_scode]; exact (code_size _ hv.ss).2
  ds := by
    show 2 ^ (get 3 0 ((attrOf x).setWidth 16)).toNat = _
    rw [attrOf, attr_dcode]; exact (code_size _ hv.ds).2
  sc := by
    show (get 3 8 ((attrOf x).setWidth 16)).toNat < _
    rw [attrOf, attr_scode]; exact (code_size _ hv.ss).1
  dc := by
    show (get 3 0 ((attrOf x).setWidth 16)).toNat < _
    rw [attrOf, attr_dcode]; exact (code_size _ hv.ds).1
  soff := hv.so
  doff := hv.do_
  nbytes := rfl
  slast := rfl
  dlast := rfl
  citer := rfl
  biter := rfl

theorem Conf.ok {x : Xfer} (hv : x.Valid) {t : Tcd} (h : Conf x t) : t.ok := by
  refine ⟨h.sc, h.dc, ?_, ?_, ?_, ?_⟩
  · rw [h.nbytes]; exact hv.pos
  · rw [h.nbytes]; exact hv.lt
  · rw [h.nbytes, h.ss]; exact hv.sdiv
  · rw [h.nbytes, h.ds]; exact hv.ddiv

theorem Valid.next {x : Xfer} (hv : x.Valid) : x.next.Valid := ⟨hv.ss, hv.ds, hv.sm, hv.dm, hv.so, hv.do_, hv.pos, hv.lt, hv.sdiv, hv.ddiv⟩

theorem Valid.nth {x : Xfer} (hv : x.Valid) (n : Nat) : (x.nth n).Valid := by
  induction n generalizing x with
  | zero => exact hv
  | succ n ih => exact ih (Valid.next hv)

theorem nth_succ (x : Xfer) (n : Nat) : x.nth (n + 1) = (x.nth n).next := by
  induction n generalizing x with
  | zero => rfl
  | succ n ih => exact ih x.next

theorem rounds_succ (x : Xfer) (n : Nat) : Xfer.rounds (n + 1) x = Xfer.rounds n x ++ (x.nth n).wanted := by
  induction n generalizing x with
  | zero => simp [Xfer.rounds, Xfer.nth]
  | succ n ih =>
    show x.wanted ++ Xfer.rounds (n + 1) x.next = (x.wanted ++ Xfer.rounds n x.next) ++ (x.next.nth n).wanted
    rw [ih, List.append_assoc]

/-! ### Groups -/

theorem Valid.gpos {x : Xfer} (hv : x.Valid) : 0 < x.group := by
  unfold Xfer.group; rcases hv.ss with h | h | h | h <;> rw [h] <;> omega

theorem Valid.sg {x : Xfer} (hv : x.Valid) : x.ssize ∣ x.group := by
  unfold Xfer.group
  rcases hv.ss with h | h | h | h <;> rcases hv.ds with g | g | g | g <;> rw [h, g] <;> decide

theorem Valid.dg {x : Xfer} (hv : x.Valid) : x.dsize ∣ x.group := by
  unfold Xfer.group
  rcases hv.ss with h | h | h | h <;> rcases hv.ds with g | g | g | g <;> rw [h, g] <;> decide

theorem Valid.gdiv {x : Xfer} (hv : x.Valid) : x.count.toNat / x.group * x.group = x.count.toNat := by
  apply Nat.div_mul_cancel
  unfold Xfer.group
  rcases Nat.le_total x.ssize x.dsize with h | h
  · rw [Nat.max_eq_right h]; exact Nat.dvd_of_mod_eq_zero hv.ddiv
  · rw [Nat.max_eq_left h]; exact Nat.dvd_of_mod_eq_zero hv.sdiv

/-- number of groups -/
def Xfer.total (x : Xfer) : Nat := x.count.toNat / x.group

theorem Valid.total_pos {x : Xfer} (hv : x.Valid) : 0 < x.total := by
  have h := Valid.gdiv hv
  have hp := hv.pos
  rcases Nat.eq_zero_or_pos (x.count.toNat / x.group) with c | c
  · rw [c] at h; omega
  · exact c

def Xfer.grp (x : Xfer) (c : Nat) : List (Addr × Addr) := (List.range x.group).map fun j => (x.src (c * x.group + j), x.dst (c * x.group + j))

theorem wanted_eq (x : Xfer) : x.wanted = (List.range x.total).map x.grp := rfl

theorem wanted_take_succ (x : Xfer) (k : Nat) (h : k < x.total) : x.wanted.take (k + 1) = x.wanted.take k ++ [x.grp k] := by
  have t : ∀ k ≤ x.total, x.wanted.take k = (List.range k).map x.grp := by
    intro k hk; rw [wanted_eq, ← List.map_take, List.take_range, Nat.min_eq_left hk]
  rw [t _ h, t _ (by omega), List.range_succ, List.map_append]; rfl

theorem wanted_take_all (x : Xfer) : x.wanted.take x.total = x.wanted := by
  apply List.take_of_length_le; rw [wanted_eq]; simp

theorem Conf.group {x : Xfer} (hv : x.Valid) {t : Tcd} (h : Conf x t) (k : Nat) :
    groupAt t (place x.smod x.saddr x.soff (k * (x.group / x.ssize))) (place x.dmod x.daddr x.doff (k * (x.group / x.dsize))) = x.grp k := by
  unfold groupAt Xfer.grp Xfer.src Xfer.dst
  rw [h.ss, h.ds, h.smod, h.dmod, h.soff, h.doff]
  apply List.map_congr_left
  intro j _
  rw [nxtN_place _ hv.sm, nxtN_place _ hv.dm]
  obtain ⟨p, hp⟩ := Valid.sg hv
  obtain ⟨q, hq⟩ := Valid.dg hv
  have hs : 0 < x.ssize := by rcases hv.ss with h | h | h | h <;> omega
  have hd : 0 < x.dsize := by rcases hv.ds with h | h | h | h <;> omega
  have e1 : (k * x.group + j) / x.ssize = k * (x.group / x.ssize) + j / x.ssize := by
    rw [hp, Nat.mul_div_cancel_left _ hs, Nat.mul_left_comm, Nat.mul_add_div hs]
  have e2 : (k * x.group + j) / x.dsize = k * (x.group / x.dsize) + j / x.dsize := by
    rw [hq, Nat.mul_div_cancel_left _ hd, Nat.mul_left_comm, Nat.mul_add_div hd]
  have e3 : (k * x.group + j) % x.ssize = j % x.ssize := by rw [hp, Nat.mul_left_comm, Nat.mul_add_mod]
  have e4 : (k * x.group + j) % x.dsize = j % x.dsize := by rw [hq, Nat.mul_left_comm, Nat.mul_add_mod]
  rw [e1, e2, e3, e4]

/-! ### Phases of a channel -/

structure Idle (ch : Nat) (base : List (List (Addr × Addr))) (x : Xfer) (q : Bool) (n : Nat) (s : Bool) (e : Eng) : Prop where
  conf : Conf (x.nth n) (e.tcd ch)
  act : (e.tcd ch).active = false
  erq : (e.tcd ch).erq = q
  start : (e.tcd ch).start = s
  log : e.log ch = base ++ Xfer.rounds n x

structure Busy (ch : Nat) (base : List (List (Addr × Addr))) (x : Xfer) (q : Bool) (n k : Nat) (s : Bool) (e : Eng) : Prop where
  conf : Conf (x.nth n) (e.tcd ch)
  act : (e.tcd ch).active = true
  erq : (e.tcd ch).erq = q
  start : (e.tcd ch).start = s
  lt : k < (x.nth n).total
  run : e.run = some ⟨ch, place (x.nth n).smod (x.nth n).saddr (x.nth n).soff (k * ((x.nth n).group / (x.nth n).ssize)),
    place (x.nth n).dmod (x.nth n).daddr (x.nth n).doff (k * ((x.nth n).group / (x.nth n).dsize)), (x.nth n).count.toNat - k * (x.nth n).group⟩
  log : e.log ch = base ++ Xfer.rounds n x ++ (x.nth n).wanted.take k

@[simp] theorem updT_same (e : Eng) (ch : Nat) (f : Tcd → Tcd) : (updT e ch f).tcd ch = f (e.tcd ch) := by simp [updT]
theorem updT_other (e : Eng) (ch c : Nat) (f : Tcd → Tcd) (h : c ≠ ch) : (updT e ch f).tcd c = e.tcd c := by simp [updT, h]
@[simp] theorem updT_run (e : Eng) (ch : Nat) (f : Tcd → Tcd) : (updT e ch f).run = e.run := rfl
@[simp] theorem updT_log (e : Eng) (ch : Nat) (f : Tcd → Tcd) : (updT e ch f).log = e.log := rfl

/-- calls on another channel leave this one -/
theorem setupTcd_other (c ch : Nat) (x : Xfer) (e : Eng) (h : ch ≠ c) :
    (setupTcd c x e).2.tcd ch = e.tcd ch ∧ (setupTcd c x e).2.run = e.run ∧ (setupTcd c x e).2.log = e.log := by
  simp only [setupTcd]
  split
  · exact ⟨by simp [updT, h], rfl, rfl⟩
  · exact ⟨by rw [updT_other _ _ _ _ h, updT_other _ _ _ _ h], rfl, rfl⟩

theorem setup_other (c ch : Nat) (x : Xfer) (e : Eng) (h : ch ≠ c) (hc : c < 64) :
    (setup c x e).2.tcd ch = e.tcd ch ∧ (setup c x e).2.run = e.run ∧ (setup c x e).2.log = e.log := by
  simp only [setup, Nat.mod_eq_of_lt hc]
  obtain ⟨h1, h2, h3⟩ := setupTcd_other c ch x e h
  split
  · exact ⟨h1, h2, h3⟩
  · exact ⟨by rw [updT_other _ _ _ _ h, h1], h2, h3⟩

theorem xfer_other (c ch : Nat) (x : Xfer) (e : Eng) (h : ch ≠ c) (hc : c < 64) :
    (xfer c x e).2.tcd ch = e.tcd ch ∧ (xfer c x e).2.run = e.run ∧ (xfer c x e).2.log = e.log := by
  simp only [xfer, Nat.mod_eq_of_lt hc]
  obtain ⟨h1, h2, h3⟩ := setupTcd_other c ch x (updT e c (fun t => { t with done := false })) h
  rw [updT_other _ _ _ _ h] at h1
  split
  · exact ⟨rfl, rfl, rfl⟩
  · split
    · exact ⟨h1, h2, h3⟩
    · exact ⟨by rw [updT_other _ _ _ _ h, h1], h2, h3⟩

/-- what an event leaves of a channel that it spares -/
theorem Idle.congr {ch base x q n s} {e e' : Eng} (h : Idle ch base x q n s e) (ht : e'.tcd ch = e.tcd ch) (hl : e'.log ch = e.log ch) : Idle ch base x q n s e' :=
  ⟨by rw [ht]; exact h.conf, by rw [ht]; exact h.act, by rw [ht]; exact h.erq, by rw [ht]; exact h.start, by rw [hl]; exact h.log⟩

theorem Busy.congr {ch base x q n k s} {e e' : Eng} (h : Busy ch base x q n k s e) (ht : e'.tcd ch = e.tcd ch) (hr : e'.run = e.run) (hl : e'.log ch = e.log ch) :
    Busy ch base x q n k s e' :=
  ⟨by rw [ht]; exact h.conf, by rw [ht]; exact h.act, by rw [ht]; exact h.erq, by rw [ht]; exact h.start, h.lt, by rw [hr]; exact h.run, by rw [hl]; exact h.log⟩

theorem Conf.flags {x t} (h : Conf x t) (s a d : Bool) : Conf x { t with start := s, active := a, done := d } :=
  ⟨h.saddr, h.daddr, h.smod, h.dmod, h.ss, h.ds, h.sc, h.dc, h.soff, h.doff, h.nbytes, h.slast, h.dlast, h.citer, h.biter⟩

theorem Conf.starts {x t} (h : Conf x t) (s : Bool) : Conf x { t with start := s } :=
  ⟨h.saddr, h.daddr, h.smod, h.dmod, h.ss, h.ds, h.sc, h.dc, h.soff, h.doff, h.nbytes, h.slast, h.dlast, h.citer, h.biter⟩

theorem request_other (c ch : Nat) (e : Eng) (h : ch ≠ c) : (request c e).tcd ch = e.tcd ch := updT_other _ _ _ _ h

theorem arb_other (c ch : Nat) (e : Eng) (h : ch ≠ c) : (arb c e).tcd ch = e.tcd ch ∧ (arb c e).log = e.log := by
  unfold arb
  split
  · exact ⟨rfl, rfl⟩
  · split
    · split
      · exact ⟨by simp [updT, h], rfl⟩
      · exact ⟨by simp [updT, h], rfl⟩
    · exact ⟨rfl, rfl⟩

theorem unit_other (ch : Nat) (e : Eng) (h : ∀ r, e.run = some r → ch ≠ r.ch) : (unit e).tcd ch = e.tcd ch ∧ (unit e).log ch = e.log ch := by
  unfold unit
  split
  · exact ⟨rfl, rfl⟩
  · rename_i r hr
    have h := h r hr
    simp only []
    split
    · exact ⟨by simp [updT, h], by simp [h]⟩
    · exact ⟨rfl, by simp [h]⟩

theorem request_idle {ch base x q n s} {e : Eng} (h : Idle ch base x q n s e) : Idle ch base x q n (q || s) (request ch e) := by
  have e1 : (request ch e).tcd ch = if q then { e.tcd ch with start := true } else e.tcd ch := by
    simp [request, h.erq]
  cases q
  · exact h.congr e1 rfl
  · refine ⟨?_, ?_, ?_, ?_, h.log⟩
    · rw [e1]; exact h.conf.starts true
    · rw [e1]; exact h.act
    · rw [e1]; exact h.erq
    · rw [e1]; rfl

theorem request_busy {ch base x q n k s} {e : Eng} (h : Busy ch base x q n k s e) : Busy ch base x q n k (q || s) (request ch e) := by
  have e1 : (request ch e).tcd ch = if q then { e.tcd ch with start := true } else e.tcd ch := by
    simp [request, h.erq]
  cases q
  · exact h.congr e1 rfl rfl
  · refine ⟨?_, ?_, ?_, ?_, h.lt, h.run, h.log⟩
    · rw [e1]; exact h.conf.starts true
    · rw [e1]; exact h.act
    · rw [e1]; exact h.erq
    · rw [e1]; rfl

theorem arb_idle {ch base x q n s} {e : Eng} (hv : x.Valid) (h : Idle ch base x q n s e) :
    Idle ch base x q n s (arb ch e) ∨ (s = true ∧ Busy ch base x q n 0 false (arb ch e)) := by
  unfold arb
  split
  · exact .inl h
  · by_cases hs : (e.tcd ch).start = true
    · rw [if_pos hs, if_pos (h.conf.ok (Valid.nth hv n))]
      refine .inr ⟨by rw [← h.start]; exact hs, ?_, ?_, ?_, ?_, Valid.total_pos (Valid.nth hv n), ?_, ?_⟩
      · simp only [updT_same]; exact h.conf.flags _ _ _
      · simp
      · simp [h.erq]
      · simp
      · simp only [Nat.zero_mul, place_zero, h.conf.saddr, h.conf.daddr, h.conf.nbytes, Nat.sub_zero]
      · simp [h.log]
    · rw [if_neg hs]; exact .inl h

theorem arb_busy {ch base x q n k s} {e : Eng} (c : Nat) (h : Busy ch base x q n k s e) : arb c e = e := by
  simp [arb, h.run]

theorem finish_eq {x t} (h : Conf x t) (sa da : Addr) :
    t.finish sa da = { t with saddr := sa + t.slast, daddr := da + t.dlast, citer := t.biter, active := false, done := true } := by
  rw [Tcd.finish, if_pos h.citer]

theorem unit_busy {ch base x q n k s} {e : Eng} (hv : x.Valid) (h : Busy ch base x q n k s e) :
    (k + 1 < (x.nth n).total ∧ Busy ch base x q n (k + 1) s (unit e)) ∨
    (k + 1 = (x.nth n).total ∧ Idle ch base x q (n + 1) s (unit e) ∧ ((unit e).tcd ch).done = true ∧ (unit e).run = none) := by
  have hvn := Valid.nth hv n
  have hc := h.conf
  have hg := Valid.gdiv hvn
  have hgp := Valid.gpos hvn
  have hw : max (e.tcd ch).ss (e.tcd ch).ds = (x.nth n).group := by rw [hc.ss, hc.ds]; rfl
  have hlt := h.lt
  have e1 : unit e =
      if (x.nth n).count.toNat - k * (x.nth n).group ≤ (x.nth n).group then
        { updT { e with log := fun c => if c = ch then e.log c ++ [(x.nth n).grp k] else e.log c } ch
          (fun t => t.finish (place (x.nth n).smod (x.nth n).saddr (x.nth n).soff ((k + 1) * ((x.nth n).group / (x.nth n).ssize)))
            (place (x.nth n).dmod (x.nth n).daddr (x.nth n).doff ((k + 1) * ((x.nth n).group / (x.nth n).dsize)))) with run := none }
      else
        { e with
          log := fun c => if c = ch then e.log c ++ [(x.nth n).grp k] else e.log c
          run := some ⟨ch, place (x.nth n).smod (x.nth n).saddr (x.nth n).soff ((k + 1) * ((x.nth n).group / (x.nth n).ssize)),
            place (x.nth n).dmod (x.nth n).daddr (x.nth n).doff ((k + 1) * ((x.nth n).group / (x.nth n).dsize)), (x.nth n).count.toNat - (k + 1) * (x.nth n).group⟩ } := by
    unfold unit
    rw [h.run]
    simp only [hw]
    rw [hc.group hvn k, hc.ss, hc.ds, hc.smod, hc.dmod, hc.soff, hc.doff, nxtN_place _ hvn.sm, nxtN_place _ hvn.dm, Nat.add_mul, Nat.one_mul, Nat.add_mul, Nat.one_mul,
      Nat.add_mul, Nat.one_mul, Nat.sub_sub]
  have hk : (k + 1) * (x.nth n).group = k * (x.nth n).group + (x.nth n).group := by rw [Nat.add_mul, Nat.one_mul]
  have htot : (x.nth n).total * (x.nth n).group = (x.nth n).count.toNat := hg
  by_cases hl : k + 1 < (x.nth n).total
  · have h3 : (k + 1 + 1) * (x.nth n).group ≤ (x.nth n).total * (x.nth n).group := Nat.mul_le_mul_right _ hl
    rw [Nat.add_mul, Nat.one_mul] at h3
    rw [if_neg (by omega)] at e1
    refine .inl ⟨hl, ?_⟩
    rw [e1]
    refine ⟨hc, h.act, h.erq, h.start, hl, rfl, ?_⟩
    show (if ch = ch then e.log ch ++ [(x.nth n).grp k] else e.log ch) = _
    rw [if_pos rfl, h.log, wanted_take_succ _ _ h.lt, List.append_assoc]
  · have h2 : k + 1 = (x.nth n).total := by omega
    have h3 : (k + 1) * (x.nth n).group = (x.nth n).count.toNat := by rw [h2]; exact htot
    rw [if_pos (by omega)] at e1
    have q1 : (k + 1) * ((x.nth n).group / (x.nth n).ssize) = (x.nth n).count.toNat / (x.nth n).ssize := by
      rw [← h3, Nat.mul_div_assoc _ (Valid.sg hvn)]
    have q2 : (k + 1) * ((x.nth n).group / (x.nth n).dsize) = (x.nth n).count.toNat / (x.nth n).dsize := by
      rw [← h3, Nat.mul_div_assoc _ (Valid.dg hvn)]
    rw [q1, q2] at e1
    refine .inr ⟨h2, ?_, ?_, by rw [e1]⟩
    · rw [e1]
      refine ⟨?_, ?_, ?_, ?_, ?_⟩
      · simp only [updT_same, finish_eq hc, nth_succ]
        exact ⟨by rw [hc.slast]; rfl, by rw [hc.dlast]; rfl, hc.smod, hc.dmod, hc.ss, hc.ds, hc.sc, hc.dc, hc.soff, hc.doff, hc.nbytes, hc.slast, hc.dlast, hc.biter, hc.biter⟩
      · simp [finish_eq hc]
      · simp [finish_eq hc, h.erq]
      · simp [finish_eq hc, h.start]
      · show (if ch = ch then e.log ch ++ [(x.nth n).grp k] else e.log ch) = _
        rw [if_pos rfl, h.log, rounds_succ, List.append_assoc, ← wanted_take_succ _ _ h.lt, h2, wanted_take_all, List.append_assoc]
    · rw [e1]; simp [finish_eq hc]

end Pico.Dmasg
