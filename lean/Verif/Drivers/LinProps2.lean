import Verif.Drivers.LinProps
/-
C114: reading, slaves, bit rate.
-/
namespace Pico.Lin
open Pico.Field

/-! ## Reading, master -/

/-- BIDR after lin_read -/
def rbidr (id n : Nat) : BitVec 32 := bset 8 (orIn 3 10 (BitVec.ofNat 32 (n - 1)) (orIn 6 0 (BitVec.ofNat 32 id) 0))

theorem bidr_read (id n : Nat) (hid : id < 64) (hn : 1 ≤ n) (hn8 : n ≤ 8) :
    (get 6 0 (rbidr id n)).toNat = id ∧ (get 3 10 (rbidr id n)).toNat = n - 1 ∧ (rbidr id n).getLsbD 9 = false := by
  unfold rbidr
  refine ⟨?_, ?_, ?_⟩
  · rw [get_bset_other 8 6 0 _ (by omega), get_orIn_other 3 10 6 0 _ _ (by omega), get_orIn_or 6 0 _ _ (by omega), small 6 id (by omega) (by omega)]
    rw [show get 6 0 (0 : BitVec 32) = 0 by decide, BitVec.toNat_or, toNat_small id (by omega)]
    exact Nat.zero_or id
  · rw [get_bset_other 8 3 10 _ (by omega), get_orIn_or 3 10 _ _ (by omega), get_orIn_other 6 0 3 10 _ _ (by omega), small 3 (n - 1) (by omega) (by omega)]
    rw [show get 3 10 (0 : BitVec 32) = 0 by decide, BitVec.toNat_or, toNat_small (n - 1) (by omega)]
    exact Nat.zero_or _
  · rw [bset_ne _ _ _ (by omega), orIn_bit _ _ _ _ _ (by omega), orIn_bit _ _ _ _ _ (by omega)]
    simp

/-- the state after a call of lin_read that asks -/
def rst (id n : Nat) (s : St) : St := { s with xfer := true, bidr := rbidr id n, sent := s.sent ++ [header id n], tx := false, rx := true }

theorem readIdle_eq (id n : Nat) (hid : id < 64) (hn : 1 ≤ n) (hn8 : n ≤ 8) (s : St) : readIdle id n s = (rst id n s, .eagain) := by
  obtain ⟨h1, h2, h3⟩ := bidr_read id n hid hn hn8
  have hf : frame { s with bidr := rbidr id n } = header id n := by
    unfold frame header
    dsimp only
    rw [h1, h2, h3, show n - 1 + 1 = n by omega]
    rfl
  show ({ htrq { s with bidr := rbidr id n } with xfer := true }, Res.eagain) = _
  unfold htrq rst
  rw [hf]
  dsimp only
  rw [h3]
  rfl

/-- before; asked for; answered; answered badly; to be asked again; over -/
inductive RPh (id n : Nat) (s0 : St) (buf0 : Nat → Byte) (c : RCl) : Prop where
  | before (hr : c.res = none) (hs : c.st = s0) (hb : c.buf = buf0)
  | asked (hr : c.res = some .eagain) (hb : c.buf = buf0) (hx : c.st.xfer = true) (ht : c.st.tx = false) (hrx : c.st.rx = true) (hd : c.st.drf = false) (hc : c.st.cef = false)
      (hi : c.st.bidr = rbidr id n) (hs : ∃ k, c.st.sent = s0.sent ++ List.replicate (k + 1) (header id n))
  | answered (d : Nat → Byte) (hr : c.res = some .eagain) (hb : c.buf = buf0) (hx : c.st.xfer = true) (ht : c.st.tx = false) (hrx : c.st.rx = false) (hd : c.st.drf = true)
      (hc : c.st.cef = false) (hi : c.st.bidr = rbidr id n) (hl : c.st.bdrl = bdrL 8 d) (hm : c.st.bdrm = bdrM 8 d) (hg : c.got = some d)
      (hs : ∃ k, c.st.sent = s0.sent ++ List.replicate (k + 1) (header id n))
  | badly (hr : c.res = some .eagain) (hb : c.buf = buf0) (hx : c.st.xfer = true) (ht : c.st.tx = false) (hrx : c.st.rx = false) (hd : c.st.drf = false) (hc : c.st.cef = true)
      (hs : ∃ k, c.st.sent = s0.sent ++ List.replicate (k + 1) (header id n))
  | again (hr : c.res = some .eagain) (hb : c.buf = buf0) (hx : c.st.xfer = false) (ht : c.st.tx = false) (hrx : c.st.rx = false) (hd : c.st.drf = false) (hc : c.st.cef = false)
      (hs : ∃ k, c.st.sent = s0.sent ++ List.replicate (k + 1) (header id n))
  | over (d : Nat → Byte) (hr : c.res = some (.ok n)) (hb : c.buf = fun k => if k < n then d k else buf0 k) (hx : c.st.xfer = false) (ht : c.st.tx = false) (hrx : c.st.rx = false)
      (hd : c.st.drf = false) (hc : c.st.cef = false) (hg : c.got = some d) (hs : ∃ k, c.st.sent = s0.sent ++ List.replicate (k + 1) (header id n))

theorem rph_step {id n : Nat} (hid : id < 64) (hn : 1 ≤ n) (hn8 : n ≤ 8) {s0 : St} {buf0 : Nat → Byte} (h0 : Rest s0) (c : RCl) (e : Ev) (h : RPh id n s0 buf0 c) :
    RPh id n s0 buf0 (rstep id n c e) := by
  obtain ⟨s, buf, r, g⟩ := c
  obtain ⟨z1, z2, z3, z4, z5, z6⟩ := h0
  have htx : s.tx = false := by
    rcases h with ⟨hr, hs, hb⟩ | ⟨hr, hb, hx, ht, hrx, hd, hc, hi, hs⟩ | ⟨d, hr, hb, hx, ht, hrx, hd, hc, hi, hl, hm, hg, hs⟩ | ⟨hr, hb, hx, ht, hrx, hd, hc, hs⟩ |
      ⟨hr, hb, hx, ht, hrx, hd, hc, hs⟩ | ⟨d, hr, hb, hx, ht, hrx, hd, hc, hg, hs⟩
    · dsimp only at hs; rw [hs]; exact z2
    all_goals exact ht
  cases e with
  | sentData =>
    have e : rstep id n ⟨s, buf, r, g⟩ .sentData = ⟨s, buf, r, g⟩ := by
      show (⟨bus .sentData s, buf, r, g⟩ : RCl) = _; simp [bus, htx]
    rw [e]; exact h
  | answer x =>
    show RPh id n s0 buf0 ⟨bus (.answer x) s, buf, r, if s.rx then some x else g⟩
    unfold bus
    dsimp only
    rcases h with ⟨hr, hs, hb⟩ | ⟨hr, hb, hx, ht, hrx, hd, hc, hi, hs⟩ | ⟨d, hr, hb, hx, ht, hrx, hd, hc, hi, hl, hm, hg, hs⟩ | ⟨hr, hb, hx, ht, hrx, hd, hc, hs⟩ |
      ⟨hr, hb, hx, ht, hrx, hd, hc, hs⟩ | ⟨d, hr, hb, hx, ht, hrx, hd, hc, hg, hs⟩
    · dsimp only at hr hs hb
      rw [hs, z3]; exact .before hr rfl hb
    all_goals dsimp only at hrx; rw [hrx]
    · exact .answered x hr hb hx ht rfl rfl hc hi rfl rfl rfl hs
    · exact .answered d hr hb hx ht hrx hd hc hi hl hm hg hs
    · exact .badly hr hb hx ht hrx hd hc hs
    · exact .again hr hb hx ht hrx hd hc hs
    · exact .over d hr hb hx ht hrx hd hc hg hs
  | badAnswer =>
    show RPh id n s0 buf0 ⟨bus .badAnswer s, buf, r, g⟩
    unfold bus
    dsimp only
    rcases h with ⟨hr, hs, hb⟩ | ⟨hr, hb, hx, ht, hrx, hd, hc, hi, hs⟩ | ⟨d, hr, hb, hx, ht, hrx, hd, hc, hi, hl, hm, hg, hs⟩ | ⟨hr, hb, hx, ht, hrx, hd, hc, hs⟩ |
      ⟨hr, hb, hx, ht, hrx, hd, hc, hs⟩ | ⟨d, hr, hb, hx, ht, hrx, hd, hc, hg, hs⟩
    · dsimp only at hr hs hb
      rw [hs, z3]; exact .before hr rfl hb
    all_goals dsimp only at hrx; rw [hrx]
    · exact .badly hr hb hx ht rfl hd rfl hs
    · exact .answered d hr hb hx ht hrx hd hc hi hl hm hg hs
    · exact .badly hr hb hx ht hrx hd hc hs
    · exact .again hr hb hx ht hrx hd hc hs
    · exact .over d hr hb hx ht hrx hd hc hg hs
  | call =>
    have hcall : (r = none ∨ r = some .eagain) → rstep id n ⟨s, buf, r, g⟩ .call = ⟨(read id n buf s).1, (read id n buf s).2.1, some (read id n buf s).2.2, g⟩ := by
      intro hc; show (if r = none ∨ r = some .eagain then _ else _) = _; rw [if_pos hc]
    have hxfer : s.xfer = true → read id n buf s = readXfer n buf s := by
      intro hx; unfold read; rw [if_neg (by omega), hx]; rfl
    have hidle : s.xfer = false → read id n buf s = (rst id n s, buf, .eagain) := by
      intro hx; unfold read; rw [if_neg (by omega), hx, readIdle_eq id n hid hn hn8]; rfl
    rcases h with ⟨hr, hs, hb⟩ | ⟨hr, hb, hx, ht, hrx, hd, hc, hi, hs⟩ | ⟨d, hr, hb, hx, ht, hrx, hd, hc, hi, hl, hm, hg, hs⟩ | ⟨hr, hb, hx, ht, hrx, hd, hc, hs⟩ |
      ⟨hr, hb, hx, ht, hrx, hd, hc, hs⟩ | ⟨d, hr, hb, hx, ht, hrx, hd, hc, hg, hs⟩ <;> dsimp only at *
    · rw [hcall (.inl hr)]
      subst hs
      rw [hidle z1]
      exact .asked rfl hb rfl rfl rfl z5 z6 rfl ⟨0, rfl⟩
    · rw [hcall (.inr hr), hxfer hx]
      unfold readXfer
      rw [hc, if_neg (fun h => Bool.noConfusion h), if_pos hd]
      exact .asked rfl hb hx ht hrx hd hc hi hs
    · rw [hcall (.inr hr), hxfer hx]
      unfold readXfer
      rw [hc, if_neg (fun h => Bool.noConfusion h), if_neg (by rw [hd]; exact fun h => Bool.noConfusion h), hi, (bidr_read id n hid hn hn8).2.1, show n - 1 + 1 = n by omega, Nat.min_self]
      refine .over d rfl ?_ rfl ht hrx rfl rfl hg hs
      funext k
      show (if k < n then byteOf s k else buf k) = _
      by_cases hk : k < n
      · rw [if_pos hk, if_pos hk, byteOf_bdr s 8 d hl hm k (by omega) (by omega)]
      · rw [if_neg hk, if_neg hk, hb]
    · rw [hcall (.inr hr), hxfer hx]
      unfold readXfer
      rw [hc, if_pos rfl]
      exact .again rfl hb rfl ht hrx hd rfl hs
    · rw [hcall (.inr hr), hidle hx]
      obtain ⟨k, hk⟩ := hs
      refine .asked rfl hb rfl rfl rfl hd hc rfl ⟨k + 1, ?_⟩
      show s.sent ++ [header id n] = _
      rw [hk, List.append_assoc, ← List.replicate_succ']
    · have e : rstep id n ⟨s, buf, r, g⟩ .call = ⟨s, buf, r, g⟩ := by
        show (if r = none ∨ r = some .eagain then _ else _) = _
        rw [if_neg (by rw [hr]; simp)]
      rw [e]
      exact .over d hr hb hx ht hrx hd hc hg hs

/-- **lin_read, master**, of an interface at rest, whatever it sent before: called until it does not return -EAGAIN, at any times: nothing is put on the bus but headers with that id that ask
for n bytes; when it returns n, the slave has answered with a right checksum and the first n bytes of the buffer are its answer; the rest of the buffer, and before that all of it,
is left alone. -/
theorem lin_read_master {id n : Nat} (hid : id < 64) (hn : 1 ≤ n) (hn8 : n ≤ 8) (buf : Nat → Byte) (s : St) (h0 : Rest s) (l : List Ev) :
    let c := rrun id n l ⟨s, buf, none, none⟩
    (c.res = none ∨ c.res = some .eagain ∨ c.res = some (.ok n)) ∧ (∃ k, c.st.sent = s.sent ++ List.replicate k (header id n)) ∧
    (c.res = some (.ok n) → c.st.xfer = false ∧ ∃ d, c.got = some d ∧ c.buf = fun k => if k < n then d k else buf k) ∧
    (c.res ≠ some (.ok n) → c.buf = buf) := by
  have key : ∀ (l : List Ev) (c : RCl), RPh id n s buf c → RPh id n s buf (rrun id n l c) := by
    intro l
    induction l with
    | nil => intro c h; exact h
    | cons e l ih => intro c h; exact ih _ (rph_step hid hn hn8 h0 c e h)
  have h := key l ⟨s, buf, none, none⟩ (.before rfl rfl rfl)
  dsimp only
  generalize rrun id n l ⟨s, buf, none, none⟩ = c at h
  rcases h with ⟨hr, hs, hb⟩ | ⟨hr, hb, hx, ht, hrx, hd, hc, hi, k, hs⟩ | ⟨d, hr, hb, hx, ht, hrx, hd, hc, hi, hl, hm, hg, k, hs⟩ | ⟨hr, hb, hx, ht, hrx, hd, hc, k, hs⟩ |
    ⟨hr, hb, hx, ht, hrx, hd, hc, k, hs⟩ | ⟨d, hr, hb, hx, ht, hrx, hd, hc, hg, k, hs⟩
  · exact ⟨.inl hr, ⟨0, by rw [hs]; simp⟩, (fun h => by rw [hr] at h; cases h), (fun _ => hb)⟩
  · exact ⟨.inr (.inl hr), ⟨_, hs⟩, (fun h => by rw [hr] at h; cases h), (fun _ => hb)⟩
  · exact ⟨.inr (.inl hr), ⟨_, hs⟩, (fun h => by rw [hr] at h; cases h), (fun _ => hb)⟩
  · exact ⟨.inr (.inl hr), ⟨_, hs⟩, (fun h => by rw [hr] at h; cases h), (fun _ => hb)⟩
  · exact ⟨.inr (.inl hr), ⟨_, hs⟩, (fun h => by rw [hr] at h; cases h), (fun _ => hb)⟩
  · exact ⟨.inr (.inr hr), ⟨_, hs⟩, fun _ => ⟨hx, d, hg, hb⟩, fun h => absurd hr h⟩

/-- it ends, after any number of answers with a wrong checksum: one call more for each -/
theorem lin_read_ends {id n : Nat} (hid : id < 64) (hn : 1 ≤ n) (hn8 : n ≤ 8) (d : Nat → Byte) : ∀ (bad : Nat) (c : RCl), Rest c.st → (c.res = none ∨ c.res = some .eagain) →
    (rrun id n ((List.replicate bad [Ev.call, .badAnswer, .call]).flatten ++ [.call, .answer d, .call]) c).res = some (.ok n) := by
  have hask : ∀ c : RCl, Rest c.st → (c.res = none ∨ c.res = some .eagain) → rstep id n c .call = ⟨rst id n c.st, c.buf, some .eagain, c.got⟩ := by
    intro c h0 hr
    show (if c.res = none ∨ c.res = some .eagain then _ else _) = _
    rw [if_pos hr]
    have : read id n c.buf c.st = (rst id n c.st, c.buf, .eagain) := by
      unfold read; rw [if_neg (by omega), h0.1, readIdle_eq id n hid hn hn8]; rfl
    rw [this]
  intro bad
  induction bad with
  | zero =>
    intro c h0 hr
    obtain ⟨s, buf, r, g⟩ := c
    show (rstep id n (rstep id n (rstep id n ⟨s, buf, r, g⟩ .call) (.answer d)) .call).res = _
    rw [hask _ h0 hr]
    obtain ⟨z1, z2, z3, z4, z5, z6⟩ := h0
    dsimp only at z6
    have e : rstep id n (⟨rst id n s, buf, some .eagain, g⟩ : RCl) (.answer d) =
        ⟨{ rst id n s with rx := false, drf := true, bdrl := bdrL 8 d, bdrm := bdrM 8 d }, buf, some .eagain, some d⟩ := rfl
    show (rstep id n (rstep id n ⟨rst id n s, buf, some .eagain, g⟩ (.answer d)) .call).res = _
    rw [e]
    show some (read id n buf { rst id n s with rx := false, drf := true, bdrl := bdrL 8 d, bdrm := bdrM 8 d }).2.2 = _
    generalize hq : ({ rst id n s with rx := false, drf := true, bdrl := bdrL 8 d, bdrm := bdrM 8 d } : St) = q
    have q1 : q.xfer = true := by rw [← hq]; rfl
    have q2 : q.cef = false := by rw [← hq]; exact z6
    have q3 : q.drf = true := by rw [← hq]
    have q4 : (get 3 10 q.bidr).toNat = n - 1 := by rw [← hq]; exact (bidr_read id n hid hn hn8).2.1
    unfold read
    rw [if_neg (by omega), if_pos q1]
    unfold readXfer
    rw [q2, if_neg (fun h => Bool.noConfusion h), if_neg (by rw [q3]; exact fun h => Bool.noConfusion h)]
    show some (Res.ok (min ((get 3 10 q.bidr).toNat + 1) n)) = _
    rw [q4, show n - 1 + 1 = n by omega, Nat.min_self]
  | succ bad ih =>
    intro c h0 hr
    rw [List.replicate_succ, List.flatten_cons, List.append_assoc]
    show (rrun id n _ (rstep id n (rstep id n (rstep id n c .call) .badAnswer) .call)).res = _
    rw [hask _ h0 hr]
    obtain ⟨z1, z2, z3, z4, z5, z6⟩ := h0
    have e : rstep id n (rstep id n ⟨rst id n c.st, c.buf, some .eagain, c.got⟩ .badAnswer) .call =
        ⟨{ rst id n c.st with rx := false, xfer := false, cef := false }, c.buf, some .eagain, c.got⟩ := by
      show (⟨(read id n c.buf (bus .badAnswer (rst id n c.st))).1, (read id n c.buf (bus .badAnswer (rst id n c.st))).2.1, some (read id n c.buf (bus .badAnswer (rst id n c.st))).2.2, c.got⟩ : RCl) = _
      unfold read
      rw [if_neg (by omega)]
      rfl
    rw [e]
    exact ih _ ⟨rfl, rfl, rfl, z4, z5, rfl⟩ (.inr rfl)

/-- a fresh interface -/
def fresh : St := ⟨false, 0, 0, 0, false, false, false, false, false, [], false, false, 0⟩

/-! ## Slave -/

/-- **lin_write, slave**: refused until a header has come; then the data asked for are sent, once. -/
theorem lin_write_slave {n : Nat} (hn : 1 ≤ n) (hn8 : n ≤ 8) (d : Nat → Byte) (s : St) :
    ((s.hrf = false ∨ s.rxbusy = true) → writeSlave n d s = (s, .eagain)) ∧
    (s.hrf = true → s.rxbusy = false → (writeSlave n d s).2 = .ok n ∧ (writeSlave n d s).1.hrf = false ∧
      ∃ f, (writeSlave n d s).1.sent = s.sent ++ [f] ∧ f.dir = true ∧ f.len = n ∧ f.data = (List.range n).map d) := by
  refine ⟨?_, ?_⟩
  · intro h; unfold writeSlave; rw [if_neg (by omega), if_pos h]
  · intro h1 h2
    unfold writeSlave
    rw [if_neg (by omega), if_neg (by rw [h1, h2]; simp)]
    have hb : bset 8 (orIn 3 10 (BitVec.ofNat 32 (n - 1)) (bset 9 0)) = wbidr 0 n 0 := by
      have : ∀ r : BitVec 32, orIn 6 0 (BitVec.ofNat 32 0) r = r := by intro r; unfold orIn; simp
      unfold wbidr; rw [this]
    obtain ⟨k1, k2, k3⟩ := bidr_write 0 n (by omega) hn hn8 0
    refine ⟨rfl, rfl, _, rfl, ?_, ?_, ?_⟩
    · show (bset 8 (orIn 3 10 (BitVec.ofNat 32 (n - 1)) (bset 9 0))).getLsbD 9 = true
      rw [hb]; exact k3
    · show (get 3 10 (bset 8 (orIn 3 10 (BitVec.ofNat 32 (n - 1)) (bset 9 0)))).toNat + 1 = n
      rw [hb]; show (get 3 10 _).toNat + 1 = n
      unfold wbidr; rw [k2]
      rw [show get 3 10 (0 : BitVec 32) = 0 by decide, BitVec.toNat_or, toNat_small (n - 1) (by omega)]
      show (0 ||| (n - 1)) + 1 = n
      rw [Nat.zero_or]; omega
    · unfold frame
      dsimp only
      rw [hb]
      have hk2 : (get 3 10 (wbidr 0 n 0)).toNat + 1 = n := by
        unfold wbidr; rw [k2]
        rw [show get 3 10 (0 : BitVec 32) = 0 by decide, BitVec.toNat_or, toNat_small (n - 1) (by omega)]
        show (0 ||| (n - 1)) + 1 = n
        rw [Nat.zero_or]; omega
      have hk3 : (wbidr 0 n 0).getLsbD 9 = true := k3
      rw [hk2, if_pos hk3]
      apply List.map_congr_left
      intro k hk
      have hk' := List.mem_range.mp hk
      exact byteOf_bdr _ n d rfl rfl k hk' (by omega)

/-- **lin_read, slave**: of a frame with data received, the id, and as many bytes as there are and fit; the frame is forgotten. -/
theorem lin_read_slave {n : Nat} (hn : 1 ≤ n) (hn8 : n ≤ 8) (id : Nat) (buf d : Nat → Byte) (s : St) (h1 : s.hrf = true) (h2 : s.rxbusy = false) (h3 : s.drf = true)
    (hl : s.bdrl = bdrL 8 d) (hm : s.bdrm = bdrM 8 d) :
    let m := min ((get 3 10 s.bidr).toNat + 1) n
    (readSlave n id buf s).2 = ((get 6 0 s.bidr).toNat, (fun k => if k < m then d k else buf k), .ok m) ∧
    (readSlave n id buf s).1.hrf = false ∧ (readSlave n id buf s).1.drf = false := by
  unfold readSlave
  rw [if_neg (by omega), if_neg (by rw [h1, h2]; simp), if_pos h3]
  refine ⟨?_, rfl, rfl⟩
  show (_, copyFrom s _ buf, _) = _
  have : copyFrom s (min ((get 3 10 s.bidr).toNat + 1) n) buf = fun k => if k < min ((get 3 10 s.bidr).toNat + 1) n then d k else buf k := by
    funext k
    unfold copyFrom
    by_cases hk : k < min ((get 3 10 s.bidr).toNat + 1) n
    · rw [if_pos hk, if_pos hk, byteOf_bdr s 8 d hl hm k (by omega) (by omega)]
    · rw [if_neg hk, if_neg hk]
  rw [this]

/-- **Refuted**: a header without data (the master asks) is never acknowledged by lin_read: every call from then on returns 0 and that id, though no other header came. -/
theorem lin_read_slave_repeats {n : Nat} (hn : 1 ≤ n) (hn8 : n ≤ 8) (id : Nat) (buf : Nat → Byte) (s : St) (h1 : s.hrf = true) (h2 : s.rxbusy = false) (h3 : s.drf = false) :
    readSlave n id buf s = (s, (get 6 0 s.bidr).toNat, buf, .ok 0) := by
  unfold readSlave
  rw [if_neg (by omega), if_neg (by rw [h1, h2]; simp), h3]
  rfl

/-! ## Bit rate

The controller sends `freq / (16 * LINIBRR + LINFBRR)` bits each second. -/

/-- the divider set -/
def divider (freq bitrate : Nat) : Nat := 16 * ibr freq bitrate + fbr freq bitrate

/-- **lin_setup**: the divider is the one nearest to freq / bitrate, if the fraction is not rounded up to 16 sixteenths (and the divider fits) -/
theorem lin_rate_partial (freq bitrate : Nat) (hb : 0 < bitrate) (hfit : freq / (bitrate * 16) < 2 ^ 16) (hfr : (freq % (bitrate * 16)) * 2 < bitrate * 31) :
    2 * (divider freq bitrate * bitrate) ≤ 2 * freq + bitrate ∧ 2 * freq < 2 * (divider freq bitrate * bitrate) + 2 * bitrate := by
  unfold divider ibr fbr
  rw [Nat.mod_eq_of_lt hfit]
  have hd := Nat.div_add_mod freq (bitrate * 16)
  generalize hq : freq / (bitrate * 16) = q at *
  generalize hr : freq % (bitrate * 16) = r at *
  have h2 : bitrate * 16 / 2 = bitrate * 8 := by omega
  rw [h2]
  have e : (r * 16 + bitrate * 8) / (bitrate * 16) = (2 * r + bitrate) / (2 * bitrate) := by
    rw [show r * 16 + bitrate * 8 = 8 * (2 * r + bitrate) by omega, show bitrate * 16 = 8 * (2 * bitrate) by omega, Nat.mul_div_mul_left _ _ (by omega)]
  rw [e]
  have hf := Nat.div_add_mod (2 * r + bitrate) (2 * bitrate)
  have hm := Nat.mod_lt (2 * r + bitrate) (show 0 < 2 * bitrate by omega)
  generalize hF : (2 * r + bitrate) / (2 * bitrate) = F at *
  have hF16 : F < 16 := by
    rw [← hF, Nat.div_lt_iff_lt_mul (by omega)]
    omega
  rw [Nat.mod_eq_of_lt hF16]
  have ex : (16 * q + F) * bitrate = bitrate * 16 * q + F * bitrate := by
    rw [Nat.add_mul, Nat.mul_comm (bitrate * 16) q, Nat.mul_comm 16 q, Nat.mul_assoc, Nat.mul_comm 16 bitrate]
  rw [ex]
  have ef : 2 * bitrate * F = 2 * (F * bitrate) := by rw [Nat.mul_assoc, Nat.mul_comm bitrate F]
  rw [ef] at hf
  generalize F * bitrate = y at *
  generalize bitrate * 16 * q = z at *
  omega

/-- **Refuted**: else it is 16 short of it, as the 16 is cut to 0 -/
theorem lin_rate_short (freq bitrate : Nat) (hb : 0 < bitrate) (hfit : freq / (bitrate * 16) < 2 ^ 16) (hfr : bitrate * 31 ≤ (freq % (bitrate * 16)) * 2) :
    fbr freq bitrate = 0 ∧ 2 * (divider freq bitrate * bitrate) + 31 * bitrate ≤ 2 * freq := by
  have hlt := Nat.mod_lt freq (show 0 < bitrate * 16 by omega)
  have hd := Nat.div_add_mod freq (bitrate * 16)
  have h0 : fbr freq bitrate = 0 := by
    unfold fbr
    generalize freq % (bitrate * 16) = r at *
    have : (r * 16 + bitrate * 16 / 2) / (bitrate * 16) = 16 := by
      rw [Nat.div_eq_iff (by omega)]
      constructor <;> omega
    rw [this]
  refine ⟨h0, ?_⟩
  unfold divider
  rw [h0]
  unfold ibr
  rw [Nat.mod_eq_of_lt hfit]
  generalize hq : freq / (bitrate * 16) = q at *
  have ex : (16 * q + 0) * bitrate = bitrate * 16 * q := by
    rw [Nat.add_zero, Nat.mul_comm 16 q, Nat.mul_assoc, Nat.mul_comm 16 bitrate, Nat.mul_comm q]
  rw [ex]
  generalize bitrate * 16 * q = z at *
  omega

/-- 10417 bit/s, a usual rate, is such with every clock of a whole number of MHz that is a multiple of 8, up to 160: with 8 MHz the bits are 2 % short -/
theorem lin_rate_10417 : (∀ k : Fin 21, 0 < k.val → 10417 * 31 ≤ (k.val * 8000000 % (10417 * 16)) * 2) ∧ divider 8000000 10417 = 752 ∧ 752 * 10417 * 100 < 8000000 * 98 := by decide +kernel

/-! ## Cases -/

example : Rest fresh ∧ Clean 0x21 4 fresh.bidr := by unfold Rest Clean fresh; decide
example : (wrun 0x21 3 (fun k => BitVec.ofNat 8 (k + 0x40)) [.call, .call, .sentData, .call] (fresh, none)).2 = some (.ok 3) ∧
    (wrun 0x21 3 (fun k => BitVec.ofNat 8 (k + 0x40)) [.call, .call, .sentData, .call] (fresh, none)).1.sent = [⟨0x21, true, 3, [0x40, 0x41, 0x42]⟩] := by decide +kernel
example : (rrun 0x3c 8 [.call, .badAnswer, .call, .call, .answer (fun k => BitVec.ofNat 8 (k + 1)), .call] ⟨fresh, fun _ => 0, none, none⟩).buf 7 = 8 ∧
    (rrun 0x3c 8 [.call, .badAnswer, .call, .call, .answer (fun k => BitVec.ofNat 8 (k + 1)), .call] ⟨fresh, fun _ => 0, none, none⟩).st.sent = [header 0x3c 8, header 0x3c 8] := by decide +kernel
example : (20000000 % (19200 * 16)) * 2 < 19200 * 31 ∧ divider 20000000 19200 = 1042 := by decide

end Pico.Lin
