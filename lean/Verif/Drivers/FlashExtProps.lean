import Verif.Drivers.FlashExt
/-
The external flash drivers for every way spi_xfer splits the messages and every time the memory takes (C70).
-/
namespace Pico.FlashExt

/-! ### exchanging bytes -/

theorem send_dev (d : Dev) (l : List Byte) : (send d l).1 = { d with sel := d.sel ++ l } := by
  induction l generalizing d with
  | nil => simp [send]
  | cons b t ih => simp only [send]; rw [ih]; simp [List.append_assoc]

theorem send_len (d : Dev) (l : List Byte) : (send d l).2.length = l.length := by
  induction l generalizing d with
  | nil => rfl
  | cons b t ih => simp [send, ih]

theorem send_get (d : Dev) (l : List Byte) {i : Nat} (h : i < l.length) : (send d l).2[i]? = some (answer { d with sel := d.sel ++ l.take i }) := by
  induction l generalizing d i with
  | nil => simp at h
  | cons b t ih =>
    cases i with
    | zero => simp [send]
    | succ i =>
      simp only [send, List.getElem?_cons_succ]
      rw [ih _ (by simpa using h)]
      simp [List.append_assoc]

/-- bytes of the message sent so far -/
def sent (s : St) (n : Nat) : Nat := if s.left = 0 then 0 else n - s.left

/-- in the middle (or at the beginning) of sending `msg` -/
structure Mid (s : St) (msg : List Byte) : Prop where
  pos : msg ≠ []
  le : s.left ≤ msg.length
  sel : s.dev.sel = msg.take (sent s msg.length)

theorem mid_start {s : St} {msg : List Byte} (h : msg ≠ []) (hl : s.left = 0) (hs : s.dev.sel = []) : Mid s msg :=
  ⟨h, by omega, by simp [sent, hl, hs]⟩

/-- What run_cmd does, for a buffer whose part not sent yet is the end of `msg`. -/
theorem runCmd_spec {s : St} {msg buf : List Byte} (c : Choice) (h : Mid s msg) (hlen : buf.length = msg.length)
    (hb : buf.drop (sent s msg.length) = msg.drop (sent s msg.length)) :
    ∃ d buf' l g ok, runCmd c s buf = ({ s with dev := d, left := l, log := g }, buf', ok) ∧ buf'.length = msg.length ∧
      (ok = true → d = commit { settle c.fin s.dev with sel := msg } ∧ l = 0 ∧ g = s.log ++ [msg] ∧
        ∀ i, sent s msg.length ≤ i → i < msg.length → buf'[i]? = some (answer { settle c.fin s.dev with sel := msg.take i })) ∧
      (ok = false → g = s.log ∧ l ≠ 0 ∧ Mid { s with dev := d, left := l, log := g } msg ∧ d = { settle c.fin s.dev with sel := d.sel } ∧
        sent s msg.length ≤ msg.length - l ∧ buf'.drop (msg.length - l) = msg.drop (msg.length - l) ∧
        ∀ i, sent s msg.length ≤ i → i < msg.length - l → buf'[i]? = some (answer { settle c.fin s.dev with sel := msg.take i })) ∧
      (∀ i, i < sent s msg.length → buf'[i]? = buf[i]?) ∧ (msg.length ≤ c.k → ok = true) := by
  obtain ⟨hpos, hle, hsel⟩ := h
  have hlp : 0 < msg.length := List.length_pos_iff.mpr hpos
  have hidx : buf.length - (if s.left = 0 then buf.length else s.left) = sent s msg.length := by
    unfold sent; split <;> omega
  have hleft : (if s.left = 0 then buf.length else s.left) = msg.length - sent s msg.length := by
    unfold sent; split <;> omega
  have hss : sent s msg.length < msg.length := by unfold sent; split <;> omega
  have hselS : (settle c.fin s.dev).sel = msg.take (sent s msg.length) := by unfold settle; split <;> simpa using hsel
  generalize hi : sent s msg.length = idx at *
  generalize hk : min c.k (msg.length - idx) = k
  have hkl : k ≤ msg.length - idx := by omega
  have hdrop : (buf.drop idx).take k = (msg.drop idx).take k := by rw [hb]
  have hcat : msg.take idx ++ (msg.drop idx).take k = msg.take (idx + k) := by rw [List.take_add]
  have hlenr : (send (settle c.fin s.dev) ((msg.drop idx).take k)).2.length = k := by rw [send_len]; simp; omega
  have hget : ∀ i, idx ≤ i → i < idx + k → (buf.take idx ++ (send (settle c.fin s.dev) ((msg.drop idx).take k)).2 ++ buf.drop (idx + k))[i]? =
      some (answer { settle c.fin s.dev with sel := msg.take i }) := by
    intro i h1 h2
    have htl : (buf.take idx).length = idx := by simp; omega
    rw [List.append_assoc, List.getElem?_append_right (by omega), htl, List.getElem?_append_left (by omega), send_get _ _ (by simp; omega), hselS]
    have : msg.take idx ++ ((msg.drop idx).take k).take (i - idx) = msg.take i := by
      rw [List.take_take, Nat.min_eq_left (by omega), ← List.take_add]; congr 1; omega
    rw [this]
  have hbefore : ∀ i, i < idx → (buf.take idx ++ (send (settle c.fin s.dev) ((msg.drop idx).take k)).2 ++ buf.drop (idx + k))[i]? = buf[i]? := by
    intro i h1
    rw [List.append_assoc, List.getElem?_append_left (by simp; omega), List.getElem?_take_of_lt h1]
  have hlenb : (buf.take idx ++ (send (settle c.fin s.dev) ((msg.drop idx).take k)).2 ++ buf.drop (idx + k)).length = msg.length := by
    simp only [List.length_append, hlenr, List.length_take, List.length_drop]; omega
  have hr : runCmd c s buf = (if msg.length - idx - k = 0 then
        ({ s with left := 0, dev := commit { settle c.fin s.dev with sel := msg.take (idx + k) }, log := s.log ++ [msg.take (idx + k)] },
          buf.take idx ++ (send (settle c.fin s.dev) ((msg.drop idx).take k)).2 ++ buf.drop (idx + k), true)
      else ({ s with left := msg.length - idx - k, dev := { settle c.fin s.dev with sel := msg.take (idx + k) } },
          buf.take idx ++ (send (settle c.fin s.dev) ((msg.drop idx).take k)).2 ++ buf.drop (idx + k), false)) := by
    have hidx' : buf.length - (msg.length - idx) = idx := by omega
    simp only [runCmd, hleft, hidx', hk, hdrop, send_dev, hselS, hcat]
  rw [hr]
  by_cases hz : msg.length - idx - k = 0
  · have hall : msg.take (idx + k) = msg := List.take_of_length_le (by omega)
    rw [if_pos hz, hall]
    refine ⟨_, _, _, _, true, rfl, hlenb, fun _ => ⟨rfl, rfl, rfl, ?_⟩, fun h => absurd h (by simp), ?_, fun _ => rfl⟩
    · intro i h1 h2; exact hget i h1 (by omega)
    · exact hbefore
  · rw [if_neg hz]
    have hk2 : msg.length - (msg.length - idx - k) = idx + k := by omega
    refine ⟨_, _, _, _, false, rfl, hlenb, fun h => absurd h (by simp), fun _ => ⟨rfl, by omega, ⟨hpos, by simp only []; omega, ?_⟩, rfl, by omega, ?_, ?_⟩, hbefore, fun h => absurd h (by omega)⟩
    · simp only [sent, if_neg hz]; rw [hk2]
    · rw [hk2]
      have : (buf.take idx ++ (send (settle c.fin s.dev) ((msg.drop idx).take k)).2).length = idx + k := by
        simp only [List.length_append, hlenr, List.length_take]; omega
      rw [List.drop_append_of_le_length (by omega), List.drop_of_length_le (by omega), List.nil_append]
      have e : ∀ l : List Byte, l.drop (idx + k) = (l.drop idx).drop k := by intro l; rw [List.drop_drop]
      rw [e buf, hb, ← e msg]
    · rw [hk2]; exact hget

/-- messages rebuilt at each iteration -/
theorem runCmd_const {s : St} {msg : List Byte} (c : Choice) (h : Mid s msg) :
    ∃ d buf' l g ok, runCmd c s msg = ({ s with dev := d, left := l, log := g }, buf', ok) ∧
      (ok = true → d = commit { settle c.fin s.dev with sel := msg } ∧ l = 0 ∧ g = s.log ++ [msg] ∧
        buf'[msg.length - 1]? = some (answer { settle c.fin s.dev with sel := msg.take (msg.length - 1) })) ∧
      (ok = false → g = s.log ∧ l ≠ 0 ∧ Mid { s with dev := d, left := l, log := g } msg ∧ d = { settle c.fin s.dev with sel := d.sel }) ∧
      (msg.length ≤ c.k → ok = true) := by
  obtain ⟨d, b, l, g, ok, e, hl, h1, h2, h3, h4⟩ := runCmd_spec c h rfl rfl
  have hlp : 0 < msg.length := List.length_pos_iff.mpr h.pos
  have hs : sent s msg.length ≤ msg.length - 1 := by have := h.le; unfold sent; split <;> omega
  refine ⟨d, b, l, g, ok, e, fun ho => ?_, fun ho => ?_, h4⟩
  · obtain ⟨a1, a2, a3, a4⟩ := h1 ho; exact ⟨a1, a2, a3, a4 _ hs (by omega)⟩
  · obtain ⟨a1, a2, a3, a4, _⟩ := h2 ho; exact ⟨a1, a2, a3, a4⟩

/-! ### the client's loop -/

theorem drive_inv {f : Choice → St → St × Out} {I : St → Prop} {Post : St → Nat → Prop} {Fail : St → Prop}
    (hs : ∀ c s, I s → ((f c s).2 = .more ∨ (f c s).2 = .again) → I (f c s).1)
    (hd : ∀ c s v, I s → (f c s).2 = .done v → Post (f c s).1 v)
    (hf : ∀ c s, I s → (f c s).2 = .fail → Fail (f c s).1) :
    ∀ cs s, I s → ((drive f cs s).2 ≠ .more) ∧ ((drive f cs s).2 = .again → I (drive f cs s).1) ∧ (∀ v, (drive f cs s).2 = .done v → Post (drive f cs s).1 v) ∧
      ((drive f cs s).2 = .fail → Fail (drive f cs s).1)
  | [], s, h => ⟨by simp [drive], fun _ => h, by simp [drive], by simp [drive]⟩
  | c :: cs, s, h => by
    have h1 := hs c s h
    have h2 := hd c s
    have h3 := hf c s h
    unfold drive
    generalize f c s = r at h1 h2 h3
    obtain ⟨s', o⟩ := r
    cases o with
    | more => exact drive_inv hs hd hf cs s' (h1 (.inl rfl))
    | again => exact drive_inv hs hd hf cs s' (h1 (.inr rfl))
    | done v => exact ⟨by simp, by simp, fun w e => by cases e; exact h2 _ h rfl, by simp⟩
    | fail => exact ⟨by simp, by simp, by simp, fun _ => h3 rfl⟩

theorem drive_append (f : Choice → St → St × Out) : ∀ a b s, drive f (a ++ b) s = if (drive f a s).2 = .again then drive f b (drive f a s).1 else drive f a s
  | [], b, s => by simp [drive]
  | c :: a, b, s => by
    have ih := fun s' => drive_append f a b s'
    rcases hr : f c s with ⟨s', o⟩
    cases o <;> simp [drive, hr, ih]

/-! ### reading the status -/

/-- the memory, whatever the operation under way and the message being sent -/
def still (d : Dev) : Dev := { d with sel := [], busy := false }

theorem still_settle (f : Bool) (d : Dev) : still (settle f d) = still d := by cases f <;> rfl

theorem status_busy (d : Dev) : (status d &&& 1#8 ≠ 0#8) ↔ d.busy = true := by
  unfold status
  rcases d with ⟨_, w, b, s1, _⟩
  have h : s1 &&& 0xfc#8 &&& 1#8 = 0#8 := by rw [BitVec.and_assoc]; simp
  cases w <;> cases b <;> simp [BitVec.and_or_distrib_right, h]

theorem commit_poll (d : Dev) (b : Byte) : commit { d with sel := [0x05#8, b] } = { d with sel := [] } := by
  cases hb : d.busy <;> cases hw : d.wel <;> simp [commit, hb, hw]

/-- the poll at the end of an operation: it goes on only when the memory is not busy any more -/
theorem runBusy_spec {s : St} (c : Choice) (h : Mid s [0x05#8, 0]) :
    ∃ d l g q o, runBusy c s = ({ s with dev := d, left := l, log := g, seq := q }, o) ∧ still d = still s.dev ∧
      ((o = .more ∧ q = s.seq + 1 ∧ d.busy = false ∧ d.sel = [] ∧ l = 0 ∧ g = s.log ++ [[0x05#8, 0]]) ∨
       (o = .again ∧ q = s.seq ∧ Mid { s with dev := d, left := l, log := g, seq := q } [0x05#8, 0] ∧ ((l ≠ 0 ∧ g = s.log) ∨ g = s.log ++ [[0x05#8, 0]]))) ∧
      (s.dev.busy = false → d.busy = false) ∧
      (2 ≤ c.k → (s.dev.busy = false ∨ c.fin = true) → o = .more) := by
  obtain ⟨d, b, l, g, ok, e, h1, h2, h4⟩ := runCmd_const c h
  have hset : s.dev.busy = false → (settle c.fin s.dev).busy = false := by unfold settle; split <;> simp
  cases ok with
  | false =>
    obtain ⟨a1, a2, a3, a4⟩ := h2 rfl
    refine ⟨d, l, g, s.seq, .again, ?_, ?_, .inr ⟨rfl, rfl, a3, .inl ⟨a2, a1⟩⟩, ?_, ?_⟩
    · simp only [runBusy, e, next]; simp
    · rw [a4]; exact still_settle _ _
    · intro hb; rw [a4]; exact hset hb
    · intro hk; exact absurd (h4 hk) (by simp)
  | true =>
    obtain ⟨a1, a2, a3, a4⟩ := h1 rfl
    have hb1 : b.getD 1 0 = status (settle c.fin s.dev) := by
      rw [List.getD_eq_getElem?_getD]
      have : b[1]? = _ := a4
      rw [this]; rfl
    rw [commit_poll] at a1
    have hstill : still d = still s.dev := by rw [a1]; exact still_settle _ _
    have hdb : d.busy = (settle c.fin s.dev).busy := by rw [a1]
    by_cases hbz : (settle c.fin s.dev).busy = true
    · refine ⟨d, l, g, s.seq, .again, ?_, hstill, .inr ⟨rfl, rfl, mid_start (by simp) a2 (by rw [a1]), .inr a3⟩, ?_, ?_⟩
      · simp only [runBusy, e, hb1]
        have := (status_busy (settle c.fin s.dev)).mpr hbz
        rw [if_pos (by simpa using this)]
      · intro h; rw [hset h] at hbz; cases hbz
      · intro _ h
        rcases h with h | h
        · rw [hset h] at hbz; cases hbz
        · rw [h] at hbz; simp [settle] at hbz
    · refine ⟨d, l, g, s.seq + 1, .more, ?_, hstill, .inl ⟨rfl, rfl, ?_, by rw [a1], a2, a3⟩, ?_, fun _ _ => rfl⟩
      · simp only [runBusy, e, hb1]
        have := (not_congr (status_busy (settle c.fin s.dev))).mpr hbz
        rw [if_neg (by simpa using this)]; simp [next]
      · rw [hdb]; simpa using hbz
      · intro h; rw [hdb]; exact hset h

end Pico.FlashExt
