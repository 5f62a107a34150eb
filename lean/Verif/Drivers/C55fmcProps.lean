import Verif.Drivers.C55fmc
/-
C112: flash_write of the MPC57xx.
-/
namespace Pico.C55
open Pico.FlashInt (Byte Mem programmed Res)

/-- what one flash_write puts in the page buffer: at most a page of 128 bytes, and not beyond its end -/
def chunk (off n : Nat) : Nat := min (min n 128) (128 - off % 128)

theorem chunk_pos {off n : Nat} (hn : 0 < n) : 0 < chunk off n := by unfold chunk; omega
theorem chunk_le (off n : Nat) : chunk off n ≤ n := by unfold chunk; omega
theorem chunk_mod {off n : Nat} (ho : off % 8 = 0) (hn : n % 8 = 0) : chunk off n % 8 = 0 := by unfold chunk; omega

theorem fillBuf_spec (off : Nat) (data : Nat → Byte) (ho : off % 4 = 0) : ∀ (c k : Nat) (b : Nat → Option Byte), k % 4 = 0 → k < 128 - off % 128 →
    (fillBuf off data c k b).1 = min (k + 4 * c) (128 - off % 128) ∧
    (fillBuf off data c k b).2 = fun x => if off + k ≤ x ∧ x < off + min (k + 4 * c) (128 - off % 128) then some (data (x - off)) else b x := by
  intro c
  induction c with
  | zero =>
    intro k b hk hl
    unfold fillBuf
    refine ⟨?_, ?_⟩
    · show k = min (k + 4 * 0) (128 - off % 128)
      omega
    · funext x
      rw [if_neg (by omega)]
  | succ c ih =>
    intro k b hk hl
    unfold fillBuf
    simp only []
    by_cases he : (off + k + 4) % 128 = 0
    · rw [if_pos he]
      refine ⟨?_, ?_⟩
      · show k + 4 = _
        omega
      · funext x
        show (if off + k ≤ x ∧ x < off + k + 4 then some (data (x - off)) else b x) = _
        have e : off + min (k + 4 * (c + 1)) (128 - off % 128) = off + k + 4 := by omega
        rw [e]
    · rw [if_neg he]
      obtain ⟨h1, h2⟩ := ih (k + 4) (fun x => if off + k ≤ x ∧ x < off + k + 4 then some (data (x - off)) else b x) (by omega) (by omega)
      refine ⟨by rw [h1]; omega, ?_⟩
      rw [h2]
      funext x
      have e : k + 4 + 4 * c = k + 4 * (c + 1) := by omega
      rw [e]
      by_cases c1 : off + (k + 4) ≤ x ∧ x < off + min (k + 4 * (c + 1)) (128 - off % 128)
      · rw [if_pos c1, if_pos (by omega)]
      · rw [if_neg c1]
        by_cases c2 : off + k ≤ x ∧ x < off + k + 4
        · rw [if_pos c2, if_pos (by omega)]
        · rw [if_neg c2, if_neg (by omega)]

theorem fillBuf_chunk {off n : Nat} (data : Nat → Byte) (ho : off % 8 = 0) (hn : n % 8 = 0) :
    fillBuf off data (min n 128 / 4) 0 (fun _ => none) =
      (chunk off n, fun x => if off ≤ x ∧ x < off + chunk off n then some (data (x - off)) else none) := by
  obtain ⟨h1, h2⟩ := fillBuf_spec off data (by omega) (min n 128 / 4) 0 (fun _ => none) rfl (by omega)
  have e : min (0 + 4 * (min n 128 / 4)) (128 - off % 128) = chunk off n := by unfold chunk; omega
  rw [e] at h1 h2
  exact Prod.ext h1 h2

/-- the page buffer of the chunk after `d` bytes -/
def chunkBuf (off d u : Nat) (data : Nat → Byte) : Nat → Option Byte := fun x => if off + d ≤ x ∧ x < off + d + u then some (data (d + (x - (off + d)))) else none

theorem burn_chunk (off d u : Nat) (data : Nat → Byte) (m : Mem) :
    burn (chunkBuf off d u data) (programmed off d data m) = programmed off (d + u) data m := by
  funext x
  unfold burn chunkBuf programmed
  by_cases h1 : off + d ≤ x ∧ x < off + d + u
  · rw [if_pos h1]
    simp only []
    rw [if_neg (by omega), if_pos (by omega), show d + (x - (off + d)) = x - off by omega]
  · rw [if_neg h1]
    simp only []
    by_cases h2 : off ≤ x ∧ x < off + d
    · rw [if_pos h2, if_pos (by omega)]
    · rw [if_neg h2, if_neg (by omega)]

theorem programmed_zero (off : Nat) (data : Nat → Byte) (m : Mem) : programmed off 0 data m = m := by
  funext x; unfold programmed; rw [if_neg (by omega)]

/-- idle; or a chunk is being programmed; or was, well or not -/
inductive Phase (off : Nat) (data : Nat → Byte) (N : Nat) (m : Mem) (c : Cl) : Prop where
  | idle (hb : c.st.busy = false) (he : c.st.ehv = false) (hu : c.st.buf = fun _ => none) (hm : c.st.mem = programmed off c.done data m)
  | prog (hb : c.st.busy = true) (hf : c.failed = false) (hn : c.done < N) (hl : c.st.last = chunk (off + c.done) (N - c.done))
      (hp : c.st.pgm = true) (he : c.st.ehv = true) (hd : c.st.done = false)
      (hu : c.st.buf = chunkBuf off c.done (chunk (off + c.done) (N - c.done)) data) (hm : c.st.mem = programmed off c.done data m)
  | well (hb : c.st.busy = true) (hf : c.failed = false) (hn : c.done < N) (hl : c.st.last = chunk (off + c.done) (N - c.done))
      (hd : c.st.done = true) (hg : c.st.peg = true) (hu : c.st.buf = fun _ => none)
      (hm : c.st.mem = programmed off (c.done + chunk (off + c.done) (N - c.done)) data m)
  | badly (hb : c.st.busy = true) (hf : c.failed = false) (hn : c.done < N) (hd : c.st.done = true) (hg : c.st.peg = false)
      (hu : c.st.buf = fun _ => none) (hm : c.st.mem = programmed off c.done data m)

structure WInv (off : Nat) (data : Nat → Byte) (N : Nat) (m : Mem) (c : Cl) : Prop where
  le : c.done ≤ N
  mod : c.done % 8 = 0
  ph : Phase off data N m c

theorem winv_step {H : List Blk} {off N : Nat} {data : Nat → Byte} {m : Mem} (ho : off % 8 = 0) (hN : N % 8 = 0) (c : Cl) (e : Ev)
    (h : WInv off data N m c) : WInv off data N m (step H off data N c e) := by
  obtain ⟨hle, hmod, hph⟩ := h
  cases e with
  | fin g =>
    show WInv off data N m { c with st := fin H g c.st }
    refine ⟨hle, hmod, ?_⟩
    rcases hph with ⟨hb, he, hu, hm⟩ | ⟨hb, hf, hn, hl, hp, he, hd, hu, hm⟩ | ⟨hb, hf, hn, hl, hd, hg, hu, hm⟩ | ⟨hb, hf, hn, hd, hg, hu, hm⟩
    · have : fin H g c.st = c.st := by unfold fin; rw [if_neg (by rw [he]; exact fun x => nomatch x.1)]
      rw [show ({ c with st := fin H g c.st } : Cl) = c by rw [this]]
      exact .idle hb he hu hm
    · have ef : fin H g c.st = { c.st with done := true, peg := g, buf := fun _ => none, mem := if g then burn c.st.buf c.st.mem else c.st.mem } := by
        unfold fin; rw [if_pos ⟨he, hd⟩]; simp [hp]
      cases g with
      | true =>
        refine .well ?_ hf hn ?_ ?_ ?_ ?_ ?_
        · rw [ef]; exact hb
        · rw [ef]; exact hl
        · rw [ef]
        · rw [ef]
        · rw [ef]
        · rw [ef]
          show burn c.st.buf c.st.mem = _
          rw [hu, hm]
          exact burn_chunk off c.done _ data m
      | false =>
        refine .badly ?_ hf hn ?_ ?_ ?_ ?_
        · rw [ef]; exact hb
        · rw [ef]
        · rw [ef]
        · rw [ef]
        · rw [ef]; exact hm
    · have : fin H g c.st = c.st := by unfold fin; rw [if_neg (by rw [hd]; exact fun x => nomatch x.2)]
      rw [show ({ c with st := fin H g c.st } : Cl) = c by rw [this]]
      exact .well hb hf hn hl hd hg hu hm
    · have : fin H g c.st = c.st := by unfold fin; rw [if_neg (by rw [hd]; exact fun x => nomatch x.2)]
      rw [show ({ c with st := fin H g c.st } : Cl) = c by rw [this]]
      exact .badly hb hf hn hd hg hu hm
  | call =>
    unfold step
    simp only []
    by_cases hs : c.failed = true ∨ c.done = N
    · rw [if_pos hs]; exact ⟨hle, hmod, hph⟩
    · rw [if_neg hs]
      have hlt : c.done < N := by
        rcases Nat.lt_or_ge c.done N with a | a
        · exact a
        · exact absurd (.inr (Nat.le_antisymm hle a)) hs
      have hw : write (off + c.done) (fun i => data (c.done + i)) (N - c.done) c.st =
          if c.st.busy then writeBusy c.st else writeIdle (off + c.done) (fun i => data (c.done + i)) (N - c.done) c.st := by
        unfold write; rw [if_neg (by omega)]
      rw [hw]
      rcases hph with ⟨hb, he, hu, hm⟩ | ⟨hb, hf, hn, hl, hp, he, hd, hu, hm⟩ | ⟨hb, hf, hn, hl, hd, hg, hu, hm⟩ | ⟨hb, hf, hn, hd, hg, hu, hm⟩
      · rw [hb]
        simp only [Bool.false_eq_true, if_false]
        unfold writeIdle
        simp only []
        rw [hu, fillBuf_chunk _ (by omega) (by omega)]
        refine ⟨hle, hmod, .prog rfl ?_ hlt rfl rfl rfl rfl rfl hm⟩
        show c.failed = false
        cases e2 : c.failed with
        | false => rfl
        | true => exact absurd (.inl e2) hs
      · rw [hb, if_pos rfl, show writeBusy c.st = (c.st, .eagain) by unfold writeBusy; rw [if_pos hd]]
        exact ⟨hle, hmod, .prog hb hf hn hl hp he hd hu hm⟩
      · rw [hb, if_pos rfl, show writeBusy c.st = ({ c.st with ehv := false, pgm := false, busy := false }, .ok c.st.last) by
          unfold writeBusy; rw [if_neg (by rw [hd]; decide), if_neg (by rw [hg]; decide)]]
        simp only []
        rw [hl]
        have h1 := chunk_le (off + c.done) (N - c.done)
        have h2 := chunk_mod (off := off + c.done) (n := N - c.done) (by omega) (by omega)
        refine ⟨?_, ?_, .idle rfl rfl hu hm⟩
        · show c.done + chunk _ _ ≤ N
          omega
        · show (c.done + chunk _ _) % 8 = 0
          omega
      · rw [hb, if_pos rfl, show writeBusy c.st = ({ c.st with pgm := false, ehv := false, busy := false }, .eio) by
          unfold writeBusy; rw [if_neg (by rw [hd]; decide), if_pos hg]]
        exact ⟨hle, hmod, .idle rfl rfl hu hm⟩

theorem winv_run {H : List Blk} {off N : Nat} {data : Nat → Byte} {m : Mem} (ho : off % 8 = 0) (hN : N % 8 = 0) : ∀ (l : List Ev) (c : Cl),
    WInv off data N m c → WInv off data N m (run H off data N l c) := by
  intro l
  induction l with
  | nil => intro c h; exact h
  | cons e l ih => intro c h; exact ih _ (winv_step ho hN c e h)

theorem winv_start (off N : Nat) (data : Nat → Byte) (lock : Nat → BitVec 32) (m : Mem) : WInv off data N m (start lock m) :=
  ⟨Nat.zero_le _, rfl, .idle rfl rfl rfl (programmed_zero off data m).symm⟩

/-! ## Theorems -/

/-- **flash_write.** Whatever the schedule of calls and ends of operations: the bytes reported written are in the flash, in order, at the offset
asked; nothing outside of the range asked has changed; and when all is reported all is there, and the driver idle. -/
theorem c55_write (H : List Blk) {off N : Nat} (data : Nat → Byte) (lock : Nat → BitVec 32) (m : Mem) (ho : off % 8 = 0) (hN : N % 8 = 0) (l : List Ev) :
    let c := run H off data N l (start lock m)
    c.done ≤ N ∧ (∃ j, c.done ≤ j ∧ j ≤ N ∧ c.st.mem = programmed off j data m) ∧
      (c.done = N → c.st.mem = programmed off N data m ∧ c.st.busy = false) := by
  intro c
  obtain ⟨hle, hmod, hph⟩ : WInv off data N m c := winv_run ho hN l _ (winv_start off N data lock m)
  refine ⟨hle, ?_, ?_⟩
  · rcases hph with ⟨hb, he, hu, hm⟩ | ⟨hb, hf, hn, hl, hp, he, hd, hu, hm⟩ | ⟨hb, hf, hn, hl, hd, hg, hu, hm⟩ | ⟨hb, hf, hn, hd, hg, hu, hm⟩
    · exact ⟨c.done, Nat.le_refl _, hle, hm⟩
    · exact ⟨c.done, Nat.le_refl _, hle, hm⟩
    · have := chunk_le (off + c.done) (N - c.done)
      exact ⟨_, Nat.le_add_right _ _, by omega, hm⟩
    · exact ⟨c.done, Nat.le_refl _, hle, hm⟩
  · intro hd
    rcases hph with ⟨hb, he, hu, hm⟩ | ⟨hb, hf, hn, _⟩ | ⟨hb, hf, hn, _⟩ | ⟨hb, hf, hn, _⟩
    · rw [hd] at hm; exact ⟨hm, hb⟩
    · omega
    · omega
    · omega

/-- an idle client that has not failed, and a call, a good end and a call -/
theorem round {H : List Blk} {off N : Nat} {data : Nat → Byte} {m : Mem} (ho : off % 8 = 0) (hN : N % 8 = 0) (c : Cl)
    (h : WInv off data N m c) (hb : c.st.busy = false) (hf : c.failed = false) :
    (run H off data N [.call, .fin true, .call] c).st.busy = false ∧ (run H off data N [.call, .fin true, .call] c).failed = false ∧
    min N (c.done + 8) ≤ (run H off data N [.call, .fin true, .call] c).done := by
  obtain ⟨hle, hmod, hph⟩ := h
  by_cases hN2 : c.done = N
  · have hc : ∀ d : Cl, d.done = N → d.failed = false → d.st.busy = false → step H off data N d .call = d := by
      intro d h1 _ _
      unfold step; simp only []; rw [if_pos (.inr h1)]
    unfold run
    simp only [List.foldl]
    rw [hc c hN2 hf hb]
    have hx : (step H off data N c (.fin true)).done = N ∧ (step H off data N c (.fin true)).failed = false ∧ (step H off data N c (.fin true)).st.busy = false := by
      unfold step
      refine ⟨hN2, hf, ?_⟩
      show (fin H true c.st).busy = false
      unfold fin
      split
      · exact hb
      · exact hb
    rw [hc _ hx.1 hx.2.1 hx.2.2]
    exact ⟨hx.2.2, hx.2.1, by rw [hx.1]; omega⟩
  · have hu : c.st.buf = fun _ => none := by
      rcases hph with ⟨_, _, hu, _⟩ | ⟨hb2, _⟩ | ⟨hb2, _⟩ | ⟨hb2, _⟩
      · exact hu
      · rw [hb] at hb2; cases hb2
      · rw [hb] at hb2; cases hb2
      · rw [hb] at hb2; cases hb2
    have hlt : c.done < N := by omega
    have s1 : step H off data N c .call = { c with st := (writeIdle (off + c.done) (fun i => data (c.done + i)) (N - c.done) c.st).1 } := by
      unfold step
      simp only []
      rw [if_neg (by rw [hf]; rintro (x | x); cases x; exact hN2 x)]
      have hw : write (off + c.done) (fun i => data (c.done + i)) (N - c.done) c.st =
          writeIdle (off + c.done) (fun i => data (c.done + i)) (N - c.done) c.st := by
        unfold write; rw [if_neg (by omega), if_neg (by rw [hb]; decide)]
      rw [hw]
      rfl
    unfold run
    simp only [List.foldl]
    rw [s1]
    unfold writeIdle
    simp only []
    rw [hu, fillBuf_chunk _ (by omega) (by omega)]
    have hcp := chunk_pos (off := off + c.done) (n := N - c.done) (by omega)
    have hcm := chunk_mod (off := off + c.done) (n := N - c.done) (by omega) (by omega)
    generalize chunk (off + c.done) (N - c.done) = u at hcp hcm
    simp only [step, fin, hf, Bool.false_eq_true, false_or, if_neg hN2, and_self, if_true, write, writeBusy]
    rw [if_neg (by omega)]
    simp only [Bool.true_eq_false, if_false]
    refine ⟨trivial, trivial, ?_⟩
    show min N (c.done + 8) ≤ c.done + u
    omega

/-- **It completes**: if every operation ends well, `N / 8` rounds of call, end, call are enough. -/
theorem c55_write_completes (H : List Blk) {off N : Nat} (data : Nat → Byte) (lock : Nat → BitVec 32) (m : Mem) (ho : off % 8 = 0) (hN : N % 8 = 0)
    (r : Nat) (hr : N ≤ 8 * r) : (run H off data N (List.flatten (List.replicate r [.call, .fin true, .call])) (start lock m)).done = N := by
  have key : ∀ r, WInv off data N m (run H off data N (List.flatten (List.replicate r [.call, .fin true, .call])) (start lock m)) ∧
      (run H off data N (List.flatten (List.replicate r [.call, .fin true, .call])) (start lock m)).st.busy = false ∧
      (run H off data N (List.flatten (List.replicate r [.call, .fin true, .call])) (start lock m)).failed = false ∧
      min N (8 * r) ≤ (run H off data N (List.flatten (List.replicate r [.call, .fin true, .call])) (start lock m)).done := by
    intro r
    induction r with
    | zero => exact ⟨winv_start off N data lock m, rfl, rfl, by omega⟩
    | succ r ih =>
      obtain ⟨h1, h2, h3, h4⟩ := ih
      have e : run H off data N (List.flatten (List.replicate (r + 1) [.call, .fin true, .call])) (start lock m) =
          run H off data N [.call, .fin true, .call] (run H off data N (List.flatten (List.replicate r [.call, .fin true, .call])) (start lock m)) := by
        unfold run
        rw [List.replicate_succ', List.flatten_append, List.foldl_append]
        rfl
      rw [e]
      obtain ⟨g1, g2, g3⟩ := round (H := H) ho hN _ h1 h2 h3
      exact ⟨winv_run ho hN _ _ h1, g1, g2, by omega⟩
  have := (key r).2.2.2
  have := (key r).1.le
  omega

/-- **An uninitialised context** (flash_nxp_c55fmc_init does not set `state`): taken for busy, flash_write reports `last` bytes written and writes nothing. -/
theorem c55_write_uninitialised (H : List Blk) {off N k : Nat} (data : Nat → Byte) (lock : Nat → BitVec 32) (m : Mem) (ho : off % 8 = 0) (hN : N % 8 = 0) (h0 : 0 < N) :
    let c := run H off data N [.call] ⟨{ rest lock m with busy := true, last := k }, 0, false⟩
    c.done = k ∧ c.st.mem = m := by
  simp only [run, List.foldl, step, write, Bool.false_eq_true, false_or]
  rw [if_neg (by omega), if_neg (by omega)]
  simp [writeBusy, rest]

/-- 136 bytes from 0x800078 on: two chunks of 8 and 128 -/
example : (run map577x 0x800078 (fun i => BitVec.ofNat 8 i) 136 [.call, .call, .fin true, .call, .call, .fin true] (start (fun _ => 0) (fun _ => 0xff))).done = 8 ∧
    (run map577x 0x800078 (fun i => BitVec.ofNat 8 i) 136 [.call, .call, .fin true, .call, .call, .fin true, .call] (start (fun _ => 0) (fun _ => 0xff))).done = 136 ∧
    (run map577x 0x800078 (fun i => BitVec.ofNat 8 i) 136 [.call, .call, .fin true, .call, .call, .fin true, .call] (start (fun _ => 0) (fun _ => 0xff))).st.mem 0x800080 = 8 ∧
    (run map577x 0x800078 (fun i => BitVec.ofNat 8 i) 136 [.call, .fin false, .call] (start (fun _ => 0) (fun _ => 0xff))).failed = true := by decide +kernel

end Pico.C55
