import Verif.Drivers.FlashExtErase
/-
flash_ext_write, flash_ext_read and flash_ext_probe (C70).
-/
namespace Pico.FlashExt

/-- what flash_ext_write sends: the first 256 bytes given, then, when there are fewer, whatever its buffer held -/
def payload (data pp : List Byte) : List Byte := data.take (min data.length 256) ++ pp.drop (4 + min data.length 256)

theorem payload_len {data pp : List Byte} (hpp : pp.length = 260) : (payload data pp).length = 256 := by
  simp [payload, hpp]; omega

structure WInv (off : Nat) (data : List Byte) (s0 s : St) : Prop where
  seq : s.seq ≤ 4
  tot : s.total = s0.total
  len : s.pp.length = 260
  s0i : s.seq = 0 → Mid s [0x06#8] ∧ s.dev.busy = false ∧ still s.dev = still s0.dev ∧ s.log = s0.log ∧ s.pp = s0.pp
  s1i : s.seq = 1 → s.left = 0 ∧ s.dev.sel = [] ∧ s.dev.busy = false ∧ still s.dev = { still s0.dev with wel := true } ∧ s.log = s0.log ++ [[0x06#8]] ∧ s.pp = s0.pp
  s2i : s.seq = 2 → Mid s (cmdAddr 0x02#8 off ++ payload data s0.pp) ∧ s.dev.busy = false ∧ still s.dev = { still s0.dev with wel := true } ∧
    s.log = s0.log ++ [[0x06#8]] ∧ s.pp.drop (sent s 260) = (cmdAddr 0x02#8 off ++ payload data s0.pp).drop (sent s 260)
  s3i : s.seq = 3 → Mid s [0x05#8, 0] ∧ still s.dev = { still s0.dev with wel := false, mem := program off (payload data s0.pp) s0.dev.mem } ∧
    ∃ k, s.log = s0.log ++ [[0x06#8], cmdAddr 0x02#8 off ++ payload data s0.pp] ++ List.replicate k [0x05#8, 0]
  s4i : s.seq = 4 → s.left = 0 ∧ s.dev = { s0.dev with wel := false, mem := program off (payload data s0.pp) s0.dev.mem } ∧
    ∃ k, s.log = s0.log ++ [[0x06#8], cmdAddr 0x02#8 off ++ payload data s0.pp] ++ List.replicate (k + 1) [0x05#8, 0]

theorem winv_rest {off : Nat} {data : List Byte} {s0 : St} (h : Rest s0) (hpp : s0.pp.length = 260) : WInv off data s0 s0 := by
  have := h.seq
  exact ⟨by omega, rfl, hpp, fun _ => ⟨mid_start (by simp) h.left h.sel, h.busy, rfl, rfl, rfl⟩, fun e => by omega, fun e => by omega, fun e => by omega, fun e => by omega⟩

/-- the arguments flash_ext_write takes -/
def Takes (chk : Bool) (off : Nat) (data : List Byte) (total : Nat) : Prop := data ≠ [] ∧ off % 256 = 0 ∧ (chk = true → off + data.length < total)

theorem winv_step {chk : Bool} {off : Nat} {data : List Byte} {s0 : St} (hr : Rest s0) (hpp : s0.pp.length = 260) (ht : Takes chk off data s0.total) (h24 : off < 16777216)
    (hp : s0.dev.prot off = false) (c : Choice) {s : St} (h : WInv off data s0 s) :
    ((write chk off data c s).2 = .more ∨ (write chk off data c s).2 = .again → WInv off data s0 (write chk off data c s).1) ∧
    (∀ v, (write chk off data c s).2 = .done v → v = min data.length 256 ∧ s.seq = 4 ∧ (write chk off data c s).1 = { s with seq := 0 }) ∧
    (write chk off data c s).2 ≠ .fail ∧
    (260 ≤ c.k → c.fin = true → s.seq < 4 → (write chk off data c s).2 = .more ∧ (write chk off data c s).1.seq = s.seq + 1) := by
  have htot := h.tot
  have hif : ¬ (data = [] ∨ off % 256 ≠ 0 ∨ (chk = true ∧ s.total ≤ off + data.length)) := by
    rw [htot]; rintro (h | h | ⟨h, h'⟩)
    · exact ht.1 h
    · exact h ht.2.1
    · have := ht.2.2 h; omega
  have hseq := h.seq
  have hlen := h.len
  have hml : (cmdAddr 0x02#8 off ++ payload data s0.pp).length = 260 := by
    rw [List.length_append, payload_len hpp]; rfl
  unfold write
  rw [if_neg hif]
  rcases hq : s.seq with _ | _ | _ | _ | n
  · obtain ⟨hm, hb, hst, hlog, hp0⟩ := h.s0i hq
    obtain ⟨d, b, l, g, ok, e, h1, h2, h4⟩ := runCmd_const c hm
    simp only [e, next]
    rw [settle_idle hb] at h1 h2
    cases ok with
    | true =>
      obtain ⟨a1, a2, a3, -⟩ := h1 rfl
      rw [commit_wren hb] at a1
      simp only [if_true]
      refine ⟨fun _ => ⟨by simp only [hq]; omega, htot, hlen, by simp [hq], fun _ => ⟨a2, by simp [a1], by simp [a1, hb], ?_, by simp [a3, hlog], hp0⟩,
        by simp [hq], by simp [hq], by simp [hq]⟩, by simp, by simp, fun _ _ _ => by simp [hq]⟩
      rw [a1]; rw [← hst]; rfl
    | false =>
      obtain ⟨a1, a2, a3, a4⟩ := h2 rfl
      refine ⟨fun _ => ⟨by simp [hq], htot, hlen, fun _ => ⟨a3, ?_, ?_, by simp [a1, hlog], hp0⟩, by simp [hq], by simp [hq], by simp [hq], by simp [hq]⟩, by simp, by simp, fun hk => ?_⟩
      · show d.busy = false; rw [a4]; exact hb
      · show still d = _; rw [a4, ← hst]; rfl
      · have := h4 (by simp; omega); cases this
  · obtain ⟨hl0, hsel, hb, hst, hlog, hp0⟩ := h.s1i hq
    have hppe : cmdAddr 0x02#8 off ++ data.take (min data.length 256) ++ s.pp.drop (4 + min data.length 256) = cmdAddr 0x02#8 off ++ payload data s0.pp := by
      rw [hp0, payload, List.append_assoc]
    refine ⟨fun _ => ⟨by simp, htot, ?_, by simp, by simp, fun _ => ⟨mid_start (by simp [cmdAddr]) hl0 hsel, hb, hst, hlog, ?_⟩, by simp, by simp⟩, by simp, by simp, fun _ _ _ => by simp⟩
    · show (cmdAddr 0x02#8 off ++ data.take (min data.length 256) ++ s.pp.drop (4 + min data.length 256)).length = 260
      rw [hppe, hml]
    · show (cmdAddr 0x02#8 off ++ data.take (min data.length 256) ++ s.pp.drop (4 + min data.length 256)).drop _ = _
      rw [hppe]
  · obtain ⟨hm, hb, hst, hlog, hd⟩ := h.s2i hq
    obtain ⟨d, b, l, g, ok, e, hbl, h1, h2, h3, h4⟩ := runCmd_spec (buf := s.pp) c hm (by rw [hlen, hml]) (by rw [hml]; exact hd)
    rw [hml] at hbl h2 h4
    simp only [e, next]
    rw [settle_idle hb] at h1 h2
    have hw : s.dev.wel = true := by have := congrArg Dev.wel hst; simpa [still] using this
    have hpr : s.dev.prot off = false := by have := congrFun (congrArg Dev.prot hst) off; simpa [still, hp] using this
    have hmem : s.dev.mem = s0.dev.mem := by have := congrArg Dev.mem hst; simpa [still] using this
    cases ok with
    | true =>
      obtain ⟨a1, a2, a3, -⟩ := h1 rfl
      rw [commit_program hb hw h24 hpr] at a1
      simp only [if_true]
      refine ⟨fun _ => ⟨by simp only [hq]; omega, htot, hbl, by simp [hq], by simp [hq], by simp [hq], fun _ => ⟨mid_start (by simp) a2 (by simp [a1]), ?_, 0, by simp [a3, hlog]⟩,
        by simp [hq]⟩, by simp, by simp, fun _ _ _ => by simp [hq]⟩
      show still d = _
      have : still d = { still s.dev with wel := false, mem := program off (payload data s0.pp) s.dev.mem } := by rw [a1]; rfl
      rw [this, hst, hmem]
    | false =>
      obtain ⟨a1, a2, a3, a4, a5, a6, -⟩ := h2 rfl
      refine ⟨fun _ => ⟨by simp [hq], htot, hbl, by simp [hq], by simp [hq], fun _ => ⟨⟨a3.pos, a3.le, a3.sel⟩, ?_, ?_, by simp [a1, hlog], ?_⟩, by simp [hq], by simp [hq]⟩, by simp, by simp, fun hk => ?_⟩
      · show d.busy = false; rw [a4]; exact hb
      · show still d = _; rw [a4, ← hst]; rfl
      · show b.drop (if l = 0 then 0 else 260 - l) = List.drop (if l = 0 then 0 else 260 - l) _
        rw [if_neg a2]; exact a6
      · have := h4 (by omega); cases this
  · obtain ⟨hm, hst, k, hlog⟩ := h.s3i hq
    obtain ⟨d, l, g, q, o, e, hs, hc, -, hgo⟩ := runBusy_spec c hm
    simp only [e]
    rcases hc with ⟨ho, c1, c2, c3, c4, c5⟩ | ⟨ho, c1, c2, c3⟩
    · refine ⟨fun _ => ⟨by simp only []; omega, htot, hlen, by intro (e : q = 0); omega, by intro (e : q = 1); omega, by intro (e : q = 2); omega, by intro (e : q = 3); omega,
        fun _ => ⟨c4, ?_, k, ?_⟩⟩, by simp [ho], by simp [ho], fun _ _ _ => ⟨ho, by omega⟩⟩
      · show d = _
        have h2 : still d = still { s0.dev with wel := false, mem := program off (payload data s0.pp) s0.dev.mem } := hs.trans hst
        have := of_still h2
        rw [this, c3, c2]
        have e1 := hr.sel; have e2 := hr.busy
        simp [e1, e2]
      · simp only [c5, hlog, List.replicate_succ', List.append_assoc]
    · refine ⟨fun _ => ⟨by simp only []; omega, htot, hlen, by intro (e : q = 0); omega, by intro (e : q = 1); omega, by intro (e : q = 2); omega, fun _ => ⟨c2, hs.trans hst, ?_⟩,
        by intro (e : q = 4); omega⟩, by simp [ho], by simp [ho], fun hk hf _ => ?_⟩
      · rcases c3 with ⟨-, c3⟩ | c3
        · exact ⟨k, by rw [c3]; exact hlog⟩
        · exact ⟨k + 1, by simp only [c3, hlog, List.replicate_succ', List.append_assoc]⟩
      · have := hgo (by omega) (.inr hf); rw [this] at ho; cases ho
  · refine ⟨by simp, fun v e => ⟨by simpa using e.symm, by omega, rfl⟩, by simp, fun _ _ h => by omega⟩

/-- flash_ext_write exactly, for any data: the page is programmed with the first 256 bytes given followed, when there are fewer, by what was in the buffer of the driver -/
theorem write_exact {chk : Bool} {off : Nat} {data : List Byte} {s0 : St} (hr : Rest s0) (hpp : s0.pp.length = 260) (ht : Takes chk off data s0.total) (h24 : off < 16777216)
    (hp : s0.dev.prot off = false) (cs : List Choice) :
    (drive (write chk off data) cs s0).2 ≠ .fail ∧
    ∀ v, (drive (write chk off data) cs s0).2 = .done v → v = min data.length 256 ∧
      (drive (write chk off data) cs s0).1.dev = { s0.dev with wel := false, mem := program off (payload data s0.pp) s0.dev.mem } ∧
      Rest (drive (write chk off data) cs s0).1 ∧ (drive (write chk off data) cs s0).1.total = s0.total ∧ (drive (write chk off data) cs s0).1.pp.length = 260 := by
  have h := drive_inv (f := write chk off data) (I := WInv off data s0)
    (Post := fun s v => v = min data.length 256 ∧ s.seq = 0 ∧ s.left = 0 ∧ s.total = s0.total ∧ s.pp.length = 260 ∧
      s.dev = { s0.dev with wel := false, mem := program off (payload data s0.pp) s0.dev.mem }) (Fail := fun _ => False)
    (fun c s hi => (winv_step hr hpp ht h24 hp c hi).1)
    (fun c s v hi hd => by
      obtain ⟨e1, e2, e3⟩ := (winv_step hr hpp ht h24 hp c hi).2.1 v hd
      obtain ⟨a, b, -⟩ := hi.s4i e2
      rw [e3]; exact ⟨e1, rfl, a, hi.tot, hi.len, b⟩)
    (fun c s hi hf => (winv_step hr hpp ht h24 hp c hi).2.2.1 hf) cs s0 (winv_rest hr hpp)
  obtain ⟨-, -, h3, h4⟩ := h
  refine ⟨fun e => h4 e, fun v hv => ?_⟩
  obtain ⟨p1, p2, p3, p4, p5, p6⟩ := h3 v hv
  exact ⟨p1, p6, ⟨p3, p2, by rw [p6]; exact hr.sel, by rw [p6]; exact hr.busy⟩, p4, p5⟩

theorem write_returns {chk : Bool} {off : Nat} {data : List Byte} {s0 : St} (hr : Rest s0) (hpp : s0.pp.length = 260) (ht : Takes chk off data s0.total) (h24 : off < 16777216)
    (hp : s0.dev.prot off = false) (cs : List Choice) {k : Nat} (hk : 260 ≤ k) :
    (drive (write chk off data) (cs ++ List.replicate 5 ⟨k, true⟩) s0).2 = .done (min data.length 256) := by
  have h := drive_inv (f := write chk off data) (I := WInv off data s0) (Post := fun _ v => v = min data.length 256) (Fail := fun _ => False)
    (fun c s hi => (winv_step hr hpp ht h24 hp c hi).1)
    (fun c s v hi hd => ((winv_step hr hpp ht h24 hp c hi).2.1 v hd).1)
    (fun c s hi hf => (winv_step hr hpp ht h24 hp c hi).2.2.1 hf) cs s0 (winv_rest hr hpp)
  rw [drive_append]
  generalize drive (write chk off data) cs s0 = r at h ⊢
  obtain ⟨s, o⟩ := r
  obtain ⟨h1, h2, h3, h4⟩ := h
  cases o with
  | more => exact absurd rfl h1
  | fail => exact (h4 rfl).elim
  | done v => simp [h3 v rfl]
  | again =>
    have hi := h2 rfl
    simp only [if_true]
    have key : ∀ m (s : St), WInv off data s0 s → 5 ≤ m + s.seq → (drive (write chk off data) (List.replicate m ⟨k, true⟩) s).2 = .done (min data.length 256) := by
      intro m
      induction m with
      | zero => intro s hi hm; have := hi.seq; omega
      | succ m ih =>
        intro s hi hm
        have hs := winv_step (chk := chk) hr hpp ht h24 hp ⟨k, true⟩ hi
        simp only [List.replicate_succ, drive]
        rcases hr' : write chk off data ⟨k, true⟩ s with ⟨s', o'⟩
        rw [hr'] at hs
        obtain ⟨t1, t2, t3, t4⟩ := hs
        cases o' with
        | more =>
          by_cases h4 : s.seq < 4
          · have := (t4 hk rfl h4).2
            exact ih s' (t1 (.inl rfl)) (by simp only [] at this; omega)
          · have h4 : s.seq = 4 := by have := hi.seq; omega
            simp [write, h4] at hr'; split at hr' <;> simp at hr'
        | again =>
          by_cases h4 : s.seq < 4
          · have := (t4 hk rfl h4).1; cases this
          · have h4 : s.seq = 4 := by have := hi.seq; omega
            simp [write, h4] at hr'; split at hr' <;> simp at hr'
        | fail => exact absurd rfl t3
        | done v => simp [(t2 v rfl).1]
    exact key 5 s hi (by omega)

theorem program_get {off : Nat} (hal : off % 256 = 0) (u : List Byte) (hu : u.length = 256) (mem : Nat → Byte) (i : Nat) (hi : i < 256) :
    program off u mem (off + i) = mem (off + i) &&& u.getD i 0 := by
  have h1 : (off + i) / 256 = off / 256 := by omega
  have h2 : ((off + i) % 256 + 256 - off % 256) % 256 = i := by omega
  simp only [program, h1, if_true, h2, List.getD_eq_getElem?_getD]
  rw [List.getElem?_eq_getElem (by omega)]; rfl

theorem program_out {off : Nat} (hal : off % 256 = 0) (u : List Byte) (mem : Nat → Byte) {x : Nat} (hx : x < off ∨ off + 256 ≤ x) : program off u mem x = mem x := by
  have h1 : x / 256 ≠ off / 256 := by omega
  simp [program, h1]

/-- C70, data of 256 bytes or more: flash_ext_write returns 256, the page is programmed with the first 256 bytes, nothing else changes -/
theorem write_right_partial {chk : Bool} {off : Nat} {data : List Byte} {s0 : St} (hr : Rest s0) (hpp : s0.pp.length = 260) (ht : Takes chk off data s0.total) (h24 : off < 16777216)
    (hp : s0.dev.prot off = false) (hn : 256 ≤ data.length) (cs : List Choice) :
    (drive (write chk off data) cs s0).2 ≠ .fail ∧
    ∀ v, (drive (write chk off data) cs s0).2 = .done v → v = 256 ∧
      (∀ i, i < 256 → (drive (write chk off data) cs s0).1.dev.mem (off + i) = s0.dev.mem (off + i) &&& data.getD i 0) ∧
      (∀ x, (x < off ∨ off + 256 ≤ x) → (drive (write chk off data) cs s0).1.dev.mem x = s0.dev.mem x) ∧
      Rest (drive (write chk off data) cs s0).1 := by
  obtain ⟨h1, h2⟩ := write_exact hr hpp ht h24 hp cs
  refine ⟨h1, fun v hv => ?_⟩
  obtain ⟨p1, p2, p3, -⟩ := h2 v hv
  rw [Nat.min_eq_right hn] at p1
  refine ⟨p1, fun i hi => ?_, fun x hx => ?_, p3⟩
  · rw [p2]
    show program off _ _ _ = _
    rw [program_get ht.2.1 _ (payload_len hpp) _ _ hi]
    congr 1
    simp only [payload, List.getD_eq_getElem?_getD]
    rw [List.getElem?_append_left (by simp; omega), List.getElem?_take_of_lt (by omega)]
  · rw [p2]; exact program_out ht.2.1 _ _ hx

/-- less than a page: the first write of the program clears the rest of the page, although only `data` was to be written -/
theorem write_short_wrong {chk : Bool} {off : Nat} {data : List Byte} {out : List Byte} {d : Dev} {total : Nat} (hsel : d.sel = []) (hbusy : d.busy = false)
    (ht : Takes chk off data total) (h24 : off < 16777216) (hp : d.prot off = false) (hn : data.length < 256) (cs : List Choice) {v : Nat}
    (hv : (drive (write chk off data) cs { init out d with total := total }).2 = .done v) :
    v = data.length ∧ ∀ i, data.length ≤ i → i < 256 → (drive (write chk off data) cs { init out d with total := total }).1.dev.mem (off + i) = 0#8 := by
  have hr : Rest { init out d with total := total } := ⟨rfl, rfl, hsel, hbusy⟩
  have hpp : ({ init out d with total := total } : St).pp.length = 260 := List.length_replicate
  obtain ⟨h1, h2⟩ := write_exact (chk := chk) (data := data) hr hpp ht h24 hp cs
  obtain ⟨p1, p2, -⟩ := h2 v hv
  refine ⟨by omega, fun i hi1 hi2 => ?_⟩
  rw [p2]
  show program off _ _ _ = _
  rw [program_get ht.2.1 _ (payload_len hpp) _ _ hi2]
  have : (payload data (List.replicate 260 (0 : Byte))).getD i 0 = 0#8 := by
    simp only [payload, List.getD_eq_getElem?_getD]
    rw [List.getElem?_append_right (by simp; omega)]
    simp only [List.drop_replicate, List.getElem?_replicate]
    split <;> rfl
  show _ &&& (payload data (List.replicate 260 (0 : Byte))).getD i 0 = _
  rw [this]; simp

/-- the last bytes of the memory cannot be written on sst26vf (nor read, on both) -/
theorem write_end_refused {off : Nat} {data : List Byte} {s0 : St} (h : off + data.length = s0.total) (c : Choice) (cs : List Choice) :
    drive (write true off data) (c :: cs) s0 = (s0, .fail) := by
  have : data = [] ∨ off % 256 ≠ 0 ∨ (true = true ∧ s0.total ≤ off + data.length) := .inr (.inr ⟨rfl, by omega⟩)
  have e : write true off data c s0 = (s0, .fail) := by unfold write; rw [if_pos this]
  simp only [drive, e]

/-! ### read -/

/-- flash_ext_read returns the number of bytes asked for (256 at most) and has read nothing: no byte went on the bus, the buffer of the caller is unchanged -/
theorem read_wrong {off n : Nat} {s0 : St} (hs : s0.seq = 0) (hn : 0 < n) (ht : off + n < s0.total) (c c' : Choice) (cs : List Choice) :
    (drive (read off n) (c :: c' :: cs) s0).2 = .done (min n 256) ∧ (drive (read off n) (c :: c' :: cs) s0).1.out = s0.out ∧
    (drive (read off n) (c :: c' :: cs) s0).1.dev = s0.dev ∧ (drive (read off n) (c :: c' :: cs) s0).1.log = s0.log := by
  have hif : ¬ (n = 0 ∨ s0.total ≤ off + n) := by omega
  simp [drive, read, if_neg hif, hs]

theorem read_end_refused {off n : Nat} {s0 : St} (h : off + n = s0.total) (c : Choice) (cs : List Choice) : drive (read off n) (c :: cs) s0 = (s0, .fail) := by
  have : n = 0 ∨ s0.total ≤ off + n := .inr (by omega)
  simp only [drive, read, if_pos this]

/-! ### probe -/

structure PInv (s0 s : St) : Prop where
  len : s.jed.length = 4
  mid : Mid s (0x9f#8 :: s0.jed.drop 1)
  busy : s.dev.busy = false
  dev : still s.dev = still s0.dev
  tail : (0x9f#8 :: s.jed.drop 1).drop (sent s 4) = (0x9f#8 :: s0.jed.drop 1).drop (sent s 4)
  got : ∀ i, 1 ≤ i → i < sent s 4 → s.jed[i]? = some (answer { s.dev with sel := (0x9f#8 :: s0.jed.drop 1).take i })
  keep : s.seq = s0.seq ∧ s.pp = s0.pp

theorem cons_drop_get {l : List Byte} {x : Byte} {i : Nat} (hi : 1 ≤ i) : (x :: l.drop 1)[i]? = l[i]? := by
  cases i with
  | zero => omega
  | succ i => simp [Nat.add_comm]

/-- C70, s25fl1: however the message is split, flash_ext_probe finds the identification of the memory -/
theorem probe25_right {s0 : St} (hr : Rest s0) (hj : s0.jed.length = 4) {t : Byte} {u : Nat} (hid : s0.dev.id = (0x01#8, 0x40#8, t)) (hu : units25 t = some u) (cs : List Choice) :
    (drive probe25 cs s0).2 ≠ .fail ∧
    ∀ v, (drive probe25 cs s0).2 = .done v → v = 0 ∧ (drive probe25 cs s0).1.total = 4096 * u ∧ (drive probe25 cs s0).1.jedec = [0x01#8, 0x40#8, t] ∧
      (drive probe25 cs s0).1.dev = s0.dev ∧ Rest (drive probe25 cs s0).1 := by
  have hml : (0x9f#8 :: s0.jed.drop 1).length = 4 := by simp [hj]
  have hstep : ∀ c s, PInv s0 s →
      ((probe25 c s).2 = .again ∧ PInv s0 (probe25 c s).1) ∨
      ((probe25 c s).2 = .done 0 ∧ (probe25 c s).1.total = 4096 * u ∧ (probe25 c s).1.jedec = [0x01#8, 0x40#8, t] ∧ (probe25 c s).1.dev = s0.dev ∧ Rest (probe25 c s).1) := by
    intro c s h
    obtain ⟨d, b, l, g, ok, e, hbl, h1, h2, h3, h4⟩ := runCmd_spec (buf := 0x9f#8 :: s.jed.drop 1) c h.mid (by rw [hml]; simp [h.len]) (by rw [hml]; exact h.tail)
    rw [hml] at hbl h1 h2 h3 h4
    rw [settle_idle h.busy] at h1 h2
    have hany : ∀ i, 1 ≤ i → i < sent s 4 → b[i]? = some (answer { s.dev with sel := (0x9f#8 :: s0.jed.drop 1).take i }) := by
      intro i i1 i2
      rw [h3 i i2, cons_drop_get i1]; exact h.got i i1 i2
    simp only [probe25, e]
    cases ok with
    | true =>
      right
      obtain ⟨a1, a2, a3, a4⟩ := h1 rfl
      have hall : ∀ i, 1 ≤ i → i < 4 → b[i]? = some (answer { s.dev with sel := (0x9f#8 :: s0.jed.drop 1).take i }) := by
        intro i i1 i2
        by_cases hlt : i < sent s 4
        · exact hany i i1 hlt
        · exact a4 i (by omega) i2
      have hid' : s.dev.id = (0x01#8, 0x40#8, t) := by have := congrArg Dev.id h.dev; simpa [still, hid] using this
      rcases hjd : s0.jed.drop 1 with _ | ⟨x, _ | ⟨y, _ | ⟨z, w⟩⟩⟩
      · rw [hjd] at hml; simp at hml
      · rw [hjd] at hml; simp at hml
      · rw [hjd] at hml; simp at hml
      · rw [hjd] at hall a1
        have g1 : b[1]? = some 0x01#8 := by rw [hall 1 (by omega) (by omega)]; simp [answer, h.busy, hid']
        have g2 : b[2]? = some 0x40#8 := by rw [hall 2 (by omega) (by omega)]; simp [answer, h.busy, hid']
        have g3 : b[3]? = some t := by rw [hall 3 (by omega) (by omega)]; simp [answer, h.busy, hid']
        have hb : b.drop 1 = [0x01#8, 0x40#8, t] := by
          apply List.ext_getElem?
          intro i
          rw [List.getElem?_drop]
          rcases i with _ | _ | _ | i
          · exact g1
          · exact g2
          · exact g3
          · rw [List.getElem?_eq_none (by omega)]; rfl
        have hdev : d = s0.dev := by
          have hc : commit { s.dev with sel := 0x9f#8 :: x :: y :: z :: w } = { s.dev with sel := [] } := by
            cases hw : s.dev.wel <;> simp [commit, h.busy, hw]
          rw [a1, hc]
          have e1 := hr.sel; have e2 := hr.busy; have e3 := h.busy; have e4 := h.dev
          generalize s.dev = d1 at e3 e4 ⊢
          generalize s0.dev = d0 at e1 e2 e4 ⊢
          cases d1; cases d0; simp_all [still]
        simp only [if_true, hb, identify]
        simp [hu]
        exact ⟨hdev, a2, h.keep.1.trans hr.seq, by rw [hdev]; exact hr.sel, by rw [hdev]; exact hr.busy⟩
    | false =>
      left
      obtain ⟨a1, a2, a3, a4, a5, a6, a7⟩ := h2 rfl
      refine ⟨by simp, ⟨hbl, ⟨a3.pos, a3.le, a3.sel⟩, by show d.busy = false; rw [a4]; exact h.busy, by show still d = _; rw [a4]; exact h.dev, ?_, ?_, h.keep⟩⟩
      · show (0x9f#8 :: b.drop 1).drop (if l = 0 then 0 else 4 - l) = List.drop (if l = 0 then 0 else 4 - l) _
        rw [if_neg a2]
        rcases hz : 4 - l with _ | m
        · have hl4 : l = 4 := by have := a3.le; rw [hml] at this; show l = 4; simp only [] at this; omega
          rw [hz] at a6
          simp only [List.drop_zero] at a6 ⊢
          rw [a6]; simp
        · rw [hz] at a6
          simpa [Nat.add_comm] using a6
      · intro i i1 i2
        replace i2 : i < 4 - l := by have : i < if l = 0 then 0 else 4 - l := i2; rwa [if_neg a2] at this
        show b[i]? = some (answer { d with sel := _ })
        rw [a4]
        by_cases hlt : i < sent s 4
        · exact hany i i1 hlt
        · exact a7 i (by omega) i2
  have h := drive_inv (f := probe25) (I := PInv s0)
    (Post := fun s v => v = 0 ∧ s.total = 4096 * u ∧ s.jedec = [0x01#8, 0x40#8, t] ∧ s.dev = s0.dev ∧ Rest s) (Fail := fun _ => False)
    (fun c s hi ho => by
      rcases hstep c s hi with h | h
      · exact h.2
      · rw [h.1] at ho; simp at ho)
    (fun c s v hi hd => by
      rcases hstep c s hi with h | h
      · rw [h.1] at hd; cases hd
      · rw [h.1] at hd; cases hd; exact ⟨rfl, h.2⟩)
    (fun c s hi hf => by
      rcases hstep c s hi with h | h
      · rw [h.1] at hf; cases hf
      · rw [h.1] at hf; cases hf) cs s0
    ⟨hj, mid_start (by simp) hr.left hr.sel, hr.busy, rfl, by simp [sent, hr.left], by intro i _ h2; simp [sent, hr.left] at h2, rfl, rfl⟩
  exact ⟨fun e => h.2.2.2 e, fun v hv => h.2.2.1 v hv⟩

/-- sst26vf: right if the message is sent in one exchange -/
theorem probe26_right_partial {s0 : St} (hr : Rest s0) {t : Byte} {u : Nat} (hid : s0.dev.id = (0xbf#8, 0x26#8, t)) (hu : units26 t = some u) {c : Choice} (hk : 4 ≤ c.k) (cs : List Choice) :
    (drive probe26 (c :: cs) s0).2 = .done 0 ∧ (drive probe26 (c :: cs) s0).1.total = 4096 * u ∧ (drive probe26 (c :: cs) s0).1.dev = s0.dev := by
  obtain ⟨h1, h2, h3, h4⟩ := hr
  have hm : min c.k 4 = 4 := by omega
  have hd : { s0.dev with sel := [] } = s0.dev := by rw [← h3]
  cases hw : s0.dev.wel <;> simp [drive, probe26, runCmd, h1, hm, send, h3, settle_idle h4, answer, h4, hid, identify, hu, commit, hw] <;> rcases hd' : s0.dev with ⟨_, _, _, _, _, _, _, _, _, _⟩ <;> simp_all

/-- sst26vf: what was received by an exchange that did not end the message is lost, and flash_ext_probe fails for good: here after any two or three bytes -/
theorem probe26_wrong {s0 : St} (hr : Rest s0) {c c' : Choice} (hk : c.k = 2 ∨ c.k = 3) (hk' : 2 ≤ c'.k) (cs : List Choice) :
    (drive probe26 (c :: c' :: cs) s0).2 = .fail := by
  obtain ⟨h1, h2, h3, h4⟩ := hr
  rcases hk with hk | hk
  · have : min c'.k 2 = 2 := by omega
    simp [drive, probe26, runCmd, h1, hk, send, h3, settle_idle h4, answer, h4, identify, this]
  · have : min c'.k 1 = 1 := by omega
    simp [drive, probe26, runCmd, h1, hk, send, h3, settle_idle h4, answer, h4, identify, this]

/-- and with a driver of spi_xfer that exchanges one byte per call -/
theorem probe26_bytewise_wrong {s0 : St} (hr : Rest s0) (f : Bool) (cs : List Choice) : (drive probe26 (List.replicate 4 ⟨1, f⟩ ++ cs) s0).2 = .fail := by
  obtain ⟨h1, h2, h3, h4⟩ := hr
  simp [drive, probe26, runCmd, h1, send, h3, settle_idle h4, answer, h4, identify, List.replicate]

/-- sst26vf: flash_ext_unlock says 0 and unlocks nothing; a sector protected when the memory starts is never erased -/
theorem unlock26_wrong {off : Nat} {s0 : St} (c : Choice) (cs : List Choice) : drive (noLock off) (c :: cs) s0 = (s0, .done 0) := by simp [drive, noLock]

/-! ### a concrete memory -/

def demoDev : Dev :=
  { mem := fun x => BitVec.ofNat 8 x, wel := false, busy := false, sr1 := 0, sr2 := 0, sr3 := 0, prot := fun x => decide (8192 ≤ x ∧ x < 12288), id := (0x01#8, 0x40#8, 0x15#8),
    junk := fun _ => 0xff#8, sel := [] }

example : Rest (init [] demoDev) ∧ (init [] demoDev).pp.length = 260 ∧ (init [] demoDev).jed.length = 4 ∧ units25 0x15#8 = some 512 := by
  refine ⟨⟨rfl, rfl, rfl, rfl⟩, List.length_replicate, rfl, by decide⟩

example : Takes true 256 [1#8, 2#8] 4096 ∧ Takes false 4096 (List.replicate 300 7#8) 4096 := by
  refine ⟨⟨by simp, rfl, fun _ => by simp⟩, fun h => ?_, rfl, fun h => by cases h⟩
  have := congrArg List.length h; rw [List.length_replicate] at this; simp at this

example : demoDev.prot 4096 = false ∧ demoDev.prot 8192 = true := by decide

end Pico.FlashExt
