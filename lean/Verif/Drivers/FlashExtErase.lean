import Verif.Drivers.FlashExtProps
/-
flash_ext_erase, flash_ext_read, flash_ext_write, flash_ext_probe (C70).
-/
namespace Pico.FlashExt

theorem addr_cmd {off : Nat} (h : off < 16777216) : addr (byte (off / 65536)) (byte (off / 256)) (byte off) = off := by
  simp only [addr, byte, BitVec.toNat_ofNat]; omega

theorem commit_wren {d : Dev} (h : d.busy = false) : commit { d with sel := [0x06#8] } = { d with sel := [], wel := true } := by
  simp [commit, h]

theorem commit_erase {d : Dev} {off : Nat} (h : d.busy = false) (hw : d.wel = true) (ho : off < 16777216) (hp : d.prot off = false) :
    commit { d with sel := cmdAddr 0x20#8 off } = { d with sel := [], mem := erase4k off d.mem, wel := false, busy := true } := by
  simp [commit, cmdAddr, h, hw, addr_cmd ho, hp]

theorem commit_program {d : Dev} {off : Nat} {u : List Byte} (h : d.busy = false) (hw : d.wel = true) (ho : off < 16777216) (hp : d.prot off = false) :
    commit { d with sel := cmdAddr 0x02#8 off ++ u } = { d with sel := [], mem := program off u d.mem, wel := false, busy := true } := by
  simp [commit, cmdAddr, h, hw, addr_cmd ho, hp]

theorem settle_idle {f : Bool} {d : Dev} (h : d.busy = false) : settle f d = d := by
  cases f
  · rfl
  · cases d; simp_all [settle]

/-! ### erase -/

/-- what is left in the flash driver apart from its sequence, and what the memory is when idle -/
structure EInv (off : Nat) (s0 s : St) : Prop where
  seq : s.seq ≤ 3
  tot : s.total = s0.total
  s0i : s.seq = 0 → Mid s [0x06#8] ∧ s.dev.busy = false ∧ still s.dev = still s0.dev ∧ s.log = s0.log
  s1i : s.seq = 1 → Mid s (cmdAddr 0x20#8 off) ∧ s.dev.busy = false ∧ still s.dev = { still s0.dev with wel := true } ∧ s.log = s0.log ++ [[0x06#8]]
  s2i : s.seq = 2 → Mid s [0x05#8, 0] ∧ still s.dev = { still s0.dev with wel := false, mem := erase4k off s0.dev.mem } ∧
    ∃ k, s.log = s0.log ++ [[0x06#8], cmdAddr 0x20#8 off] ++ List.replicate k [0x05#8, 0]
  s3i : s.seq = 3 → s.left = 0 ∧ s.dev = { s0.dev with wel := false, mem := erase4k off s0.dev.mem } ∧
    ∃ k, s.log = s0.log ++ [[0x06#8], cmdAddr 0x20#8 off] ++ List.replicate (k + 1) [0x05#8, 0]
  keep : s.pp = s0.pp ∧ s.out = s0.out

/-- a driver at rest: no message under way, first step, the memory idle -/
structure Rest (s : St) : Prop where
  left : s.left = 0
  seq : s.seq = 0
  sel : s.dev.sel = []
  busy : s.dev.busy = false

theorem of_still {d e : Dev} (h : still d = still e) : d = { e with sel := d.sel, busy := d.busy } := by
  cases d; cases e; simp only [still, Dev.mk.injEq] at h ⊢; simp_all

theorem einv_rest {off : Nat} {s0 : St} (h : Rest s0) : EInv off s0 s0 :=
  ⟨by rw [h.seq]; omega, rfl, fun _ => ⟨mid_start (by simp) h.left h.sel, h.busy, rfl, rfl⟩, fun e => by rw [h.seq] at e; omega, fun e => by rw [h.seq] at e; omega,
    fun e => by rw [h.seq] at e; omega, rfl, rfl⟩

/-- one iteration of flash_ext_erase -/
theorem einv_step {off : Nat} {s0 : St} (hr : Rest s0) (hal : off % 4096 = 0) (hlt : off < s0.total) (h24 : off < 16777216) (hp : s0.dev.prot off = false)
    (c : Choice) {s : St} (h : EInv off s0 s) :
    ((erase off c s).2 = .more ∨ (erase off c s).2 = .again → EInv off s0 (erase off c s).1) ∧
    (∀ v, (erase off c s).2 = .done v → v = 0 ∧ s.seq = 3 ∧ (erase off c s).1 = { s with seq := 0 }) ∧ (erase off c s).2 ≠ .fail ∧
    (4 ≤ c.k → c.fin = true → s.seq < 3 → (erase off c s).2 = .more ∧ (erase off c s).1.seq = s.seq + 1) := by
  have htot := h.tot
  have hif : ¬ (off % 4096 ≠ 0 ∨ s.total ≤ off) := by rw [htot]; omega
  have hseq := h.seq
  unfold erase
  rw [if_neg hif]
  obtain ⟨k1, k2⟩ := h.keep
  rcases hq : s.seq with _ | _ | _ | n
  · obtain ⟨hm, hb, hst, hlog⟩ := h.s0i hq
    obtain ⟨d, b, l, g, ok, e, h1, h2, h4⟩ := runCmd_const c hm
    simp only [e, next]
    rw [settle_idle hb] at h1 h2
    cases ok with
    | true =>
      obtain ⟨a1, a2, a3, -⟩ := h1 rfl
      rw [commit_wren hb] at a1
      simp only [if_true]
      refine ⟨fun _ => ⟨by simp only [hq]; omega, htot, by simp [hq], fun _ => ⟨mid_start (by simp [cmdAddr]) a2 (by simp [a1]), by simp [a1, hb], ?_, by simp [a3, hlog]⟩,
        by simp [hq], by simp [hq], k1, k2⟩, by simp, by simp, fun _ _ _ => by simp [hq]⟩
      rw [a1]; rw [← hst]; rfl
    | false =>
      obtain ⟨a1, a2, a3, a4⟩ := h2 rfl
      refine ⟨fun _ => ⟨by simp [hq], htot, fun _ => ⟨a3, ?_, ?_, by simp [a1, hlog]⟩, by simp [hq], by simp [hq], by simp [hq], k1, k2⟩, by simp, by simp, fun hk => ?_⟩
      · show d.busy = false; rw [a4]; exact hb
      · show still d = _; rw [a4, ← hst]; rfl
      · have := h4 (by simp; omega); cases this
  · obtain ⟨hm, hb, hst, hlog⟩ := h.s1i hq
    obtain ⟨d, b, l, g, ok, e, h1, h2, h4⟩ := runCmd_const c hm
    simp only [e, next]
    rw [settle_idle hb] at h1 h2
    have hw : s.dev.wel = true := by have := congrArg Dev.wel hst; simpa [still] using this
    have hpr : s.dev.prot off = false := by have := congrFun (congrArg Dev.prot hst) off; simpa [still, hp] using this
    have hmem : s.dev.mem = s0.dev.mem := by have := congrArg Dev.mem hst; simpa [still] using this
    cases ok with
    | true =>
      obtain ⟨a1, a2, a3, -⟩ := h1 rfl
      rw [commit_erase hb hw h24 hpr] at a1
      simp only [if_true]
      refine ⟨fun _ => ⟨by simp only [hq]; omega, htot, by simp [hq], by simp [hq], fun _ => ⟨mid_start (by simp) a2 (by simp [a1]), ?_, 0, by simp [a3, hlog]⟩,
        by simp [hq], k1, k2⟩, by simp, by simp, fun _ _ _ => by simp [hq]⟩
      show still d = _
      have : still d = { still s.dev with wel := false, mem := erase4k off s.dev.mem } := by rw [a1]; rfl
      rw [this, hst, hmem]
    | false =>
      obtain ⟨a1, a2, a3, a4⟩ := h2 rfl
      refine ⟨fun _ => ⟨by simp [hq], htot, by simp [hq], fun _ => ⟨a3, ?_, ?_, by simp [a1, hlog]⟩, by simp [hq], by simp [hq], k1, k2⟩, by simp, by simp, fun hk => ?_⟩
      · show d.busy = false; rw [a4]; exact hb
      · show still d = _; rw [a4, ← hst]; rfl
      · have := h4 (by simp [cmdAddr]; omega); cases this
  · obtain ⟨hm, hst, k, hlog⟩ := h.s2i hq
    obtain ⟨d, l, g, q, o, e, hs, hc, -, hgo⟩ := runBusy_spec c hm
    simp only [e]
    rcases hc with ⟨ho, c1, c2, c3, c4, c5⟩ | ⟨ho, c1, c2, c3⟩
    · refine ⟨fun _ => ⟨by simp only []; omega, htot, by intro (e : q = 0); omega, by intro (e : q = 1); omega, by intro (e : q = 2); omega, fun _ => ⟨c4, ?_, k, ?_⟩, k1, k2⟩,
        by simp [ho], by simp [ho], fun _ _ _ => ⟨ho, by omega⟩⟩
      · show d = _
        have h2 : still d = still { s0.dev with wel := false, mem := erase4k off s0.dev.mem } := hs.trans hst
        have := of_still h2
        rw [this, c3, c2]
        have e1 := hr.sel; have e2 := hr.busy
        simp [e1, e2]
      · simp only [c5, hlog, List.replicate_succ', List.append_assoc]
    · refine ⟨fun _ => ⟨by simp only []; omega, htot, by intro (e : q = 0); omega, by intro (e : q = 1); omega, fun _ => ⟨c2, hs.trans hst, ?_⟩, by intro (e : q = 3); omega, k1, k2⟩,
        by simp [ho], by simp [ho], fun hk hf _ => ?_⟩
      · rcases c3 with ⟨-, c3⟩ | c3
        · exact ⟨k, by rw [c3]; exact hlog⟩
        · exact ⟨k + 1, by simp only [c3, hlog, List.replicate_succ', List.append_assoc]⟩
      · have := hgo (by omega) (.inr hf); rw [this] at ho; cases ho
  · have : s.seq = 3 := by omega
    refine ⟨by simp, fun v e => ⟨by simpa using e.symm, by omega, rfl⟩, by simp, fun _ _ h => by omega⟩

/-- C70: flash_ext_erase, called until it returns: it returns 0, the sector is erased, nothing else has changed, the memory is ready and the driver at rest; and it
never fails. What was on the wire: write enable, sector erase, status reads. -/
theorem erase_right {off : Nat} {s0 : St} (hr : Rest s0) (hal : off % 4096 = 0) (hlt : off < s0.total) (h24 : off < 16777216) (hp : s0.dev.prot off = false) (cs : List Choice) :
    (drive (erase off) cs s0).2 ≠ .fail ∧
    ∀ v, (drive (erase off) cs s0).2 = .done v → v = 0 ∧
      (∀ x, (drive (erase off) cs s0).1.dev.mem x = if x / 4096 = off / 4096 then 0xff#8 else s0.dev.mem x) ∧
      (drive (erase off) cs s0).1.dev = { s0.dev with wel := false, mem := (drive (erase off) cs s0).1.dev.mem } ∧
      Rest (drive (erase off) cs s0).1 ∧ (drive (erase off) cs s0).1.total = s0.total ∧
      (drive (erase off) cs s0).1.out = s0.out ∧
      ∃ k, (drive (erase off) cs s0).1.log = s0.log ++ [[0x06#8], cmdAddr 0x20#8 off] ++ List.replicate (k + 1) [0x05#8, 0] := by
  have h := drive_inv (f := erase off) (I := EInv off s0)
    (Post := fun s v => v = 0 ∧ s.seq = 0 ∧ s.left = 0 ∧ s.total = s0.total ∧ s.out = s0.out ∧ s.dev = { s0.dev with wel := false, mem := erase4k off s0.dev.mem } ∧
      ∃ k, s.log = s0.log ++ [[0x06#8], cmdAddr 0x20#8 off] ++ List.replicate (k + 1) [0x05#8, 0]) (Fail := fun _ => False)
    (fun c s hi => (einv_step hr hal hlt h24 hp c hi).1)
    (fun c s v hi hd => by
      obtain ⟨e1, e2, e3⟩ := (einv_step hr hal hlt h24 hp c hi).2.1 v hd
      obtain ⟨a, b, k⟩ := hi.s3i e2
      rw [e3]; exact ⟨e1, rfl, a, hi.tot, hi.keep.2, b, k⟩)
    (fun c s hi hf => (einv_step hr hal hlt h24 hp c hi).2.2.1 hf) cs s0 (einv_rest hr)
  obtain ⟨-, -, h3, h4⟩ := h
  refine ⟨fun e => h4 e, fun v hv => ?_⟩
  obtain ⟨p1, p2, p3, p4, p6, p5, k⟩ := h3 v hv
  refine ⟨p1, fun x => by rw [p5]; rfl, by rw [p5], ⟨p3, p2, by rw [p5]; exact hr.sel, by rw [p5]; exact hr.busy⟩, p4, p6, k⟩

/-- it does return: whatever happened so far, four more iterations in which the messages go through and the memory has finished are enough -/
theorem erase_returns {off : Nat} {s0 : St} (hr : Rest s0) (hal : off % 4096 = 0) (hlt : off < s0.total) (h24 : off < 16777216) (hp : s0.dev.prot off = false) (cs : List Choice)
    {k : Nat} (hk : 4 ≤ k) : (drive (erase off) (cs ++ List.replicate 4 ⟨k, true⟩) s0).2 = .done 0 := by
  have h := drive_inv (f := erase off) (I := EInv off s0) (Post := fun _ v => v = 0) (Fail := fun _ => False)
    (fun c s hi => (einv_step hr hal hlt h24 hp c hi).1)
    (fun c s v hi hd => ((einv_step hr hal hlt h24 hp c hi).2.1 v hd).1)
    (fun c s hi hf => (einv_step hr hal hlt h24 hp c hi).2.2.1 hf) cs s0 (einv_rest hr)
  rw [drive_append]
  generalize drive (erase off) cs s0 = r at h ⊢
  obtain ⟨s, o⟩ := r
  obtain ⟨h1, h2, h3, h4⟩ := h
  cases o with
  | more => exact absurd rfl h1
  | fail => exact (h4 rfl).elim
  | done v => simp [h3 v rfl]
  | again =>
    have hi := h2 rfl
    simp only [if_true]
    have key : ∀ m (s : St), EInv off s0 s → 4 ≤ m + s.seq → (drive (erase off) (List.replicate m ⟨k, true⟩) s).2 = .done 0 := by
      intro m
      induction m with
      | zero => intro s hi hm; have := hi.seq; omega
      | succ m ih =>
        intro s hi hm
        have hs := einv_step hr hal hlt h24 hp ⟨k, true⟩ hi
        simp only [List.replicate_succ, drive]
        by_cases h3 : s.seq < 3
        · obtain ⟨p1, p2⟩ := hs.2.2.2 hk rfl h3
          have p3 := hs.1 (.inl p1)
          rcases hr' : erase off ⟨k, true⟩ s with ⟨s', o'⟩
          rw [hr'] at p1 p2 p3
          simp only [] at p1 p2 p3
          subst p1
          exact ih s' p3 (by omega)
        · have h3 : s.seq = 3 := by have := hi.seq; omega
          have : erase off ⟨k, true⟩ s = ({ s with seq := 0 }, .done 0) := by
            unfold erase; rw [if_neg (by rw [hi.tot]; omega)]; simp [h3]
          rw [this]
    exact key 4 s hi (by omega)

/-- a protected sector: flash_ext_erase returns 0 all the same, and nothing was erased -/
theorem erase_protected {off : Nat} {s0 : St} (hr : Rest s0) (hal : off % 4096 = 0) (hlt : off < s0.total) (h24 : off < 16777216) (hp : s0.dev.prot off = true) {k : Nat} (hk : 4 ≤ k) :
    (drive (erase off) (List.replicate 4 ⟨k, false⟩) s0).2 = .done 0 ∧ (drive (erase off) (List.replicate 4 ⟨k, false⟩) s0).1.dev.mem = s0.dev.mem := by
  obtain ⟨h1, h2, h3, h4⟩ := hr
  have hif : ∀ s : St, s.total = s0.total → ¬ (off % 4096 ≠ 0 ∨ s.total ≤ off) := by intro s e; rw [e]; omega
  have e1 : erase off ⟨k, false⟩ s0 = ({ s0 with seq := 1, log := s0.log ++ [[0x06#8]], dev := { s0.dev with wel := true } }, .more) := by
    unfold erase; rw [if_neg (hif _ rfl), h2]
    have : min k 1 = 1 := by omega
    simp [runCmd, h1, this, settle, next, send, h3, commit, h4, h2]
  have e2 : ∀ g, erase off ⟨k, false⟩ { s0 with seq := 1, log := g, dev := { s0.dev with wel := true } } =
      ({ s0 with seq := 2, log := g ++ [cmdAddr 0x20#8 off], dev := { s0.dev with wel := false } }, .more) := by
    intro g
    unfold erase; rw [if_neg (hif _ rfl)]
    have : min k 4 = 4 := by omega
    simp [runCmd, h1, this, settle, next, send, h3, commit, h4, cmdAddr, addr_cmd h24, hp]
  have e3 : ∀ g, erase off ⟨k, false⟩ { s0 with seq := 2, log := g, dev := { s0.dev with wel := false } } =
      ({ s0 with seq := 3, log := g ++ [[0x05#8, 0]], dev := { s0.dev with wel := false } }, .more) := by
    intro g
    unfold erase; rw [if_neg (hif _ rfl)]
    have : min k 2 = 2 := by omega
    have hz : s0.dev.sr1 &&& 0xfc#8 &&& 1#8 = 0#8 := by rw [BitVec.and_assoc]; simp
    simp [runBusy, runCmd, h1, this, settle, next, send, h3, commit, h4, answer, status, hz]
  have e4 : ∀ g, erase off ⟨k, false⟩ { s0 with seq := 3, log := g, dev := { s0.dev with wel := false } } =
      ({ s0 with seq := 0, log := g, dev := { s0.dev with wel := false } }, .done 0) := by
    intro g; unfold erase; rw [if_neg (hif _ rfl)]; simp
  simp only [List.replicate, drive, e1, e2, e3, e4]
  exact ⟨trivial, trivial⟩

/-- the arguments flash_ext_erase refuses: not the beginning of a sector, or outside the memory -/
theorem erase_refuses {off : Nat} {s0 : St} (h : off % 4096 ≠ 0 ∨ s0.total ≤ off) (c : Choice) (cs : List Choice) :
    drive (erase off) (c :: cs) s0 = (s0, .fail) := by
  simp only [drive, erase, if_pos h]

end Pico.FlashExt
