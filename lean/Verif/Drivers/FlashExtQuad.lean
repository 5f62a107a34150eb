import Verif.Drivers.FlashExtWrite
/-
flash_ext_s25fl1_quad_enable, flash_ext_*_reset, flash_ext_lock and flash_ext_unlock of s25fl1 (C70).
-/
namespace Pico.FlashExt

/-- a message of two bytes in a static buffer: the second byte of the buffer is not touched before the message is complete -/
theorem runTwo {s : St} {c0 b : Byte} (c : Choice) (h : Mid s [c0, b]) :
    ∃ d a x l g ok, runCmd c s [c0, b] = ({ s with dev := d, left := l, log := g }, [a, x], ok) ∧
      (ok = true → d = commit { settle c.fin s.dev with sel := [c0, b] } ∧ l = 0 ∧ g = s.log ++ [[c0, b]] ∧ x = answer { settle c.fin s.dev with sel := [c0] }) ∧
      (ok = false → x = b ∧ g = s.log ∧ l ≠ 0 ∧ Mid { s with dev := d, left := l, log := g } [c0, b] ∧ d = { settle c.fin s.dev with sel := d.sel }) ∧
      (2 ≤ c.k → ok = true) := by
  obtain ⟨d, buf, l, g, ok, e, hl, h1, h2, h3, h4⟩ := runCmd_spec (buf := [c0, b]) c h rfl rfl
  have hs : sent s 2 ≤ 1 := by have := h.le; simp at this; unfold sent; split <;> omega
  rcases buf with _ | ⟨a, _ | ⟨x, _ | ⟨y, z⟩⟩⟩ <;> simp at hl
  refine ⟨d, a, x, l, g, ok, e, fun ho => ?_, fun ho => ?_, h4⟩
  · obtain ⟨a1, a2, a3, a4⟩ := h1 ho
    refine ⟨a1, a2, a3, ?_⟩
    have := a4 1 (by simpa using hs) (by simp)
    simpa using this
  · obtain ⟨a1, a2, a3, a4, a5, a6, a7⟩ := h2 ho
    refine ⟨?_, a1, a2, a3, a4⟩
    have hle := a3.le
    simp at hle
    have hl : l = 1 ∨ l = 2 := by omega
    rcases hl with hl | hl <;> subst hl <;> simp at a6
    · exact a6
    · exact a6.2

/-- the second status register wanted -/
def tgt (en : Bool) (q : Byte) : Byte := if en then q ||| 2#8 else q &&& 0xfd#8

theorem tgt_tgt (en : Bool) (q : Byte) : tgt en (tgt en q) = tgt en q := by
  cases en
  · simp [tgt, BitVec.and_assoc]
  · simp [tgt, BitVec.or_assoc]

theorem commit_read {d : Dev} {c0 b : Byte} (h1 : c0 ≠ 0x06#8) (h2 : c0 ≠ 0x04#8) : commit { d with sel := [c0, b] } = { d with sel := [] } := by
  cases hb : d.busy <;> cases hw : d.wel <;> simp [commit, hb, hw, h1, h2]

theorem commit_wsr {d : Dev} {a b e : Byte} (h : d.busy = false) (hw : d.wel = true) :
    commit { d with sel := [0x01#8, a, b, e] } = { d with sel := [], sr1 := a &&& 0xfc#8, sr2 := b, sr3 := e, wel := false, busy := true } := by
  simp [commit, h, hw]

/-- only the second status register and the write enable latch differ -/
def Only (en : Bool) (d0 d : Dev) : Prop := (d.sr2 = d0.sr2 ∨ d.sr2 = tgt en d0.sr2) ∧ still d = { still d0 with sr2 := d.sr2, wel := d.wel }

structure QInv (en : Bool) (s0 s : St) : Prop where
  rl : s.rsr.length = 2
  wl : s.wsr.length = 4
  only : Only en s0.dev s.dev
  busy : s.seq ≠ 5 → s.dev.busy = false
  s0i : s.seq = 0 → Mid s [0x05#8, s.rsr.getD 1 0]
  s1i : s.seq = 1 → Mid s [0x35#8, s.rsr.getD 1 0] ∧ s.rsr.getD 1 0 &&& 0xfc#8 = s0.dev.sr1
  s2i : s.seq = 2 → Mid s [0x33#8, s.rsr.getD 1 0] ∧ s.wsr.getD 1 0 &&& 0xfc#8 = s0.dev.sr1 ∧ s.rsr.getD 1 0 = s.dev.sr2 ∧
    (s.left ≠ 0 → tgt en (s.rsr.getD 1 0) ≠ s.rsr.getD 1 0)
  s3i : s.seq = 3 → Mid s [0x06#8] ∧ s.wsr.getD 1 0 &&& 0xfc#8 = s0.dev.sr1 ∧ s.wsr.getD 2 0 = tgt en s0.dev.sr2 ∧ s.rsr.getD 1 0 = s0.dev.sr3
  s4i : s.seq = 4 → s.dev.wel = true ∧ ∃ w, w &&& 0xfc#8 = s0.dev.sr1 ∧ Mid s [0x01#8, w, tgt en s0.dev.sr2, s0.dev.sr3] ∧
    (0x01#8 :: s.wsr.drop 1).drop (sent s 4) = [0x01#8, w, tgt en s0.dev.sr2, s0.dev.sr3].drop (sent s 4)
  s5i : s.seq = 5 → Mid s [0x05#8, 0] ∧ s.dev.sr2 = tgt en s0.dev.sr2
  s6i : 6 ≤ s.seq → s.left = 0 ∧ s.dev.sel = []

theorem only_set {en : Bool} {d0 d d' : Dev} (h : Only en d0 d) (h2 : d'.sr2 = d.sr2) (hs : still d' = { still d with wel := d'.wel }) : Only en d0 d' := by
  obtain ⟨h1, h3⟩ := h
  refine ⟨by rw [h2]; exact h1, ?_⟩
  rw [hs, h3, h2]

theorem only_tgt {en : Bool} {d0 d : Dev} (h : Only en d0 d) : tgt en d.sr2 = tgt en d0.sr2 := by
  rcases h.1 with h | h <;> rw [h]
  exact tgt_tgt _ _

theorem only_sr1 {en : Bool} {d0 d : Dev} (h : Only en d0 d) : d.sr1 = d0.sr1 := by have := congrArg Dev.sr1 h.2; simpa [still] using this
theorem only_sr3 {en : Bool} {d0 d : Dev} (h : Only en d0 d) : d.sr3 = d0.sr3 := by have := congrArg Dev.sr3 h.2; simpa [still] using this

theorem two {l : List Byte} (h : l.length = 2) : ∃ a b, l = [a, b] := by
  rcases l with _ | ⟨a, _ | ⟨b, _ | ⟨c, t⟩⟩⟩ <;> simp at h
  exact ⟨a, b, rfl⟩

theorem four {l : List Byte} (h : l.length = 4) : ∃ a b c d, l = [a, b, c, d] := by
  rcases l with _ | ⟨a, _ | ⟨b, _ | ⟨c, _ | ⟨d, _ | ⟨e, t⟩⟩⟩⟩⟩ <;> simp at h
  exact ⟨a, b, c, d, rfl⟩

theorem qinv_step {en : Bool} {s0 : St} (hsr : s0.dev.sr1 &&& 0xfc#8 = s0.dev.sr1) (c : Choice) {s : St} (h : QInv en s0 s) :
    ((quadEnable en c s).2 = .more ∨ (quadEnable en c s).2 = .again → QInv en s0 (quadEnable en c s).1) ∧
    (∀ v, (quadEnable en c s).2 = .done v → v = 0 ∧ s.dev.sr2 = tgt en s0.dev.sr2 ∧ s.left = 0 ∧ s.dev.sel = [] ∧ s.dev.busy = false ∧
      (quadEnable en c s).1.dev = s.dev ∧ (quadEnable en c s).1.left = 0 ∧ (quadEnable en c s).1.seq = 0) ∧
    (quadEnable en c s).2 ≠ .fail ∧
    (4 ≤ c.k → c.fin = true → s.seq < 6 → ((quadEnable en c s).2 = .more ∧ (quadEnable en c s).1.seq = s.seq + 1) ∨ (quadEnable en c s).2 = .done 0) ∧
    (6 ≤ s.seq → (quadEnable en c s).2 = .more ∧ (quadEnable en c s).1.seq = 0) ∧
    (s.seq = 5 → (quadEnable en c s).1.dev.sr2 = s.dev.sr2) := by
  obtain ⟨ra, rb, hrsr⟩ := two h.rl
  obtain ⟨wa, wb, wc, wd, hwsr⟩ := four h.wl
  have hon := h.only
  rcases hq : s.seq with _ | _ | _ | _ | _ | _ | n
  · have hm := h.s0i hq
    have hb := h.busy (by omega)
    rw [hrsr] at hm
    obtain ⟨d, a, x, l, g, ok, e, h1, h2, h4⟩ := runTwo c (show Mid s [0x05#8, rb] from hm)
    simp only [quadEnable, hq, hrsr, List.drop_succ_cons, List.drop_zero, e, next]
    rw [settle_idle hb] at h1 h2
    cases ok with
    | true =>
      obtain ⟨a1, a2, a3, a4⟩ := h1 rfl
      rw [commit_read (by decide) (by decide)] at a1
      simp only [if_true]
      refine ⟨fun _ => ⟨rfl, h.wl, only_set hon (by simp [a1]) (by rw [a1]; rfl), fun _ => by simp [a1, hb], by simp [hq], fun _ => ⟨mid_start (by simp) a2 (by simp [a1]), ?_⟩, by simp [hq], by simp [hq], by simp [hq], by simp [hq], by simp [hq]⟩,
        by simp, by simp, fun _ _ _ => .inl (by simp [hq]), by simp, by simp⟩
      show x &&& _ = _
      rw [a4]
      have h1 := only_sr1 hon
      have hz : s0.dev.sr1 &&& 0xfc#8 &&& 0xfc#8 = s0.dev.sr1 := by rw [hsr, hsr]
      cases hw : s.dev.wel <;> simp [answer, status, hb, hw, h1, BitVec.and_or_distrib_right, hsr]
    | false =>
      obtain ⟨a0, a1, a2, a3, a4⟩ := h2 rfl
      refine ⟨fun _ => ⟨rfl, h.wl, only_set hon (show d.sr2 = _ by rw [a4]) (show still d = _ by rw [a4]; rfl), fun _ => show d.busy = false by rw [a4]; exact hb, fun _ => ?_, by simp [hq], by simp [hq], by simp [hq], by simp [hq], by simp [hq], by simp [hq]⟩,
        by simp, by simp, fun hk => ?_, by simp, by simp⟩
      · show Mid _ [0x05#8, x]
        rw [a0]; exact ⟨a3.pos, a3.le, a3.sel⟩
      · have := h4 (by omega); cases this
  · obtain ⟨hm, hs1⟩ := h.s1i hq
    have hb := h.busy (by omega)
    rw [hrsr] at hm hs1
    obtain ⟨d, a, x, l, g, ok, e, h1, h2, h4⟩ := runTwo (s := { s with wsr := s.wsr.set 1 rb }) c (show Mid _ [0x35#8, rb] from ⟨hm.pos, hm.le, hm.sel⟩)
    have e' : quadEnable en c s = next ({ ({ s with wsr := s.wsr.set 1 rb, dev := d, left := l, log := g } : St) with rsr := [a, x] }, [a, x], ok) := by
      simp only [quadEnable, hq, hrsr]
      simp only [List.getD_cons_succ, List.getD_cons_zero, List.drop_succ_cons, List.drop_zero] at e ⊢
      simp only [hrsr, hq] at e
      rw [e]
    rw [e']
    simp only [next]
    simp only [settle_idle hb] at h1 h2
    have hwl : (s.wsr.set 1 rb).length = 4 := by rw [List.length_set]; exact h.wl
    cases ok with
    | true =>
      obtain ⟨a1, a2, a3, a4⟩ := h1 rfl
      rw [commit_read (by decide) (by decide)] at a1
      simp only [if_true]
      refine ⟨fun _ => ⟨rfl, hwl, only_set hon (by simp [a1]) (by rw [a1]; rfl), fun _ => by simp [a1, hb], by simp [hq], by simp [hq], fun _ => ⟨mid_start (by simp) a2 (by simp [a1]), ?_, ?_, fun hl => absurd a2 hl⟩, by simp [hq], by simp [hq], by simp [hq], by simp [hq]⟩,
        by simp, by simp, fun _ _ _ => .inl (by simp [hq]), by simp, by simp⟩
      · show (s.wsr.set 1 rb).getD 1 0 &&& _ = _
        rw [hwsr]; exact hs1
      · show x = d.sr2
        rw [a4, a1]; simp [answer]
    | false =>
      obtain ⟨a0, a1, a2, a3, a4⟩ := h2 rfl
      refine ⟨fun _ => ⟨rfl, hwl, only_set hon (show d.sr2 = _ by rw [a4]) (show still d = _ by rw [a4]; rfl), fun _ => show d.busy = false by rw [a4]; exact hb, by simp [hq], fun _ => ⟨?_, ?_⟩, by simp [hq], by simp [hq], by simp [hq], by simp [hq], by simp [hq]⟩,
        by simp, by simp, fun hk => ?_, by simp, by simp⟩
      · show Mid _ [0x35#8, x]
        rw [a0]; exact ⟨a3.pos, a3.le, a3.sel⟩
      · show x &&& _ = _
        rw [a0]; exact hs1
      · have := h4 (by omega); cases this
  · obtain ⟨hm, hs1, hs2, hs3⟩ := h.s2i hq
    have hb := h.busy (by omega)
    rw [hrsr] at hm hs2 hs3
    replace hs2 : rb = s.dev.sr2 := hs2
    replace hs3 : s.left ≠ 0 → tgt en rb ≠ rb := hs3
    have hwl : (s.wsr.set 2 (tgt en rb)).length = 4 := by rw [List.length_set]; exact h.wl
    by_cases hw : tgt en rb = rb
    · have hl : s.left = 0 := by
        by_cases hl : s.left = 0
        · exact hl
        · exact absurd hw (hs3 hl)
      have e' : quadEnable en c s = ({ s with wsr := s.wsr.set 2 (tgt en rb), seq := 0 }, .done 0) := by
        simp only [quadEnable, hq, hrsr]
        show (if tgt en rb = rb then _ else _) = _
        rw [if_pos hw]; rfl
      rw [e']
      refine ⟨by simp, fun v hv => ⟨by simpa using hv.symm, ?_, hl, ?_, hb, rfl, hl, rfl⟩, by simp, fun _ _ _ => .inr rfl, by simp, by simp⟩
      · rw [← only_tgt hon, ← hs2]; exact hw.symm
      · rw [hm.sel]; simp [sent, hl]
    · obtain ⟨d, a, x, l, g, ok, e, h1, h2, h4⟩ := runTwo (s := { s with wsr := s.wsr.set 2 (tgt en rb) }) c (show Mid _ [0x33#8, rb] from ⟨hm.pos, hm.le, hm.sel⟩)
      have e' : quadEnable en c s = next ({ ({ s with wsr := s.wsr.set 2 (tgt en rb), dev := d, left := l, log := g } : St) with rsr := [a, x] }, [a, x], ok) := by
        simp only [quadEnable, hq, hrsr]
        show (if tgt en rb = rb then _ else _) = _
        rw [if_neg hw]
        show next _ = _
        simp only [List.getD_cons_succ, List.getD_cons_zero, List.drop_succ_cons, List.drop_zero] at e ⊢
        simp only [hrsr, hq, tgt] at e
        rw [e]; rfl
      rw [e']
      simp only [next]
      simp only [settle_idle hb] at h1 h2
      cases ok with
      | true =>
        obtain ⟨a1, a2, a3, a4⟩ := h1 rfl
        rw [commit_read (by decide) (by decide)] at a1
        simp only [if_true]
        refine ⟨fun _ => ⟨rfl, hwl, only_set hon (by simp [a1]) (by rw [a1]; rfl), fun _ => by simp [a1, hb], by simp [hq], by simp [hq], by simp [hq], fun _ => ⟨mid_start (by simp) a2 (by simp [a1]), ?_, ?_, ?_⟩, by simp [hq], by simp [hq], by simp [hq]⟩,
          by simp, by simp, fun _ _ _ => .inl (by simp [hq]), by simp, by simp⟩
        · show (s.wsr.set 2 _).getD 1 0 &&& _ = _
          rw [hwsr] at hs1 ⊢; exact hs1
        · show (s.wsr.set 2 _).getD 2 0 = _
          rw [hwsr, ← only_tgt hon, ← hs2]; rfl
        · show x = _
          rw [a4, ← only_sr3 hon]; simp [answer]
      | false =>
        obtain ⟨a0, a1, a2, a3, a4⟩ := h2 rfl
        refine ⟨fun _ => ⟨rfl, hwl, only_set hon (show d.sr2 = _ by rw [a4]) (show still d = _ by rw [a4]; rfl), fun _ => show d.busy = false by rw [a4]; exact hb, by simp [hq], by simp [hq], fun _ => ⟨?_, ?_, ?_, ?_⟩, by simp [hq], by simp [hq], by simp [hq], by simp [hq]⟩,
          by simp, by simp, fun hk => ?_, by simp, by simp⟩
        · show Mid _ [0x33#8, x]
          rw [a0]; exact ⟨a3.pos, a3.le, a3.sel⟩
        · show (s.wsr.set 2 _).getD 1 0 &&& _ = _
          rw [hwsr] at hs1 ⊢; exact hs1
        · show x = d.sr2
          rw [a0, a4]; exact hs2
        · intro _; show tgt en x ≠ x
          rw [a0]; exact hw
        · have := h4 (by omega); cases this
  · obtain ⟨hm, hs1, hs2, hs3⟩ := h.s3i hq
    have hb := h.busy (by omega)
    rw [hrsr] at hs3
    replace hs3 : rb = s0.dev.sr3 := hs3
    have hwl : (s.wsr.set 3 rb).length = 4 := by rw [List.length_set]; exact h.wl
    obtain ⟨d, b, l, g, ok, e, h1, h2, h4⟩ := runCmd_const (s := { s with wsr := s.wsr.set 3 rb }) c (show Mid _ [0x06#8] from ⟨hm.pos, hm.le, hm.sel⟩)
    have e' : quadEnable en c s = next ({ s with wsr := s.wsr.set 3 rb, dev := d, left := l, log := g }, b, ok) := by
      simp only [quadEnable, hq, hrsr]
      simp only [List.getD_cons_succ, List.getD_cons_zero]
      simp only [hrsr, hq] at e
      rw [e]
    rw [e']
    simp only [next]
    simp only [settle_idle hb] at h1 h2
    cases ok with
    | true =>
      obtain ⟨a1, a2, a3, -⟩ := h1 rfl
      rw [commit_wren hb] at a1
      simp only [if_true]
      refine ⟨fun _ => ⟨h.rl, hwl, only_set hon (by simp [a1]) (by rw [a1]; rfl), fun _ => by simp [a1, hb], by simp [hq], by simp [hq], by simp [hq], by simp [hq], fun _ => ⟨by simp [a1], wb, ?_, mid_start (by simp) a2 (by simp [a1]), ?_⟩, by simp [hq], by simp [hq]⟩,
        by simp, by simp, fun _ _ _ => .inl (by simp [hq]), by simp, by simp⟩
      · rw [hwsr] at hs1; exact hs1
      · show (0x01#8 :: (s.wsr.set 3 rb).drop 1).drop _ = _
        congr 1
        rw [hwsr] at hs2 ⊢
        simp at hs2
        simp [hs2, hs3]
    | false =>
      obtain ⟨a1, a2, a3, a4⟩ := h2 rfl
      refine ⟨fun _ => ⟨h.rl, hwl, only_set hon (show d.sr2 = _ by rw [a4]) (show still d = _ by rw [a4]; rfl), fun _ => show d.busy = false by rw [a4]; exact hb, by simp [hq], by simp [hq], by simp [hq], fun _ => ⟨⟨a3.pos, a3.le, a3.sel⟩, ?_, ?_, ?_⟩, by simp [hq], by simp [hq], by simp [hq]⟩,
        by simp, by simp, fun hk => ?_, by simp, by simp⟩
      · show (s.wsr.set 3 _).getD 1 0 &&& _ = _
        rw [hwsr] at hs1 ⊢; exact hs1
      · show (s.wsr.set 3 _).getD 2 0 = _
        rw [hwsr] at hs2 ⊢; exact hs2
      · show s.rsr.getD 1 0 = _
        rw [hrsr]; exact hs3
      · have := h4 (by simp; omega); cases this
  · obtain ⟨hwel, w, hw1, hm, hd⟩ := h.s4i hq
    have hb := h.busy (by omega)
    obtain ⟨d, b, l, g, ok, e, hbl, h1, h2, h3, h4⟩ := runCmd_spec (buf := 0x01#8 :: s.wsr.drop 1) c hm (by simp [h.wl]) hd
    have hml : [0x01#8, w, tgt en s0.dev.sr2, s0.dev.sr3].length = 4 := rfl
    rw [hml] at hbl h1 h2 h3 h4
    have e' : quadEnable en c s = next ({ s with wsr := b, dev := d, left := l, log := g }, b, ok) := by
      simp only [quadEnable, hq, e]
    rw [e']
    simp only [next]
    rw [settle_idle hb] at h1 h2
    cases ok with
    | true =>
      obtain ⟨a1, a2, a3, -⟩ := h1 rfl
      rw [commit_wsr hb hwel] at a1
      simp only [if_true]
      refine ⟨fun _ => ⟨h.rl, hbl, ?_, by simp [hq], by simp [hq], by simp [hq], by simp [hq], by simp [hq], by simp [hq], fun _ => ⟨mid_start (by simp) a2 (by simp [a1]), by simp [a1]⟩, by simp [hq]⟩,
        by simp, by simp, fun _ _ _ => .inl (by simp [hq]), by simp, by simp⟩
      refine ⟨.inr (by simp [a1]), ?_⟩
      show still d = _
      have h1' := only_sr1 hon; have h3' := only_sr3 hon
      have hst : still d = { still s.dev with sr1 := s0.dev.sr1, sr2 := d.sr2, sr3 := s0.dev.sr3, wel := d.wel } := by rw [a1]; simp only [still, hw1]
      rw [hst, hon.2]; rfl
    | false =>
      obtain ⟨a1, a2, a3, a4, a5, a6, -⟩ := h2 rfl
      refine ⟨fun _ => ⟨h.rl, hbl, only_set hon (show d.sr2 = _ by rw [a4]) (show still d = _ by rw [a4]; rfl), fun _ => show d.busy = false by rw [a4]; exact hb, by simp [hq], by simp [hq], by simp [hq], by simp [hq], fun _ => ⟨?_, w, hw1, ⟨a3.pos, a3.le, a3.sel⟩, ?_⟩, by simp [hq], by simp [hq]⟩,
        by simp, by simp, fun hk => ?_, by simp, by simp⟩
      · show d.wel = true
        rw [a4]; exact hwel
      · show (0x01#8 :: b.drop 1).drop (if l = 0 then 0 else 4 - l) = List.drop (if l = 0 then 0 else 4 - l) _
        rw [if_neg a2]
        rcases hz : 4 - l with _ | m
        · rw [hz] at a6
          simp only [List.drop_zero] at a6 ⊢
          rw [a6]; simp
        · rw [hz] at a6
          simpa [Nat.add_comm] using a6
      · have := h4 (by omega); cases this
  · obtain ⟨hm, hs2⟩ := h.s5i hq
    obtain ⟨d, l, g, q, o, e, hs, hc, -, hgo⟩ := runBusy_spec c hm
    have hsr2 : d.sr2 = s.dev.sr2 := by have := congrArg Dev.sr2 hs; simpa [still] using this
    have hwel : d.wel = s.dev.wel := by have := congrArg Dev.wel hs; simpa [still] using this
    have hon' : Only en s0.dev d := only_set hon hsr2 (by rw [hs, hwel]; rfl)
    have e' : quadEnable en c s = ({ s with dev := d, left := l, log := g, seq := q }, o) := by simp only [quadEnable, hq, e]
    rw [e']
    rcases hc with ⟨ho, c1, c2, c3, c4, c5⟩ | ⟨ho, c1, c2, c3⟩
    · have hq6 : q = 6 := by omega
      refine ⟨fun _ => ⟨h.rl, h.wl, hon', fun _ => c2, by intro (e : q = 0); omega, by intro (e : q = 1); omega, by intro (e : q = 2); omega, by intro (e : q = 3); omega, by intro (e : q = 4); omega,
        by intro (e : q = 5); omega, fun _ => ⟨c4, c3⟩⟩, by simp [ho], by simp [ho], fun _ _ _ => .inl ⟨ho, by omega⟩, by simp, fun _ => hsr2⟩
    · have hq5 : q = 5 := by omega
      refine ⟨fun _ => ⟨h.rl, h.wl, hon', fun hn => absurd hq5 hn, by intro (e : q = 0); omega, by intro (e : q = 1); omega, by intro (e : q = 2); omega, by intro (e : q = 3); omega, by intro (e : q = 4); omega,
        fun _ => ⟨c2, by rw [hsr2]; exact hs2⟩, by intro (e : 6 ≤ q); omega⟩, by simp [ho], by simp [ho], fun hk hf _ => ?_, by simp, fun _ => hsr2⟩
      have := hgo (by omega) (.inr hf); rw [this] at ho; cases ho
  · obtain ⟨hl, hsel⟩ := h.s6i (by omega)
    have hb := h.busy (by omega)
    have e' : quadEnable en c s = ({ s with seq := 0 }, .more) := by simp only [quadEnable, hq]
    rw [e']
    refine ⟨fun _ => ⟨h.rl, h.wl, hon, fun _ => hb, fun _ => mid_start (by simp) hl hsel, by simp, by simp, by simp, by simp, by simp, by simp⟩, by simp, by simp, fun _ _ h => by omega, by simp, by simp⟩

theorem qinv_rest {en : Bool} {s0 : St} (h : Rest s0) (hr : s0.rsr.length = 2) (hw : s0.wsr.length = 4) : QInv en s0 s0 := by
  have := h.seq
  exact ⟨hr, hw, ⟨.inl rfl, rfl⟩, fun _ => h.busy, fun _ => mid_start (by simp) h.left h.sel, fun e => by omega, fun e => by omega, fun e => by omega, fun e => by omega, fun e => by omega, fun e => by omega⟩

/-- C70, s25fl1: when flash_ext_s25fl1_quad_enable returns, it returns 0, the QE bit is as asked, the other bits of the three status registers and the contents of the
memory are unchanged, the memory is ready and the driver at rest. It never fails. -/
theorem quad_right {en : Bool} {s0 : St} (hr : Rest s0) (hrl : s0.rsr.length = 2) (hwl : s0.wsr.length = 4) (hsr : s0.dev.sr1 &&& 0xfc#8 = s0.dev.sr1) (cs : List Choice) :
    (drive (quadEnable en) cs s0).2 ≠ .fail ∧
    ∀ v, (drive (quadEnable en) cs s0).2 = .done v → v = 0 ∧
      ∃ w, (drive (quadEnable en) cs s0).1.dev = { s0.dev with sr2 := if en then s0.dev.sr2 ||| 2#8 else s0.dev.sr2 &&& 0xfd#8, wel := w } ∧ Rest (drive (quadEnable en) cs s0).1 := by
  have h := drive_inv (f := quadEnable en) (I := QInv en s0)
    (Post := fun s v => v = 0 ∧ ∃ w, s.dev = { s0.dev with sr2 := if en then s0.dev.sr2 ||| 2#8 else s0.dev.sr2 &&& 0xfd#8, wel := w } ∧ Rest s) (Fail := fun _ => False)
    (fun c s hi => (qinv_step hsr c hi).1)
    (fun c s v hi hd => by
      obtain ⟨e1, e2, e3, e4, e5, e6, e7, e8⟩ := (qinv_step hsr c hi).2.1 v hd
      have hst := hi.only.2
      refine ⟨e1, s.dev.wel, ?_, ⟨e7, e8, by rw [e6]; exact e4, by rw [e6]; exact e5⟩⟩
      rw [e6]
      have f1 := hr.sel; have f2 := hr.busy
      generalize s.dev = d1 at e2 e4 e5 hst ⊢
      generalize s0.dev = d0 at e2 f1 f2 hst ⊢
      cases d1; cases d0
      simp only [still, tgt, Dev.mk.injEq] at hst e2 e4 e5 f1 f2 ⊢
      obtain ⟨h1, -, -, h2, -, h3, h4, h5, h6, -⟩ := hst
      subst h1 h2 h3 h4 h5 h6
      simp [e2, e4, e5, f1, f2])
    (fun c s hi hf => (qinv_step hsr c hi).2.2.1 hf) cs s0 (qinv_rest hr hrl hwl)
  exact ⟨fun e => h.2.2.2 e, fun v hv => h.2.2.1 v hv⟩

/-- It does return: whatever happened, eleven iterations in which messages go through and the memory has finished are enough. -/
theorem quad_returns {en : Bool} {s0 : St} (hr : Rest s0) (hrl : s0.rsr.length = 2) (hwl : s0.wsr.length = 4) (hsr : s0.dev.sr1 &&& 0xfc#8 = s0.dev.sr1) (cs : List Choice)
    {k : Nat} (hk : 4 ≤ k) : (drive (quadEnable en) (cs ++ List.replicate 11 ⟨k, true⟩) s0).2 = .done 0 := by
  have h := drive_inv (f := quadEnable en) (I := QInv en s0) (Post := fun _ v => v = 0) (Fail := fun _ => False)
    (fun c s hi => (qinv_step hsr c hi).1)
    (fun c s v hi hd => ((qinv_step hsr c hi).2.1 v hd).1)
    (fun c s hi hf => (qinv_step hsr c hi).2.2.1 hf) cs s0 (qinv_rest hr hrl hwl)
  rw [drive_append]
  generalize drive (quadEnable en) cs s0 = r at h ⊢
  obtain ⟨s, o⟩ := r
  obtain ⟨h1, h2, h3, h4⟩ := h
  cases o with
  | more => exact absurd rfl h1
  | fail => exact (h4 rfl).elim
  | done v => simp [h3 v rfl]
  | again =>
    have hi := h2 rfl
    simp only [if_true]
    -- once the register is right: at most three more iterations from the beginning
    have fast : ∀ m (s : St), QInv en s0 s → s.seq ≤ 2 → s.dev.sr2 = tgt en s0.dev.sr2 → 3 ≤ m + s.seq → (drive (quadEnable en) (List.replicate m ⟨k, true⟩) s).2 = .done 0 := by
      intro m
      induction m with
      | zero => intro s hi hm _ hx; omega
      | succ m ih =>
        intro s hi hs2 hsr2 hm
        have hst := qinv_step hsr ⟨k, true⟩ hi
        by_cases h2 : s.seq = 2
        · have hd : (quadEnable en ⟨k, true⟩ s).2 = .done 0 := by
            obtain ⟨-, -, g3, -⟩ := hi.s2i h2
            have : tgt en (s.rsr.getD 1 0) = s.rsr.getD 1 0 := by rw [g3, hsr2]; exact tgt_tgt _ _
            unfold quadEnable
            simp only [h2]
            rw [if_pos (show (if en then _ else _) = _ from this)]
          simp only [List.replicate_succ, drive]
          rcases hr' : quadEnable en ⟨k, true⟩ s with ⟨s', o'⟩
          rw [hr'] at hd; simp only [] at hd; subst hd; rfl
        · have hsr' : (quadEnable en ⟨k, true⟩ s).1.dev.sr2 = s.dev.sr2 := by
            -- reading a status register changes nothing
            obtain ⟨ra, rb, hrsr⟩ := two hi.rl
            have hb := hi.busy (by omega)
            have h01 : s.seq = 0 ∨ s.seq = 1 := by omega
            rcases h01 with h0 | h0
            · have hm := hi.s0i h0
              rw [hrsr] at hm
              obtain ⟨d, a, x, l, g, ok, e, g1, g2, g4⟩ := runTwo ⟨k, true⟩ (show Mid s [0x05#8, rb] from hm)
              simp only [quadEnable, h0, hrsr, List.drop_succ_cons, List.drop_zero, e, next]
              have hok := g4 (by show 2 ≤ k; omega)
              subst hok
              obtain ⟨a1, -⟩ := g1 rfl
              rw [commit_read (by decide) (by decide)] at a1
              simp [a1, settle]
            · have hm := (hi.s1i h0).1
              rw [hrsr] at hm
              obtain ⟨d, a, x, l, g, ok, e, g1, g2, g4⟩ := runTwo (s := { s with wsr := s.wsr.set 1 rb }) ⟨k, true⟩ (show Mid _ [0x35#8, rb] from ⟨hm.pos, hm.le, hm.sel⟩)
              have e' : quadEnable en ⟨k, true⟩ s = next ({ ({ s with wsr := s.wsr.set 1 rb, dev := d, left := l, log := g } : St) with rsr := [a, x] }, [a, x], ok) := by
                simp only [quadEnable, h0, hrsr]
                simp only [List.getD_cons_succ, List.getD_cons_zero, List.drop_succ_cons, List.drop_zero] at e ⊢
                simp only [hrsr, h0] at e
                rw [e]
              rw [e']
              have hok := g4 (by show 2 ≤ k; omega)
              subst hok
              obtain ⟨a1, -⟩ := g1 rfl
              rw [commit_read (by decide) (by decide)] at a1
              simp [next, a1, settle]
          simp only [List.replicate_succ, drive]
          rcases hr' : quadEnable en ⟨k, true⟩ s with ⟨s', o'⟩
          rw [hr'] at hst hsr'
          obtain ⟨t1, t2, t3, t4, -⟩ := hst
          rcases t4 hk rfl (by omega) with ⟨u1, u2⟩ | u1
          · simp only [] at u1 u2; subst u1
            exact ih s' (t1 (.inl rfl)) (by omega) (by rw [← hsr2]; exact hsr') (by omega)
          · simp only [] at u1; subst u1; rfl
    have slow : ∀ m (s : St), QInv en s0 s → 10 ≤ m + s.seq → (s.seq ≤ 5 ∨ (s.dev.sr2 = tgt en s0.dev.sr2)) → (drive (quadEnable en) (List.replicate m ⟨k, true⟩) s).2 = .done 0 ∨ 7 ≤ s.seq := by
      intro m
      induction m with
      | zero => intro s hi hm _; right; omega
      | succ m ih =>
        intro s hi hm hor
        by_cases h7 : 7 ≤ s.seq
        · exact .inr h7
        left
        have hst := qinv_step hsr ⟨k, true⟩ hi
        simp only [List.replicate_succ, drive]
        rcases hr' : quadEnable en ⟨k, true⟩ s with ⟨s', o'⟩
        rw [hr'] at hst
        obtain ⟨t1, t2, t3, t4, t5, t6⟩ := hst
        by_cases h6 : s.seq = 6
        · have e' : quadEnable en ⟨k, true⟩ s = ({ s with seq := 0 }, .more) := by simp only [quadEnable, h6]
          rw [hr'] at e'
          have es : s' = { s with seq := 0 } := congrArg Prod.fst e'
          have eo : o' = .more := congrArg Prod.snd e'
          subst eo
          refine fast m s' (t1 (.inl rfl)) (by rw [es]; simp) ?_ (by omega)
          rw [es]
          rcases hor with h | h
          · omega
          · exact h
        · have hs5 : s.seq ≤ 5 := by omega
          rcases t4 hk rfl (by omega) with ⟨u1, u2⟩ | u1
          · simp only [] at u1 u2; subst u1
            have hi' := t1 (.inl rfl)
            have hor' : s'.seq ≤ 5 ∨ s'.dev.sr2 = tgt en s0.dev.sr2 := by
              by_cases h5 : s.seq = 5
              · right; exact (t6 h5).trans (hi.s5i h5).2
              · left; omega
            rcases ih s' hi' (by omega) hor' with g | g
            · exact g
            · omega
          · simp only [] at u1; subst u1; rfl
    -- the register may be right or not when seq is 6 already
    by_cases h6 : 6 ≤ s.seq
    · have hst := qinv_step hsr ⟨k, true⟩ hi
      have e' : ∀ n, s.seq = n + 6 → quadEnable en ⟨k, true⟩ s = ({ s with seq := 0 }, .more) := by intro n hn; simp only [quadEnable, hn]
      have e' := e' (s.seq - 6) (by omega)
      show (drive (quadEnable en) (List.replicate 11 ⟨k, true⟩) s).2 = .done 0
      rw [List.replicate_succ, drive, e']
      have hi0 : QInv en s0 { s with seq := 0 } := by have := hst.1; rw [e'] at this; exact this (.inl rfl)
      show (drive (quadEnable en) (List.replicate 10 ⟨k, true⟩) { s with seq := 0 }).2 = .done 0
      rcases slow 10 { s with seq := 0 } hi0 (by simp) (.inl (by simp)) with h | h
      · exact h
      · simp at h
    · rcases slow 11 s hi (by omega) (.inl (by omega)) with h | h
      · exact h
      · omega

/-- s25fl1: flash_ext_lock sends the same messages whatever the block to protect -/
theorem lock_wrong (off off' : Nat) (cs : List Choice) (s : St) : drive (lock off) cs s = drive (lock off') cs s := rfl

example : Rest (init [] demoDev) ∧ (init [] demoDev).rsr.length = 2 ∧ (init [] demoDev).wsr.length = 4 ∧ (init [] demoDev).dev.sr1 &&& 0xfc#8 = (init [] demoDev).dev.sr1 :=
  ⟨⟨rfl, rfl, rfl, rfl⟩, rfl, rfl, rfl⟩

end Pico.FlashExt
