import Verif.Drivers.PwmRunProps2
namespace Pico.PwmRun
open Pico Pico.Field

/-! ### Tasks -/

/-- the register of the output -/
def own : Kind → Nat → Nat
  | .pic32, t => t + 1
  | _, t => t

/-- the accesses of the functions of output `t`: its own register, TxCON by its .SET and .CLR registers (pic32mx) without clearing ON -/
def Local (k : Kind) (t : Nat) : I → Prop
  | .ld r => k = .emios ∧ r = t
  | .st r _ _ => k = .emios ∧ r = t
  | .set r _ => k = .pic32 ∧ (r = 0 ∨ r = t + 1)
  | .clr r v => k = .pic32 ∧ (r = t + 1 ∨ (r = 0 ∧ v.getLsbD 15 = false))
  | .nop => True
  | _ => False

theorem code_local (k : Kind) (hk : k = .emios ∨ k = .pic32) (p : Par) (t : Nat) (op : Op) : ∀ i ∈ code k p t op, Local k t i := by
  intro i hi
  rcases hk with h | h <;> subst h <;> cases op <;>
    simp only [code, start, stop, period, duty, orr, andn, List.mem_cons, List.not_mem_nil, or_false] at hi
  · rcases hi with h | h <;> subst h <;> exact ⟨rfl, rfl⟩
  · rcases hi with h | h <;> subst h <;> exact ⟨rfl, rfl⟩
  · subst hi; trivial
  · subst hi; trivial
  · rcases hi with h | h <;> subst h
    · exact ⟨rfl, Or.inl rfl⟩
    · exact ⟨rfl, Or.inr rfl⟩
  · subst hi; exact ⟨rfl, Or.inl rfl⟩
  · rcases hi with h | h | h <;> subst h
    · exact ⟨rfl, Or.inr ⟨rfl, rfl⟩⟩
    · exact ⟨rfl, Or.inl rfl⟩
    · trivial
  · subst hi; trivial

/-- what the functions of output `t` see: its register, and whether the counter counts -/
def Sim (k : Kind) (t : Nat) (m m' : Regs) : Prop := m (own k t) = m' (own k t) ∧ (counts k m t = true → counts k m' t = true)

theorem sim_local (k : Kind) (t : Nat) (i : I) (hi : Local k t i) (m m' : Regs) (a : Word × Word) (h : Sim k t m m') :
    Sim k t (exec i m a).1 (exec i m' a).1 ∧ (exec i m a).2 = (exec i m' a).2 := by
  obtain ⟨h1, h2⟩ := h
  cases i with
  | ld r =>
    obtain ⟨e, e'⟩ := hi
    subst e e'
    exact ⟨⟨h1, h2⟩, by simp only [exec]; rw [show m r = m' r from h1]⟩
  | st r c s =>
    obtain ⟨e, e'⟩ := hi
    subst e e'
    exact ⟨⟨by simp only [exec, own, upd_at, if_true], fun _ => rfl⟩, rfl⟩
  | set r v =>
    obtain ⟨e, e'⟩ := hi
    subst e
    refine ⟨⟨?_, ?_⟩, rfl⟩
    · simp only [exec, own, upd_at] at h1 ⊢
      rcases e' with e | e <;> subst e
      · simp only [zs, if_false]; exact h1
      · rw [if_pos rfl, if_pos rfl, h1]
    · simp only [exec, counts, upd_at] at h2 ⊢
      rcases e' with e | e <;> subst e
      · rw [if_pos rfl, if_pos rfl, set_bit, set_bit, Bool.or_eq_true, Bool.or_eq_true]
        exact fun h => h.imp h2 id
      · rw [if_neg (by omega), if_neg (by omega)]; exact h2
  | clr r v =>
    obtain ⟨e, e'⟩ := hi
    subst e
    refine ⟨⟨?_, ?_⟩, rfl⟩
    · simp only [exec, own, upd_at] at h1 ⊢
      rcases e' with e | ⟨e, _⟩ <;> subst e
      · rw [if_pos rfl, if_pos rfl, h1]
      · simp only [zs, if_false]; exact h1
    · simp only [exec, counts, upd_at] at h2 ⊢
      rcases e' with e | ⟨e, hv⟩ <;> subst e
      · rw [if_neg (by omega), if_neg (by omega)]; exact h2
      · rw [if_pos rfl, if_pos rfl, clr_bit _ _ _ (by omega), clr_bit _ _ _ (by omega), hv, Bool.not_false, Bool.and_true, Bool.and_true]; exact h2
  | nop => exact ⟨⟨h1, h2⟩, rfl⟩
  | save r => exact hi.elim
  | back r => exact hi.elim
  | any v => exact hi.elim
  | ena c s => exact hi.elim
  | ccr v => exact hi.elim
  | cmd v => exact hi.elim

theorem sim_all (k : Kind) (t : Nat) (l : List I) : (∀ i ∈ l, Local k t i) → ∀ (m m' : Regs) (a : Word × Word), Sim k t m m' →
    Sim k t (execAll l (m, a)).1 (execAll l (m', a)).1 := by
  induction l with
  | nil => intro _ m m' a h; exact h
  | cons i l ih =>
    intro hl m m' a h
    obtain ⟨h1, h2⟩ := sim_local k t i (hl i List.mem_cons_self) m m' a h
    show Sim k t (execAll l ((exec i m a).1, (exec i m a).2)).1 (execAll l ((exec i m' a).1, (exec i m' a).2)).1
    rw [h2]
    exact ih (fun x hx => hl x (List.mem_cons_of_mem _ hx)) _ _ _ h1

/-- an access of another task -/
theorem sim_other (k : Kind) (t u : Nat) (htu : u ≠ t) (i : I) (hi : Local k u i) (m : Regs) (a : Word × Word) : Sim k t m (exec i m a).1 := by
  cases i with
  | ld r => exact ⟨rfl, id⟩
  | st r c s =>
    obtain ⟨e, e'⟩ := hi
    subst e e'
    exact ⟨by simp only [exec, own, upd_at]; rw [if_neg (Ne.symm htu)], fun _ => rfl⟩
  | set r v =>
    obtain ⟨e, e'⟩ := hi
    subst e
    refine ⟨?_, ?_⟩
    · simp only [exec, own, upd_at]
      rw [if_neg (by rcases e' with e | e <;> omega)]
    · simp only [exec, counts, upd_at]
      rcases e' with e | e <;> subst e
      · rw [if_pos rfl, set_bit]; intro h; rw [h]; rfl
      · rw [if_neg (by omega)]; exact id
  | clr r v =>
    obtain ⟨e, e'⟩ := hi
    subst e
    refine ⟨?_, ?_⟩
    · simp only [exec, own, upd_at]
      rw [if_neg (by rcases e' with e | ⟨e, _⟩ <;> omega)]
    · simp only [exec, counts, upd_at]
      rcases e' with e | ⟨e, hv⟩ <;> subst e
      · rw [if_neg (by omega)]; exact id
      · rw [if_pos rfl, clr_bit _ _ _ (by omega), hv, Bool.not_false, Bool.and_true]; exact id
  | nop => exact ⟨rfl, id⟩
  | save r => exact hi.elim
  | back r => exact hi.elim
  | any v => exact hi.elim
  | ena c s => exact hi.elim
  | ccr v => exact hi.elim
  | cmd v => exact hi.elim

theorem enabled_own (k : Kind) (hk : k = .emios ∨ k = .pic32) (t : Nat) (m m' : Regs) (h : m (own k t) = m' (own k t)) : enabled k m t = enabled k m' t := by
  rcases hk with e | e <;> subst e <;> simp only [own] at h <;> simp only [enabled] <;> rw [h]

/-- the register of a task's output is as its calls say, once the accesses left are done -/
structure TInv (k : Kind) (b : Bool) (s : Sys) : Prop where
  loc : ∀ t, ∀ i ∈ s.todo t, Local k t i
  out : ∀ t, outs k ≤ t → s.todo t = []
  lev : ∀ t, t < outs k → enabled k (execAll (s.todo t) (s.regs, s.acc t)).1 t = (s.begun t).foldl (said1 t) b
  cnt : ∀ t, t < outs k → begunAny (s.begun t) = true → counts k (execAll (s.todo t) (s.regs, s.acc t)).1 t = true

theorem tinv_step (k : Kind) (hk : k = .emios ∨ k = .pic32) (b : Bool) (s : Sys) (e : Ev) (hs : TInv k b s) : TInv k b (step k s e) := by
  have hsep : Sep k := by rcases hk with h | h <;> simp [Sep, h]
  cases e with
  | begin t op p =>
    simp only [step]
    by_cases c : t < outs k ∧ s.todo t = []
    · rw [if_pos c]
      have hok : Ok k ⟨t, op, { p with mask := 1 }⟩ := ⟨c.1, rfl, by rcases hk with h | h <;> subst h <;> trivial⟩
      have hcode : code k p t op = code k { p with mask := 1 } t op := by rcases hk with h | h <;> subst h <;> cases op <;> rfl
      refine ⟨?_, ?_, ?_, ?_⟩
      · intro u i hi
        simp only [upd] at hi
        by_cases e : u = t
        · subst e; rw [if_pos rfl] at hi; exact code_local k hk p u op i hi
        · rw [if_neg e] at hi; exact hs.loc u i hi
      · intro u hu
        simp only [upd]
        rw [if_neg (by omega)]; exact hs.out u hu
      · intro u hu
        simp only [upd]
        by_cases e : u = t
        · subst e
          have h0 := hs.lev u hu
          rw [c.2] at h0
          simp only [execAll] at h0
          rw [if_pos rfl, if_pos rfl, hcode, enabled_step k hsep _ hok s.regs (s.acc u) u hu, h0, List.foldl_append]; rfl
        · rw [if_neg e, if_neg e]; exact hs.lev u hu
      · intro u hu
        simp only [upd]
        by_cases e : u = t
        · subst e
          have h0 := hs.cnt u hu
          rw [c.2] at h0
          simp only [execAll] at h0
          rw [if_pos rfl, if_pos rfl, hcode, counts_step k hsep _ hok s.regs (s.acc u) u]
          intro hb
          simp only [begunAny, List.any_append, List.any_cons, List.any_nil, Bool.or_false] at hb h0
          rw [Bool.or_eq_true] at hb ⊢
          rcases hb with hb | hb
          · exact Or.inr (h0 hb)
          · rcases hk with h | h <;> subst h
            · right; rfl
            · left; exact hb
        · rw [if_neg e, if_neg e]; exact hs.cnt u hu
    · rw [if_neg c]; exact hs
  | go t =>
    cases ht : s.todo t with
    | nil => rw [show step k s (.go t) = s by simp [step, ht]]; exact hs
    | cons i l =>
      have hp : t < outs k := by
        by_cases h : t < outs k
        · exact h
        · have := hs.out t (by omega); rw [ht] at this; cases this
      have hi : Local k t i := hs.loc t i (by rw [ht]; exact List.mem_cons_self)
      have hst : step k s (.go t) = { s with regs := (exec i s.regs (s.acc t)).1, todo := upd s.todo t l, acc := upd s.acc t (exec i s.regs (s.acc t)).2 } := by
        simp only [step, ht]
      rw [hst]
      refine ⟨?_, ?_, ?_, ?_⟩
      · intro u j hj
        simp only [upd] at hj
        by_cases e : u = t
        · subst e; rw [if_pos rfl] at hj; exact hs.loc u j (by rw [ht]; exact List.mem_cons_of_mem _ hj)
        · rw [if_neg e] at hj; exact hs.loc u j hj
      · intro u hu
        simp only [upd]
        rw [if_neg (by omega)]; exact hs.out u hu
      · intro u hu
        have h0 := hs.lev u hu
        simp only [upd]
        by_cases e : u = t
        · subst e
          rw [ht] at h0
          rw [if_pos rfl, if_pos rfl]; exact h0
        · rw [if_neg e, if_neg e, ← h0]
          exact (enabled_own k hk u _ _ (sim_all k u (s.todo u) (hs.loc u) s.regs (exec i s.regs (s.acc t)).1 (s.acc u) (sim_other k u t (Ne.symm e) i hi s.regs (s.acc t))).1).symm
      · intro u hu hb
        have h0 := hs.cnt u hu hb
        simp only [upd]
        by_cases e : u = t
        · subst e
          rw [ht] at h0
          rw [if_pos rfl, if_pos rfl]; exact h0
        · rw [if_neg e, if_neg e]
          exact (sim_all k u (s.todo u) (hs.loc u) s.regs (exec i s.regs (s.acc t)).1 (s.acc u) (sim_other k u t (Ne.symm e) i hi s.regs (s.acc t))).2 h0

/-- **C108**, nxp_emios, pic32mx, with one task per output: whatever the order in which the tasks' accesses are made, the output of a task that is in none of the
functions runs iff the last pwm_start or pwm_stop it called is pwm_start (pic32mx: if it called one) -/
theorem pwm_tasks_partial (k : Kind) (hk : k = .emios ∨ k = .pic32) (m : Regs) (acc : Nat → Word × Word) (hf : Fresh k m) (l : List Ev) (t : Nat) (ht : t < outs k)
    (hend : (run k l (boot m acc)).todo t = []) (hab : k = .pic32 → about t ((run k l (boot m acc)).begun t)) :
    runs k (run k l (boot m acc)).regs t = said t ((run k l (boot m acc)).begun t) := by
  have h : ∀ (l : List Ev) (b : Bool) (s : Sys), TInv k b s → TInv k b (run k l s) := by
    intro l
    induction l with
    | nil => intro b s hs; exact hs
    | cons e l ih => intro b s hs; exact ih b _ (tinv_step k hk b s e hs)
  have hb : TInv k (decide (k = .pic32)) (boot m acc) := by
    refine ⟨by intro t i hi; simp [boot] at hi, fun _ _ => rfl, ?_, ?_⟩
    · intro t _
      simp only [boot, execAll, List.foldl_nil]
      rcases hk with h | h <;> subst h
      · exact hf t
      · exact hf.2 t
    · intro t _ h
      simp [boot, begunAny] at h
  have hi := h l _ _ hb
  have h1 := hi.lev t ht
  have h2 := hi.cnt t ht
  rw [hend] at h1 h2
  simp only [execAll] at h1 h2
  unfold runs
  rw [h1]
  have e : ((run k l (boot m acc)).begun t).foldl (said1 t) (decide (k = .pic32)) = said t ((run k l (boot m acc)).begun t) := by
    rcases hk with h | h
    · subst h; rfl
    · exact fold_about t _ (hab h) _ _
  rw [e]
  cases hs : said t ((run k l (boot m acc)).begun t) with
  | false => rfl
  | true => rw [h2 ((said_begun t _ false hs).resolve_left (by decide))]; rfl

/-- the hypotheses are met: pic32mx, two tasks interleaved; output 0 ends stopped, output 1 runs -/
example : let s := (run .pic32 [.begin 0 .start ⟨0, 0, 0, 0⟩, .go 0, .begin 1 .start ⟨0, 0, 0, 0⟩, .go 1, .go 0, .begin 0 .stop ⟨0, 0, 0, 0⟩, .go 0, .go 1] (boot (fun r => if r = 0 then 0 else 0x8000) (fun _ => (0, 0))))
    s.todo 0 = [] ∧ s.todo 1 = [] ∧ (s.begun 0).length = 2 ∧ (s.begun 1).length = 1 ∧ runs .pic32 s.regs 0 = false ∧ runs .pic32 s.regs 1 = true := by decide

/-- drivers that read the register of all outputs and write it back -/
def Rmw (k : Kind) : Prop := k = .gd32 ∨ k = .tinyavr ∨ k = .mc9s08 ∨ k = .ch552 ∨ k = .n76

/-- task t, in pwm_stop, has read the register; task u does all of its pwm_stop; task t goes on -/
def race (p : Par) (t u : Nat) : List Ev := [.begin t .stop p, .go t, .begin u .stop p, .go u, .go u, .go t]

theorem stop_rmw (k : Kind) (hk : Rmw k) (p : Par) (hp : p.mask = 1) (t : Nat) (ht : t < outs k) :
    ∃ c s, stop k p t = [.ld 0, .st 0 c s] ∧ ∀ (m m' : Regs) (u : Nat), u < outs k → u ≠ t → (∀ r, r ≠ 0 → m' r = m r) →
      runs k (upd m' 0 ((m 0 &&& ~~~c) ||| s)) u = runs k m u := by
  rcases hk with h | h | h | h | h <;> subst h <;> refine ⟨_, _, rfl, ?_⟩ <;> intro m m' u hu hut hm <;> simp only [outs] at ht hu <;>
    simp (disch := omega) only [runs, enabled, counts, upd_at, ↓reduceIte, st_bit, one_at, zero_at, Nat.one_ne_zero, if_false, hm 1 (by omega), hp, shl_one]
  · rw [decide_eq_false (show ¬4 * u = 4 * t by omega)]; simp
  · rw [decide_eq_false (show ¬4 + u = 4 + t by omega)]; simp
  · rw [decide_eq_false hut]; simp
  · rw [decide_eq_false (show ¬2 + u = 2 + t by omega), decide_eq_false (show ¬1 = 2 + t by omega)]; simp
  · rw [decide_eq_false hut]; simp

/-- **C108, gd32vf103, tinyavr_tca, mc9s08ptxx** (ch552, n76e003: if the compiler reads and writes the register in two instructions), **refuted with tasks**: whatever
the outputs and the state, a pwm_stop between the read and the write of a pwm_stop of another output is lost: its output runs as before -/
theorem pwm_lost (k : Kind) (hk : Rmw k) (p : Par) (hp : p.mask = 1) (t u : Nat) (ht : t < outs k) (hu : u < outs k) (htu : t ≠ u) (s : Sys)
    (h1 : s.todo t = []) (h2 : s.todo u = []) :
    (run k (race p t u) s).todo t = [] ∧ (run k (race p t u) s).todo u = [] ∧
    (run k (race p t u) s).begun u = s.begun u ++ [⟨u, .stop, p⟩] ∧ said u ((run k (race p t u) s).begun u) = false ∧
    runs k (run k (race p t u) s).regs u = runs k s.regs u := by
  obtain ⟨c, v, e1, hr⟩ := stop_rmw k hk p hp t ht
  obtain ⟨c', v', e2, -⟩ := stop_rmw k hk p hp u hu
  have hut : ¬u = t := fun h => htu h.symm
  have c1 : code k p t .stop = [.ld 0, .st 0 c v] := e1
  have c2 : code k p u .stop = [.ld 0, .st 0 c' v'] := e2
  have key : run k (race p t u) s = ⟨upd (upd s.regs 0 ((s.regs 0 &&& ~~~c') ||| v')) 0 ((s.regs 0 &&& ~~~c) ||| v),
      (run k (race p t u) s).todo, (run k (race p t u) s).acc, (run k (race p t u) s).begun⟩ ∧
      (run k (race p t u) s).todo t = [] ∧ (run k (race p t u) s).todo u = [] ∧ (run k (race p t u) s).begun u = s.begun u ++ [⟨u, .stop, p⟩] := by
    simp [run, race, step, ht, hu, h1, h2, c1, c2, upd, htu, hut, exec]
  obtain ⟨k1, k2, k3, k4⟩ := key
  refine ⟨k2, k3, k4, ?_, ?_⟩
  · rw [k4, said, List.foldl_append]; simp [said1]
  · rw [k1]
    exact hr s.regs _ u hu hut (fun r h => by rw [upd_at, if_neg h])

/-- the hypotheses are met, with an output that runs: tinyavr, output 2 still runs after the race -/
example : let s : Sys := boot (fun r => if r = 0 then 0x70 else 1) (fun _ => (0, 0))
    s.todo 0 = [] ∧ s.todo 2 = [] ∧ runs .tinyavr s.regs 2 = true ∧ runs .tinyavr (run .tinyavr (race ⟨0, 1, 0, 0⟩ 0 2) s).regs 2 = true := by decide

end Pico.PwmRun
