import Verif.Sched.AbsSpec
open Pico Pico.Sched
def rnd (s : UInt64) : UInt64 := s * 6364136223846793005 + 1442695040888963407
structure G where
  s : UInt64
abbrev R := StateM UInt64
def nx (n : Nat) : R Nat := do
  modify rnd
  let s ← get
  pure ((s >>> 33).toNat % n)
def stackOf (k : Nat) : Nat := 100 * (k+1)
def mkCfg (N tw pw D : Nat) : Cfg := { N := N, tw := tw, pw := pw, sw := 2, cw := 8, D := D, prep := fun s n f p => s + (n + f + p) % 7, idle := ⟨0,0,0,50⟩ }
def owner (c : Cfg) (adds : List (Desc × Nat)) (pre : List (Ev c.tw)) : Nat :=
  match specTrace c adds pre with
  | .ok l => match l.getLast? with | some o => o.stack | none => 0
  | _ => 0
def mkEvs (c : Cfg) (adds : List (Desc × Nat)) : Nat → List (Ev c.tw) → R (List (Ev c.tw))
  | 0, acc => pure acc
  | n+1, acc => do
    let k ← nx 10
    let o := owner c adds acc
    let bad ← nx 40
    let off ← nx 50
    let sp := if bad = 0 then o + 50 else if bad = 1 then o - 1 else o + off
    let a ← nx (2^c.tw)
    let a := if a % 2 = 0 then a else a % 3
    let b ← nx (2^c.tw)
    let call : Call c.tw := if o = 0 then (if bad = 2 then .kill else .tick) else
      if k < 4 then .tick else if k < 6 then .sleep (BitVec.ofNat _ a) else if k < 8 then .sleepUntil (BitVec.ofNat _ b) (BitVec.ofNat _ a)
      else if k < 9 ∧ b % 3 = 0 then .kill else .postpone
    mkEvs c adds n (acc ++ [{ call := call, sp := sp, since := 3, cur := 5 }])
def one : R (Option String) := do
  let N := 1 + (← nx 4)
  let tw := 2 + (← nx 4)
  let pw := 3 + (← nx 4)
  let D ← nx 3
  let c := mkCfg N tw pw D
  let n ← nx (N + (if (← nx 6) = 0 then 2 else 1))
  let mut adds : List (Desc × Nat) := []
  for i in List.range n do
    let p ← nx (N + (if (← nx 10) = 0 then 1 else 0))
    adds := adds ++ [((⟨i, 0, stackOf i, 50⟩ : Desc), p)]
  let len ← nx 30
  let evs ← mkEvs c adds len []
  let a := implTrace c adds evs
  let b := specTrace c adds evs
  if a = b then pure none else pure (some s!"N={N} tw={tw} pw={pw} D={D} adds={repr adds} evs={repr evs}")
def main : IO Unit := do
  let mut s : UInt64 := 42
  for i in List.range 3000 do
    let (r, s') := one.run s
    s := s'
    match r with
    | some m => IO.println s!"DIFF at {i}: {m.length}"; return ()
    | none => pure ()
  IO.println "SAME"
