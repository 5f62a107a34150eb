import Verif.SMP.AbsSpec
open Pico Pico.SMP
open Pico.Sched (Desc Call)
def rnd (s : UInt64) : UInt64 := s * 6364136223846793005 + 1442695040888963407
abbrev R := StateM UInt64
def nx (n : Nat) : R Nat := do
  modify rnd
  let s ← get
  pure ((s >>> 33).toNat % n)
def mkCfg (N K tw pw D : Nat) : Cfg := { N := N, K := K, mw := 8, kw := 8, tw := tw, pw := pw, sw := 2, cw := 8, D := D, prep := fun s n f p => s + (n + f + p) % 7, idle := fun i => ⟨0,0,1000 + 100*i,50⟩ }
def owner (c : Cfg) (adds : List Add) (i : Nat) (pre : List (Ev c.tw)) : Nat :=
  match specTrace c adds pre with
  | .ok l => match l.getLast? with | some o => o.stacks.getD i 0 | none => 1000 + 100 * i
  | _ => 0
def mkEvs (c : Cfg) (adds : List Add) : Nat → List (Ev c.tw) → R (List (Ev c.tw))
  | 0, acc => pure acc
  | n+1, acc => do
    let k ← nx 10
    let i ← nx c.K
    let o := owner c adds i acc
    let bad ← nx 40
    let off ← nx 50
    let sp := if bad = 0 then o + 50 else if bad = 1 then o - 1 else o + off
    let a ← nx (2^c.tw)
    let a := if a % 2 = 0 then a else a % 3
    let b ← nx (2^c.tw)
    let call : Call c.tw := if o ≥ 1000 then (if bad = 2 then .kill else .tick) else
      if k < 4 then .tick else if k < 6 then .sleep (BitVec.ofNat _ a) else if k < 8 then .sleepUntil (BitVec.ofNat _ b) (BitVec.ofNat _ a)
      else if k < 9 ∧ b % 3 = 0 then .kill else .postpone
    mkEvs c adds n (acc ++ [{ core := i, call := call, sp := sp, since := 3, cur := 5 }])
def one : R (Option String) := do
  let N := 1 + (← nx 4)
  let K := 1 + (← nx 3)
  let tw := 2 + (← nx 4)
  let pw := 4 + (← nx 4)
  let D ← nx 3
  let c := mkCfg N K tw pw D
  let n ← nx (N + (if (← nx 6) = 0 then 2 else 1))
  let mut adds : List Add := []
  for i in List.range n do
    let p ← nx (N + (if (← nx 10) = 0 then 1 else 0))
    let m ← nx (2^K + (if (← nx 10) = 0 then 1 else 0))
    let m := if m = 0 ∧ (← nx 20) ≠ 0 then 2^K-1 else m
    adds := adds ++ [{ desc := ⟨i, 0, 100*(i+1), 50⟩, prio := p, mask := m }]
  let len ← nx 40
  let evs ← mkEvs c adds len []
  let a := implTrace c adds evs
  let b := specTrace c adds evs
  if a = b then pure none else pure (some s!"N={N} K={K} tw={tw} pw={pw} D={D} evs={repr evs}")
def main : IO Unit := do
  let mut s : UInt64 := 42
  for i in List.range 3000 do
    let (r, s') := one.run s
    s := s'
    match r with
    | some m => IO.println s!"DIFF at {i}: {m.length} {m}"; return ()
    | none => pure ()
  IO.println "SAME"
