/-
drivers/rng/rng-xorshift32.c: the pseudo-random generator (C76).
-/
namespace Pico.Rng

abbrev Byte := BitVec 8

/-- xorshift32, 6-13 -/
def xorshift32 (v : BitVec 32) : BitVec 32 :=
  let v := v ^^^ (v <<< 13)
  let v := v ^^^ (v >>> 17)
  v ^^^ (v <<< 5)

/-- rng_xorshift32_init, 25-30: the pool after it -/
def init (seed : BitVec 32) : BitVec 32 := xorshift32 seed

/-- one passage in the switch of rng_read, 43-50 (every case falls through to the next one): bytes stored; `default` is taken for any count but 0 to 3 -/
def chunk (pool : BitVec 32) (count : Nat) : List Byte :=
  let c3 := [(pool >>> 24).setWidth 8]
  let c2 := [(pool >>> 16).setWidth 8]
  let c1 := [(pool >>> 8).setWidth 8]
  let c0 := [(pool >>> 0).setWidth 8]
  match count with
  | 0 => []
  | 1 => c0
  | 2 => c1 ++ c0
  | 3 => c2 ++ c1 ++ c0
  | _ => c3 ++ c2 ++ c1 ++ c0

/-- the do ... while loop of rng_read, 42-55: `count` bytes to go (each byte stored decreases it), pool, bytes stored. -/
def loop : Nat → Nat → BitVec 32 → BitVec 32 × List Byte
  | 0, _, pool => (pool, [])
  | fuel + 1, count, pool =>
    let c := chunk pool count
    let pool' := xorshift32 pool
    if count - c.length > 0 then
      let r := loop fuel (count - c.length) pool'
      (r.1, c ++ r.2)
    else (pool', c)

/-- rng_read, 35-58: the pool after it, the bytes stored from `buf` on, the value returned (`none`: -EINVAL) -/
def read (n : Nat) (pool : BitVec 32) : BitVec 32 × List Byte × Option Nat :=
  if n = 0 then (pool, [], none)
  else
    let r := loop n n pool
    (r.1, r.2, some (n - (n - r.2.length)))

end Pico.Rng
