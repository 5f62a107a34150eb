/-
A mutex (ipc/picoRTOS_mutex.c) on cores whose data caches are not kept coherent by the hardware: what the
picoRTOS_invalidate_dcache / picoRTOS_flush_dcache calls of picoRTOS_mutex_trylock and
picoRTOS_mutex_unlock are there for.

Modelled: the mutex, which fills one cache line (`aligned(ARCH_L1_DCACHE_LINESIZE)`, picoRTOS_mutex.h:8-11) in
memory; the copy of that line in the cache of each core; each access of each task as one step, the steps of the
tasks interleaving in any way; the hardware loading and dropping the line at any time; tasks moving from core to
core.  The caches are write-through (INVALIDATE_AND_ENABLE_CACHE, arch/powerpc/e200z4/include/macros.S:54-83 and
e200z7/include/macros.S:67-96 leave DCWM 0).

Simplified: pids are `Nat` and nobody is `none` (the encoding is a matter of C39), `count` is not bounded;
picoRTOS_mutex_lock is picoRTOS_mutex_trylock again and again (picoRTOS_mutex.c:67-76), so only
the latter is here.  A task that failed an assertion makes no step any more (picoRTOS_fatal).
-/
namespace Pico.MtxCache

/-- struct picoRTOS_mutex, picoRTOS_mutex.h:8-11 -/
structure Line where
  owner : Option Nat
  count : Nat
deriving DecidableEq, Repr

/-- What the reservation and the conditional store of arch_compare_and_swap (lharx / sthcx.,
arch/powerpc/e200z7/picoRTOS_portasm.S:131-148) do to a copy of the line in the cache of the core: it is dropped
(`drop`), the halfword stored is updated in it as by any store (`update`), or it is left as it is (`ignore`). -/
inductive Mode where
  | drop | update | ignore
deriving DecidableEq, Repr

/-- `inside`: a task may be moved to another core while it is inside a call of the API (it always may be outside) -/
structure Cfg where
  mode : Mode
  inside : Bool

inductive Op where
  | trylock | unlock
deriving DecidableEq, Repr

/-- the access a task is about to make -/
inductive PC where
  | idle
  -- picoRTOS_mutex_trylock, picoRTOS_mutex.c:41-56
  | tInv             -- picoRTOS_invalidate_dcache(mutex, sizeof(*mutex))
  | tCas             -- arch_compare_and_swap(&mutex->owner, nobody, pid)
  | tOwn             -- mutex->owner != pid
  | tRd              -- load of mutex->count++
  | tWr (n : Nat)    -- store of mutex->count++
  | tFl              -- picoRTOS_flush_dcache(mutex, sizeof(*mutex))
  -- picoRTOS_mutex_unlock, picoRTOS_mutex.c:91-103
  | uInv             -- picoRTOS_invalidate_dcache(mutex, sizeof(*mutex))
  | uOwn             -- picoRTOS_assert_fatal(mutex->owner == owner)
  | uCnt             -- picoRTOS_assert_fatal(mutex->count > 0)
  | uRd              -- load of --mutex->count
  | uWr (n : Nat)    -- store of --mutex->count
  | uRel             -- mutex->owner = nobody
  | uFl              -- picoRTOS_flush_dcache(mutex, sizeof(*mutex))
  -- picoRTOS_fatal
  | dead
deriving DecidableEq, Repr

/-- Memory, the copy in each core, the core and the next access of each task; beside it, what the caller knows:
`held t`, how many times task `t` was told it has the mutex and has not called unlock since; `astray t`: when `t`
last called unlock, it did not have the mutex. -/
structure St where
  mem : Line
  copy : Nat → Option Line
  core : Nat → Nat
  pc : Nat → PC
  held : Nat → Nat
  astray : Nat → Bool

/-- after picoRTOS_mutex_init (picoRTOS_mutex.c:25-30); nobody is in the API, `core` says where the tasks are -/
def init (core : Nat → Nat) : St := ⟨⟨none, 0⟩, fun _ => none, core, fun _ => .idle, fun _ => 0, fun _ => false⟩

inductive Ev where
  /-- task `t` calls a function -/
  | call (t : Nat) (o : Op)
  /-- task `t` makes its next access; `spur`: its conditional store fails though the owner is nobody -/
  | go (t : Nat) (spur : Bool)
  /-- the line enters the cache of core `k`: a load by anyone, or a prefetch -/
  | fill (k : Nat)
  /-- the line leaves the cache of core `k` -/
  | evict (k : Nat)
  /-- the scheduler resumes task `t` on core `k` -/
  | move (t k : Nat)
deriving DecidableEq, Repr

def set {α : Type} (f : Nat → α) (i : Nat) (v : α) : Nat → α := fun j => if j = i then v else f j

def St.at (s : St) (t : Nat) (p : PC) : St := { s with pc := set s.pc t p }

/-- what a load on core `k` sees -/
def St.see (s : St) (k : Nat) : Line := (s.copy k).getD s.mem

/-- the copy of core `k` is dropped: picoRTOS_invalidate_dcache (dcbi), and picoRTOS_flush_dcache (dcbf), which has nothing to
write back as the cache is write-through -/
def St.drop (s : St) (k : Nat) : St := { s with copy := set s.copy k none }

/-- a store to `count` on core `k`: memory, and the copy if there is one -/
def St.putCount (s : St) (k n : Nat) : St :=
  { s with mem := { s.mem with count := n }, copy := set s.copy k ((s.copy k).map (fun l => { l with count := n })) }

/-- a store to `owner` on core `k` -/
def St.putOwner (s : St) (k : Nat) (o : Option Nat) : St :=
  { s with mem := { s.mem with owner := o }, copy := set s.copy k ((s.copy k).map (fun l => { l with owner := o })) }

/-- arch_compare_and_swap on core `k` when it swaps, and when it does not -/
def St.swap (s : St) (k : Nat) (m : Mode) (t : Nat) : St :=
  match m with
  | .drop => { s with mem := { s.mem with owner := some t }, copy := set s.copy k none }
  | .update => s.putOwner k (some t)
  | .ignore => { s with mem := { s.mem with owner := some t } }

def St.noSwap (s : St) (k : Nat) (m : Mode) : St :=
  match m with
  | .drop => s.drop k
  | _ => s

/-- picoRTOS_mutex_trylock returns 0 to task `t` -/
def St.told (s : St) (t : Nat) : St := { s with pc := set s.pc t .idle, held := set s.held t (s.held t + 1) }

/-- task `t` calls picoRTOS_mutex_unlock -/
def St.leave (s : St) (t : Nat) : St := { s with pc := set s.pc t .uInv, held := set s.held t (s.held t - 1), astray := set s.astray t (decide (s.held t = 0)) }

/-- task `t` makes the access it is at -/
def go (m : Mode) (s : St) (t : Nat) (spur : Bool) : St :=
  let k := s.core t
  match s.pc t with
  | .idle => s
  | .tInv => (s.drop k).at t .tCas
  | .tCas => if s.mem.owner = none ∧ spur = false then (s.swap k m t).at t .tRd else (s.noSwap k m).at t .tOwn
  | .tOwn => if (s.see k).owner = some t then s.at t .tRd else s.at t .idle
  | .tRd => s.at t (.tWr (s.see k).count)
  | .tWr n => (s.putCount k (n + 1)).at t .tFl
  | .tFl => (s.drop k).told t
  | .uInv => (s.drop k).at t .uOwn
  | .uOwn => if (s.see k).owner = some t then s.at t .uCnt else s.at t .dead
  | .uCnt => if 0 < (s.see k).count then s.at t .uRd else s.at t .dead
  | .uRd => s.at t (.uWr (s.see k).count)
  | .uWr n => (s.putCount k (n - 1)).at t (if n - 1 = 0 then .uRel else .uFl)
  | .uRel => (s.putOwner k none).at t .uFl
  | .uFl => (s.drop k).at t .idle
  | .dead => s

/-- one event; an event that cannot happen leaves the state as it is -/
def step (c : Cfg) (s : St) : Ev → St
  | .call t .trylock => if s.pc t = .idle then s.at t .tInv else s
  | .call t .unlock => if s.pc t = .idle then s.leave t else s
  | .go t spur => go c.mode s t spur
  | .fill k => if s.copy k = none then { s with copy := set s.copy k (some s.mem) } else s
  | .evict k => s.drop k
  | .move t k => if s.pc t = .idle ∨ c.inside = true then { s with core := set s.core t k } else s

def runFrom (c : Cfg) (s : St) (es : List Ev) : St := es.foldl (step c) s

def run (c : Cfg) (core : Nat → Nat) (es : List Ev) : St := runFrom c (init core) es

end Pico.MtxCache
