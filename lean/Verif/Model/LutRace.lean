import Mathlib.Logic.Function.Basic
import Mathlib.Data.Nat.Notation

/-!
# LookupTableContext under concurrent calls (src/electionguard/lookup_table.hpp:142-189)

Threads of an arbitrary type `T` call `pow_mod_p` with keys of type `K`.  An operation on `key_map` is not
atomic: it has a first and a last step, and two operations in progress at the same time, one of
which modifies the map, are a data race.  `task_lock.wait()` is `lock` and `unlock` of the semaphore
(async.hpp:56-69).  `key_map[key]` is counted as reading, as it is only reached with the key in the
map; by the standard it counts as modifying too.
-/

namespace EG.LutRace

/-- Where a thread is. -/
inductive Pc (K : Type) where
  | idle
  /-- lookup_table.hpp:169, before `lock` in `wait` -/
  | lock (k : K)
  /-- before `unlock` in `wait` -/
  | unlock (k : K)
  /-- 170, after `wait` has returned -/
  | enter (k : K)
  /-- 181: `find` is in progress -/
  | find (k : K)
  /-- 182, with the result of `find` -/
  | found (k : K) (b : Bool)
  /-- 186: `emplace` is in progress -/
  | emplace (k : K)
  /-- 183 or 187, before `key_map[key]` -/
  | index (k : K)
  /-- `key_map[key]` is in progress -/
  | indexing (k : K)
  /-- 172: the table of `k` is used -/
  | use (k : K)

structure State (T K : Type) where
  /-- the count of the semaphore -/
  count : ℕ
  /-- the keys of `key_map` -/
  keys : K → Bool
  pc : T → Pc K

variable {T K : Type} [DecidableEq T] [DecidableEq K]

def State.goto (s : State T K) (t : T) (p : Pc K) : State T K :=
  { s with pc := Function.update s.pc t p }

/-- A semaphore with count `c`, a map with the keys `keys`, no call in progress. -/
def State.initial (c : ℕ) (keys : K → Bool) : State T K := ⟨c, keys, fun _ => .idle⟩

/-- A step of the thread `t`; the key is that of the call. -/
inductive Step (s : State T K) : T → K → State T K → Prop where
  | call (t k) (h : s.pc t = .idle) : Step s t k (s.goto t (.lock k))
  /-- async.hpp:58-60 -/
  | lock (t k) (h : s.pc t = .lock k) (hc : s.count ≠ 0) :
      Step s t k ({ s with count := s.count - 1 }.goto t (.unlock k))
  /-- async.hpp:64-66 -/
  | unlock (t k) (h : s.pc t = .unlock k) :
      Step s t k ({ s with count := s.count + 1 }.goto t (.enter k))
  | findBegin (t k) (h : s.pc t = .enter k) : Step s t k (s.goto t (.find k))
  | findEnd (t k) (h : s.pc t = .find k) : Step s t k (s.goto t (.found k (s.keys k)))
  | hit (t k) (h : s.pc t = .found k true) : Step s t k (s.goto t (.index k))
  | emplaceBegin (t k) (h : s.pc t = .found k false) : Step s t k (s.goto t (.emplace k))
  | emplaceEnd (t k) (h : s.pc t = .emplace k) :
      Step s t k ({ s with keys := Function.update s.keys k true }.goto t (.index k))
  | indexBegin (t k) (h : s.pc t = .index k) : Step s t k (s.goto t (.indexing k))
  | indexEnd (t k) (h : s.pc t = .indexing k) : Step s t k (s.goto t (.use k))
  | ret (t k) (h : s.pc t = .use k) : Step s t k (s.goto t .idle)

/-- The states that can be reached, when all calls use keys in `ks`. -/
inductive Reach (ks : K → Prop) (s : State T K) : State T K → Prop where
  | refl : Reach ks s s
  | step {s' s'' t k} (h : Reach ks s s') (hk : ks k) (hs : Step s' t k s'') : Reach ks s s''

/-- The thread is modifying the map. -/
def Pc.writes : Pc K → Prop
  | .emplace _ => True
  | _ => False

/-- The thread is reading or modifying the map. -/
def Pc.accesses : Pc K → Prop
  | .find _ | .emplace _ | .indexing _ => True
  | _ => False

/-- Two threads access the map at the same time, one of them to modify it. -/
def Race (s : State T K) : Prop := ∃ t u, t ≠ u ∧ (s.pc t).writes ∧ (s.pc u).accesses

end EG.LutRace
