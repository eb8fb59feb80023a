import Verif.Model.Time

/-!
Model of `src/ecalc_neqsim_wrapper/cache_service.py`.

Every method body runs under the lock of the cache (or of the registry), so a method call is one step; any interleaving
of threads is a sequence of steps. The `OrderedDict` is a list of entries, the one used longest ago first. The rounding
of `hit_rate_percent` is left out (the rate before rounding is modelled). Logging is left out.
-/

namespace Verif.Cache

open Verif.Time

variable {κ ν : Type} [DecidableEq κ]

/-- `LRUCache` (cache_service.py:57-66). -/
structure LRU (κ ν : Type) where
  entries : List (κ × ν)
  maxSize : Int
  hits : Nat
  misses : Nat
  evictions : Nat
  deriving DecidableEq, Repr

/-- `LRUCache(max_size)` (cache_service.py:57-66). -/
def LRU.new (maxSize : Int) : LRU κ ν := ⟨[], maxSize, 0, 0, 0⟩

/-- `OrderedDict.move_to_end(key)` for a key of the dict. -/
def moveToEnd (k : κ) (l : List (κ × ν)) : List (κ × ν) :=
  l.filter (fun e => decide (e.1 ≠ k)) ++ l.filter (fun e => decide (e.1 = k))

/-- `LRUCache.get` (cache_service.py:68-76). -/
def LRU.get (c : LRU κ ν) (k : κ) : LRU κ ν × Option ν :=
  match c.entries.lookup k with
  | some v => ({ c with entries := moveToEnd k c.entries, hits := c.hits + 1 }, some v)
  | none => ({ c with misses := c.misses + 1 }, none)

/-- `while len(self._cache) > self._max_size: popitem(last=False)` (cache_service.py:91-93): the remaining entries, the
number of evictions, and whether `popitem` was called on an empty dict (`KeyError`). -/
def evict (maxSize : Int) : List (κ × ν) → List (κ × ν) × Nat × Bool
  | [] => ([], 0, decide ((0 : Int) > maxSize))
  | e :: rest =>
    if (rest.length + 1 : Int) > maxSize then
      let r := evict maxSize rest
      (r.1, r.2.1 + 1, r.2.2)
    else (e :: rest, 0, false)

/-- `LRUCache.put` (cache_service.py:78-93). -/
def LRU.put (c : LRU κ ν) (k : κ) (v : ν) : LRU κ ν × Except Err Unit :=
  if c.maxSize = 0 then (c, .ok ())
  else
    let l := if k ∈ c.entries.map (·.1) then moveToEnd k c.entries else c.entries
    let r := evict c.maxSize (dictSet k v l)
    ({ c with entries := r.1, evictions := c.evictions + r.2.1 }, if r.2.2 then .error .keyError else .ok ())

/-- `LRUCache.clear` (cache_service.py:95-99). -/
def LRU.clear (c : LRU κ ν) : LRU κ ν := ⟨[], c.maxSize, 0, 0, 0⟩

/-- `LRUCache.__len__` (cache_service.py:113-115). -/
def LRU.size (c : LRU κ ν) : Nat := c.entries.length

/-- `CacheService._caches` (cache_service.py:132). Caches are never removed from the registry, so a reference to a
registered cache is its name. -/
abbrev Registry (κ ν : Type) := List (String × LRU κ ν)

/-- `CacheService.create_cache` (cache_service.py:135-156): the registry and the cache the caller gets. -/
def Registry.create (r : Registry κ ν) (name : String) (maxSize : Int) : Registry κ ν × LRU κ ν :=
  match r.lookup name with
  | some existing => (r, existing)
  | none => (dictSet name (LRU.new maxSize) r, LRU.new maxSize)

/-- A method call on the cache registered under `name`. -/
def Registry.modify (r : Registry κ ν) (name : String) (f : LRU κ ν → LRU κ ν) : Registry κ ν :=
  r.map fun e => if e.1 = name then (e.1, f e.2) else e

/-- `CacheService.clear_all` (cache_service.py:164-169). -/
def Registry.clearAll (r : Registry κ ν) : Registry κ ν := r.map fun e => (e.1, e.2.clear)

/-- `CacheService.clear_cache` (cache_service.py:171-176). -/
def Registry.clearOne (r : Registry κ ν) (name : String) : Registry κ ν :=
  if name ∈ r.map (·.1) then r.modify name LRU.clear else r

end Verif.Cache
