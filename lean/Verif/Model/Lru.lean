import Verif.Model.Basic

/-!
# `functools.lru_cache`

/repo/ocelot/transformations/locations/_topology.py:78, 133, 180, 189 decorate methods with
`functools.lru_cache(maxsize=512)`. The cache is a list of (arguments, result), most recently used first;
results are values (the callers in /repo only read them, see DESIGN.md).
-/

namespace Ocelot

variable {κ ν : Type} [DecidableEq κ]

/-- One call: a hit moves the entry to the front; a miss computes, stores the result and drops the least
recently used entry when there are more than `maxsize`; an exception is propagated and stores nothing. -/
def lruCall (maxsize : ℕ) (f : κ → Except Err ν) (cache : List (κ × ν)) (k : κ) :
    Except Err ν × List (κ × ν) :=
  match cache.lookup k with
  | some v => (.ok v, (k, v) :: cache.filter fun p => decide (p.1 ≠ k))
  | none =>
    match f k with
    | .error e => (.error e, cache)
    | .ok v => (.ok v, ((k, v) :: cache).take maxsize)

/-- A history of calls: the results in order, and the final cache. -/
def lruRun (maxsize : ℕ) (f : κ → Except Err ν) : List κ → List (κ × ν) → List (Except Err ν) × List (κ × ν)
  | [], cache => ([], cache)
  | k :: ks, cache =>
    let (r, cache') := lruCall maxsize f cache k
    let (rs, final) := lruRun maxsize f ks cache'
    (r :: rs, final)

end Ocelot
