import Verif.Model.Basic
import Mathlib.Data.List.Sort

/-!
# List comprehensions, loops and dictionaries

Python idioms used all over the code base: list comprehension with a function that may raise (`mapE`),
generator filter with a test that may raise (`filterE`), `for` loops updating a list of dictionaries in
place (`mapE` again), flat-mapping (`flatMapE`), `toolz.groupby`, and `dict` construction.
-/

namespace Ocelot

/-- `[f(x) for x in l]`; the first exception aborts. -/
def mapE {α β : Type} (f : α → Except Err β) : List α → Except Err (List β)
  | [] => .ok []
  | a :: l => do
    let b ← f a
    let r ← mapE f l
    return b :: r

/-- `[x for x in l if p(x)]` where the test can raise. -/
def filterE {α : Type} (p : α → Except Err Bool) : List α → Except Err (List α)
  | [] => .ok []
  | a :: l => do
    let b ← p a
    let r ← filterE p l
    return if b then a :: r else r

/-- `[y for x in l for y in f(x)]`. -/
def flatMapE {α β : Type} (f : α → Except Err (List β)) : List α → Except Err (List β)
  | [] => .ok []
  | a :: l => do
    let b ← f a
    let r ← flatMapE f l
    return b ++ r

/-- A validation loop `for x in l: check(x)`. -/
def forE {α : Type} (f : α → Except Err Unit) : List α → Except Err Unit
  | [] => .ok ()
  | a :: l => do
    f a
    forE f l

/-- Add `a` to the group with key `k` (creating it at the end if new). -/
def groupInsert {α κ : Type} [DecidableEq κ] (k : κ) (a : α) :
    List (κ × List α) → List (κ × List α)
  | [] => [(k, [a])]
  | (k', g) :: r => if k' = k then (k', g ++ [a]) :: r else (k', g) :: groupInsert k a r

/-- `toolz.groupby(key, seq)`: an insertion-ordered dictionary from key to the list of elements with
that key, keys in order of first appearance (/repo/ocelot/utils uses `toolz`/`cytoolz`). -/
def groupBy {α κ : Type} [DecidableEq κ] (key : α → κ) (l : List α) : List (κ × List α) :=
  l.foldl (fun acc a => groupInsert (key a) a acc) []

/-- `d[k] = v` on an insertion-ordered dictionary. -/
def dictSet {κ β : Type} [DecidableEq κ] (k : κ) (v : β) : List (κ × β) → List (κ × β)
  | [] => [(k, v)]
  | (k', v') :: r => if k' = k then (k', v) :: r else (k', v') :: dictSet k v r

/-- A dictionary comprehension `{key(x): val(x) for x in l}`: position of first insertion, value of
the last. -/
def dictOf {α κ β : Type} [DecidableEq κ] (key : α → κ) (val : α → β) (l : List α) : List (κ × β) :=
  l.foldl (fun acc a => dictSet (key a) (val a) acc) []

end Ocelot
