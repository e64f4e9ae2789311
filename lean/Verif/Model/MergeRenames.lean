import Verif.Model.ParamNames

/-!
# Model of `mergeRenames` and `updateRenames` (`python/getdist/paramnames.py`)

Python sets of names are lists without repetition, considered up to order.  `set.pop()` returns an arbitrary element:
the model takes the choice `pick` as a parameter and theorems quantify over it.
-/

namespace Verif.ParamNames
open Verif.Py

/-- `set(l)` -/
def toSet : List Str → List Str
  | [] => []
  | a :: l => if (toSet l).contains a then toSet l else a :: toSet l

/-- `a.intersection(b)` is non-empty -/
def meets (s t : List Str) : Bool := s.any (fun a => t.contains a)

/-- `a.union(b)` -/
def union (s t : List Str) : List Str := s ++ t.filter (fun a => !s.contains a)

/-- paramnames.py:41-42: one set per entry, `set([k] + makeList(v or []))` (values are lists; `None` is the empty list) -/
def aliasSets (dicts : List Renames) : List (List Str) :=
  dicts.flatMap (fun dic => dic.map (fun e => toSet (e.1 :: e.2)))

/-- paramnames.py:48-52: the `for` loop with `break`: join `s` with the first set it meets -/
def absorb (s : List Str) : List (List Str) → Option (List Str × List (List Str))
  | [] => none
  | t :: ts =>
    if meets s t then some (union s t, ts)
    else match absorb s ts with
      | none => none
      | some (u, r) => some (u, t :: r)

/-- paramnames.py:46-56: the `while` loop; every iteration removes one set from the list, so `sets.length` iterations
suffice -/
def components : Nat → List (List Str) → List (List Str)
  | 0, _ => []
  | _ + 1, [] => []
  | n + 1, s :: ts =>
    match absorb s ts with
    | some (u, r) => components n (u :: r)
    | none => s :: components n ts

/-- paramnames.py:59-65: first dictionary that has a key in the class and (unless `keep`) does not have every name of the
class as a key -/
def chooseKey (pick : List Str → Str) (keep : Bool) (params : List Str) : List Renames → Option Str
  | [] => none
  | dic :: dicts =>
    let p := params.filter (fun a => dic.keys.contains a)                       -- 60
    if p ≠ [] ∧ (p.length ≠ params.length ∨ keep = true) then some (pick p)    -- 61-62 (p is a subset of params)
    else chooseKey pick keep params dicts

/-- paramnames.py:57-66 -/
def mergeOut (pick : List Str → Str) (keep : Bool) (dicts : List Renames) : List (List Str) → Renames → Renames
  | [], merged => merged
  | params :: out, merged =>
    match chooseKey pick keep params dicts with
    | none => mergeOut pick keep dicts out merged
    | some key => mergeOut pick keep dicts out (merged.set key (params.filter (· ≠ key)))   -- 63-64

/-- paramnames.py:28-66 `mergeRenames` -/
def mergeRenames (pick : List Str → Str) (keep : Bool) (dicts : List Renames) : Renames :=
  let sets := aliasSets dicts
  mergeOut pick keep dicts (components sets.length sets) []

/-- paramnames.py:314-320 `getRenames(keep_empty=True)` -/
def getRenames (ps : List Info) : Renames := ps.foldl (fun d p => d.set p.name p.renames) []

/-- paramnames.py:329-331 -/
def applyRenames (known : List Str) : List (Str × List Str) → List Info → List Info
  | [], ps => ps
  | (name, rename) :: rest, ps =>
    applyRenames known rest
      (if known.contains name then updateFirst (fun p => { p with renames := rename }) (matchesName name []) ps else ps)

/-- paramnames.py:322-331 `updateRenames` -/
def updateRenames (pick : List Str → Str) (ps : List Info) (renames : Renames) : List Info :=
  applyRenames (ps.map (·.name)) (mergeRenames pick true [getRenames ps, renames]) ps

end Verif.ParamNames
