import Verif.Model.Cobaya
import Verif.Model.MergeRenames

/-!
# Model of `MCSamplesFromCobaya` (`python/getdist/cobaya_interface.py:54-115`) with the parts of the constructor it uses
(`python/getdist/chains.py:1096-1105`, `python/getdist/mcsamples.py:179-190, 212-228, 287-305`)

Simplified: a collection is a table with distinct names of columns; the settings are their `ignore_rows`; the change of the caller's
dictionaries is left out (it is part of the result of `getRange`); a limit on the wrong side of infinity is an error.
-/

namespace Verif.Cobaya
open Verif.Py

/-- a collection of samples: `data` -/
structure Coll (K : Type) where
  columns : List Str
  rows : List (List K)
deriving DecidableEq, Repr

/-- exceptions -/
inductive MErr
  | info (e : Err)      -- from the information
  | index               -- no collections
  | columns             -- ValueError: different columns
  | differ              -- AssertionError: different parameters
  | key                 -- KeyError
  | name                -- ValueError: a name that is not allowed
deriving DecidableEq, Repr

/-- the new object -/
structure Out (K : Type) where
  params : List ParamNames.Info
  bounds : Bounds.ParamBounds K
  samples : List (List (List K))
  weights : List (List K)
  loglikes : List (List K)
  burn : Chains.Burn K
  sampler : Str
  label : Option Str
  warned : Bool

variable {K : Type}

/-- errors of the information -/
def lift {α : Type} : Except Err α → Except MErr α
  | .ok a => .ok a
  | .error e => .error (.info e)

/-- `c[name].values` -/
def colValues [Zero K] (c : Coll K) (name : Str) : Except MErr (List K) := match c.columns.findIdx? (· == name) with
  | none => .error .key
  | some i => .ok (c.rows.map fun r => r.getD i 0)

/-- `info_params[p]` -/
def lookup (d : Dict Str (PInfo K)) (p : Str) : Except MErr (PInfo K) := match d.get? p with
  | some x => .ok x
  | none => .error .key

/-- cobaya_interface.py:98-99 and `ParamInfo(name)` (paramnames.py:183-184) -/
def memName (d : Dict Str (PInfo K)) (p : Str) : Except MErr ParamNames.Info := do
  let x ← lookup d p
  match ParamNames.ofLine (p ++ if isDerived x then c!"*" else []) with
  | .ok q => .ok q
  | .error _ => .error .name

/-- cobaya_interface.py:100 -/
def memLabel (d : Dict Str (PInfo K)) (p : Str) : Except MErr Str := do
  let f ← lift (fieldsOf (← lookup d p))
  .ok (f.latex.getD p)

/-- cobaya_interface.py:103: here nothing is not an empty dictionary -/
def memRenames (d : Dict Str (PInfo K)) (p : Str) : Except MErr (Str × List Str) := match (d.get? p).getD (.map {}) with
  | .val _ => .error (.info .attributeError)
  | .map f => .ok (p, f.renames.getD [])

/-- cobaya_interface.py:101-102: also for parameters without a range -/
def memRange [DecidableEq K] (interval : Str → Option K → Option K → Option (Ext K × Ext K)) (parse : Str → Option K) (e : Str × PInfo K) :
    Except MErr (Str × Range K) := do
  let r ← lift (getRange interval parse e.2).1
  .ok (e.1, r)

/-- `setLabels` (paramnames.py:187-189) -/
def setLabels : List ParamNames.Info → List Str → List ParamNames.Info
  | p :: ps, l :: ls => { p with label := l } :: setLabels ps ls
  | ps, _ => ps

section
variable [Field K] [LinearOrder K] [IsStrictOrderedRing K] [FloorRing K]

/-- one entry of `setRanges` (mcsamples.py:298-300) -/
def setOne (b : Bounds.ParamBounds K) (e : Str × Range K) : Except MErr (Bounds.ParamBounds K) := do
  match Bounds.setRange b e.1 (← lift (toLower e.2.1)) (← lift (toUpper e.2.2)) with
  | .ok b => .ok b
  | .error _ => .error (.info .valueError)

/-- parameters that are sampled or derived (cobaya_interface.py:89-90) -/
def varParams (d : Dict Str (PInfo K)) : List Str := (d.filter fun e => isSampled e.2 || isDerived e.2).map (·.1)

/-- cobaya_interface.py:79-82 -/
def commonColumns (colls : List (Coll K)) : Except MErr (List Str) := match colls with
  | [] => .error .index
  | c :: cs => if cs.all (fun e => e.columns == c.columns) then .ok c.columns else .error .columns

/-- `settings['ignore_rows'] = kwargs['ignore_rows']` (mcsamples.py:214-217) -/
def rowsSetting (kw : Option K) (set : Option K) : Option K := kw.or set

/-- `MCSamplesFromCobaya` (54-115); `set`, `ini`: `ignore_rows` of the settings and of the settings file -/
def fromCobaya (interval : Str → Option K → Option K → Option (Ext K × Ext K)) (parse : Str → Option K) (pick : List Str → Str)
    (colls : List (Coll K)) (i : Info K) (ignore : K) (set ini : Option K) : Except MErr (Out K) := do
  let columns ← commonColumns colls
  let d ← lift (infoParams i)
  let skip := (i.post.bind (·.skip)).getD 0
  let used := columns.drop 2
  if !(used.all (varParams d).contains && (varParams d).all used.contains) then throw .differ
  let names ← used.mapM (memName d)
  let labels ← used.mapM (memLabel d)
  let ranges ← d.mapM (memRange interval parse)
  let renames ← used.mapM (memRenames d)
  let weights ← colls.mapM (colValues · c!"weight")
  let loglikes ← colls.mapM (colValues · c!"minuslogpost")
  let sampler ← lift (samplerType i)
  let params := ParamNames.updateRenames pick (setLabels names labels) renames
  let bounds ← ranges.foldlM setOne {}
  let c ← lift (construct (some ignore) (some sampler) (rowsSetting (some ignore) set) ini none none)
  .ok { params := params, bounds := bounds, samples := colls.map (fun c => c.rows.map (·.drop 2)), weights := weights, loglikes := loglikes,
        burn := c.1, sampler := c.2, label := i.label, warned := decide (ignore ≠ 0 ∧ skip ≠ 0) }

end

end Verif.Cobaya
