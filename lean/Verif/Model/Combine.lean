import Verif.Model.Chains

/-!
# Combining samples and parameter objects: chains.py:1221-1258 (setParams, getParams), mcsamples.py:2369-2398

A parameter object is modelled by the table of its attribute paths: `obj.aa.bb` is the path `[aa, bb]`.  Replacing a sub-object by an array
would lose its attributes; the theorems exclude this case.  Attributes of every python object (`__class__`, ...) are not modelled.
Settings given to the new object are not modelled.
-/

namespace Verif.Combine
open Verif.Py Verif.Samples Verif.Chains

variable {K : Type}

inductive Val (K : Type)
  | node
  | arr (v : List K)
deriving DecidableEq, Repr

abbrev Attrs (K : Type) := Dict (List Str) (Val K)

/-- chains.py:1236-1239: the sub-objects for `path[:-1]` -/
def ensure (d : Attrs K) (path : List Str) : Attrs K :=
  ((List.range' 1 (path.length - 1)).map (fun k => path.take k)).foldl (fun d q => if d.has q then d else d.set q .node) d

def valueAttr : Str := c!"value"

/-- chains.py:1240-1244 -/
def place (d : Attrs K) (path : List Str) (v : List K) : Attrs K :=
  match d.get? path with
  | some .node => d.set (path ++ [valueAttr]) (.arr v)
  | _ => d.set path (.arr v)

def pathOf (name : Str) : List Str := splitChar '.' name

/-- chains.py:1232-1246 for an object without attributes; `cols`: names and their samples -/
def setParams (cols : List (Str × List K)) : Attrs K :=
  cols.foldl (fun d p => place (ensure d (pathOf p.1)) (pathOf p.1) p.2) (cols.foldl (fun d p => ensure d (pathOf p.1)) [])

/-! ## mcsamples.py:2369-2398 -/

/-- what is used of an `MCSamples` object -/
structure MC (K : Type) where
  names : List ParamNames.Info
  samples : Arr2 K
  weights : List K
  loglikes : Option (List K)

inductive CErr
  | attributeError
  | valueError
deriving DecidableEq, Repr

/-- `getParams()` -/
def getParams [Zero K] (s : MC K) : Attrs K := setParams (s.names.zipIdx.map (fun p => (p.1.name, s.samples.col p.2)))

/-- `getattr(p, name)` as an array for `np.concatenate` -/
def getArr (d : Attrs K) (name : Str) : Except CErr (List K) :=
  match d.get? [name] with
  | none => .error .attributeError
  | some .node => .error .valueError
  | some (.arr v) => .ok v

/-- mcsamples.py:2382-2383 -/
def commonNames (s1 s2 : MC K) : List ParamNames.Info :=
  (s2.names.filter (fun p => (s1.names.map (·.name)).contains p.name)).map (fun p => { name := p.name, label := p.label, isDerived := p.isDerived })

/-- mcsamples.py:2396 -/
def joinCols (d1 d2 : Attrs K) : List Str → Except CErr (List (List K))
  | [] => .ok []
  | n :: ns => match getArr d1 n with
    | .error e => .error e
    | .ok a => match getArr d2 n with
      | .error e => .error e
      | .ok b => match joinCols d1 d2 ns with
        | .error e => .error e
        | .ok l => .ok ((a ++ b) :: l)

/-- `np.array(cols).T` -/
def transpose [Zero K] (n : Nat) (cols : List (List K)) : Arr2 K := ⟨cols.length, (List.range n).map (fun i => cols.map (fun c => c.getD i 0))⟩

variable [Field K] [LinearOrder K] [FloorRing K]

/-- mcsamples.py:2388-2393 -/
def combinedWeights (w1 w2 : List K) (sw : Option (K × K)) : List K :=
  match sw with
  | none => w1.map (· * 1) ++ w2.map (fun w => w * 1 * 1)
  | some (a, b) => w1.map (· * a) ++ w2.map (fun w => w * b * (w1.sum / w2.sum))

/-- the arrays given to the constructor, mcsamples.py:2381-2397; without common parameters the array is empty and the constructor refuses -/
def combine (s1 s2 : MC K) (sw : Option (K × K)) : Except CErr (MC K) :=
  let params := commonNames s1 s2
  let loglikes := match s1.loglikes, s2.loglikes with
    | some a, some b => some (a ++ b)
    | _, _ => none
  match joinCols (getParams s1) (getParams s2) (params.map (·.name)) with
  | .error e => .error e
  | .ok cols => if cols = [] then .error .valueError else
    .ok ⟨params, transpose (s1.samples.rows.length + s2.samples.rows.length) cols, combinedWeights s1.weights s2.weights sw, loglikes⟩

/-- the new object: `loadChains` of one array -/
def build (ratio : Option K) (m : MC K) : Except NErr (CH K) :=
  loadSingle { ws := { minWeightRatio := ratio }, names := m.names } m.samples (some m.weights) m.loglikes

end Verif.Combine
