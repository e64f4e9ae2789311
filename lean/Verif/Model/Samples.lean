import Verif.Model.Thin

/-!
# Model of `WeightedSamples` (`python/getdist/chains.py:192-1057`)

Arrays are lists over an ordered field `K` with a floor (exact arithmetic, no NaN).  `exp` and `sqrt` are
parameters.  Attributes that python leaves unset are `none`.

Simplifications: array sharing (views) is not part of this model (see `Model/Alias.lean`);
the state after an exception is not modelled; text file loading is not modelled (`setColData` is).
-/

namespace Verif.Samples
open Verif.Py Verif.Py.Np Verif.Thin

/-- a two dimensional numpy array: number of columns and rows -/
structure Arr2 (K : Type) where
  n : Nat
  rows : List (List K)
  deriving DecidableEq

/-- `a[:, i]` for `i < n` -/
def Arr2.col {K : Type} [Zero K] (a : Arr2 K) (i : Nat) : List K := a.rows.map (fun r => r.getD i 0)

/-- the state of a `WeightedSamples` object (chains.py:204-246, 310-323) -/
structure WS (K : Type) where
  weights : Option (List K) := none
  loglikes : Option (List K) := none
  samples : Option (Arr2 K) := none
  n : Nat := 0
  numrows : Nat := 0
  norm : Option K := none
  means : Option (List K) := none
  meanLoglike : Option K := none
  diffs : Option (List (List K)) := none
  fullcov : Option (List (List K)) := none
  correlationMatrix : Option (List (List K)) := none
  vars : Option (List K) := none
  sddev : Option (List K) := none
  needsUpdate : Bool := true
  minWeightRatio : Option K := none
  deriving DecidableEq

variable {K : Type} [Field K] [LinearOrder K] [FloorRing K]

/-- row selector: boolean mask or list of (non-negative) indices -/
inductive Where where
  | mask (m : List Bool)
  | idx (ix : List Nat)
  deriving DecidableEq

/-- `a[where]` / `a[where, :]` -/
def select {α : Type} (a : List α) : Where → Except NErr (List α)
  | .mask m => Np.mask a m
  | .idx ix => gather a ix

/-- a boolean array `weights > t` -/
def gtMask (w : List K) (t : K) : Where := .mask (w.map (fun x => decide (t < x)))

/-- `_weightsChanged` (chains.py:310-323) -/
def weightsChanged (s : WS K) : WS K :=
  let s := match s.weights with
    | some w => { s with norm := some w.sum }
    | none => match s.samples with
      | some _ => { s with weights := some (List.replicate s.numrows 1), norm := some (s.numrows : K) }
      | none => s
  { s with means := none, meanLoglike := none, diffs := none, fullcov := none, correlationMatrix := none,
           vars := none, sddev := none, needsUpdate := true }

/-- assignment part of `setSamples` (chains.py:285-295) -/
def assign (s : WS K) (samples : Arr2 K) (weights loglikes : Option (List K)) : WS K :=
  { s with weights := weights, loglikes := loglikes, samples := some samples, n := samples.n,
           numrows := samples.rows.length }

/-- `setSamples(..., min_weight_ratio=-1)` (chains.py:276-300) -/
def setSamplesRaw (s : WS K) (samples : Arr2 K) (weights loglikes : Option (List K)) : WS K :=
  weightsChanged (assign s samples weights loglikes)

/-- `None if x is None else x[where]` -/
def selectOpt {α : Type} (a : Option (List α)) (wh : Where) : Except NErr (Option (List α)) :=
  match a with
  | none => .ok none
  | some a => match select a wh with
    | .ok a => .ok (some a)
    | .error e => .error e

/-- `filter` (chains.py:946-953) -/
def filter (s : WS K) (wh : Where) : Except NErr (WS K) :=
  match s.samples, s.weights with
  | some a, some w => do
    let rows ← select a.rows wh
    let w ← select w wh
    let l ← selectOpt s.loglikes wh
    pure (setSamplesRaw s ⟨a.n, rows⟩ (some w) l)
  | _, _ => .error .typeError

/-- `setMinWeightRatio` (chains.py:989-999) -/
def setMinWeightRatio (s : WS K) (r : K) : Except NErr (WS K) :=
  match s.weights with
  | none => .ok s
  | some w =>
    if 0 ≤ r then do
      let mx ← max? w
      let mn ← min? w
      if mn < mx * r then filter s (gtMask w (mx * r)) else pure s
    else .ok s

/-- `setSamples` (chains.py:276-300) with the default `min_weight_ratio=None`; `samples` is not `None` -/
def setSamples (s : WS K) (samples : Arr2 K) (weights loglikes : Option (List K)) : Except NErr (WS K) := do
  let s := assign s samples weights loglikes
  let s ← match s.minWeightRatio with
    | none => pure s
    | some r => if 0 ≤ r then setMinWeightRatio s r else pure s
  pure (weightsChanged s)

/-- the constructor with sample arrays and `ignore_rows=0` (chains.py:212-246) -/
def create (samples : Arr2 K) (weights loglikes : Option (List K)) (ratio : Option K) : Except NErr (WS K) := do
  let s ← setSamples { minWeightRatio := ratio } samples weights loglikes
  pure { s with needsUpdate := true }

/-- `setColData` (chains.py:248-258) -/
def setColData (s : WS K) (coldata : Arr2 K) (areChains : Bool) : Except NErr (WS K) :=
  if areChains then
    if coldata.n < 2 then .error .indexError
    else setSamples s ⟨coldata.n - 2, coldata.rows.map (·.drop 2)⟩ (some (coldata.col 0)) (some (coldata.col 1))
  else setSamples s coldata none none

/-- `changeSamples` (chains.py:302-308) -/
def changeSamples (s : WS K) (samples : Arr2 K) : Except NErr (WS K) :=
  setSamples s samples s.weights s.loglikes

/-- index array as used by numpy; an uninitialised entry has no meaning and is an error here -/
def allSome (l : List (Option Nat)) : Except NErr (List Nat) :=
  l.mapM (fun o => match o with | some i => .ok i | none => .error .indexError)

/-- `thin` (chains.py:925-933): new weights are all one -/
def thin (s : WS K) (factor : K) : Except NErr (WS K) :=
  match s.samples, s.weights with
  | some a, some w => do
    let ix ← allSome (← thinIndices factor w)
    let rows ← gather a.rows ix
    let l ← selectOpt s.loglikes (.idx ix)
    pure (setSamplesRaw s ⟨a.n, rows⟩ none l)
  | _, _ => .error .typeError

/-- `weighted_thin` (chains.py:935-944) with `thin_indices_and_weights` (850-860) -/
def weightedThin (s : WS K) (factor : K) : Except NErr (WS K) :=
  match s.samples, s.weights with
  | some a, some w => do
    let ix ← allSome (← thinIndices factor w)
    let (uniq, counts) := uniqueCounts ix
    let rows ← gather a.rows uniq
    let l ← selectOpt s.loglikes (.idx uniq)
    pure (setSamplesRaw s ⟨a.n, rows⟩ (some (counts.map Nat.cast)) l)
  | _, _ => .error .typeError

/-- numpy broadcasting of `b` in an in-place operation on an array of length `n` -/
def broadcast (b : List K) (n : Nat) : Except NErr (List K) :=
  if b.length = n then .ok b
  else match b with
    | [x] => .ok (List.replicate n x)
    | _ => .error .valueError

/-- `reweightAddingLogLikes` (chains.py:955-967) -/
def reweight (exp : K → K) (s : WS K) (logLikes : List K) : Except NErr (WS K) := do
  let scale ← min? logLikes
  let l ← match s.loglikes with
    | none => pure none
    | some l => do
      let b ← broadcast logLikes l.length
      pure (some (List.zipWith (· + ·) l b))
  match s.weights with
  | none => .error .typeError
  | some w => do
    let b ← broadcast logLikes w.length
    pure (weightsChanged { s with
      loglikes := l, weights := some (List.zipWith (fun w b => w * exp (-(b - scale))) w b) })

/-- `cool` (chains.py:969-980) -/
def cool (exp : K → K) (s : WS K) (c : K) : Except NErr (WS K) :=
  match s.loglikes, s.weights with
  | some l, some w => do
    let maxL ← max? l
    let newL := l.map (· * c)
    let e := List.zipWith (fun nl ol => exp (-(nl - ol) - maxL * (1 - c))) newL l
    let b ← broadcast e w.length
    pure (weightsChanged { s with loglikes := some newL, weights := some (List.zipWith (· * ·) w b) })
  | _, _ => .error .typeError

/-- `deleteZeros` (chains.py:982-987) -/
def deleteZeros (s : WS K) : Except NErr (WS K) :=
  match s.weights with
  | none => .error .typeError
  | some w => filter s (gtMask w 0)

/-- `np.isclose(a, b)` -/
def isclose (a b : K) : Bool := decide (|a - b| ≤ 1 / 10 ^ 8 + 1 / 10 ^ 5 * |b|)

/-- `np.average(col)` -/
def average (l : List K) : K := l.sum / (l.length : K)

/-- is the column considered fixed (chains.py:1010-1012); `none` = no rows -/
def colFixed (l : List K) : Option Bool :=
  match l.head?, l.getLast? with
  | some a, some b =>
    some (isclose a b && l.all (fun x => decide (|x - average l| ≤ 1 / 10 ^ 12 * |average l|)))
  | _, _ => none

/-- `np.delete(row, fixed)` -/
def deleteIdx {α : Type} (l : List α) (ix : List Nat) : List α :=
  (l.zipIdx.filter (fun p => !ix.contains p.2)).map (·.1)

/-- `np.delete(samples, fixed, 1)` -/
def deleteCols (a : Arr2 K) (fixed : List Nat) : Arr2 K :=
  ⟨(deleteIdx (List.range a.n) fixed).length, a.rows.map (fun r => deleteIdx r fixed)⟩

/-- the fixed columns of an array, with their mean values (chains.py:1007-1014) -/
def fixedCols (a : Arr2 K) : Except NErr (List (Nat × K)) :=
  if 0 < a.n ∧ a.rows = [] then .error .indexError
  else .ok (((List.range a.n).filter (fun i => (colFixed (a.col i)).getD false)).map
    (fun i => (i, average (a.col i))))

/-- `deleteFixedParams` (chains.py:1001-1016) -/
def deleteFixedParams (s : WS K) : Except NErr (WS K × List (Nat × K)) :=
  match s.samples with
  | none => .error .typeError
  | some a => do
    let fixed ← fixedCols a
    let s ← changeSamples s (deleteCols a (fixed.map (·.1)))
    pure (s, fixed)

/-- python `round`: to the nearest integer, ties to even -/
def roundHalfEven (x : K) : Int :=
  let f := ⌊x⌋
  if x - f < 1 / 2 then f
  else if 1 / 2 < x - f then f + 1
  else if f % 2 = 0 then f else f + 1

/-- `a[ix:]` for any integer `ix` -/
def sliceFrom {α : Type} (a : List α) (ix : Int) : List α :=
  if 0 ≤ ix then a.drop ix.toNat else a.drop (a.length - (-ix).toNat)

/-- the number of rows `removeBurn` drops (chains.py:1024-1027) -/
def burnRows (numrows : Nat) (remove : K) : Int :=
  if 1 ≤ remove then trunc remove else roundHalfEven ((numrows : K) * remove)

/-- `removeBurn` (chains.py:1018-1032) -/
def removeBurn (s : WS K) (remove : K) : Except NErr (WS K) :=
  match s.samples with
  | none => .error .typeError
  | some a =>
    let ix := burnRows s.numrows remove
    let s := { s with weights := s.weights.map (sliceFrom · ix), loglikes := s.loglikes.map (sliceFrom · ix) }
    changeSamples s ⟨a.n, sliceFrom a.rows ix⟩

/-! ### statistics -/

/-- the value computed by `setMeans` (chains.py:379-384), with the current `self.norm` -/
def setMeans (s : WS K) : Except NErr (WS K) :=
  match s.samples, s.weights, s.norm with
  | some a, some w, some norm =>
    .ok { s with means := some ((List.range a.n).map (fun i => dot w (a.col i) / norm))
                 meanLoglike := s.loglikes.map (fun l => dot w l / norm) }
  | _, _, _ => .error .typeError

/-- `getMeans()` (chains.py:386-398): the (cached) means -/
def getMeans (s : WS K) : Except NErr (List K × WS K) :=
  match s.means with
  | some m => .ok (m, s)
  | none => do
    let s ← setMeans s
    match s.means with
    | some m => pure (m, s)
    | none => throw .typeError

/-- `getVars` (chains.py:400-412) -/
def getVars (sqrt : K → K) (s : WS K) : Except NErr (List K × WS K) := do
  let (m, s) ← getMeans s
  match s.samples, s.weights, s.norm with
  | some a, some w, some norm =>
    let v := (List.range s.n).map (fun i =>
      dot w ((a.col i).map (fun x => (x - m.getD i 0) ^ 2)) / norm)
    pure (v, { s with vars := some v, sddev := some (v.map sqrt) })
  | _, _, _ => throw .typeError

/-- `mean_diffs()` with the default arguments (chains.py:760-764) -/
def meanDiffs (s : WS K) : Except NErr (List (List K) × WS K) := do
  let (m, s) ← getMeans s
  match s.samples with
  | some a => pure ((List.range s.n).map (fun i => (a.col i).map (fun x => x - m.getD i 0)), s)
  | none => throw .typeError

/-- `setDiffs` (chains.py:414-421) -/
def setDiffs (s : WS K) : Except NErr (List (List K) × WS K) := do
  let (d, s) ← meanDiffs s
  pure (d, { s with diffs := some d })

/-- the double loop of `cov` (chains.py:715-720): the upper triangle is computed and mirrored -/
def covOf (diffs : List (List K)) (w : List K) (norm : K) : List (List K) :=
  (List.range diffs.length).map (fun i => (List.range diffs.length).map (fun j =>
    let a := min i j
    let b := max i j
    dot (List.zipWith (· * ·) (diffs.getD a []) w) (diffs.getD b []) / norm))

/-- `get_norm()` (chains.py:641-652) -/
def getNorm (s : WS K) : Except NErr (K × WS K) :=
  match s.norm with
  | some x => .ok (x, s)
  | none => match s.weights with
    | some w => .ok (w.sum, { s with norm := some w.sum })
    | none => .error .typeError

/-- `cov()` of all parameters (chains.py:697-721) -/
def covAll (s : WS K) : Except NErr (List (List K) × WS K) := do
  let (d, s) ← meanDiffs s
  match s.weights with
  | some w => do
    let (norm, s) ← getNorm s
    pure (covOf d w norm, s)
  | none => throw .typeError

/-- `getCov()` (chains.py:339-361), all parameters -/
def getCov (s : WS K) : Except NErr (List (List K) × WS K) :=
  match s.fullcov with
  | some c => .ok (c, s)
  | none => do
    let (c, s) ← covAll s
    pure (c, { s with fullcov := some c })

/-- one step of the loop of `covToCorr` (chains.py:177-180) -/
def corrStep (m : List (List K)) (i : Nat) (d : K) : List (List K) :=
  if d ≠ 0 then ((m.modify i (fun r => r.map (· / d))).map (fun r => r.modify i (· / d))) else m

/-- `covToCorr` (chains.py:167-181) -/
def covToCorr (sqrt : K → K) (cov : List (List K)) : List (List K) :=
  let ds := (List.range cov.length).map (fun i => sqrt ((cov.getD i []).getD i 0))
  ds.zipIdx.foldl (fun m p => corrStep m p.2 p.1) cov

/-- `getCorrelationMatrix` (chains.py:363-371) -/
def getCorrelationMatrix (sqrt : K → K) (s : WS K) : Except NErr (List (List K) × WS K) :=
  match s.correlationMatrix with
  | some c => .ok (c, s)
  | none => do
    let (c, s) ← getCov s
    let r := covToCorr sqrt c
    pure (r, { s with correlationMatrix := some r })

/-! ### statistics of a given parameter vector -/

/-- a parameter argument: an integer index or an explicit vector -/
inductive Par (K : Type) where
  | index (i : Int)
  | vec (v : List K)

/-- `_makeParamvec` (chains.py:325-337).  The error message for missing loglikes is itself a bad format
expression, so python raises `TypeError`. -/
def makeParamvec (s : WS K) : Par K → Except NErr (List K)
  | .vec v => .ok v
  | .index i =>
    if 0 ≤ i ∧ i < s.n then match s.samples with
      | some a => .ok (a.col i.toNat)
      | none => .error .typeError
    else if i = -1 then match s.loglikes with
      | some l => .ok l
      | none => .error .typeError
    else if i = -2 then match s.weights with
      | some w => .ok w
      | none => .error .typeError
    else .error .weightedSampleError

/-- `np.dot` of two vectors -/
def npDot (u v : List K) : Except NErr K := if u.length = v.length then .ok (dot u v) else .error .valueError

/-- `self.weights` -/
def weightsOf (s : WS K) : Except NErr (List K) :=
  match s.weights with
  | some w => .ok w
  | none => .error .typeError

/-- `weighted_sum` (chains.py:627-639) -/
def weightedSum (s : WS K) (p : Par K) (wh : Option Where) : Except NErr K := do
  let v ← makeParamvec s p
  let w ← weightsOf s
  match wh with
  | none => npDot w v
  | some wh => npDot (← select v wh) (← select w wh)

/-- `get_norm(where)` (chains.py:641-654), without the caching of the first case -/
def normWhere (s : WS K) (wh : Option Where) : Except NErr K := do
  match wh with
  | none => pure (← getNorm s).1
  | some wh => pure (← select (← weightsOf s) wh).sum

/-- `mean` (chains.py:656-668) of a single vector -/
def mean (s : WS K) (p : Par K) (wh : Option Where) : Except NErr K := do
  let a ← weightedSum s p wh
  let n ← normWhere s wh
  pure (a / n)

/-- `mean_diff` (chains.py:732-749) -/
def meanDiff (s : WS K) (p : Par K) (wh : Option Where) : Except NErr (List K) := do
  match p, wh with
  | .index i, none =>
    if 0 ≤ i then
      match s.diffs with
      | some d => match d[i.toNat]? with
        | some x => pure x
        | none => throw .indexError
      | none =>
        match s.samples with
        | some a =>
          if i.toNat < a.n then
            let m := (← getMeans s).1
            pure ((a.col i.toNat).map (fun x => x - m.getD i.toNat 0))
          else throw .indexError
        | none => throw .typeError
    else
      let v ← makeParamvec s p
      let m ← mean s (.vec v) none
      pure (v.map (fun x => x - m))
  | _, none =>
    let v ← makeParamvec s p
    let m ← mean s (.vec v) none
    pure (v.map (fun x => x - m))
  | _, some wh =>
    let v ← makeParamvec s p
    let m ← mean s (.vec v) (some wh)
    pure ((← select v wh).map (fun x => x - m))

/-- `var` (chains.py:670-684) of a single vector -/
def var (s : WS K) (p : Par K) (wh : Option Where) : Except NErr K := do
  let d ← meanDiff s p wh
  let w ← weightsOf s
  match wh with
  | some wh => pure ((← npDot (d.map (· ^ 2)) (← select w wh)) / (← normWhere s (some wh)))
  | none => pure ((← npDot (d.map (· ^ 2)) w) / (← normWhere s none))

/-- `var` of a list of vectors (chains.py:679-680): the filter is not passed on -/
def varList (s : WS K) (ps : List (Par K)) (_wh : Option Where) : Except NErr (List K) :=
  ps.mapM (fun p => var s p none)

/-- `mean` of a list of vectors (chains.py:665-666) -/
def meanList (s : WS K) (ps : List (Par K)) (wh : Option Where) : Except NErr (List K) := do
  let l ← ps.mapM (fun p => weightedSum s p wh)
  let n ← normWhere s wh
  pure (l.map (· / n))

/-- `cov(pars, where)` (chains.py:697-721) with a list of parameters -/
def covPars (s : WS K) (ps : List (Par K)) (wh : Option Where) : Except NErr (List (List K)) := do
  let diffs ← ps.mapM (fun p => meanDiff s p wh)
  let w ← weightsOf s
  let w ← match wh with
    | some wh => select w wh
    | none => pure w
  let norm ← normWhere s wh
  pure (covOf diffs w norm)

/-! ### histories -/

/-- public operations on the samples -/
inductive Op (K : Type) where
  | filter (wh : Where)
  | thin (factor : K)
  | weightedThin (factor : K)
  | reweight (logLikes : List K)
  | cool (c : K)
  | deleteZeros
  | setMinWeightRatio (r : K)
  | deleteFixedParams
  | removeBurn (remove : K)
  | getMeans
  | getVars
  | getCov
  | getCorrelationMatrix
  | setDiffs

/-- run one operation -/
def step (exp sqrt : K → K) (s : WS K) : Op K → Except NErr (WS K)
  | .filter wh => filter s wh
  | .thin f => thin s f
  | .weightedThin f => weightedThin s f
  | .reweight l => reweight exp s l
  | .cool c => cool exp s c
  | .deleteZeros => deleteZeros s
  | .setMinWeightRatio r => setMinWeightRatio s r
  | .deleteFixedParams => do pure (← deleteFixedParams s).1
  | .removeBurn r => removeBurn s r
  | .getMeans => do pure (← getMeans s).2
  | .getVars => do pure (← getVars sqrt s).2
  | .getCov => do pure (← getCov s).2
  | .getCorrelationMatrix => do pure (← getCorrelationMatrix sqrt s).2
  | .setDiffs => do pure (← setDiffs s).2

/-- run a history -/
def run (exp sqrt : K → K) : WS K → List (Op K) → Except NErr (WS K)
  | s, [] => .ok s
  | s, op :: ops => match step exp sqrt s op with
    | .ok s => run exp sqrt s ops
    | .error e => .error e

end Verif.Samples
