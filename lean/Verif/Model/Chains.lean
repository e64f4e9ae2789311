import Verif.Model.Samples
import Verif.Model.MergeRenames

/-!
# Model of `Chains` (`python/getdist/chains.py:1060-1530`)

A `Chains` object is a `WeightedSamples` object (`ws`) with a list of separate chains, the offsets of the
chains in the combined array, and the parameter names.

Simplifications: chains of which only some have likelihoods are outside the model (numpy builds an object array); parameter name loading, `ranges` and the state after an exception are not modelled;
array sharing is in `Model/Alias.lean`.
-/

namespace Verif.Chains
open Verif.Py Verif.Py.Np Verif.Thin Verif.Samples

variable {K : Type} [Field K] [LinearOrder K] [FloorRing K]

/-- chains.py:1085-1105, and the inherited attributes -/
structure CH (K : Type) where
  ws : WS K := {}
  chains : Option (List (WS K)) := none
  offsets : Option (List Nat) := none
  names : List ParamNames.Info := []
  index : Dict Str Nat := []
  deriving DecidableEq

/-- `np.count_nonzero(where[off1:off2])`; an index list counts its non-zero entries -/
def countNonzero (wh : Where) (off1 off2 : Nat) : Nat :=
  match wh with
  | .mask m => ((slice m off1 (some off2)).filter id).length
  | .idx ix => ((slice ix off1 (some off2)).filter (· ≠ 0)).length

/-- the offsets after filtering (chains.py:1143-1146) -/
def newOffsets (offs : List Nat) (wh : Where) : List Nat :=
  cumsum (0 :: List.zipWith (countNonzero wh) offs offs.tail)

/-- `filter` (chains.py:1133-1149) -/
def filter (c : CH K) (wh : Where) : Except NErr (CH K) :=
  match c.chains with
  | some _ => .error .valueError
  | none => do
    let ws ← Samples.filter c.ws wh
    pure { c with ws := ws, offsets := c.offsets.map (newOffsets · wh) }

/-- inherited `deleteZeros` (chains.py:982-987), calling the overridden `filter` -/
def deleteZeros (c : CH K) : Except NErr (CH K) :=
  match c.ws.weights with
  | none => .error .typeError
  | some w => filter c (gtMask w 0)

/-- inherited `setMinWeightRatio` (chains.py:989-999), calling the overridden `filter` -/
def setMinWeightRatio (c : CH K) (r : K) : Except NErr (CH K) :=
  match c.ws.weights with
  | none => .ok c
  | some w =>
    if 0 ≤ r then do
      let mx ← max? w
      let mn ← min? w
      if mn < mx * r then filter c (gtMask w (mx * r)) else pure c
    else .ok c

/-- inherited `setSamples` (chains.py:276-300) with `min_weight_ratio=None` -/
def setSamples (c : CH K) (samples : Arr2 K) (weights loglikes : Option (List K)) : Except NErr (CH K) := do
  let c := { c with ws := assign c.ws samples weights loglikes }
  let c ← match c.ws.minWeightRatio with
    | none => pure c
    | some r => if 0 ≤ r then setMinWeightRatio c r else pure c
  pure { c with ws := weightsChanged c.ws }

/-- inherited `changeSamples` (chains.py:302-308) -/
def changeSamples (c : CH K) (samples : Arr2 K) : Except NErr (CH K) :=
  setSamples c samples c.ws.weights c.ws.loglikes

/-- use of an attribute that may be `None` -/
def need {α : Type} : Option α → Except NErr α
  | some a => .ok a
  | none => .error .typeError

/-- `np.hstack` of an attribute that every chain should have -/
def hstack (l : List (Option (List K))) : Except NErr (List K) := do
  pure (← l.mapM need).flatten

/-- `np.vstack([chain.samples ...])`: all arrays need the same number of columns -/
def vstack (l : List (Arr2 K)) : Except NErr (Arr2 K) :=
  match l with
  | [] => .error .valueError
  | a :: l => if l.all (fun b => b.n = a.n) then .ok ⟨a.n, ((a :: l).map (·.rows)).flatten⟩ else .error .valueError

/-- `makeSingle` (chains.py:1438-1453) -/
def makeSingle (c : CH K) : Except NErr (CH K) :=
  match c.chains with
  | some (first :: rest) => do
    let cs := first :: rest
    let arrs ← cs.mapM (fun s => need s.samples)
    let offsets := cumsum (0 :: arrs.map (·.rows.length))
    let weights ← match first.weights with
      | none => pure none
      | some _ => do pure (some (← hstack (cs.map (·.weights))))
    let loglikes ← match first.loglikes with
      | none => pure none
      | some _ => do pure (some (← hstack (cs.map (·.loglikes))))
    let samples ← vstack arrs
    pure { c with ws := setSamplesRaw c.ws samples weights loglikes, offsets := some offsets, chains := none }
  | _ => .error .valueError

/-- the default `min_weight_ratio` of the constructor (chains.py:213) -/
def defaultRatio : Option K := some (1 / 10 ^ 30)

/-- one chain of `getSeparateChains` (chains.py:1470-1471); slicing `None` is a `TypeError` -/
def piece (s : WS K) (off1 off2 : Nat) : Except NErr (WS K) :=
  match s.samples, s.weights, s.loglikes with
  | some a, some w, some l =>
    create ⟨a.n, slice a.rows off1 (some off2)⟩ (some (slice w off1 (some off2))) (some (slice l off1 (some off2))) defaultRatio
  | _, _, _ => .error .typeError

/-- `getSeparateChains` (chains.py:1455-1472) -/
def getSeparateChains (c : CH K) : Except NErr (List (WS K)) :=
  match c.chains with
  | some cs => .ok cs
  | none => match c.offsets with
    | none => .error .weightedSampleError
    | some offs => (offs.zip offs.tail).mapM (fun p => piece c.ws p.1 p.2)

/-- `weighted_thin` (chains.py:1151-1167) -/
def weightedThin (c : CH K) (factor : K) : Except NErr (CH K) :=
  if (c.chains.getD []).isEmpty ∧ c.offsets = none then do
    let ws ← Samples.weightedThin c.ws factor
    pure { c with ws := ws }
  else do
    let hasChains := !(c.chains.getD []).isEmpty
    let cs ← getSeparateChains c
    let cs ← cs.mapM (fun s => Samples.weightedThin s factor)
    let c := { c with chains := some cs }
    if hasChains then pure c else makeSingle c

/-- inherited `thin` (chains.py:925-933): the offsets are not touched -/
def thin (c : CH K) (factor : K) : Except NErr (CH K) := do
  let ws ← Samples.thin c.ws factor
  pure { c with ws := ws }

/-- inherited `reweightAddingLogLikes` (chains.py:955-967) -/
def reweight (exp : K → K) (c : CH K) (ll : List K) : Except NErr (CH K) := do
  let ws ← Samples.reweight exp c.ws ll
  pure { c with ws := ws }

/-- inherited `cool` (chains.py:969-980) -/
def cool (exp : K → K) (c : CH K) (x : K) : Except NErr (CH K) := do
  let ws ← Samples.cool exp c.ws x
  pure { c with ws := ws }

/-- inherited `removeBurn` (chains.py:1018-1032) -/
def removeBurn (c : CH K) (remove : K) : Except NErr (CH K) :=
  match c.ws.samples with
  | none => .error .typeError
  | some a =>
    let ix := burnRows c.ws.numrows remove
    let c := { c with ws := { c.ws with
      weights := c.ws.weights.map (sliceFrom · ix), loglikes := c.ws.loglikes.map (sliceFrom · ix) } }
    changeSamples c ⟨a.n, sliceFrom a.rows ix⟩

/-- `removeBurnFraction` (chains.py:1474-1487) -/
def removeBurnFraction (c : CH K) (frac : K) : Except NErr (CH K) :=
  match c.ws.samples, c.chains with
  | some _, _ => do
    let c ← removeBurn c frac
    pure { c with chains := none }
  | none, some cs => do
    let cs ← cs.mapM (fun s => Samples.removeBurn s frac)
    pure { c with chains := some cs }
  | none, none => .error .typeError

/-- the dictionary of positions (chains.py:1186-1188) -/
def indexOf (ps : List ParamNames.Info) : Dict Str Nat := ps.zipIdx.foldl (fun d p => d.set p.1.name p.2) []

/-- `_getParamIndices` (chains.py:1177-1190) -/
def getParamIndices (c : CH K) : Except NErr (CH K) :=
  if c.ws.samples.isSome ∧ c.names.length ≠ c.ws.n then .error .weightedSampleError
  else .ok { c with index := indexOf c.names }

/-- `deleteFixedParams` (chains.py:1489-1504) without `ranges`; also returns the indices and values -/
def deleteFixedParams (c : CH K) : Except NErr (CH K × List (Nat × K)) :=
  match c.ws.samples, c.chains with
  | some a, _ => do
    let fixed ← fixedCols a
    let c ← changeSamples c (deleteCols a (fixed.map (·.1)))
    let c ← getParamIndices { c with chains := none, names := ParamNames.deleteIndices c.names (fixed.map (·.1)) }
    pure (c, fixed)
  | none, some (first :: rest) => do
    let (first, fixed) ← Samples.deleteFixedParams first
    let rest ← rest.mapM (fun s => do Samples.changeSamples s (deleteCols (← need s.samples) (fixed.map (·.1))))
    let c ← getParamIndices { c with chains := some (first :: rest),
                                     names := ParamNames.deleteIndices c.names (fixed.map (·.1)) }
    pure (c, fixed)
  | _, _ => .error .typeError

/-- `addDerived` (chains.py:1310-1322); `info` is the new entry -/
def addDerived (c : CH K) (vec : List K) (info : ParamNames.Info) : Except NErr (CH K) :=
  if (ParamNames.parWithName c.names info.name).isSome then .error .valueError
  else match c.ws.samples with
    | none => .error .typeError
    | some a =>
      if vec.length = a.rows.length then do
        let c ← changeSamples c ⟨a.n + 1, List.zipWith (fun r x => r ++ [x]) a.rows vec⟩
        pure { c with names := c.names ++ [info] }
      else .error .valueError

/-- `updateBaseStatistics` (chains.py:1297-1308), the part that concerns names -/
def updateBase (sqrt : K → K) (c : CH K) : Except NErr (CH K) := do
  let (_, ws) ← getVars sqrt c.ws
  let _ ← max? (← weightsOf ws)
  let c ← getParamIndices { c with ws := ws }
  pure { c with ws := { c.ws with needsUpdate := false } }

/-- `_makeParamvec` (chains.py:1276-1291) with a name -/
def paramvec (sqrt : K → K) (c : CH K) (par : Str) : Except NErr (List K) := do
  let c ← if c.ws.needsUpdate then updateBase sqrt c else pure c
  match c.index.get? par with
  | some i => do
    let a ← need c.ws.samples
    if i < a.n then pure (a.col i) else throw .indexError
  | none =>
    if par = c!"weight" then need c.ws.weights
    else if par = c!"loglike" then need c.ws.loglikes
    else throw .paramError

/-- `loadChains` from a list of two dimensional arrays (chains.py:1336-1345, 1383-1394) with `ignore_lines=0`; the name
list is given -/
def loadList (c : CH K) (samples : List (Arr2 K)) (weights loglikes : Option (List (List K))) : Except NErr (CH K) :=
  if samples.isEmpty then .error .valueError
  else do
    let cs ← samples.zipIdx.mapM (fun p => do
      let w ← match weights with
        | none => pure none
        | some ws => match ws[p.2]? with | some w => pure (some w) | none => throw .indexError
      let l ← match loglikes with
        | none => pure none
        | some ls => match ls[p.2]? with | some l => pure (some l) | none => throw .indexError
      create p.1 w l c.ws.minWeightRatio)
    pure { c with ws := weightsChanged { c.ws with samples := none, weights := none, loglikes := none }
                  chains := some cs }

/-- `loadChains` from one two dimensional array (chains.py:1336-1345, 1375-1382): the old offsets stay -/
def loadSingle (c : CH K) (samples : Arr2 K) (weights loglikes : Option (List K)) : Except NErr (CH K) := do
  let c := { c with ws := { c.ws with samples := none, weights := none, loglikes := none }, chains := none }
  setSamples c samples weights loglikes

end Verif.Chains
