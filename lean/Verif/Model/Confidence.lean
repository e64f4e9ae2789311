import Verif.Py.Np

/-!
# Model of confidence limits from weighted samples (`python/getdist/chains.py`)

`argsort` is a parameter: numpy's default sort is not stable, so every function that returns *some*
sorting permutation is considered.
-/

namespace Verif.Confidence
open Verif.Py Verif.Py.Np

variable {K : Type} [Field K] [LinearOrder K]

/-- `ParamConfidenceData` (chains.py:17) -/
structure ConfData (K : Type) where
  paramVec : List K
  norm : K
  indexes : List Nat
  cumsum : List K

/-- `initParamConfidenceData` (chains.py:781-798) after `_makeParamvec`; `selfWeights` is
`self.weights` -/
def initParamConfidenceData (argsort : List K → List Nat) (selfWeights paramVec : List K)
    (start : Nat) (stop : Option Nat) (weights : Option (List K)) : Except NErr (ConfData K) := do
  let w := weights.getD selfWeights
  let v := slice paramVec start stop
  let indices := argsort v
  let wi ← gather w (indices.map (start + ·))
  pure ⟨v, (slice w start stop).sum, indices, cumsum wi⟩

/-- `confidence` on prepared data (chains.py:818-823).  An empty vector makes the last index `-1`
and numpy raises `IndexError`. -/
def confidenceData (d : ConfData K) (limfrac : K) (upper : Bool) : Except NErr K :=
  let target := if !upper then d.norm * limfrac else d.norm * (1 - limfrac)
  let ix := searchsorted d.cumsum target
  if d.indexes.length = 0 then .error .indexError
  else
    match d.indexes[min ix (d.indexes.length - 1)]? with
    | none => .error .indexError
    | some j => match d.paramVec[j]? with
      | none => .error .indexError
      | some x => .ok x

/-- `confidence` (chains.py:800-823) with a parameter vector -/
def confidence (argsort : List K → List Nat) (selfWeights paramVec : List K) (limfrac : K)
    (upper : Bool) (start : Nat) (stop : Option Nat) (weights : Option (List K)) : Except NErr K := do
  let d ← initParamConfidenceData argsort selfWeights paramVec start stop weights
  confidenceData d limfrac upper

/-- `twoTailLimits` (chains.py:770-779): both limits from the same prepared data -/
def twoTailLimits (argsort : List K → List Nat) (selfWeights paramVec : List K) (conf : K) :
    Except NErr (K × K) := do
  let d ← initParamConfidenceData argsort selfWeights paramVec 0 none none
  let lo ← confidenceData d ((1 - conf) / 2) false
  let hi ← confidenceData d (1 - (1 - conf) / 2) false
  pure (lo, hi)

end Verif.Confidence
