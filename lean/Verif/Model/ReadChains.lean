import Verif.Model.Chains

/-!
# Model of reading chains from files (`python/getdist/chains.py:228-262, 1336-1367`, `python/getdist/mcsamples.py:236-268,
328-341, 459-488`, `python/getdist/command_line.py:66-79, 135-157`)

A chain file is the table of its numbers.  Comment lines, the number parser and rows of unequal length are not modelled.
-/

namespace Verif.Chains
open Verif.Py Verif.Py.Np Verif.Thin Verif.Samples

variable {K : Type} [Field K] [LinearOrder K] [FloorRing K]

/-- the burn-in attributes of an `MCSamples` object -/
structure Burn (K : Type) where
  rows : K                -- ignore_rows
  lines : Nat             -- ignore_lines
  frac : K                -- ignore_frac
  deriving DecidableEq

/-- `_setBurnOptions` (mcsamples.py:328-341) for a value that is not negative -/
def setBurnOptions (r : K) : Burn K :=
  let lines := (trunc r).toNat
  { rows := r, lines := lines, frac := if lines = 0 then r else 0 }

/-- the options after construction (mcsamples.py:238-249): `.properties.ini` may contain another `ignore_rows` and the
flag `burn_removed` -/
def burnOptions (ini : K) (props : Option (Option K × Bool)) : Burn K :=
  let b := setBurnOptions ini
  match props with
  | none => b
  | some (r, removed) =>
    let b := setBurnOptions (r.getD b.rows)
    if removed then { b with lines := 0, frac := 0 } else b

/-- `setColData` (chains.py:248-258): parameters, weights, likelihoods -/
def colData (a : Arr2 K) (areChains : Bool) : Except NErr (Arr2 K × Option (List K) × Option (List K)) :=
  if areChains then
    if 2 ≤ a.n then .ok (⟨a.n - 2, a.rows.map (List.drop 2)⟩, some (a.col 0), some (a.col 1)) else .error .indexError
  else .ok (a, none, none)

/-- `WeightedSamples(filename, ignore_rows, files_are_chains, min_weight_ratio)` (chains.py:228-236) -/
def loadFile (skip : Nat) (areChains : Bool) (ratio : Option K) (a : Arr2 K) : Except NErr (WS K) :=
  if (a.rows.drop skip).isEmpty then .error .weightedSampleError
  else do
    let (s, w, l) ← colData ⟨a.n, a.rows.drop skip⟩ areChains
    create s w l ratio

/-- the loop over files (chains.py:1356-1361): a file that raises `WeightedSampleError` is ignored.  `files_are_chains`
is not passed on, so its default `True` is used. -/
def loadEach (skip : Nat) (ratio : Option K) : List (Arr2 K) → Except NErr (List (WS K))
  | [] => .ok []
  | a :: l =>
    match loadFile skip true ratio a with
    | .ok s => do pure (s :: (← loadEach skip ratio l))
    | .error .weightedSampleError => loadEach skip ratio l
    | .error e => .error e

/-- `loadChains` from files (chains.py:1336-1364, 1393-1394) -/
def loadFiles (c : CH K) (skip : Nat) (files : List (Arr2 K)) : Except NErr (CH K) :=
  if files.isEmpty then .error .valueError
  else do
    let cs ← loadEach skip c.ws.minWeightRatio files
    if cs.isEmpty then throw .weightedSampleError
    pure { c with ws := weightsChanged { c.ws with samples := none, weights := none, loglikes := none }, chains := some cs }

/-- first part of `readChains` (mcsamples.py:469-476): `noBurn` is true for an importance sampled or already processed
grid item -/
def readBurn (c : CH K) (b : Burn K) (noBurn : Bool) (files : List (Arr2 K)) : Except NErr (CH K) := do
  let c ← loadFiles c b.lines files
  if b.frac ≠ 0 ∧ noBurn = false then removeBurnFraction c b.frac else pure c

/-- the rest of `readChains` (mcsamples.py:478-484) -/
def finishRead (sqrt : K → K) (c : CH K) : Except NErr (CH K) := do
  let (c, _) ← deleteFixedParams c
  let c ← if c.chains.isSome then makeSingle c else pure c
  updateBase sqrt c

/-- `readChains` (mcsamples.py:458-485) -/
def readChains (sqrt : K → K) (c : CH K) (b : Burn K) (noBurn : Bool) (files : List (Arr2 K)) : Except NErr (CH K) := do
  finishRead sqrt (← readBurn c b noBurn files)

/-- the reading part of the command line script (command_line.py:66-79, 139-157): `option` is `--ignore_rows`.  The loop over
separators is in `Model/ChainFiles.lean`. -/
def scriptBurn (c : CH K) (ini : K) (props : Option (Option K × Bool)) (option : Option K) (files : List (Arr2 K)) :
    Except NErr (CH K) := do
  let c ← loadFiles c (burnOptions ini props).lines files
  removeBurnFraction c (option.getD ini)

end Verif.Chains
