import Verif.Model.ParamNames
import Verif.Py.Path

/-!
# Model of the sample analyser of the plotter (`python/getdist/plots.py`, 374-659, 764-787, 947-999)

Modelled: `MCSampleAnalysis` (searching the chain locations, the settings used, the cached samples, densities, single samples),
`add_root`, `remove_root`, `reset`, `params_for_root`, and the part of `add_1d`/`plot_1d` that chooses and normalises the curve.

Simplified: `loadMCSamples` (see Model/LoadCache), the density estimates and the thinning to single samples are given functions;
loading may depend on the time of the call (`clock`), so that an object loaded later may differ.  An operation that raises leaves
the state as it was (the empty dictionary made at plots.py:577 before a failing load is not modelled).  Values of settings are
strings.  `IniFile` objects are references into a heap.
-/

namespace Verif.Analyser
open Verif.Py Verif.ParamNames

inductive Err
  | notFound     -- GetDistPlotError('chain not found')
  | badRoot      -- GetDistPlotError('Root names must be strings')
  | load         -- raised while loading
  | typeError
deriving DecidableEq, Repr

abbrev Settings := Dict Str Str

/-- an element of `chain_dirs` (plots.py:426-443): a grid with its `getdist_options`, whose jobs give their `chainRoot` and
`dist_settings`; or a directory in which a root may be found, with the contents of its `getdist.ini` -/
inductive Loc
  | grid (resolve : Str → Option (Str × Settings)) (options : Settings)
  | dir (find : Str → Option Str) (ini : Option Settings)

/-- a root argument: a name, a samples object, or anything else -/
inductive Root (S : Type)
  | name (s : Str)
  | obj (s : S)
  | other
deriving DecidableEq, Repr

/-- the parts of the library that are not modelled -/
structure World (S D G U : Type) where
  load : Nat → Str → Settings → Option S
  density1 : S → Str → Bool → Option D
  density2 : S → Str → Str → Bool → Nat → Option G
  single : S → U
  norm : D → D

structure St (S D G U : Type) where
  dirs : List Loc := []
  ini : Option Nat := none
  heap : List Settings := []
  priority : Bool := true
  clock : Nat := 0
  samples : Dict Str S := []
  d1 : Dict (Root S) (Dict (Str × Bool) D) := []
  d2 : Dict (Root S) (Dict (Str × Str × Bool × Nat) G) := []
  singles : Dict (Root S) U := []
  names : S → List Info

variable {S D G U : Type} [DecidableEq S]

/-- `self.ini.params` -/
def St.iniParams (st : St S D G U) : Settings := match st.ini with
  | some i => st.heap.getD i []
  | none => []

/-- the loop over `chain_dirs` (plots.py:501-519): file root and settings -/
def search (root : Str) : List Loc → Settings → Option Str × Settings
  | [], s => (none, s)
  | .grid resolve options :: ls, s => match resolve root with
    | some (file, dist) => (some file, (s.update options).update dist)
    | none => search root ls s
  | .dir find ini :: ls, s =>
    let s := s.update (ini.getD [])
    match find root with
    | some file => (some file, s)
    | none => search root ls s

/-- the file root and the settings given to `loadMCSamples` (plots.py:493-526), the last already merged with the analysis settings
(mcsamples.py:447-451) -/
def request (st : St S D G U) (root : Str) (file : Option Str) (settings : Settings) : Option (Str × Settings) :=
  let file := if root.head? = some '/' then some root else file
  let dist : Settings := if st.priority then settings else []
  let (file, dist) := match file with
    | some f => (some f, dist)
    | none => search root st.dirs dist
  match file with
  | none => none
  | some f =>
    let dist := if st.priority then dist else (dist.update st.iniParams).update settings
    some (f, st.iniParams.update dist)

/-- plots.py:521-528 -/
def loadRoot (w : World S D G U) (st : St S D G U) (root : Str) (file : Option Str) (settings : Settings) :
    Except Err (S × St S D G U) :=
  match request st root file settings with
  | none => .error .notFound
  | some (f, dist) => match w.load st.clock f dist with
    | none => .error .load
    | some s => .ok (s, { st with samples := st.samples.set root s, clock := st.clock + 1 })

/-- `MCSampleAnalysis.samples_for_root` (plots.py:472-528) -/
def samplesForRoot (w : World S D G U) (st : St S D G U) (root : Root S) (file : Option Str) (cache : Bool) (settings : Settings) :
    Except Err (S × St S D G U) :=
  match root with
  | .obj s => .ok (s, st)
  | .other => .error .badRoot
  | .name r => match st.samples.get? r with
    | some s => if cache then .ok (s, st) else loadRoot w st r file settings
    | none => loadRoot w st r file settings

/-- `add_root` for a file root with its path (plots.py:552-553) -/
def addRoot (w : World S D G U) (st : St S D G U) (file : Str) : Except Err (S × St S D G U) :=
  samplesForRoot w st (.name (Path.basename file)) (some file) true []

/-- `self.mcsamples.pop(root, None)`: an object is never a key of `mcsamples` -/
def Root.drop (samples : Dict Str S) : Root S → Dict Str S
  | .name r => samples.erase r
  | _ => samples

/-- `remove_root` (plots.py:555-564) -/
def removeRoot (st : St S D G U) (root : Root S) : St S D G U :=
  { st with samples := root.drop st.samples, singles := st.singles.erase root, d1 := st.d1.erase root, d2 := st.d2.erase root }

/-- `get_density` (plots.py:566-592).  `none` when the samples do not have the parameter. -/
def getDensity (w : World S D G U) (st : St S D G U) (root : Root S) (name : Str) (likes : Bool) :
    Except Err (Option D × St S D G U) := do
  let (s, st) ← samplesForRoot w st root none true []
  let rootdata := ((st.d1.get? root).getD []).erase (name, !likes)
  match rootdata.get? (name, likes) with
  | some d => .ok (some d, { st with d1 := st.d1.set root rootdata })
  | none => match w.density1 s name likes with
    | none => .ok (none, { st with d1 := st.d1.set root rootdata })
    | some d => .ok (some d, { st with d1 := st.d1.set root (rootdata.set (name, likes) d) })

/-- `get_density_grid` (plots.py:594-617) -/
def getDensityGrid (w : World S D G U) (st : St S D G U) (root : Root S) (p1 p2 : Str) (conts : Nat) (likes : Bool) :
    Except Err (Option G × St S D G U) :=
  let rootdata := (st.d2.get? root).getD []
  match rootdata.get? (p1, p2, likes, conts) with
  | some g => .ok (some g, st)
  | none => do
    let (s, st) ← samplesForRoot w st root none true []
    match w.density2 s p1 p2 likes conts with
    | none => .ok (none, st)
    | some g => .ok (some g, { st with d2 := st.d2.set root (rootdata.set (p1, p2, likes, conts) g) })

/-- `load_single_samples` (plots.py:619-628) -/
def loadSingle (w : World S D G U) (st : St S D G U) (root : Root S) : Except Err (U × St S D G U) :=
  match st.singles.get? root with
  | some u => .ok (u, st)
  | none => do
    let (s, st) ← samplesForRoot w st root none true []
    .ok (w.single s, { st with singles := st.singles.set root (w.single s) })

/-- the density changed in place (`density.normalize()`, densities.py:87-89): the cached object is the one that is changed -/
def putDensity (st : St S D G U) (root : Root S) (name : Str) (likes : Bool) (d : D) : St S D G U :=
  { st with d1 := st.d1.set root (((st.d1.get? root).getD []).set (name, likes) d) }

/-- the curve drawn by `add_1d` for samples (plots.py:964-980); `setting` is `settings.norm_1d_density`, `likes` is
`settings.plot_meanlikes` -/
def add1d (w : World S D G U) (st : St S D G U) (root : Root S) (name : Str) (likes : Bool) (normalized : Option Bool) (setting : Bool) :
    Except Err (Option D × St S D G U) := do
  let (od, st) ← getDensity w st root name likes
  match od with
  | none => .ok (none, st)
  | some d =>
    if normalized.getD setting then .ok (some (w.norm d), putDensity st root name likes (w.norm d))
    else .ok (some d, st)

/-- `plot_1d` for one root (plots.py:1530-1588): its own default of `normalized` is `False` -/
def plot1d (w : World S D G U) (st : St S D G U) (root : Root S) (name : Str) (likes : Bool) (setting : Bool)
    (normalized : Option Bool := some false) : Except Err (Option D × St S D G U) :=
  add1d w st root name likes normalized setting

/-! ## Settings -/

/-- the settings argument of `reset` -/
inductive Given
  | ini (ref : Nat)            -- an IniFile instance of the caller
  | dict (d : Settings)
  | none
deriving DecidableEq, Repr

/-- `reset` (plots.py:445-470); `defaults` is the content of `analysis_defaults.ini` -/
def reset (defaults : Settings) (st : St S D G U) (g : Given) (priority : Bool := true) : St S D G U :=
  let (ref, heap) : Nat × List Settings := match g with
    | .ini r => (r, st.heap)
    | .dict d => (st.heap.length, st.heap ++ [Dict.update defaults d])
    | .none => (st.heap.length, st.heap ++ [defaults])
  let (ini, heap) : Nat × List Settings := match st.ini with
    | some i => (i, heap.set i ((heap.getD i []).update (heap.getD ref [])))
    | none => (ref, heap)
  { st with ini := some ini, heap := heap, samples := [], d1 := [], d2 := [], singles := [], priority := priority }

/-! ## Names and labels -/

/-- `params_for_root` (plots.py:630-646): the labels of the samples' own list are replaced -/
def paramsForRoot (w : World S D G U) (st : St S D G U) (root : Root S) (labels : Option (List Info)) :
    Except Err (List Info × St S D G U) := do
  let (s, st) ← samplesForRoot w st root none true []
  match labels with
  | none => .ok (st.names s, st)
  | some l =>
    let ps := setLabelsAndDerived true (st.names s) l
    .ok (ps, { st with names := fun t => if t = s then ps else st.names t })

/-- `param_latex_label` (plots.py:1828-1843); the plotter's own dictionary of name lists refers to the same objects -/
def latexLabel (w : World S D G U) (st : St S D G U) (root : Root S) (name : Str) (labels : Option (List Info)) :
    Except Err (Str × St S D G U) := do
  let (ps, st) ← paramsForRoot w st root labels
  match parWithName ps name with
  | none => .error .notFound
  | some p => .ok (p.label, st)

/-! ## Sequences of calls -/

inductive Op (S : Type)
  | samples (root : Root S) (file : Option Str) (cache : Bool) (settings : Settings)
  | addRoot (file : Str)
  | remove (root : Root S)
  | reset (g : Given) (priority : Bool)
  | density (root : Root S) (name : Str) (likes : Bool)
  | grid (root : Root S) (p1 p2 : Str) (conts : Nat) (likes : Bool)
  | single (root : Root S)
  | curve (root : Root S) (name : Str) (likes : Bool) (normalized : Bool)
  | names (root : Root S) (labels : Option (List Info))

/-- the state after a call; an exception leaves it unchanged -/
def after {α : Type} (st : St S D G U) : Except Err (α × St S D G U) → St S D G U
  | .ok r => r.2
  | .error _ => st

def step (w : World S D G U) (defaults : Settings) (st : St S D G U) : Op S → St S D G U
  | .samples root file cache settings => after st (samplesForRoot w st root file cache settings)
  | .addRoot file => after st (addRoot w st file)
  | .remove root => removeRoot st root
  | .reset g p => reset defaults st g p
  | .density root name likes => after st (getDensity w st root name likes)
  | .grid root p1 p2 conts likes => after st (getDensityGrid w st root p1 p2 conts likes)
  | .single root => after st (loadSingle w st root)
  | .curve root name likes normalized => after st (add1d w st root name likes (some normalized) false)
  | .names root labels => after st (paramsForRoot w st root labels)

def run (w : World S D G U) (defaults : Settings) (st : St S D G U) (ops : List (Op S)) : St S D G U := ops.foldl (step w defaults) st

end Verif.Analyser
