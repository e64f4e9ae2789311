import Verif.Model.Bounds
import Verif.Model.ParamNames
import Verif.Model.ReadChains
import Verif.Py.Replace

/-!
# Model of reading Cobaya's parameter information (`python/getdist/cobaya_interface.py`, `python/getdist/paramnames.py:430-442`,
`python/getdist/parampriors.py:36-40`) and of the burn-in and sampler options it sets (`python/getdist/mcsamples.py:212-268`,
`python/getdist/chains.py:1101-1111`)

The parsed yaml is given: for each parameter nothing, a number, a text, a function, or a dictionary of the fields read by the
code.  In the dictionary of a prior a missing entry and `null` are the same.  Objects are values; where the code changes the
caller's dictionaries the new value is part of the result.  `scipy.stats` is the parameter `interval`.  `float` of a text is
the parameter `parse`.
-/

namespace Verif.Cobaya
open Verif.Py

/-- a float that may be infinite -/
inductive Ext (K : Type)
  | neg
  | fin (x : K)
  | pos
deriving DecidableEq, Repr

/-- `value` -/
inductive Val (K : Type)
  | null
  | num (x : K)
  | text (s : Str)
  | fn
deriving DecidableEq, Repr

/-- `prior` -/
inductive Prior (K : Type)
  | pair (a b : Option (Ext K))
  | dict (min max : Option (Ext K)) (loc scale : Option K) (dist : Option Str)
  | bad
deriving DecidableEq, Repr

/-- the entries of a parameter's dictionary -/
structure Fields (K : Type) where
  prior : Option (Prior K) := none
  value : Option (Val K) := none
  derived : Option Bool := none
  latex : Option Str := none
  renames : Option (List Str) := none
  min : Option (Ext K) := none
  max : Option (Ext K) := none
deriving DecidableEq, Repr

/-- the entry of `params` for one parameter -/
inductive PInfo (K : Type)
  | val (v : Val K)
  | map (f : Fields K)
deriving DecidableEq, Repr

/-- exceptions -/
inductive Err
  | valueError
  | typeError
  | attributeError
  | keyError
  | unboundLocal
deriving DecidableEq, Repr

variable {K : Type}

/-- `expand_info_param` (cobaya_interface.py:231-249) -/
def expand (p : PInfo K) : Fields K :=
  let f : Fields K := match p with
    | .val .null => {}
    | .val v => { value := some v }
    | .map f => f
  let f := if f.prior.isNone && f.value.isNone && f.derived.isNone then { f with derived := some true } else f
  match f.value with
  | some (.text _) => { f with derived := some (f.derived.getD true) }
  | some .fn => { f with derived := some (f.derived.getD true) }
  | _ => f

def isSampled (p : PInfo K) : Bool := (expand p).prior.isSome                 -- 217-221
def isDerived (p : PInfo K) : Bool := (expand p).derived.getD false           -- 224-228
/-- `fixed_value` (198-202); `None` is `null` -/
def fixedValue (p : PInfo K) : Val K := (expand p).value.getD .null
/-- `is_parameter_with_range` (212-214) -/
def withRange (p : PInfo K) : Bool :=
  match fixedValue p with
  | .null => true
  | .num _ => true
  | _ => isDerived p

/-- a range: `None` is no limit -/
abbrev Range (K : Type) := Option (Ext K) × Option (Ext K)

/-- the infinities are no limits (cobaya_interface.py:193) -/
def dropInf [DecidableEq K] (r : Range K) : Range K :=
  (if r.1 = some .neg then none else r.1, if r.2 = some .pos then none else r.2)

/-- `[i.get("min", -np.inf), i.get("max", np.inf)]` with `i = param_info or {}`; a text has no `get` -/
def minMax (p : PInfo K) : Except Err (Range K) :=
  match p with
  | .val .null => .ok (some .neg, some .pos)
  | .val _ => .error .attributeError
  | .map f => .ok (some (f.min.getD .neg), some (f.max.getD .pos))

/-- the branch of sampled parameters (cobaya_interface.py:161-177): limits, and the prior left behind -/
def priorRange (interval : Str → Option K → Option K → Option (Ext K × Ext K)) : Prior K → Except Err (Range K) × Prior K
  | .pair a b =>
    (if a.isSome || b.isSome then .ok (a, b) else .error .unboundLocal, .dict a b none none none)
  | .bad => (.error .valueError, .bad)
  | .dict mn mx loc scale dist =>
    if mn.isSome || mx.isSome then (.ok (mn, mx), .dict mn mx loc scale dist)
    else if loc.isSome || scale.isSome then
      ((match interval (dist.getD c!"uniform") loc scale with
        | some r => .ok (some r.1, some r.2)
        | none => .error .attributeError), .dict mn mx loc scale none)
    else (.error .unboundLocal, .dict mn mx loc scale dist)

/-- `get_range` (cobaya_interface.py:163-195) and the dictionary left behind -/
def getRange [DecidableEq K] (interval : Str → Option K → Option K → Option (Ext K × Ext K)) (parse : Str → Option K) (p : PInfo K) :
    Except Err (Range K) × PInfo K :=
  match p with
  | .map { prior := some q, value, derived, latex, renames, min, max } =>
    let (r, q) := priorRange interval q
    (r.map dropInf, .map { prior := some q, value, derived, latex, renames, min, max })
  | _ =>
    if isDerived p then ((minMax p).map dropInf, p)
    else
      let lims : Except Err (Range K) := match fixedValue p with
        | .num v => .ok (some (.fin v), some (.fin v))
        | .text s =>
          match parse s with
          | some v => .ok (some (.fin v), some (.fin v))
          | none => minMax p
        | _ => .error .typeError
      (lims.map dropInf, p)

/-! ### the list of parameters -/

/-- a text or a list of texts -/
inductive OneOrMany
  | one (s : Str)
  | many (l : List Str)
deriving DecidableEq, Repr

/-- `str_to_list` (cobaya_interface.py:118-119) -/
def strToList : OneOrMany → List Str
  | .one s => [s]
  | .many l => l

/-- iterating over a text gives its characters -/
def iterate : OneOrMany → List Str
  | .one s => s.map fun c => [c]
  | .many l => l

/-- the entry `post` -/
structure Post (K : Type) where
  skip : Option K := none
  removeParams : OneOrMany := .many []
  removeLike : OneOrMany := .many []
  removePrior : OneOrMany := .many []
  addParams : Dict Str (PInfo K) := []
  addLike : List Str := []
  addPrior : List Str := []
deriving DecidableEq, Repr

/-- the whole information -/
structure Info (K : Type) where
  params : Dict Str (PInfo K)
  prior : List Str := []
  likelihood : List Str
  post : Option (Post K) := none
  sampler : Option (List Str) := none
  label : Option Str := none
deriving DecidableEq, Repr

/-- `list.remove` -/
def removeOne (l : List Str) (x : Str) : Except Err (List Str) := if x ∈ l then .ok (l.erase x) else .error .valueError

/-- `a.update(b)` of two dictionaries of fields -/
def updateFields (a b : Fields K) : Fields K :=
  { prior := b.prior.or a.prior, value := b.value.or a.value, derived := b.derived.or a.derived, latex := b.latex.or a.latex,
    renames := b.renames.or a.renames, min := b.min.or a.min, max := b.max.or a.max }

/-- one parameter of `add` (cobaya_interface.py:143-146) -/
def addParam (d : Dict Str (PInfo K)) (e : Str × PInfo K) : Except Err (Dict Str (PInfo K)) :=
  match (d.get? e.1).getD (.map {}) with
  | .val _ => .error .attributeError
  | .map old =>
    match e.2 with
    | .val _ => .error .typeError
    | .map f => .ok (d.set e.1 (.map (updateFields old f)))

/-- a dictionary with only a label -/
def labelled (s : Str) : PInfo K := .map { latex := some s }

/-- `get_info_params` (cobaya_interface.py:122-157) -/
def infoParams (i : Info K) : Except Err (Dict Str (PInfo K)) := do
  let full : Dict Str (PInfo K) := i.params.foldl (fun d e => d.set e.1 e.2) []
  let p := i.post.getD {}
  let full := (iterate p.removeParams).foldl Dict.erase full
  let likes ← (strToList p.removeLike).foldlM removeOne i.likelihood
  let priors ← (strToList p.removePrior).foldlM removeOne (c!"0" :: i.prior)
  let full ← p.addParams.foldlM addParam full
  let likes := likes ++ p.addLike
  let priors := priors ++ p.addPrior
  let full := full.set c!"minuslogprior" (labelled c!"-\\log\\pi")
  let full := priors.foldl (fun d q => d.set (c!"minuslogprior__" ++ q)
    (labelled (c!"-\\log\\pi_\\mathrm{" ++ replaceChar '_' c!"\\ " q ++ c!"}"))) full
  let full := full.set c!"chi2" (labelled c!"\\chi^2")
  pure (likes.foldl (fun d l => d.set (c!"chi2__" ++ l)
    (labelled (c!"\\chi^2_\\mathrm{" ++ replaceChar '_' c!"\\ " l ++ c!"}"))) full)

/-- `(info or {}).get(...)` -/
def fieldsOf (p : PInfo K) : Except Err (Fields K) :=
  match p with
  | .val .null => .ok {}
  | .val _ => .error .attributeError
  | .map f => .ok f

/-- `ParamInfo(name=, label=, renames=, derived=)` (paramnames.py:79-89, 437-442) -/
def paramOf (derived : Bool) (e : Str × PInfo K) : Except Err ParamNames.Info := do
  let f ← fieldsOf e.2
  if e.1.any ParamNames.badNameChar then throw .valueError
  let label := f.latex.getD e.1
  pure { name := e.1, label := if label.isEmpty then e.1 else label, renames := f.renames.getD [], isDerived := derived }

/-- `ParamNames.loadFromFile` of a yaml file (paramnames.py:430-442) -/
def loadNames (i : Info K) : Except Err (List ParamNames.Info) := do
  let d ← infoParams i
  let a ← (d.filter fun e => isSampled e.2).mapM (paramOf false)
  let b ← (d.filter fun e => isDerived e.2).mapM (paramOf true)
  pure (a ++ b)

/-- one side for `setRange` -/
def toLower : Option (Ext K) → Except Err (Bounds.Lim K)
  | none => .ok .none
  | some .neg => .ok .inf
  | some (.fin x) => .ok (.num x)
  | some .pos => .error .valueError
def toUpper : Option (Ext K) → Except Err (Bounds.Lim K)
  | none => .ok .none
  | some .pos => .ok .inf
  | some (.fin x) => .ok (.num x)
  | some .neg => .error .valueError

section bounds
variable [Field K] [LinearOrder K] [IsStrictOrderedRing K] [FloorRing K]

/-- one parameter of `ParamBounds.loadFromFile` of a yaml file (parampriors.py:38-40); a limit on the wrong side of infinity
is an error in the model -/
def loadBound (interval : Str → Option K → Option K → Option (Ext K × Ext K)) (parse : Str → Option K)
    (b : Bounds.ParamBounds K) (e : Str × PInfo K) : Except Err (Bounds.ParamBounds K) :=
  if withRange e.2 then do
    let r ← (getRange interval parse e.2).1
    match Bounds.setRange b e.1 (← toLower r.1) (← toUpper r.2) with
    | .ok b => .ok b
    | .error _ => .error .valueError
  else .ok b

/-- `ParamBounds.loadFromFile` of a yaml file (parampriors.py:36-40) -/
def loadBounds (interval : Str → Option K → Option K → Option (Ext K × Ext K)) (parse : Str → Option K) (i : Info K) :
    Except Err (Bounds.ParamBounds K) := do
  (← infoParams i).foldlM (loadBound interval parse) {}

/-! ### sampler and burn-in -/

/-- `get_sampler_type` (cobaya_interface.py:252-255) -/
def samplerType (i : Info K) : Except Err Str :=
  match i.sampler.getD [c!"mcmc"] with
  | [] => .error .valueError
  | s :: _ =>
    if s = c!"mcmc" then .ok c!"mcmc"
    else if s = c!"polychord" then .ok c!"nested"
    else if s = c!"minimize" then .ok c!"minimize"
    else .error .keyError

/-- `setSampler` (chains.py:1107-1111) -/
def setSampler (s : Str) : Except Err Str :=
  let s := s.map Char.toLower
  if s = c!"mcmc" ∨ s = c!"nested" ∨ s = c!"uncorrelated" then .ok s else .error .valueError

/-- `get_burn_removed` (cobaya_interface.py:262-265): `post` is looked up in the parameters; `skip` is not one of the fields of
a parameter, so a parameter called `post` is zero or an error -/
def burnRemoved (i : Info K) : Except Err K := do
  match (← infoParams i).get? c!"post" with
  | none => pure 0
  | some (.map _) => pure 0
  | some (.val _) => throw .attributeError

/-- burn-in options and sampler of a new object (mcsamples.py:212-268, chains.py:1101-1105).  `kwRows`, `kwSampler`: keyword
arguments; `setRows`: `ignore_rows` in `settings`; `iniRows`: in the settings file; `props`: the file `.properties.ini` with its
`ignore_rows`, `burn_removed`, `sampler`; `info`: Cobaya's information, read if there is no such file.  `np.isclose` to zero is
equality -/
def construct (kwRows : Option K) (kwSampler : Option Str) (setRows iniRows : Option K)
    (props : Option (Option K × Bool × Option Str)) (info : Option (Info K)) : Except Err (Chains.Burn K × Str) := do
  let sampler ← match kwSampler with
    | some s => setSampler s
    | none => .ok c!"mcmc"
  if sampler = c!"nested" ∧ kwRows.getD 0 ≠ 0 then throw .valueError
  let rows := (kwRows.or setRows).or iniRows
  let b := Chains.setBurnOptions (rows.getD (kwRows.getD 0))
  match props with
  | some (r, removed, s) =>
    let b := Chains.setBurnOptions (r.getD b.rows)
    let b := if removed then { b with lines := 0, frac := 0 } else b
    let sampler ← if kwSampler.isNone then setSampler (s.getD sampler) else .ok sampler
    pure (b, sampler)
  | none =>
    match info with
    | none => pure (b, sampler)
    | some i =>
      let skip ← burnRemoved i
      let b := if skip ≠ 0 then { b with lines := 0, frac := 0 } else b
      let sampler ← if kwSampler.isNone then setSampler (← samplerType i) else .ok sampler
      pure (b, sampler)

/-- `ignore_rows` of `analysis_defaults.ini` (line 4), used if no settings file is given (mcsamples.py:448-449) -/
def defaultRows : K := 3 / 10

end bounds

/-- `cobaya_params_file` (cobaya_interface.py:32-41) -/
def paramsFile (exists_ : Str → Bool) (root : Str) : Option Str :=
  let slash := endsWith c!"/" root
  let f1 := root ++ (if slash then [] else c!".") ++ c!"updated.yaml"
  let f2 := root ++ (if slash then [] else c!"__") ++ c!"full.yaml"
  if exists_ f1 then some f1 else if exists_ f2 then some f2 else none

end Verif.Cobaya
