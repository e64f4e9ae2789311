import Verif.Model.Batch
import Verif.Py.Path

/-!
# Model of setting up and opening a grid (`python/paramgrid/gridconfig.py:69-185`, `batchjob.py:15-61, 547-560`, `batchjob_args.py:19-95`, `planck/settings_planck_2015.py:606-615`)

Modelled: the search for a proposal covariance matrix, the stored object of a grid and when it is made again, the options that the scripts
may use.  Parameters: which files exist, the jobs made from a settings file.  Simplified: a stored object is its list of jobs and the
directory of the code; pickling is a value that may be unreadable; options have no values other than the directory of the grid.
-/

namespace Verif.GridSetup
open Verif.Py Verif.Batch

/-! ## The proposal matrix -/

/-- what the settings file says about covariance matrices -/
structure CovCfg where
  covDir : Str := c!"planck_covmats"
  fallback : Option Str := none              -- cov_dir_fallback
  mappings : Option (Dict Str Str) := none   -- covNameMappings
  dataCov : Option Str := none               -- covmat of the data set
  setCov : Option Str := none                -- covmat of the settings
  newCovmats : Bool := true
  renamer : Option (Str → List Str) := none  -- covRenamer
  renames : Option (List (Str × Str)) := none  -- covrenames
  without : Option (List Str) := none        -- covWithoutNameOrder

/-- `name + '.covmat'` in a directory -/
def inDir (dir name : Str) : Str := Path.join dir (name ++ c!".covmat")

/-- `makeNormedName(subs)[0]` -/
def normed (j : Info) (subs : Option (Dict Str Str)) : Str := normedNameOf j.base j.params j.data subs

/-- `"_".join([covNameMappings.get(x, x) for x in name.split('_')])` (gridconfig.py:139-141) -/
def mapped (dic : Dict Str Str) (name : Str) : Str := join us ((splitChar '_' name).map (fun x => (dic.get? x).getD x))

/-- `covmat = base + c; if not exists: covmat = covdir/c` for a matrix named explicitly (gridconfig.py:142-149) -/
def named (ex : Str → Bool) (base covdir c : Str) : Str := if ex (base ++ c) then base ++ c else Path.join covdir c

/-- the step for such a matrix: only if there is none yet -/
def orNamed (ex : Str → Bool) (base covdir : Str) (c : Option Str) (cov : Str) : Str :=
  if ex cov then cov else match c with
    | some c => named ex base covdir c
    | none => cov

/-- the step for mapped names (gridconfig.py:139-141) -/
def orMapped (ex : Str → Bool) (covdir name : Str) (m : Option (Dict Str Str)) (cov : Str) : Str :=
  if ex cov then cov else match m with
    | some dic => inDir covdir (mapped dic name)
    | none => cov

/-- `covmat` before the test in line 152 (gridconfig.py:131-151) -/
def firstCov (ex : Str → Bool) (base : Str) (c : CovCfg) (j : Info) : Str :=
  let covdir := Path.join base c.covDir
  if ex (inDir covdir j.name) then inDir covdir j.name
  else orNamed ex base covdir c.setCov (orNamed ex base covdir c.dataCov
    (orMapped ex covdir j.name c.mappings (inDir covdir (normed j c.mappings))))

/-- text before and after the first occurrence -/
def cut (sub : Str) : Str → Option (Str × Str)
  | [] => if sub = [] then some ([], []) else none
  | c :: cs => if startsWith sub (c :: cs) then some ([], (c :: cs).drop sub.length) else (cut sub cs).map (fun r => (c :: r.1, r.2))

/-- `aname.replace(old, new, 1)` -/
def replace1 (old new s : Str) : Str := match cut old s with
  | some r => r.1 ++ new ++ r.2
  | none => s

/-- `[aname.replace(old, new, 1) for old, new in renames if old in aname]` -/
def renameTry (renames : List (Str × Str)) (a : Str) : List Str :=
  (renames.filter (fun r => contains r.1 a)).map (fun r => replace1 r.1 r.2 a)

/-- gridconfig.py:162-168 for one name -/
def renamesFor (renames : List (Str × Str)) (a : Str) : List Str :=
  renameTry renames a ++ (renames.filter (fun r => contains r.2 a)).flatMap (fun r => renameTry renames (replace1 r.2 r.1 a))

/-- the loop over `covWithoutNameOrder` (gridconfig.py:169-178) -/
def withoutLoop (j : Info) : Dict Str Str → List Str → List Str
  | _, [] => []
  | removes, n :: ns => if n ∈ j.data.names then
      normed j (some [(n, [])]) :: normed j (some (removes.set n [])) :: withoutLoop j (removes.set n []) ns
    else withoutLoop j removes ns

/-- `covmat_try` (gridconfig.py:158-178) -/
def tries (c : CovCfg) (j : Info) : List Str :=
  let norm := normed j c.mappings
  (match c.renamer with | some f => f j.name ++ f norm | none => []) ++
  (match c.renames with | some r => renamesFor r j.name ++ renamesFor r norm | none => []) ++
  (match c.without with | some ns => withoutLoop j (c.mappings.getD []) ns | none => [])

/-- `os.path.join(basePath, covdir2, name + '.covmat')` (gridconfig.py:179-181) -/
def fallbackPath (base : Str) (c : CovCfg) (name : Str) : Str :=
  inDir (Path.join base (Path.join base (c.fallback.getD c.covDir))) name

/-- the options set by the search (gridconfig.py:131-186): the matrix and whether `MPI_Max_R_ProposeUpdate` is set -/
def search (ex : Str → Bool) (base : Str) (c : CovCfg) (j : Info) : Option Str × Bool :=
  let cov := firstCov ex base c j
  if ex cov then (some cov, c.newCovmats)
  else (((tries c j).map (fallbackPath base c)).find? ex, true)

/-- `re.sub(a + '.*' + b, rep, s, 2)`: from the first `a` to the last `b` after it; a name has no line breaks -/
def subBetween (a b rep s : Str) : Str := match cut a s with
  | none => s
  | some r => match cut b.reverse r.2.reverse with
    | none => s
    | some q => r.1 ++ rep ++ q.1.reverse

/-- `re.sub(a + '.*', rep, s, 2)` -/
def subToEnd (a rep s : Str) : Str := match cut a s with
  | none => s
  | some r => r.1 ++ rep

/-- `covRenamer` (settings_planck_2015.py:606-615): `re.I` is given as the number of replacements -/
def covRenamer (name : Str) : List Str :=
  let r := subBetween c!"_v" c!"_highL" c!"_planck_lowl_lowLike_highL" name
  let r := if contains c!"wa_" name then subToEnd c!"_CamSpec" c!"_planck_lowl_lowLike_BAO" r
    else subToEnd c!"_CamSpec" c!"_planck_lowl_lowLike" r
  if r = name then [] else [r]

/-! ## The stored grid -/

inductive Err
  | exception | io | notFound | pickle | attribute | exit
  deriving DecidableEq, Repr

structure Grid (J : Type) where
  base : Str
  items : List J
  deriving DecidableEq

/-- the directory of a grid: the stored object (none inside: it cannot be read), the settings stored in `config`, the chains, the code -/
structure World (S J : Type) where
  cache : Option (Option (Grid J)) := none
  config : Option S := none
  chain : J → Bool
  code : Str
  dirExists : Str → Bool

variable {S J : Type}

/-- `pathIsGrid` (gridconfig.py:69-71) -/
def pathIsGrid (w : World S J) : Bool := w.cache.isSome || w.config.isSome

/-- `makeGrid(path, readOnly=True)` with settings (gridconfig.py:89-103): jobs without chains are dropped, the grid is stored -/
def makeExisting (items : S → List J) (w : World S J) (s : S) : World S J × Grid J :=
  let g : Grid J := ⟨w.code, (items s).filter w.chain⟩
  ({ w with cache := some (some g) }, g)

/-- `makeGrid(path)` without settings (gridconfig.py:80-87): those in `config` are used -/
def makeAgain (items : S → List J) (w : World S J) : World S J × Except Err (Grid J) :=
  if pathIsGrid w then match w.config with
    | none => (w, .error .io)
    | some s => ((makeExisting items w s).1, .ok (makeExisting items w s).2)
  else (w, .error .exception)

/-- `makeGrid(path, settings)` (gridconfig.py:89-106, batchjob.py:550-560): settings and all jobs are stored -/
def makeNew (items : S → List J) (w : World S J) (s : S) : World S J × Grid J :=
  let g : Grid J := ⟨w.code, items s⟩
  ({ w with cache := some (some g), config := some s }, g)

/-- `resetGrid` (batchjob.py:25-28) -/
def reset (w : World S J) : World S J := { w with cache := none }

/-- `readobject` when the stored object is of no use (batchjob.py:51-56) -/
def readAgain (items : S → List J) (w : World S J) (e : Err) : World S J × Except Err (Option (Grid J)) :=
  let w := reset w
  if pathIsGrid w then ((makeAgain items w).1, (makeAgain items w).2.map some) else (w, .error e)

/-- `readobject` (batchjob.py:30-56) -/
def read (items : S → List J) (w : World S J) : World S J × Except Err (Option (Grid J)) :=
  match w.cache with
  | none => if pathIsGrid w then ((makeAgain items w).1, (makeAgain items w).2.map some) else (w, .ok none)
  | some none => readAgain items w .pickle
  | some (some g) => if w.dirExists g.base then (w, .ok (some g)) else readAgain items w .notFound

/-! ## Options of the scripts -/

/-- the arguments of `batchArgs(…)` (batchjob_args.py:20-32) -/
structure Opts where
  importance : Bool := true
  noBatchPath : Bool := false
  notExist : Bool := false
  notall : Bool := false
  converge : Bool := false
  plots : Bool := false
  batchPathOptional : Bool := false

/-- `xs` if the option is wanted -/
def opt (b : Bool) (xs : List Str) : List Str := if b then xs else []

/-- attributes of `args` (batchjob_args.py:23-77); `extra`: those added by the script -/
def attrs (o : Opts) (extra : List Str) : List Str :=
  opt (!o.noBatchPath) [c!"batchPath"] ++ opt o.converge [c!"converge"] ++
  opt o.importance [c!"noimportance", c!"importance", c!"importancetag"] ++
  [c!"name", c!"param", c!"paramtag", c!"data", c!"datatag", c!"musthave_data", c!"skip_data", c!"skip_param", c!"group", c!"skip_group"] ++
  opt o.notExist [c!"notexist"] ++ opt o.notall [c!"notall"] ++
  opt o.plots [c!"plot_data", c!"paramNameFile", c!"param_list", c!"size_inch", c!"nx", c!"outputs"] ++ extra

/-- the result of `parseForBatch` (batchjob_args.py:79-95) with the directory given on the command line; `rd` is `readobject`; the grid, if any -/
def parse (o : Opts) (extra : List Str) (rd : Str → Except Err (Option (Grid J))) (given : Option Str) : Except Err (Option (Grid J)) :=
  if given = none ∧ o.noBatchPath = false ∧ o.batchPathOptional = false then .error .exit
  else if c!"batchPath" ∉ attrs o extra then .error .attribute
  else match given with
    | none => .ok none
    | some p => match rd p with
      | .error e => .error e
      | .ok none => .error .exception
      | .ok (some g) => if o.plots ∧ c!"paramList" ∉ attrs o extra then .error .attribute else .ok (some g)

/-- the attributes read by `filteredBatchItems` and the methods it calls (batchjob_args.py:97-141) -/
def needed : List Str :=
  [c!"noimportance", c!"importance", c!"importancetag", c!"name", c!"group", c!"skip_group", c!"musthave_data", c!"datatag", c!"skip_data",
   c!"data", c!"paramtag", c!"param", c!"skip_param"]

end Verif.GridSetup
