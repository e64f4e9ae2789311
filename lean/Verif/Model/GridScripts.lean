import Verif.Model.IniFile
import Verif.Model.ParamNames
import Mathlib.Algebra.Field.Rat

/-!
# Model of `python/runGridGetdist.py`, `python/extractDistFiles.py`, `python/extractBestFitCAMB.py` and `python/extractBestFitParams.py`

Modelled: the settings files for each chain and which runs are started; the pool of processes; the files copied; the settings for CAMB from a best fit; the lines of
parameters from a best fit file.

Simplified: the file system is a function that says which paths exist; the items of the grid come with the answers to questions about their files; numbers are
rational; a process is finished at a tick of the clock according to a given function; `os.path.abspath` is a function; messages and waiting times are left out.
-/

namespace Verif.GridScripts
open Verif.Py Verif.IniFile

inductive Err
  | typeError      -- abspath(None)
  | noBase         -- ValueError: base_ini file not found
  | index          -- IndexError
  | key            -- KeyError
deriving DecidableEq, Repr

/-- an item of the grid -/
structure Item where
  name : Str
  paramtag : Str
  chainRoot : Str
  batchPath : Str
  distPath : Str
  parentRoot : Option Str        -- of importance jobs
  burnRemoved : Bool
  settings : Dict Str Val        -- dist_settings
  chainExists : Bool
  distExists : Bool
  needsUpdate : Bool
deriving DecidableEq, Repr

/-- arguments of runGridGetdist.py -/
structure Args where
  updateOnly : Bool := false
  makePlots : Bool := false
  norun : Bool := false
  plotData : Option Str := none
  burnRemoved : Bool := false
  burnRemove : Option Str := none       -- printed
  noPlots : Bool := false
  notexist : Bool := false
  baseIni : Str
deriving DecidableEq, Repr

/-- the grid -/
structure Grid where
  commonPath : Str
  iniDir : Str
  options : Dict Str Val := []          -- getdist_options, empty without
deriving DecidableEq, Repr

/-- runGridGetdist.py:42-47 -/
def dataDir (abspath : Str → Str) (usePlotData : Bool) (a : Args) : Except Err (Option Str) :=
  match a.plotData with
  | none => if usePlotData then .error .typeError else .ok none
  | some p => .ok (some (abspath p ++ c!"/"))

/-- `ini.params[k] = v` under a condition -/
def setIf (b : Bool) (k : Str) (v : Val) (d : Dict Str Val) : Dict Str Val := if b then d.set k v else d

/-- runGridGetdist.py:60-64 -/
def rootParams (dir : Option Str) (it : Item) : Dict Str Val :=
  let d : Dict Str Val := [(c!"file_root", .str it.chainRoot), (c!"batch_path", .str it.batchPath), (c!"out_dir", .str it.distPath)]
  match dir with
  | some p => d.set c!"plot_data_dir" (.str p)
  | none => d

/-- runGridGetdist.py:80-83 -/
def rowsParams (a : Args) (it : Item) (d : Dict Str Val) : Dict Str Val :=
  if it.parentRoot.isSome || a.burnRemoved || it.burnRemoved then d.set c!"ignore_rows" (.other c!"0")
  else match a.burnRemove with
    | some x => d.set c!"ignore_rows" (.other x)
    | none => d

/-- runGridGetdist.py:85-87 -/
def compareParams (it : Item) (d : Dict Str Val) : Dict Str Val := match it.parentRoot with
  | some p => (d.set c!"compare_num" (.other c!"1")).set c!"compare1" (.str p)
  | none => d

/-- the settings (runGridGetdist.py:60-64, 77-91) -/
def params (dir : Option Str) (g : Grid) (a : Args) (it : Item) : Dict Str Val :=
  let d := (rootParams dir it).update g.options
  let d := compareParams it (rowsParams a it d)
  let d := setIf a.makePlots c!"make_plots" (.bool true) (setIf a.noPlots c!"no_plots" (.bool true) d)
  d.update it.settings

/-- the file of extra plots (runGridGetdist.py:65-70) -/
def plotsFile (exists_ : Str → Bool) (g : Grid) (it : Item) : List Str :=
  let f (n : Str) := g.commonPath ++ c!"plots/" ++ n ++ c!".ini"
  if exists_ (f it.name) then [f it.name] else if exists_ (f it.paramtag) then [f it.paramtag] else []

/-- the defaults (runGridGetdist.py:71-76) -/
def baseFile (exists_ : Str → Bool) (g : Grid) (a : Args) : Except Err Str :=
  if exists_ a.baseIni then .ok a.baseIni
  else if exists_ (g.commonPath ++ a.baseIni) then .ok (g.commonPath ++ a.baseIni)
  else .error .noBase

/-- the settings file of an item and its name (runGridGetdist.py:51, 59-92) -/
def makeIni (exists_ : Str → Bool) (dir : Option Str) (g : Grid) (a : Args) (it : Item) : Except Err (Str × Ini) :=
  match baseFile exists_ g a with
  | .error e => .error e
  | .ok b => .ok (g.iniDir ++ it.name ++ c!".ini", { params := params dir g a it, includes := plotsFile exists_ g it, defaults := [b] })

/-- is getdist started for the item (runGridGetdist.py:93-95) -/
def wanted (a : Args) (it : Item) : Bool :=
  !a.norun && (!a.notexist || !it.distExists) && (!a.updateOnly || it.needsUpdate) && it.chainExists

/-! ### the pool -/

/-- `while len(processes) >= args.procs` (runGridGetdist.py:98-100): clock and processes; `fuel` bounds the number of rounds -/
def drain (done : Nat → Nat → Bool) (procs : Int) : Nat → Nat → List Nat → Option (Nat × List Nat)
  | 0, t, run => if (run.length : Int) ≥ procs then none else some (t, run)
  | fuel + 1, t, run =>
    if (run.length : Int) ≥ procs then drain done procs fuel (t + 1) (run.filter fun p => !done (t + 1) p)
    else some (t, run)

/-- starting of jobs (runGridGetdist.py:97-100): the processes after each start -/
def pool (done : Nat → Nat → Bool) (procs : Int) (fuel : Nat) : Nat → List Nat → List Nat → Option (List (List Nat))
  | _, _, [] => some []
  | t, run, j :: js =>
    let now := run ++ [j]
    match drain done procs fuel t now with
    | none => none
    | some (t', run') => (pool done procs fuel t' run' js).map (now :: ·)

/-! ### copying of results -/

/-- an item for extractDistFiles.py: files in its directory, name after replacements, is it converged -/
structure DistItem where
  name : Str
  normed : Str
  files : List Str
  converged : Bool
deriving DecidableEq, Repr

/-- extractDistFiles.py:23-25: `args.tag_replacements[i * 2 + 1]` -/
def replacementsFrom (d : Dict Str Str) : List Str → Except Err (Dict Str Str)
  | [] => .ok d
  | [_] => .error .index
  | a :: b :: l => replacementsFrom (d.set a b) l

def replacements (l : List Str) : Except Err (Dict Str Str) := replacementsFrom [] l

/-- extractDistFiles.py:29-30 -/
def patternOf (ext : Str) : Str := if ext.contains '.' then ext else '.' :: ext

/-- `os.path.splitext(f)[1]` for a file that does not begin with a dot -/
def extOf (f : Str) : Str := match f.reverse.span (· != '.') with
  | (_, []) => []
  | (r, _ :: rest) => if rest.isEmpty then [] else '.' :: r.reverse

/-- the copies of an item: target and source (extractDistFiles.py:32-40) -/
def copiesOf (normalize : Bool) (ext : Str) (it : DistItem) : List (Str × Str) :=
  if it.converged then
    (it.files.filter fun f => ParamNames.fnmatchcase f (it.name ++ patternOf ext)).map fun f => (if normalize then it.normed ++ extOf f else f, f)
  else []

/-- all copies; a later one to the same target replaces an earlier one -/
def copies (normalize : Bool) (exts : List Str) (items : List DistItem) : List (Str × Str) :=
  exts.flatMap fun e => items.flatMap (copiesOf normalize e)

def targets (normalize : Bool) (exts : List Str) (items : List DistItem) : Dict Str Str :=
  (copies normalize exts items).foldl (fun d c => d.set c.1 c.2) []

/-! ### settings for CAMB -/

/-- extractBestFitCAMB.py:14-16 -/
def cambNames : List (Str × Str) :=
  [(c!"ombh2", c!"omegabh2"), (c!"omch2", c!"omegach2"), (c!"omnuh2", c!"omeganuh2"), (c!"hubble", c!"H0"), (c!"w", c!"w"), (c!"helium_fraction", c!"yheused"),
   (c!"scalar_amp(1)", c!"A"), (c!"scalar_spectral_index(1)", c!"ns"), (c!"scalar_nrun(1)", c!"nrun"), (c!"initial_ratio(1)", c!"r"),
   (c!"re_optical_depth", c!"tau"), (c!"re_delta_redshift", c!"deltazrei"), (c!"massless_neutrinos", c!"nnu")]

/-- extractBestFitCAMB.py:27-29 -/
def addBest (best : Str → Option ℚ) (d : Dict Str ℚ) (e : Str × Str) : Dict Str ℚ := match best e.2 with
  | some x => d.set e.1 x
  | none => d

/-- `3.046 / 3` -/
def neffStandard : ℚ := 3046 / 3000

/-- the numbers of the settings (extractBestFitCAMB.py:18-44), the flags left out: temperature, scales and the best fit -/
def cambIni (best : Str → Option ℚ) (nonlinear : Bool) : Except Err (Dict Str ℚ) :=
  let d : Dict Str ℚ := [(c!"temp_cmb", 27255 / 10000), (c!"CMB_outputscale", 2725500 ^ 2)]
  let d := cambNames.foldl (addBest best) d
  match d.get? c!"scalar_amp(1)" with
  | none => .error .key
  | some amp =>
    let d := d.set c!"scalar_amp(1)" (amp / 10 ^ 9)
    match d.get? c!"massless_neutrinos" with
    | none => .error .key
    | some nnu =>
      let d := d.set c!"massless_neutrinos" (nnu - neffStandard)
      let d := d.set c!"massive_neutrinos" 1
      let d := d.set c!"nu_mass_degeneracies" neffStandard
      match d.get? c!"initial_ratio(1)" with
      | none => .error .key
      | some r =>
        let d := d.set c!"tensor_spectral_index(1)" (-r / 8)
        .ok (if nonlinear then d.set c!"do_nonlinear" 3 else d)

/-! ### lines of a best fit file -/

/-- extractBestFitParams.py:10-12, the loop -/
def printParams : List Str → Except Err (List Str)
  | [] => .ok []
  | l :: ls =>
    if strip l = [] then .ok []
    else match splitWs (strip l) with
      | _ :: v :: n :: _ => match printParams ls with
        | .error e => .error e
        | .ok r => .ok ((c!"param[" ++ n ++ c!"]=" ++ v) :: r)
      | _ => .error .index

/-- extractBestFitParams.py:5-12 -/
def bestFitParams (text : List Str) : Except Err (List Str) := printParams (text.drop 3)

end Verif.GridScripts
