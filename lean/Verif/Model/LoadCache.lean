import Verif.Model.ChainFiles
import Verif.Py.Dict

/-!
# Model of `loadMCSamples` and its cache (`python/getdist/mcsamples.py:42-106`)

Modelled: which files are examined, the decision to use the cached object, what the cached object keeps and what is
recomputed (`updateSettings`, mcsamples.py:429-457; `_initLimits`, mcsamples.py:397-427), writing and removing the cache.
Parameters: reading the chain text (`World.read`), reading the `.ranges` file (`World.ranges`) and the options in
`.properties.ini` (`World.props`).  The name of the cache file is an argument (the directory hash is not modelled).
Settings other than burn-in, weight cut, contours and limits are not modelled.
-/

namespace Verif.LoadCache
open Verif.Py Verif.Py.Path Verif.ChainFiles

/-- the settings of `.ini` file and `settings` argument -/
structure Cfg (K : Type) where
  ignoreRows : K
  minWeightRatio : K
  contours : List K
  limits : Dict Str (K × K) := []
  deriving DecidableEq

/-- the parts of an `MCSamples` object that matter: `data` is read from the chain files, the others are settings and
values derived from settings -/
structure MC (K D : Type) where
  version : Nat
  cfg : Cfg K
  data : D
  ranges : Dict Str (K × K)
  doneContours : List K        -- the contours used by the last `updateBaseStatistics`
  deriving DecidableEq

inductive File (K D : Type)
  | text (t : Str)
  | pickle (m : MC K D)
  deriving DecidableEq

/-- modification time and content of every existing file -/
abbrev FS (K D : Type) := Str → Option (Nat × File K D)

structure World (K D : Type) where
  version : Nat                                     -- pickle_version, mcsamples.py:21
  read : K → K → List Str → Option D                -- readChains: ignore_rows, min_weight_ratio, texts of the files
  ranges : Option Str → Dict Str (K × K)            -- _readRanges
  props : Option Str → K × K → K × K                -- ignore_rows, min_weight_ratio with .properties.ini (mcsamples.py:243-249)

variable {K D : Type} [DecidableEq K]

def textOf (fs : FS K D) (p : Str) : Option Str :=
  match fs p with
  | some (_, .text t) => some t
  | _ => none

def mtimes (fs : FS K D) (files : List Str) : List Nat := files.filterMap (fun p => (fs p).map (·.1))

/-- `last_modified` (chains.py:42-49): `max` of an empty sequence is a `ValueError` -/
def lastModified (fs : FS K D) (files : List Str) : Except FErr Nat :=
  match mtimes fs files with
  | [] => .error .valueError
  | a :: l => .ok (l.foldl max a)

/-- the chain files, first with `_`, then with `.` (mcsamples.py:62-64) -/
def findFiles (d : Dirs) (root : Str) : Except FErr (List Str) := do
  let files ← chainFiles d root {}
  if files.isEmpty then chainFiles d root { separator := c!"." } else pure files

/-- the Cobaya settings files beside the chains (mcsamples.py:80-85) -/
def yamlFiles (d : Dirs) (root : Str) : Except FErr (List Str) := do
  let names ← d.listdir (dirname root)
  pure ((names.filter (fun f => startsWith (basename root) f &&
    (endsWith c!"updated.yaml" (f.map Char.toLower) || endsWith c!"full.yaml" (f.map Char.toLower)))).map (Path.join (dirname root)))

/-- `allfiles` (mcsamples.py:77-85) -/
def allFiles (fs : FS K D) (d : Dirs) (root : Str) (files : List Str) : Except FErr (List Str) :=
  if (fs (root ++ c!".paramnames")).isSome then
    .ok (files ++ [root ++ c!".ranges", root ++ c!".paramnames", root ++ c!".properties.ini"])
  else do pure (files ++ (← yamlFiles d root))

/-- `updateSettings` with the new settings (mcsamples.py:429-457); `self.ranges` is updated in place by `_initLimits` -/
def updateSettings (m : MC K D) (cfg : Cfg K) (doUpdate : Bool) : MC K D :=
  let m := { m with cfg := cfg }
  if doUpdate then { m with doneContours := cfg.contours, ranges := m.ranges.update cfg.limits } else m

/-- settings of the new object, before any data is read (mcsamples.py:76, 130-268) -/
def effective (w : World K D) (fs : FS K D) (root : Str) (cfg : Cfg K) : Cfg K :=
  let b := w.props (textOf fs (root ++ c!".properties.ini")) (cfg.ignoreRows, cfg.minWeightRatio)
  { cfg with ignoreRows := b.1, minWeightRatio := b.2 }

/-- the cached object, if its contents may be used (mcsamples.py:88-96) -/
def fromCache (w : World K D) (eff cfg : Cfg K) (f : File K D) : Option (MC K D) :=
  match f with
  | .text _ => none
  | .pickle m =>
    if m.version = w.version ∧ eff.ignoreRows = m.cfg.ignoreRows ∧ eff.minWeightRatio = m.cfg.minWeightRatio then
      some (updateSettings m cfg (decide (eff.contours ≠ m.cfg.contours)))
    else none

/-- reading the chains (mcsamples.py:99-101) -/
def readFresh (w : World K D) (fs : FS K D) (root : Str) (cfg : Cfg K) (files : List Str) : Except FErr (MC K D) :=
  if files.isEmpty then .error .ioError
  else
    let eff := effective w fs root cfg
    match w.read eff.ignoreRows eff.minWeightRatio (files.map (fun f => (textOf fs f).getD [])) with
    | none => .error .valueError
    | some d => .ok { version := w.version, cfg := eff, data := d
                      ranges := (w.ranges (textOf fs (root ++ c!".ranges"))).update cfg.limits
                      doneContours := eff.contours }

def FS.set (fs : FS K D) (p : Str) (v : Option (Nat × File K D)) : FS K D := fun q => if q = p then v else fs q

/-- reading the chains, then writing or removing the cache (mcsamples.py:99-106) -/
def readAndStore (w : World K D) (fs : FS K D) (root cachefile : Str) (cfg : Cfg K) (noCache : Bool) (now : Nat)
    (files : List Str) : Except FErr (MC K D × FS K D) := do
  let m ← readFresh w fs root cfg files
  if noCache then pure (m, FS.set fs cachefile none)
  else pure (m, FS.set fs cachefile (some (now, .pickle m)))

/-- `loadMCSamples` at time `now`: the object and the files afterwards -/
def loadMCSamples (w : World K D) (fs : FS K D) (d : Dirs) (root cachefile : Str) (cfg : Cfg K) (noCache : Bool) (now : Nat) :
    Except FErr (MC K D × FS K D) := do
  let files ← findFiles d root
  let all ← allFiles fs d root files
  let cached ← match noCache, fs cachefile with
    | false, some (t, f) => do
      let last ← lastModified fs all
      pure (if last < t then fromCache w (effective w fs root cfg) cfg f else none)
    | _, _ => pure none
  match cached with
  | some m => pure (m, fs)
  | none => readAndStore w fs root cachefile cfg noCache now files

end Verif.LoadCache
