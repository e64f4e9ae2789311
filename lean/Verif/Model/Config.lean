import Verif.Py.Path
import Verif.Py.Num
import Verif.Py.Replace

/-!
# Model of configuration and cached files (`python/getdist/__init__.py:29-57`, `python/getdist/command_line.py:300-309`,
`python/paramgrid/batchjob.py:15-59`, `python/cleanup.py:20-26`)

The environment, the platform, the file system and the hash are parameters.  Simplified: paths are POSIX paths also where the platform is `win32`;
`os.makedirs` makes the directory or fails; a stored grid can always be read; modules used by settings are not modelled.
-/

namespace Verif.Config
open Verif.Py

/-- the configuration file that is looked for (getdist/__init__.py:30-32) -/
def configFile (env : Str → Option Str) (pkg : Str) : Str :=
  match env c!"GETDIST_CONFIG" with
  | none => Path.join pkg c!"config.ini"
  | some f => if f = [] then Path.join pkg c!"config.ini" else f

/-- `get_config` (getdist/__init__.py:29-36); no value is the empty `IniFile()` -/
def getConfig {S : Type} (file : Str → Option S) (env : Str → Option Str) (pkg : Str) : Option S := file (configFile env pkg)

inductive Platform
  | darwin | win32 | other
deriving DecidableEq, Repr

/-- the directory of caches (getdist/__init__.py:40-46) -/
def cacheRoot (p : Platform) (env : Str → Option Str) (home tmp : Str) : Str :=
  match p with
  | .darwin => home ++ c!"/Library/Caches"
  | .win32 => tmp
  | .other => (env c!"XDG_CACHE_HOME").getD (home ++ c!"/.cache")

/-- `_get_cache_dir` (getdist/__init__.py:39-47) -/
def defaultCache (p : Platform) (env : Str → Option Str) (home tmp : Str) : Str := Path.join (cacheRoot p env home tmp) c!"getdist_cache"

inductive Node
  | dir | file
deriving DecidableEq, Repr

/-- the file system after `os.makedirs(path)`; `can`: the directory can be made if nothing is there -/
def makedirs (can : Bool) (fs : Str → Option Node) (path : Str) : Str → Option Node :=
  fun q => if q = path ∧ fs path = none ∧ can = true then some .dir else fs q

/-- `make_cache_dir` (getdist/__init__.py:50-56) -/
def makeCacheDir (can : Bool) (fs : Str → Option Node) (cache : Str) : (Str → Option Node) × Option Str :=
  let fs' := if cache ≠ [] then makedirs can fs cache else fs
  (fs', if cache ≠ [] ∧ (fs' cache).isSome then some cache else none)

/-- `grid_cache_file` (batchjob.py:15-22); `dir` is absolute -/
def gridCacheFile (hash : Str → Str) (cache dir : Str) : Str :=
  if cache ≠ [] then Path.join cache (c!"_batch_" ++ (hash dir).take 10) ++ c!".pyobj" else Path.join dir c!"batch.pyobj"

/-- `saveobject` of a grid at its cache file (batchjob.py:59-61) -/
def save {G : Type} (hash : Str → Str) (cache : Str) (store : Str → Option G) (dir : Str) (g : G) : Str → Option G :=
  fun f => if f = gridCacheFile hash cache dir then some g else store f

/-- `resetGrid` (batchjob.py:25-28) -/
def reset {G : Type} (hash : Str → Str) (cache : Str) (store : Str → Option G) (dir : Str) : Str → Option G :=
  fun f => if f = gridCacheFile hash cache dir then none else store f

/-- `readobject` as long as the stored grid is of use (batchjob.py:37-54); else no value; `base` is the directory of a grid -/
def cached {G : Type} (hash : Str → Str) (cache : Str) (store : Str → Option G) (exist : Str → Bool) (base : G → Str) (dir : Str) : Option G :=
  match store (gridCacheFile hash cache dir) with
  | none => none
  | some g => if exist (base g) then some g else none

/-- the mark in the template -/
def mark : Str := c!"%%%ANALYSIS_DEFAULTS%%%"

/-- what `make_param_file` writes (command_line.py:300-307) -/
def paramFile (template analysis : Str) : Str := replaceStr mark analysis template

/-- `fsizestr` (cleanup.py:20-26); no value is `None` -/
def fsizestr (bytes : Nat) : Option Str :=
  let sz := bytes / 1024
  if sz < 1024 then some (strNat sz ++ c!"KB")
  else if sz < 1024 * 1024 then some (strNat (sz / 1024) ++ c!"MB")
  else if sz < 1024 * 1024 * 1024 then some (strNat (sz / 1024 / 1024) ++ c!"GB")
  else none

inductive Err
  | type   -- TypeError
deriving DecidableEq, Repr

/-- the loop over the matching files of cleanup.py:37-46, with sizes: lines that are printed and files that are removed, and whether it came to its end -/
def cleanLoop (confirm : Bool) : List (Str × Nat) → List Str × List Str × Option Err
  | [] => ([], [], none)
  | (f, n) :: l => match fsizestr n with
    | none => ([], [], some .type)
    | some s =>
      let r := cleanLoop confirm l
      ((f ++ c!"  (" ++ s ++ c!")") :: r.1, (if confirm then f :: r.2.1 else r.2.1), r.2.2)

end Verif.Config
