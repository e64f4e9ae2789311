import Verif.Model.Batch
import Verif.Py.Path
import Verif.Py.Replace
import Mathlib.Algebra.Field.Rat

/-!
# Model of `python/listGrid.py` and `python/runMPI.py`

The choice of runs is that of `Model/Batch`.  Simplified: the lines that are printed are pairs of a name and the group behind it; submitting the job
is that of `Model/SubmitJob`.
-/

namespace Verif.ListGrid
open Verif.Py Verif.Batch

/-- the options of `listGrid.py` (listGrid.py:6-8, batchjob_args.py:48-63) -/
structure Opts where
  exist : Bool := false
  normed : Bool := false
  notexist : Bool := false
  converge : ℚ := 0

/-- `sortedParamtagDict` (batchjob_args.py:143-149) -/
def sortedTags (chainExists : Info → Bool) (skip : List Str) (l : List Job) (a : Args) (chainExist : Bool) : List (Str × List Job) :=
  (sorted (Dict.keys (paramtagDict chainExists skip l a chainExist))).map
    (fun t => (t, (Dict.get? (paramtagDict chainExists skip l a chainExist) t).getD []))

/-- the line of a run (listGrid.py:15-22); runs always have a group, which may be `None` (batchjob.py:234) -/
def line (o : Opts) (i : Info) : Str × Str :=
  (if o.normed then i.normedName else i.name, match i.group with | some g => c!"(" ++ g ++ c!")" | none => c!"(None)")

/-- what `listGrid.py` prints (listGrid.py:11-22) -/
def listGrid (chainExists : Info → Bool) (skip : List Str) (l : List Job) (a : Args) (o : Opts) : List (Str × Str) :=
  (sortedTags chainExists skip l a o.exist).flatMap (fun e => e.2.map (fun j => line o j.info))

/-- `ini.replace('.ini', '')` (runMPI.py:15) -/
def iniRoot (f : Str) : Str := replaceStr c!".ini" [] f

/-- name of the job and its files (runMPI.py:15-17) -/
def mpiJob : List Str → Option (Str × List Str)
  | [] => none
  | f :: l => some (Path.basename (iniRoot f), (f :: l).map iniRoot)

end Verif.ListGrid
