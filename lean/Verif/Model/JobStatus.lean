import Verif.Model.GridFiles
import Verif.Model.NumFmt
import Verif.Model.MargeStats

/-!
# State of the runs of a grid, convergence files, choice of runs to submit

batchjob.py (status functions of `jobItem`), types.py `ConvergeStats`, the parts of `getConvergeTests` (mcsamples.py) that are read back,
runbatch.py and checkConverge.py.  Times are in seconds.  `result_converge` is taken as not yet loaded (it is read once per script).
-/

namespace Verif.JobStatus
open Verif.Py
open Verif.GridFiles (FS FileD)

inductive SErr
  | value   -- ValueError
  | os      -- OSError: no such file
  | index   -- IndexError
deriving DecidableEq, Repr

/-- what is used of a `jobItem`; an importance run has a parent -/
inductive Job
  | mk (name chainRoot distRoot : Str) (parent : Option Job)

def Job.name : Job → Str | .mk n _ _ _ => n
def Job.chainRoot : Job → Str | .mk _ c _ _ => c
def Job.distRoot : Job → Str | .mk _ _ d _ => d
def Job.parent : Job → Option Job | .mk _ _ _ p => p
def Job.isImp (j : Job) : Bool := j.parent.isSome

/-- batchjob.py:68-69 `nonEmptyFile` -/
def nonEmpty (fs : FS) (p : Str) : Bool := match fs.get? p with | some f => !f.text.isEmpty | none => false

/-- `os.path.getmtime` -/
def getmtime (fs : FS) (p : Str) : Except SErr Int := match fs.get? p with | some f => .ok f.mtime | none => .error .os

/-- batchjob.py:330-331 -/
def chainName (root : Str) (i : Nat) : Str := root ++ c!"_" ++ strNat i ++ c!".txt"

/-- batchjob.py:333-335 -/
def chainExists (fs : FS) (root : Str) (i : Nat := 1) : Bool := nonEmpty fs (chainName root i)

/-- batchjob.py:337-346; the numbers of the chains -/
def chainNames (fs : FS) (root : Str) (num : Option Nat) : List Str :=
  match num with
  | some (n + 1) => (List.range (n + 1)).map (chainName root)
  | _ => (GridFiles.chainLoop (fun i => chainExists fs root i) (fs.length + 1) 1).map (chainName root)

/-- batchjob.py:348-349 -/
def allChainExists (fs : FS) (root : Str) (n : Nat) : Bool := (List.range n).all (fun i => chainExists fs root (i + 1))

/-- batchjob.py:354-360; `max(dates)` of nothing is a ValueError -/
def chainsDodgy (fs : FS) (root : Str) (interval : Int := 600) : Except SErr Bool :=
  let nums := GridFiles.chainLoop (fun i => fs.has (chainName root i)) (fs.length + 1) 1
  let dates := nums.filterMap (fun i => (fs.get? (chainName root i)).map (·.mtime))
  if fs.has (chainName root (nums.length + 2)) then .ok true
  else match dates.max?, dates.min? with
    | some hi, some lo => .ok (decide (hi - lo > interval))
    | _, _ => .error .value

/-- batchjob.py:362-365 -/
def notRunning (fs : FS) (root : Str) (now : Int) : Bool :=
  chainExists fs root && (match fs.get? (chainName root 1) with | some f => decide (f.mtime < now - 5 * 60) | none => false)

/-- batchjob.py:382-388 `convergeStat`: value and whether done -/
def convergeStat (fs : FS) (root : Str) : Except SErr (Option (ℚ × Bool)) :=
  match fs.get? (root ++ c!".converge_stat") with
  | none => .ok none
  | some f =>
    if f.text.isEmpty then .ok none
    else match fileIter f.text with
      | [] => .error .index
      | l :: ls => match (floatStr (strip l) : Option ℚ) with
        | none => .error .value
        | some r => .ok (some (r, match ls with | d :: _ => decide (strip d = c!"Done") | [] => false))

/-- batchjob.py:412-413 -/
def parentChanged (fs : FS) (root parentRoot : Str) : Except SErr Bool :=
  if !chainExists fs root then .ok true
  else do
    let a ← getmtime fs (chainName root 1)
    let b ← getmtime fs (chainName parentRoot 1)
    pure (decide (a < b))

/-- batchjob.py:390-397 -/
def chainFinished (fs : FS) (now : Int) (j : Job) : Except SErr Bool :=
  match j.parent with
  | some p => do
    match ← convergeStat fs p.chainRoot with
    | none => pure false
    | some (_, done) => do
      if (← parentChanged fs j.chainRoot p.chainRoot) then pure false
      else if !notRunning fs j.chainRoot now then pure false
      else pure done
  | none => do
    match ← convergeStat fs j.chainRoot with
    | none => pure false
    | some (_, done) => pure done

/-- batchjob.py:399-403 -/
def wantCheckpointContinue (fs : FS) (root : Str) (minR : ℚ) : Except SErr Bool := do
  match ← convergeStat fs root with
  | none => pure false
  | some (r, done) => pure (fs.has (root ++ c!"_1.chk") && !done && decide (minR < r))

/-- batchjob.py:405-410 -/
def getDistExists (fs : FS) (j : Job) : Bool := fs.has (j.distRoot ++ c!".margestats")
def getDistNeedsUpdate (fs : FS) (j : Job) : Bool :=
  chainExists fs j.chainRoot && (!getDistExists fs j ||
    (match fs.get? (chainName j.chainRoot 1), fs.get? (j.distRoot ++ c!".margestats") with
     | some c, some m => decide (c.mtime > m.mtime)
     | _, _ => false))

/-! ## The convergence file -/

def grHeader : Str := c!"var(mean)/mean(var) for eigenvalues of covariance of y of orthonormalized parameters"

/-- mcsamples.py:911-913 one line of the eigenvalue table (without its line end) -/
def eigLine (i : Nat) (d : ℚ) : Str := rjust 3 (strNat i) ++ rjust 13 (NumFmt.fmtF 5 d)

/-- mcsamples.py:906-922 the lines of the Gelman-Rubin part; `none` if the covariance is not invertible -/
def grLines (d : Option (List ℚ)) : List Str :=
  (match d with
   | some ds => grHeader :: ds.mapIdx (fun i x => eigLine (i + 1) x)
   | none => []) ++ [[]]

def autoHeader : Str := c!"Parameter auto-correlations as function of step separation"

/-- mcsamples.py:1092-1133: steps, and a name, label and values for each parameter; no table without steps.  `w` is the width of the names -/
def autoLines (w : Nat) (steps : List Nat) (rows : List (Str × Str × List ℚ)) : List Str :=
  [autoHeader, []] ++
  (if steps = [] then []
   else (List.replicate w ' ' ++ (steps.map (fun s => rjust 8 (strNat s))).flatten) ::
     rows.map (fun r => ljust w r.1 ++ (r.2.2.map (fun x => rjust 8 (NumFmt.fmtF 3 x))).flatten ++ ' ' :: r.2.1))

/-- the text of the file: other tests, the Gelman-Rubin part, other tests, the auto-correlations if asked for -/
def fileText (before : List Str) (d : Option (List ℚ)) (mid : List Str) (auto : List Str) : Str :=
  (before ++ grLines d ++ mid ++ auto).flatMap (fun l => l ++ ['\n'])

/-- types.py:888-891 -/
def eigOf (line : Str) : Str := match splitWs line with | _ :: v :: _ => v | _ => c!"1e30"

def nonBlank (line : Str) : Bool := !(strip line).isEmpty

def ints : List Str → Except SErr (List Nat)
  | [] => .ok []
  | s :: ss => match intStr s with
    | some n => (ints ss).map (n :: ·)
    | none => .error .value

def floats : List Str → Except SErr (List ℚ)
  | [] => .ok []
  | s :: ss => match (floatStr s : Option ℚ) with
    | some x => (floats ss).map (x :: ·)
    | none => .error .value

/-- types.py:898-902 one line of the auto-correlation table -/
def autoRow (n : Nat) (line : Str) : Except SErr (Str × List ℚ) :=
  match splitWsN (n + 1) line with
  | [] => .error .index
  | p :: items => do pure (p, ← floats items.dropLast)

structure Conv where
  eigs : List Str := []
  auto : Option (List Nat × List (Str × List ℚ)) := none
deriving DecidableEq, Repr

/-- types.py:893-902 -/
def autoBlock (rest : List Str) : Except SErr (List Nat × List (Str × List ℚ)) :=
  match rest with
  | _ :: st :: rows => do
    let steps ← ints (splitWs st)
    let rs ← (rows.takeWhile nonBlank).mapM (autoRow steps.length)
    pure (steps, rs)
  | _ => .error .index

/-- types.py:880-906 `ConvergeStats.loadFromFile` on the lines -/
def loadLines : List Str → Conv → Except SErr Conv
  | [], c => .ok c
  | l :: ls, c =>
    if contains c!"var(mean)" l then loadLines ls { c with eigs := c.eigs ++ (ls.takeWhile nonBlank).map eigOf }
    else if contains c!"Parameter auto-correlations" l then do
      let a ← autoBlock ls
      loadLines ls { c with auto := some a }
    else loadLines ls c

/-- batchjob.py:415-420 `R` with types.py:908-909 `worstR` -/
def rValue (fs : FS) (j : Job) : Except SErr (Option ℚ) :=
  match fs.get? (j.distRoot ++ c!".converge") with
  | none => .ok none
  | some f =>
    if f.text.isEmpty then .ok none
    else do
      let c ← loadLines (fileIter f.text) {}
      match c.eigs.getLast? with
      | none => .error .index
      | some s => match (floatStr s : Option ℚ) with
        | some r => pure (some r)
        | none => .error .value

/-- batchjob.py:422-429 -/
def betterThan (fs : FS) (j : Job) (r : ℚ) (returnNotExist : Bool) : Bool :=
  match rValue fs j with
  | .error _ => returnNotExist
  | .ok none => returnNotExist
  | .ok (some x) => decide (x ≤ r)

/-! ## runbatch.py: the runs submitted -/

structure Args where
  notexist : Bool := false
  minimizeFailed : Bool := false
  notall : Option Nat := none
  isMinimize : Bool := false
  parentConverge : ℚ := 0
  converge : ℚ := 0
  checkpointRun : Option ℚ := none
  importanceReady : Bool := false
  importanceChanged : Bool := false
  parentStopped : Bool := false
  chainExists : Bool := false
  filters : Bool := false
deriving DecidableEq

/-- what the script asks of one run -/
structure Facts where
  minimumExists : Bool
  minimumConverged : Bool
  wantMinimize : Bool

/-- runbatch.py:96-100 -/
def wantedFiles (a : Args) (fs : FS) (f : Facts) (j : Job) : Bool :=
  ((!a.notexist || (a.isMinimize && !f.minimumExists) || (!a.isMinimize && !chainExists fs j.chainRoot)) &&
    (!a.minimizeFailed || !f.minimumConverged) &&
    (a.isMinimize || (match a.notall with | none => true | some n => !allChainExists fs j.chainRoot n))) &&
  (!a.isMinimize || f.wantMinimize)

/-- runbatch.py:101-102 -/
def wantedParent (a : Args) (fs : FS) (j : Job) : Bool :=
  match j.parent with
  | some p => decide (a.parentConverge = 0) || betterThan fs p a.parentConverge false
  | none => true

/-- runbatch.py:103 -/
def wantedConverge (a : Args) (fs : FS) (j : Job) : Bool := decide (a.converge = 0) || !betterThan fs j a.converge true

/-- runbatch.py:104-105 -/
def wantedCheckpoint (a : Args) (fs : FS) (now : Int) (j : Job) : Except SErr Bool :=
  match a.checkpointRun with
  | none => .ok true
  | some r => do pure ((← wantCheckpointContinue fs j.chainRoot r) && notRunning fs j.chainRoot now)

/-- runbatch.py:106-110 -/
def wantedImportance (a : Args) (fs : FS) (now : Int) (j : Job) : Except SErr Bool :=
  match j.parent with
  | none => .ok true
  | some p =>
    if a.isMinimize then .ok true
    else do
      let ready ← if a.importanceReady then chainFinished fs now p else pure (a.filters || chainExists fs p.chainRoot)
      if !ready then pure false
      else do
        let changed ← if a.importanceChanged then parentChanged fs j.chainRoot p.chainRoot else pure true
        if !changed then pure false
        else pure (!a.parentStopped || notRunning fs p.chainRoot now)

/-- runbatch.py:96-111: whether the run is submitted (or filtered) -/
def wanted (a : Args) (fs : FS) (now : Int) (f : Facts) (j : Job) : Except SErr Bool :=
  if !wantedFiles a fs f j then .ok false
  else if !wantedParent a fs j then .ok false
  else if !wantedConverge a fs j then .ok false
  else do
    if !(← wantedCheckpoint a fs now j) then pure false
    else if !(← wantedImportance a fs now j) then pure false
    else pure (!a.chainExists || chainExists fs j.chainRoot)

/-- checkConverge.py:34-40 without `--checkpoint`: run names reported as missing and as not converged -/
def checkConverge (fs : FS) (conv : ℚ) (jobs : List Job) : List Str × List Str :=
  ((jobs.filter (fun j => !chainExists fs j.chainRoot)).map Job.name,
   (jobs.filter (fun j => chainExists fs j.chainRoot && (decide (conv = 0) || !betterThan fs j conv true))).map Job.name)

end Verif.JobStatus
