import Verif.Model.JobStatus
import Verif.Model.BestFit

/-!
# Model of the results of a run held by its `jobItem` (`python/paramgrid/batchjob.py:233, 367-380, 415-429, 431-444`)

`loadJobItemResults` reads up to four files and keeps what was read; `R` keeps the convergence file it has read.  The readers of the files are
those of `BestFit`, `MargeStats` and `JobStatus`.  Simplified: `paramNameFile` (labels from another file) is `None`; numbers are exact; what is
printed is left out.  An exception leaves what was set before it, so a result is the new state with the error, if there was one.
-/

namespace Verif.JobResults
open Verif.Py
open Verif.GridFiles (FS FileD)
open Verif.JobStatus (Job nonEmpty getDistExists loadLines Conv)

inductive Err
  | os                               -- FileNotFoundError
  | conv (e : JobStatus.SErr)        -- in the file of convergence
  | marge (e : MargeStats.MErr)      -- in the limits
  | best (e : BestFit.BErr)          -- in the best fit or the likelihood statistics
deriving DecidableEq, Repr

/-- the lines of a file (paramnames.py:333-336) -/
def linesOf (fs : FS) (p : Str) : Except Err (List Str) := match fs.get? p with
  | some f => .ok (fileIter (ParamNames.dropBOM f.text))
  | none => .error .os

/-- `MargeStats` with what `addBestFit` adds (types.py:733-742) -/
structure Marge where
  limits : List ℚ
  names : List (MargeStats.Par ℚ)
  hasBestFit : Bool := false
  logLike : Option ℚ := none
  bestFits : List ℚ := []
deriving DecidableEq, Repr

/-- what a `jobItem` holds -/
structure Item where
  conv : Option Conv := none
  marge : Option Marge := none
  like : Option BestFit.LikeStats := none
  best : Option (BestFit.Best ℚ) := none
deriving DecidableEq, Repr

/-- batchjob.py:367-369 -/
def minimumExists (fs : FS) (j : Job) : Bool := nonEmpty fs (j.chainRoot ++ c!".minimum")

/-- `types.BestFit(file)` -/
def readBest (fs : FS) (p : Str) : Except Err (BestFit.Best ℚ) := do
  let ls ← linesOf fs p
  match BestFit.load false ls with
  | .ok b => pure b
  | .error e => .error (.best e)

/-- batchjob.py:371-375 -/
def chainBestfit (fs : FS) (j : Job) : Except Err (Option (BestFit.Best ℚ)) :=
  if nonEmpty fs (j.chainRoot ++ c!".minimum") then (readBest fs (j.chainRoot ++ c!".minimum")).map some else .ok none

/-- batchjob.py:377-380 -/
def minimumConverged (fs : FS) (j : Job) : Except Err Bool := do
  match ← chainBestfit fs j with
  | none => pure false
  | some b => pure (decide (b.logLike < 10 ^ 29))

/-- `types.ConvergeStats(file)` -/
def readConv (fs : FS) (p : Str) : Except Err Conv := do
  let ls ← linesOf fs p
  match loadLines ls {} with
  | .ok c => pure c
  | .error e => .error (.conv e)

/-- `types.MargeStats(file)` -/
def readMarge (fs : FS) (p : Str) : Except Err Marge := match fs.get? p with
  | none => .error .os
  | some f => match MargeStats.load f.text with
    | .ok m => .ok { limits := m.limits, names := m.names }
    | .error e => .error (.marge e)

/-- `types.LikeStats(file)` -/
def readLike (fs : FS) (p : Str) : Except Err BestFit.LikeStats := do
  let ls ← linesOf fs p
  match BestFit.loadStats ls with
  | .ok l => pure l
  | .error e => .error (.best e)

/-- `addBestFit` (types.py:733-742) -/
def withBest (m : Marge) (b : BestFit.Best ℚ) : Marge :=
  let l := BestFit.addBestFit (⟨m.limits, m.names⟩ : MargeStats.Marge ℚ) b
  { m with hasBestFit := true, logLike := some b.logLike, names := l.map (·.par), bestFits := l.map (·.bestFit) }

structure Opts where
  bestfit : Bool := true
  bestfitonly : Bool := false
  noconverge : Bool := false
deriving DecidableEq, Repr

/-- batchjob.py:440-442, after the convergence -/
def loadDist (fs : FS) (j : Job) (o : Opts) (it : Item) : Item × Option Err :=
  match readMarge fs (j.distRoot ++ c!".margestats") with
  | .error e => (it, some e)
  | .ok m => match readLike fs (j.distRoot ++ c!".likestats") with
    | .error e => ({ it with marge := some m }, some e)
    | .ok l => ({ it with marge := some (match it.best with | some b => if o.bestfit then withBest m b else m | none => m), like := some l }, none)

/-- `loadJobItemResults` (batchjob.py:431-444) -/
def loadResults (fs : FS) (j : Job) (o : Opts) (it : Item) : Item × Option Err :=
  let it := { it with conv := none, marge := none, like := none }
  match chainBestfit fs j with
  | .error e => (it, some e)
  | .ok b =>
    let it := { it with best := b }
    if o.bestfitonly then (it, none)
    else if getDistExists fs j then
      if o.noconverge then loadDist fs j o it
      else match readConv fs (j.distRoot ++ c!".converge") with
        | .error e => (it, some e)
        | .ok c => loadDist fs j o { it with conv := some c }
    else (it, none)

/-- `float(worstR())` (types.py:908-909) -/
def worstR (c : Conv) : Except Err ℚ := match c.eigs.getLast? with
  | none => .error (.conv .index)
  | some s => match (floatStr s : Option ℚ) with
    | some r => .ok r
    | none => .error (.conv .value)

/-- `R` (batchjob.py:415-420) -/
def askR (fs : FS) (j : Job) (it : Item) : Item × Except Err (Option ℚ) :=
  match it.conv with
  | some c => (it, (worstR c).map some)
  | none =>
    if nonEmpty fs (j.distRoot ++ c!".converge") then
      match readConv fs (j.distRoot ++ c!".converge") with
      | .error e => (it, .error e)
      | .ok c => ({ it with conv := some c }, (worstR c).map some)
    else (it, .ok none)

/-- `hasConvergeBetterThan` (batchjob.py:422-429) -/
def better (fs : FS) (j : Job) (it : Item) (r : ℚ) (notExist : Bool) : Item × Bool :=
  match askR fs j it with
  | (it', .ok (some x)) => (it', decide (x ≤ r))
  | (it', _) => (it', notExist)

/-- what is done with a `jobItem`, with the files at that time -/
inductive Op
  | load (fs : FS) (o : Opts)
  | ask (fs : FS)
  | compare (fs : FS) (r : ℚ) (notExist : Bool)

def step (j : Job) (it : Item) : Op → Item
  | .load fs o => (loadResults fs j o it).1
  | .ask fs => (askR fs j it).1
  | .compare fs r n => (better fs j it r n).1

/-- a new `jobItem` (batchjob.py:233) after some operations -/
def run (j : Job) (ops : List Op) : Item := ops.foldl (step j) {}

end Verif.JobResults
