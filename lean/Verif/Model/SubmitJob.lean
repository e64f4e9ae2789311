import Verif.Model.JobQueue

/-!
# Model of writing and submitting a job script (`jobqueue.submitJob`, `python/paramgrid/jobqueue.py:253-321`)

The files written, the command given to the queue and the index of jobs.  `qsub` is a function from the command line and the script to the
bytes it prints, or none if it fails.  The settings of the job (`jobSettings`, modelled in `JobQueue`) are an argument.  Times are left out.
-/

namespace Verif.SubmitJob
open Verif.Py Verif.JobQueue

inductive SErr
  | queue (e : QErr)
  | called          -- `CalledProcessError`
  | attribute
  deriving DecidableEq, Repr

def intStr (n : Int) : Str := if n < 0 then '-' :: strNat n.natAbs else strNat n.natAbs

/-- the settings used (jobqueue.py:79-126) -/
structure Settings where
  template : Str
  res : Res
  mem : Int := 63900
  walltime : Str := c!"24:00:00"
  program : Str := c!"./cosmomc"
  queue : Str := []
  jobclass : Str := []
  qsub : Str := c!"qsub"
  run : Option Str := none          -- `runCommand`

/-- the arguments of a call -/
structure Args where
  name : Str
  files : Option (List Str)
  sequential : Bool := false
  dryrun : Bool := false
  noSub : Bool := false
  batchPath : Option Str := none

structure World where
  files : Dict Str Str := []
  sent : List (Str × Str) := []      -- command lines given to the queue, with the script
  index : Str → Disk := fun _ => {}  -- the index in each directory

/-- `vals` (jobqueue.py:266-284) -/
def baseVals (s : Settings) (r : Res) (name cwd : Str) (one : Bool) : Dict Str Str :=
  [(c!"JOBNAME", name), (c!"OMP", intStr r.omp), (c!"MEM_MB", intStr s.mem), (c!"WALLTIME", s.walltime), (c!"NUMNODES", intStr r.nodes),
   (c!"NUMRUNS", intStr r.runs), (c!"NUMMPI", intStr r.nchains), (c!"CHAINSPERNODE", intStr r.chains), (c!"PPN", intStr r.ppn),
   (c!"MPIPERNODE", intStr r.mpiPerNode), (c!"NUMTASKS", intStr r.numTasks), (c!"NUMSLOTS", intStr r.numSlots), (c!"ROOTDIR", cwd),
   (c!"ONERUN", if one then c!"1" else c!"0"), (c!"PROGRAM", s.program), (c!"QUEUE", s.queue), (c!"JOBCLASS", s.jobclass)]

/-- the command of a run without a command in the template (jobqueue.py:296-297) -/
def plainCommand (s : Settings) (nchains : Int) (sequential : Bool) (param : Str) : Str :=
  c!"time mpirun -np " ++ intStr nchains ++ ' ' :: s.program ++ ' ' :: (param ++ c!".ini") ++ c!" > ./scripts/" ++ Path.basename (param ++ c!".ini") ++
    c!".log 2>&1 " ++ (if sequential then [] else ['&'])

/-- values for one run (jobqueue.py:292-293) -/
def runVals (vals : Dict Str Str) (param : Str) : Dict Str Str :=
  (vals.set c!"INI" (param ++ c!".ini")).set c!"INIBASE" (Path.basename param)

/-- the loop over the runs (jobqueue.py:289-298): the values are kept from one run to the next -/
def commands (s : Settings) (nchains : Int) (sequential : Bool) : Dict Str Str → List Str → Dict Str Str × List Str
  | vals, [] => (vals, [])
  | vals, p :: ps => match s.run with
    | some rc =>
      let v := runVals vals p
      let r := commands s nchains sequential v ps
      (r.1, (replacePlaceholders rc v ++ (if sequential then [] else c!" &")) :: r.2)
    | none =>
      let r := commands s nchains sequential vals ps
      (r.1, plainCommand s nchains sequential p :: r.2)

/-- `re.search('Your job (\d*) ', res).group(1)` (jobqueue.py:315-316) -/
def yourJob : Str → Option Str
  | [] => none
  | c :: cs =>
    if startsWith c!"Your job " (c :: cs) && (((c :: cs).drop 9).dropWhile Char.isDigit).head? == some ' ' then some (((c :: cs).drop 9).takeWhile Char.isDigit)
    else yourJob cs

/-- the id of the job from the output (jobqueue.py:314-317) -/
def jobId (res : Str) : Option Str := if contains c!"Your job " res then yourJob res else some res

def scriptRoot (name : Str) : Str := c!"./scripts/" ++ name

/-- what is written for a job (jobqueue.py:266-308): all values, and the files -/
def build (s : Settings) (r : Res) (a : Args) (cwd : Str) (params : List Str) : Dict Str Str × Str :=
  let c := commands s r.nchains a.sequential (baseVals s r a.name cwd (params.length = 1 || a.sequential)) params
  let vals := c.1.set c!"COMMAND" (join ['\n'] c.2)
  (vals, replacePlaceholders s.template vals)

def writeScript (w : World) (a : Args) (params : List Str) (script : Str) : World :=
  let f := w.files.set (scriptRoot a.name ++ c!"_subscript") script
  { w with files := if params.length > 1 then f.set (scriptRoot a.name ++ c!".batch") (join ['\n'] params) else f }

/-- after the queue has answered (jobqueue.py:310-321) -/
def answered (w : World) (a : Args) (params : List Str) (out : Str) : World × Except SErr Unit :=
  let res := strip (bytesStr out)
  if res = [] then (w, .ok ())
  else match jobId res with
    | none => (w, .error .attribute)
    | some id =>
      let w := { w with files := w.files.set (scriptRoot a.name ++ c!".sub") id }
      let dir := a.batchPath.getD c!"./scripts/"
      match addJobIndex (w.index dir) ⟨id, a.name, params.map Path.basename⟩ with
      | .error e => (w, .error (.queue e))
      | .ok d => ({ w with index := fun p => if p = dir then d else w.index p }, .ok ())

/-- `submitJob` (jobqueue.py:253-321) -/
def submit (qsub : Str → Str → Option Str) (s : Settings) (cwd : Str) (w : World) (a : Args) : World × Except SErr Unit :=
  match (if a.dryrun then none else a.files) with
  | none => (w, .ok ())
  | some files =>
    let params := files.map stripIni
    match adjust s.res params.length a.sequential with
    | .error e => (w, .error (.queue e))
    | .ok r =>
      let b := build s r a cwd params
      let w := writeScript w a params b.2
      if a.noSub then (w, .ok ())
      else
        let cmd := replacePlaceholders s.qsub b.1 ++ ' ' :: (scriptRoot a.name ++ c!"_subscript")
        let w := { w with sent := w.sent ++ [(cmd, b.2)] }
        match qsub cmd b.2 with
        | none => (w, .error .called)
        | some out => answered w a params out

end Verif.SubmitJob
