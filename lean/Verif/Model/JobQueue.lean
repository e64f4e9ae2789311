import Verif.Py.Replace
import Verif.Py.Num
import Verif.Py.Dict
import Verif.Py.Path

/-!
# Model of the job queue (`python/paramgrid/jobqueue.py`, `python/runbatch.py`, `python/deleteJobs.py`)

Not modelled: finding the queue programs, writing the submission scripts to disk, running `qsub` (its output is an input),
submission times, printing.  The settings kept with a job are reduced to its id, its name and its run names.
-/

namespace Verif.JobQueue
open Verif.Py

inductive QErr
  | keyError
  | valueError
  | indexError
  | typeError
  | zeroDivision
  | exception      -- `raise Exception(..)`
  | corrupt        -- the index file cannot be unpickled
  deriving DecidableEq, Repr

/-! ## The index of jobs -/

/-- a submitted job (`jobId`, `jobName`, `names` of `jobSettings`) -/
structure Job where
  id : Str
  name : Str
  names : List Str
  deriving DecidableEq, Repr

/-- `jobIndex` (jobqueue.py:131-141) -/
structure Index where
  jobs : Dict Str Job := []          -- `jobSettings`
  jobNames : Dict Str Str := []
  rootNames : Dict Str Str := []
  seq : List Str := []               -- `jobSequence`
  deriving DecidableEq, Repr

/-- `addJob` (jobqueue.py:143-148) -/
def addJob (x : Index) (j : Job) : Index :=
  { jobs := x.jobs.set j.id j
    jobNames := x.jobNames.set j.name j.id
    rootNames := j.names.foldl (fun d n => d.set n j.id) x.rootNames
    seq := x.seq ++ [j.id] }

/-- `del d[k]` -/
def del {ν : Type} (d : Dict Str ν) (k : Str) : Except QErr (Dict Str ν) :=
  if d.has k then .ok (d.erase k) else .error .keyError

/-- `delId` (jobqueue.py:150-158) with an id that is a string.  After an error the index in memory is partly updated; all callers
let the error end the program, so that state is never used. -/
def delId (x : Index) (id : Str) : Except QErr Index :=
  match x.jobs.get? id with
  | none => .ok x
  | some j => do
    let rootNames ← j.names.foldlM del x.rootNames
    let jobs ← del x.jobs id
    let jobNames ← del x.jobNames j.name
    pure { jobs := jobs, jobNames := jobNames, rootNames := rootNames, seq := x.seq.filter (fun s => s ≠ id) }

/-- what a python caller can pass as an id -/
inductive PyId
  | str (s : Str)
  | int (n : Int)
  | none
  deriving DecidableEq, Repr

def ofGet : Option Str → PyId
  | some s => .str s
  | none => .none

/-- `delId` for any id: `None` and numbers are never keys of the index (jobqueue.py:151-153) -/
def delPy (x : Index) : PyId → Except QErr Index
  | .str s => delId x s
  | _ => .ok x

/-- `deleteJobNames` (jobqueue.py:188-197) on the loaded index -/
def deleteJobNames (x : Index) (names : List Str) : Except QErr Index :=
  names.foldlM (fun x n => delPy x (ofGet (x.jobNames.get? n))) x

/-! ## The queue listing -/

/-- does a regular expression without special characters occur, ignoring case -/
def searchNoCase (pat line : Str) : Bool := contains (pat.map Char.toLower) (line.map Char.toLower)

/-- the part of an id with dots that holds the number (jobqueue.py:221-225, 351-355): the first part if it is the only one or
consists of digits, else the second -/
def idPart (s : Str) : Str :=
  let parts := splitChar '.' s
  if parts.length = 1 ∨ (intStr (parts.headD [])).isSome = true then parts.headD [] else parts.tail.headD []

/-- the id under which the job of a line is filed, `none` if it is not in the index (jobqueue.py:347-360) -/
def lineId (x : Index) (first : Str) : Option Str :=
  if x.jobs.has first then some first
  else if ((splitChar '.' first).headD []).map Char.toUpper = c!"TOTAL" then none
  else if x.jobs.has (idPart first) then some (idPart first) else none

/-- is a line of the listing wanted (jobqueue.py:344-345) -/
def wantLine (user runningTxt : Str) (running queued : Bool) (line : Str) : Bool :=
  contains (' ' :: user ++ [' ']) line &&
    (queued && !searchNoCase runningTxt line || running && searchNoCase runningTxt line)

/-- one line of the listing (jobqueue.py:346-364) -/
def collect (x : Index) (ids : List Str) (line : Str) : Except QErr (List Str) :=
  match splitWs line with
  | [] => .error .indexError
  | first :: _ => .ok (ids ++ (lineId x first).toList)

/-- the ids of `queue_job_details` (jobqueue.py:324-366); `res` is the text of the listing as a python string -/
def queueIds (x : Index) (user runningTxt : Str) (running queued : Bool) (res : Str) : Except QErr (List Str) :=
  (((splitChar '\n' (strip res)).drop 2).filter (wantLine user runningTxt running queued)).foldlM
    (collect x) []

/-- `queue_job_names` (jobqueue.py:369-374) -/
def queueNames (x : Index) (user runningTxt : Str) (running queued : Bool) (res : Str) : Except QErr (List Str) := do
  let ids ← queueIds x user runningTxt running queued res
  pure (ids.flatMap (fun id => ((x.jobs.get? id).map Job.names).getD []))

/-- one character in the representation of bytes; `q` is the quote used -/
def escByte (q : Char) (c : Char) : Str :=
  if c = '\\' ∨ c = q then ['\\', c]
  else if c = '\n' then ['\\', 'n']
  else if c = '\t' then ['\\', 't']
  else if c = '\r' then ['\\', 'r']
  else [c]

/-- `str(b)` for ASCII bytes under python 3: the representation of the bytes object (other control characters are written
as `\\x..`, not modelled) -/
def bytesStr (b : Str) : Str :=
  let q := if '\'' ∈ b ∧ '"' ∉ b then '"' else '\''
  'b' :: q :: (b.flatMap (escByte q) ++ [q])

/-! ## Cancelling jobs -/

/-- the number used for a range of ids (jobqueue.py:221-225) -/
def idNumber (id : Str) : Except QErr Nat :=
  match intStr (idPart id) with
  | some n => .ok n
  | none => .error .valueError

/-- `if not jobId in jobIds: jobIds.append(jobId)` -/
def addNew (l : List PyId) (i : PyId) : List PyId := if i ∈ l then l else l ++ [i]

/-- is a number selected (jobqueue.py:226-227) -/
def inRange (minmax : Option (Int × Int)) (min : Option Int) (n : Nat) : Bool :=
  (match minmax with
    | some (a, b) => decide (a ≤ n) && decide ((n : Int) ≤ b)
    | none => false) ||
  (match min with
    | some a => decide (a ≤ (n : Int))
    | none => false)

/-- the arguments of `deleteJobs` -/
structure Select where
  ids : List PyId := []
  roots : List Str := []
  names : List Str := []
  minmax : Option (Int × Int) := none
  min : Option Int := none
  deriving DecidableEq, Repr

/-- the ids to be deleted (jobqueue.py:209-228) -/
def selectIds (x : Index) (s : Select) : Except QErr (List PyId) :=
  let l1 := s.roots.foldl (fun l n => addNew l (ofGet (x.rootNames.get? n))) s.ids
  let l2 := s.names.foldl (fun l n => addNew l (ofGet (x.jobNames.get? n))) l1
  if s.minmax.isSome ∨ s.min.isSome then
    x.jobs.keys.foldlM (fun l id => do
      let n ← idNumber id
      pure (if inRange s.minmax s.min n then addNew l (.str id) else l)) l2
  else .ok l2

/-- one round of the loop of `deleteJobs` with `confirm` (jobqueue.py:231-242); the first component collects the cancelled jobs -/
def deleteStep (valid : List Str) (st : List Str × Index) (i : PyId) : Except QErr (List Str × Index) :=
  match i with
  | .str id =>
    match st.2.jobs.get? id with
    | none => .ok st
    | some _ => do
      let x ← delId st.2 id
      pure (if id ∈ valid then st.1 ++ [id] else st.1, x)
  | _ => .ok st

/-- `deleteJobs` (jobqueue.py:204-249) on the loaded index; `valid` are the ids found in the queue.  Result: the cancelled jobs and
the saved index.  Without `confirm` nothing changes. -/
def deleteJobs (x : Index) (s : Select) (valid : List Str) (confirm : Bool) : Except QErr (List Str × Index) := do
  let ids ← selectIds x s
  if confirm then ids.foldlM (deleteStep valid) ([], x) else pure ([], x)

/-- the options of deleteJobs.py -/
structure DeleteArgs where
  idMin : Option Int := none
  idRange : Option (Int × Int) := none
  ids : Option (List Int) := none
  deriving DecidableEq, Repr

/-- deleteJobs.py:21-31 with a batch directory: the calls of `deleteJobs` made; `items` are the names of the filtered items of
the batch (their order within the set is not significant) -/
def scriptCalls (a : DeleteArgs) (items : List Str) : List Select :=
  (match a.idRange with
    | some r => [{ minmax := some r }]
    | none => []) ++
  (match a.idMin with
    | some m => [{ min := some m }]
    | none =>
      match a.ids with
      | some l => [{ ids := l.map PyId.int }]
      | none => [{ roots := items ++ items.map (· ++ c!"_minimize") }])

/-! ## The index file -/

/-- the two files involved in saving; a file holds an index or text that cannot be read -/
structure Disk where
  file : Option (Except QErr Index) := none     -- `jobIndex.pyobj`
  tmp : Option (Except QErr Index) := none      -- `jobIndex.pyobj_tmp`
  deriving Repr

/-- `loadJobIndex` (jobqueue.py:160-168) -/
def load (d : Disk) : Except QErr Index :=
  match d.file with
  | some c => c
  | none => .ok {}

/-- the steps of `saveJobIndex` (jobqueue.py:171-178): open the temporary file (now empty), finish writing it, remove the
old file, rename -/
inductive SaveStep
  | openTmp
  | written
  | removed
  | moved
  deriving DecidableEq, Repr

def saveStep (x : Index) (d : Disk) : SaveStep → Disk
  | .openTmp => { d with tmp := some (.error .corrupt) }
  | .written => { d with tmp := some (.ok x) }
  | .removed => { d with file := none }
  | .moved => { file := d.tmp, tmp := none }

/-- all steps, in order -/
def saveSteps : List SaveStep := [.openTmp, .written, .removed, .moved]

def save (x : Index) (d : Disk) : Disk := saveSteps.foldl (saveStep x) d

/-- the state after a crash when `k` steps were done -/
def crashSave (x : Index) (d : Disk) (k : Nat) : Disk := (saveSteps.take k).foldl (saveStep x) d

/-- `addJobIndex` (jobqueue.py:181-185) -/
def addJobIndex (d : Disk) (j : Job) : Except QErr Disk := do
  let x ← load d
  pure (save (addJob x j) d)

/-! ## Settings of a job -/

/-- the value of an option -/
inductive Val
  | int (n : Int)
  | str (s : Str)
  deriving DecidableEq, Repr

/-- `extractValue` (jobqueue.py:46-49) -/
def extractValue (template name : Str) : Option Str := (searchGroup (c!"##" ++ name ++ c!":") template).map strip

/-- where options come from -/
structure Sources where
  kw : Str → Option Val            -- `kwargs`
  template : Option Str := none
  env : Str → Option Str           -- `os.environ`

/-- `getDefaulted` (jobqueue.py:52-60) before the conversion -/
def defaulted (s : Sources) (key : Str) (default : Option Val) (extEnv : Option Str := none) : Option Val :=
  let val := s.kw key
  let val := match val, s.template with
    | none, some t => (extractValue t (c!"DEFAULT_" ++ key)).map Val.str
    | v, _ => v
  let val := match val with
    | none => (s.env (c!"COSMOMC_" ++ key)).map Val.str
    | v => v
  let val := match val with
    | none => if extEnv.getD [] ≠ [] then (s.env c!"ext_env").map Val.str else none
    | v => v
  match val with
  | none => default
  | v => v

/-- `int(val)` (non-negative literals, blanks around allowed) -/
def toInt : Val → Except QErr Int
  | .int n => .ok n
  | .str s =>
    match intStr (strip s) with
    | some n => .ok n
    | none => .error .valueError

/-- `getDefaulted(.., tp=int)` with a default -/
def intOption (s : Sources) (key : Str) (default : Int) : Except QErr Int :=
  match defaulted s key (some (.int default)) with
  | some v => toInt v
  | none => .ok default

/-- cores seen by the program (jobqueue.py:85-91); `none`: not known -/
def machineCores (count : Option Nat) : Nat :=
  match count with
  | some c => if c > 64 then 8 else c
  | none => 8

/-- jobqueue.py:94-101 -/
def perNode (cores : Nat) : Nat :=
  if cores = 4 then 2
  else if cores % 4 = 0 then cores / 4
  else if cores > 3 ∧ cores % 3 = 0 then cores / 3
  else 1

/-- the resources of a job -/
structure Res where
  cores : Int        -- `coresPerNode`
  chains : Int       -- `chainsPerNode`
  nodes : Int
  runs : Int         -- `runsPerJob`
  omp : Int
  deriving DecidableEq, Repr

def Res.nchains (r : Res) : Int := r.nodes * r.chains

/-- jobqueue.py:93-110 under python 3, where `/` is exact.  (The quotient of machine integers is rounded to a float: for counts below
`2^53` it is integral iff the division is exact.) -/
def jobResources (s : Sources) (count : Option Nat) : Except QErr Res := do
  let cores ← intOption s c!"coresPerNode" (machineCores count)
  let chains ← intOption s c!"chainsPerNode" (perNode (machineCores count))
  let nodes ← intOption s c!"nodes" (max 1 (4 / perNode (machineCores count)) : Nat)
  let runs ← intOption s c!"runsPerJob" 1
  if chains * runs = 0 then .error .zeroDivision
  else if cores % (chains * runs) = 0 then
    .ok { cores := cores, chains := chains, nodes := nodes, runs := runs, omp := cores / (chains * runs) }
  else .error .exception

/-- `submitJob` (jobqueue.py:259-262): the resources for the actual number of runs -/
def adjust (r : Res) (nfiles : Nat) (sequential : Bool) : Except QErr Res :=
  let runs : Int := if sequential then 1 else nfiles
  if r.chains * runs = 0 then .error .zeroDivision
  else .ok { r with runs := runs, omp := Int.fdiv r.cores (r.chains * runs) }

def Res.ppn (r : Res) : Int := r.chains * r.runs * r.omp            -- jobqueue.py:275
def Res.mpiPerNode (r : Res) : Int := r.chains * r.runs              -- jobqueue.py:276
def Res.numTasks (r : Res) : Int := r.nchains * r.runs               -- jobqueue.py:277
def Res.numSlots (r : Res) : Int := r.ppn * r.nodes                  -- jobqueue.py:278

/-- the value of `--runsPerJob` passed on by `addArguments(combinedJobs=True)` (jobqueue.py:25): never `None` -/
def argRunsPerJob (given : Option Int) (env : Option Str) : Except QErr Int :=
  match toInt (.str (env.getD c!"1")) with
  | .error e => .error e
  | .ok d => .ok (given.getD d)

/-! ## Job scripts -/

def hole (name : Str) : Str := '#' :: '#' :: (name ++ ['#', '#'])

/-- `replacePlaceholders` (jobqueue.py:39-43) -/
def replacePlaceholders (txt : Str) (vals : Dict Str Str) : Str :=
  vals.foldl (fun t v => replaceStr (hole v.1) v.2 t) (replaceChar '\r' [] txt)

/-- the name of a run: `ini.replace('.ini', '')` and the last component (jobqueue.py:257, 286) -/
def stripIni (ini : Str) : Str := replaceStr c!".ini" [] ini

def runNames (files : List Str) : List Str := files.map (fun f => Path.basename (stripIni f))

/-! ## Submitting a batch (runbatch.py) -/

/-- one call of `jobqueue.submitJob`: job name, parameter files, `sequential` -/
structure Submit where
  name : Str
  files : List Str
  sequential : Bool
  deriving DecidableEq, Repr

/-- `jobName` (runbatch.py:72-77).  `md5` is `hashlib.md5(s).hexdigest()` for a text `s`; under python 3 it raises a `TypeError` for every
text. -/
def jobName (md5 : Str → Except QErr Str) (files : List Str) : Except QErr Str :=
  let s := join ['-'] (files.map Path.basename)
  if files.length < 2 ∨ s.length < 70 then .ok s
  else do
    let h ← md5 s
    pure ((Path.basename (files.headD [])).take 70 ++ c!"__" ++ h.take 16)

/-- the arguments used by runbatch.py -/
structure RunArgs where
  runsPerJob : Int := 1
  combineOne : Option Str := none
  deriving DecidableEq, Repr

/-- `args.combineOneJobName` counts as given (an empty text does not) -/
def RunArgs.combining (a : RunArgs) : Bool := a.combineOne.getD [] ≠ []

/-- the accumulator: pending files and the jobs submitted so far -/
structure RunState where
  pending : List Str := []
  sent : List Submit := []
  deriving DecidableEq, Repr

/-- `submitJob` (runbatch.py:80-92) -/
def runSubmit (md5 : Str → Except QErr Str) (a : RunArgs) (s : RunState) (ini : Str) : Except QErr RunState :=
  let files := s.pending ++ [stripIni ini]
  if a.combining then .ok { s with pending := files }
  else if (files.length : Int) ≥ a.runsPerJob then do
    let n ← jobName md5 files
    pure { pending := [], sent := s.sent ++ [{ name := n, files := files, sequential := false }] }
  else .ok { s with pending := files }

/-- the job name of the last submission (runbatch.py:124-126): `jobName()` is also evaluated for the message when there are several
runs per job -/
def lastName (md5 : Str → Except QErr Str) (a : RunArgs) (files : List Str) : Except QErr Str := do
  if a.runsPerJob > 1 then
    let _ ← jobName md5 files
  if a.combining then pure (a.combineOne.getD []) else jobName md5 files

/-- the loop over the wanted runs and the last submission (runbatch.py:95-126) -/
def runBatch (md5 : Str → Except QErr Str) (a : RunArgs) (inis : List Str) : Except QErr (List Submit) := do
  let s ← inis.foldlM (runSubmit md5 a) {}
  if s.pending.length > 0 then
    let n ← lastName md5 a s.pending
    pure (s.sent ++ [{ name := n, files := s.pending, sequential := a.combineOne.isSome }])
  else pure s.sent

end Verif.JobQueue
