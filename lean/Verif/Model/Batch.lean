import Verif.Py.Replace
import Verif.Py.Dict
import Verif.Model.IniFile
import Verif.Model.ParamNames

/-!
# Model of parameter grids (`python/paramgrid/batchjob.py`, `gridconfig.py`, `batchjob_args.py`, `getdist/chain_grid.py`)

Simplified: python objects are values; where the code compares objects by identity (`removeImportance`, `exclude`) each job
carries a number (`number`).  `wantImportance` of an importance run is a parameter.  The search for a proposal covariance matrix in
`makeGrid` is a parameter (the options it sets).  Option values are strings.  Sub-batches: a list of grids is not modelled; a grid
without sub-batches.  `minimize`, `dist_settings` are left out.
-/

namespace Verif.Batch
open Verif.Py

def us : Str := ['_']
/-- `sorted(list of str)` -/
abbrev sorted : List Str → List Str := Verif.IniFile.sortStr

/-! ## Data sets (batchjob.py:86-173) -/

/-- an entry of a settings list: a dictionary of options, the name of an ini file, a nested list, anything else -/
inductive PItem
  | dict (d : Dict Str Str)
  | file (s : Str)
  | seq (l : List PItem)
  | other

/-- `standardizeParams` (batchjob.py:134-138) on one entry -/
def stdItem : PItem → PItem
  | .file s => .file (if contains c!".ini" s then s else s ++ c!".ini")
  | p => p

def standardizeParams (l : List PItem) : List PItem := l.map stdItem

structure DS where
  names : List Str
  params : List PItem
  tag : Str
  /-- `importanceNames`, set by `extendForImportance` -/
  imp : List Str := []

/-- `dataSet.__init__` (batchjob.py:87-99) -/
def mkData (names : List Str) (params : Option (List PItem)) : DS where
  names := names
  params := match params with
    | none => names.map (fun n => .file (n ++ c!".ini"))
    | some p => standardizeParams p
  tag := join us names

/-- `add` (batchjob.py:101-112) -/
def DS.add (d : DS) (name : Option Str) (params : Option (List PItem)) (overrideExisting : Bool) : DS :=
  let ps := standardizeParams (match params with
    | some p => p
    | none => [match name with | some n => .file n | none => .other])
  let params := if overrideExisting then ps ++ d.params else d.params ++ ps
  match name with
  | none => { d with params := params }
  | some n => { d with params := params, names := d.names ++ [n], tag := join us (d.names ++ [n]) }

/-- `extendForImportance` (batchjob.py:122-132) -/
def DS.extend (d : DS) (names : List Str) (params : List PItem) : DS where
  names := d.names ++ names
  params := d.params ++ standardizeParams params
  tag := d.tag ++ (if contains c!"_post_" d.tag then us else c!"_post_") ++ join us names
  imp := names

/-- `hasName` with a list (batchjob.py:140-144) -/
def DS.hasName (d : DS) (l : List Str) : Bool := l.any (fun i => d.names.contains i)
/-- `hasAll` with a list (batchjob.py:146-150) -/
def DS.hasAll (d : DS) (l : List Str) : Bool := l.all (fun i => d.names.contains i)

/-- `namesReplacing` (batchjob.py:161-170) -/
def replaceName (dic : Dict Str Str) (name : Str) : List Str :=
  match Dict.get? dic name with
  | some v => if v = [] then [] else [v]
  | none => [name]

def DS.namesReplacing (d : DS) (dic : Option (Dict Str Str)) : List Str :=
  match dic with
  | none => d.names
  | some dic => d.names.flatMap (replaceName dic)

/-- `tagReplacing` (batchjob.py:152-159) -/
def DS.tagReplacing (d : DS) (x y : Str) : Str :=
  join us (d.names.flatMap (fun n => if n = x then (if y ≠ [] then [y] else []) else [n]))

/-- `makeNormedDatatag` (batchjob.py:172-173) -/
def DS.normedTag (d : DS) (dic : Option (Dict Str Str)) : Str := join us (sorted (d.namesReplacing dic))

/-! ## Jobs (batchjob.py:215-330) -/

structure Info where
  base : Str
  params : List Str
  data : DS
  paramtag : Str
  datatag : Str
  name : Str
  batchPath : Str
  chainRoot : Str
  isImp : Bool
  impTag : Str
  group : Option Str
  normedName : Str
  normedParams : Str
  normedData : Str

/-- `makeNormedName` (batchjob.py:284-290) -/
def normedNameOf (base : Str) (params : List Str) (d : DS) (dic : Option (Dict Str Str)) : Str :=
  let np := join us (sorted params)
  base ++ (if np.length > 0 then us ++ np else []) ++ us ++ d.normedTag dic

/-- `jobItem.__init__` (batchjob.py:216-236) -/
def mkItem (path : Str) (params : List Str) (d : DS) (base : Str) : Info :=
  let paramtag := join us (base :: params)
  let name := paramtag ++ us ++ d.tag
  { base := base, params := params, data := d, paramtag := paramtag, datatag := d.tag, name := name, batchPath := path
    chainRoot := path ++ paramtag ++ c!"/" ++ d.tag ++ c!"/" ++ name
    isImp := false, impTag := [], group := none
    normedName := normedNameOf base params d none
    normedParams := join us (sorted params)
    normedData := d.normedTag none }

/-- `iniFile` (batchjob.py:238-242) -/
def Info.iniFile (j : Info) (variant : Str) : Str :=
  j.batchPath ++ (if j.isImp then c!"postIniFiles/" else c!"iniFiles/") ++ j.name ++ variant ++ c!".ini"

/-- `matchesDatatag` (batchjob.py:295-297) -/
def Info.matchesDatatag (j : Info) (l : List Str) : Bool :=
  l.contains j.datatag || l.contains j.normedData ||
    (l.map (replaceStr c!"_post" [])).contains (replaceStr c!"_post" [] j.datatag)

/-- `hasParam` with a list (batchjob.py:299-303) -/
def Info.hasParam (j : Info) (l : List Str) : Bool := l.any (fun i => j.params.contains i)

/-- an importance run definition (batchjob.py:191-213) -/
structure ImpRun where
  names : List Str
  inis : List PItem
  want : Info → Bool

/-- a job with its importance jobs; `uid` stands for the identity of the object -/
inductive Job
  | node (info : Info) (uid : Nat) (imps : List Job)

namespace Job
def info : Job → Info | node i _ _ => i
def uid : Job → Nat | node _ u _ => u
def children : Job → List Job | node _ _ cs => cs
end Job

/-- the conditions of the loop in `makeImportance` (batchjob.py:251-259) -/
def ImpRun.applies (r : ImpRun) (i : Info) : Bool := r.want i && !(r.names.any (fun n => i.data.names.contains n))

/-- the importance job made from a job (batchjob.py:260-281).  The base name is not passed on. -/
def impInfo (i : Info) (r : ImpRun) : Info :=
  let d := i.data.extend r.names r.inis
  let job := mkItem i.batchPath i.params d c!"base"
  let impTag := join us r.names
  let tag := (if contains c!"_post_" i.name then us else c!"_post_") ++ impTag
  { job with impTag := impTag, name := i.name ++ tag, chainRoot := i.chainRoot ++ tag, datatag := i.datatag ++ tag
             isImp := true, group := i.group }

/-- `makeImportance` (batchjob.py:250-282) -/
def makeImportance (j : Job) : List ImpRun → Job
  | [] => j
  | r :: rs =>
    if r.applies j.info then makeImportance (.node j.info j.uid (j.children ++ [.node (impInfo j.info r) 0 []])) rs
    else makeImportance j rs

mutual
/-- `importanceJobsRecursive` (batchjob.py:308-312) -/
def imps : Job → List Job
  | .node _ _ cs => cs ++ impsL cs
def impsL : List Job → List Job
  | [] => []
  | c :: cs => imps c ++ impsL cs
end

mutual
/-- `removeImportance` (batchjob.py:314-319) -/
def rm (u : Nat) : Job → Job
  | .node i v cs => if u ∈ cs.map Job.uid then .node i v (cs.eraseP (fun c => c.uid == u)) else .node i v (rmL u cs)
def rmL (u : Nat) : List Job → List Job
  | [] => []
  | c :: cs => rm u c :: rmL u cs
end

/-! ## Making the items of a grid (batchjob.py:463-520) -/

structure Group where
  params : List (List Str)
  name : Option Str
  importanceRuns : List ImpRun
  datasets : List DS

/-- `jobGroup.__init__` (batchjob.py:176-188): the attributes are only set when no data sets are given -/
def mkGroup (name : Str) (params : Option (List (List Str))) (importanceRuns : Option (List ImpRun))
    (datasets : Option (List DS)) : Option Group :=
  match datasets with
  | some _ => none
  | none => some ⟨params.getD [[]], some name, importanceRuns.getD [], []⟩

structure Settings where
  groups : List Group
  importanceRuns : List ImpRun
  jobItems : List Job
  filters : Option (List ImpRun)

/-- the inner part of the loops (batchjob.py:470-477) -/
def addItem (path : Str) (skip : List Str) (allImp : List ImpRun) (g : Group) (d : DS) (items : List Job) (ps : List Str) :
    List Job :=
  let item := { mkItem path ps d c!"base" with group := g.name }
  if item.name ∈ skip then items
  else items ++ [makeImportance (makeImportance (.node item 0 []) g.importanceRuns) allImp]

/-- batchjob.py:464-480 -/
def groupItems (path : Str) (skip : List Str) (s : Settings) : List Job :=
  let items := s.groups.foldl (fun items g =>
    g.datasets.foldl (fun items d => g.params.foldl (addItem path skip s.importanceRuns g d) items) items) []
  s.jobItems.foldl (fun items j => items ++ [makeImportance j s.importanceRuns]) items

/-- batchjob.py:482-486 -/
def applyFilters (filters : Option (List ImpRun)) (items : List Job) : List Job :=
  match filters with
  | none => items
  | some fs => items.map (fun j => makeImportance (.node j.info j.uid (j.children.map (fun c => makeImportance c fs))) fs)

mutual
def size : Job → Nat
  | .node _ _ cs => 1 + sizeL cs
def sizeL : List Job → Nat
  | [] => 0
  | c :: cs => size c + sizeL cs
end

mutual
/-- the objects of the forest are told apart by consecutive numbers -/
def number (n : Nat) : Job → Job
  | .node i _ cs => .node i n (numberL (n + 1) cs)
def numberL (n : Nat) : List Job → List Job
  | [] => []
  | c :: cs => number n c :: numberL (n + size c) cs
end

/-- `items(wantImportance=True)` (batchjob.py:500-509) -/
def itemsImp (skip : List Str) (l : List Job) : List Job :=
  l.flatMap (fun j => j :: (imps j).filter (fun x => !skip.contains x.info.name))

/-- `items` -/
def items (skip : List Str) (wantImportance : Bool) (l : List Job) : List Job :=
  if wantImportance then itemsImp skip l else l

/-- `normed_name_item(name, wantImportance=.., exclude=..)` (batchjob.py:519-522) -/
def normedItem (skip : List Str) (l : List Job) (name : Str) (wantImportance : Bool) (exclude : Option Nat) : Option Job :=
  (items skip wantImportance l).find? (fun j => decide (j.info.normedName = name) && decide (some j.uid ≠ exclude))

/-- `item.removeImportance(x)` on item number `k` of the grid -/
def rmAt (l : List Job) (k u : Nat) : List Job := l.modify k (rm u)

/-- the inner loop of batchjob.py:488-492 (`full`) and 493-497, over the importance jobs `xs` of item `k` -/
def sweep (skip : List Str) (want : Bool) (k : Nat) (l : List Job) : List Job → List Job
  | [] => l
  | x :: xs =>
    if (normedItem skip l x.info.normedName want (if want then some x.uid else none)).isSome
    then sweep skip want k (rmAt l k x.uid) xs
    else sweep skip want k l xs

/-- the outer loop, over the item numbers -/
def sweepAll (skip : List Str) (want : Bool) (l : List Job) : List Nat → List Job
  | [] => l
  | k :: ks => sweepAll skip want (match l[k]? with | some j => sweep skip want k l (imps j) | none => l) ks

/-- both passes (batchjob.py:488-497) -/
def dedupe (skip : List Str) (l : List Job) : List Job :=
  let l1 := sweepAll skip false l (List.range l.length)
  sweepAll skip true l1 (List.range l1.length)

/-- `makeItems` -/
def makeItems (path : Str) (skip : List Str) (s : Settings) : List Job :=
  dedupe skip (numberL 0 (applyFilters s.filters (groupItems path skip s)))

/-! ## Finding items (batchjob.py:511-550) -/

/-- `normalizeDataTag` (batchjob.py:524-525) -/
def normalizeDataTag (tag : Str) : Str := join us (sorted (splitChar '_' (replaceStr c!"_post" [] tag)))

inductive BErr
  | exception
  | valueError
  | keyError
  | indexError
  deriving DecidableEq, Repr

/-- `resolveName(paramtag, datatag, base=..)` with a string `paramtag` (batchjob.py:527-543) -/
def resolveName (skip : List Str) (l : List Job) (paramtag datatag base : Str) (wantImportance raiseError : Bool) :
    Except BErr (Option Job) :=
  let tags := if paramtag = [] then [base] else base :: sorted (splitChar '_' paramtag)
  match normedItem skip l (join us tags ++ us ++ normalizeDataTag datatag) wantImportance none with
  | some j => .ok (some j)
  | none => if raiseError then .error .exception else .ok none

/-- `resolveRoot` (batchjob.py:542-545) -/
def resolveRoot (skip : List Str) (l : List Job) (root : Str) : Option Job :=
  match (itemsImp skip l).find? (fun j => decide (j.info.name = root)) with
  | some j => some j
  | none => normedItem skip l root true none

/-- `hasName` (batchjob.py:511-514) -/
def hasName (l : List Job) (name : Str) : Bool := l.any (fun j => decide (j.info.name = name))

/-! ## Command line filters (batchjob_args.py:97-150) -/

structure Args where
  importancetag : Option (List Str) := none
  importance : Option (List Str) := none
  noimportance : Bool := false
  name : Option (List Str) := none
  group : Option (List Str) := none
  skipGroup : Option (List Str) := none
  musthaveData : Option (List Str) := none
  datatag : Option (List Str) := none
  skipData : Option (List Str) := none
  data : Option (List Str) := none
  paramtag : Option (List Str) := none
  param : Option (List Str) := none
  skipParam : Option (List Str) := none

/-- `wantImportance` (batchjob_args.py:97-101) -/
def wantImportance (a : Args) (j : Info) : Bool :=
  (match a.importancetag with | none => true | some l => l.length == 0 || l.contains j.impTag) &&
  (match a.importance with | none => true | some l => l.length == 0 || l.any (fun x => j.data.imp.contains x))

/-- `jobItemWanted` (batchjob_args.py:103-105) -/
def jobItemWanted (a : Args) (j : Info) : Bool :=
  (!j.isImp && a.importance.isNone) || (j.isImp && wantImportance a j)

/-- `nameMatches` (batchjob_args.py:107-111) -/
def nameMatches (a : Args) (j : Info) : Bool :=
  match a.name with
  | none => true
  | some l => l.any (fun pat => Verif.ParamNames.fnmatchcase j.name pat)

/-- `jobItem.group in args.group` -/
def inGroup (g : Option Str) (l : List Str) : Bool := match g with | some g => l.contains g | none => false

/-- `groupMatches` (batchjob_args.py:113-115) -/
def groupMatches (a : Args) (j : Info) : Bool :=
  (match a.group with | none => true | some l => inGroup j.group l) &&
  (match a.skipGroup with | none => true | some l => !inGroup j.group l)

/-- `dataMatches` (batchjob_args.py:117-123) -/
def dataMatches (a : Args) (j : Info) : Bool :=
  if (match a.musthaveData with | none => false | some l => !j.data.hasAll l) then false
  else match a.datatag with
    | none =>
      if (match a.skipData with | none => false | some l => j.data.hasName l) then false
      else match a.data with | none => true | some l => j.data.hasName l
    | some l => l.contains j.datatag

/-- `not self.args.skip_param or not jobItem.hasParam(self.args.skip_param)` -/
def notSkipped (a : Args) (j : Info) : Bool := match a.skipParam with | none => true | some l => l.isEmpty || !j.hasParam l

/-- `paramsMatch` (batchjob_args.py:125-134) -/
def paramsMatch (a : Args) (j : Info) : Bool :=
  match a.paramtag with
  | none =>
    match a.param with
    | none => notSkipped a j
    | some l => if l.any (fun pat => j.params.contains pat) then notSkipped a j else false
  | some l => l.contains j.paramtag

/-- `filteredBatchItems` (batchjob_args.py:136-141); `exists` says whether the first chain file exists -/
def filtered (chainExists : Info → Bool) (skip : List Str) (l : List Job) (a : Args) (chainExist : Bool) : List Job :=
  (items skip (!a.noimportance) l).filter (fun j => (!chainExist || chainExists j.info) &&
    (jobItemWanted a j.info && nameMatches a j.info && paramsMatch a j.info && dataMatches a j.info && groupMatches a j.info))

/-- `items[jobItem.paramtag].append(jobItem)` -/
def addTag (d : Dict Str (List Job)) (j : Job) : Dict Str (List Job) :=
  Dict.set d j.info.paramtag ((Dict.get? d j.info.paramtag).getD [] ++ [j])

/-- the dictionary of `sortedParamtagDict` before sorting its items by parameter tag (batchjob_args.py:143-148) -/
def paramtagDict (chainExists : Info → Bool) (skip : List Str) (l : List Job) (a : Args) (chainExist : Bool) :
    Dict Str (List Job) :=
  ((filtered chainExists skip l a false).filter (fun j => !chainExist || chainExists j.info)).foldl addTag []

/-- `filterForDataCompare` without the `getDistExists` option (batchjob_args.py:150-155) -/
def filterForDataCompare (batch : List Job) (datatags : List Str) : List Job :=
  datatags.flatMap (fun data => batch.filter (fun j =>
    decide (j.info.datatag = data) || decide (j.info.normedData = normalizeDataTag data)))

/-! ## Options of a run (gridconfig.py:50-234) -/

structure Ini where
  params : Dict Str Str := []
  defaults : List Str := []

mutual
/-- one entry of `updateIniParams` (gridconfig.py:57-66) -/
def updItem (path : Str) (ini : Ini) : PItem → Except BErr Ini
  | .dict d => .ok { ini with params := Dict.update ini.params d }
  | .file s => .ok { ini with defaults := ini.defaults ++ [path ++ s] }
  | .seq l => updItems path ini l
  | .other => .error .exception
def updItems (path : Str) (ini : Ini) : List PItem → Except BErr Ini
  | [] => .ok ini
  | p :: ps => match updItem path ini p with
    | .ok ini => updItems path ini ps
    | .error e => .error e
end

structure GridOpts where
  params : Dict Str Str
  paramExtra : Option (Dict Str (Dict Str Str)) := none
  extraOpts : Option (Dict Str Str) := none
  startAtBestfit : Str
  defaults : List Str
  overrideDefaults : Option (List Str) := none
  commonPath : Str

/-- `ini.params.update(extra[param])` if there is such an entry -/
def updExtra (extra : Option (Dict Str (Dict Str Str))) (p : Str) (d : Dict Str Str) : Dict Str Str :=
  match extra with
  | none => d
  | some e => match Dict.get? e p with | some v => Dict.update d v | none => d

/-- `ini.params.update(opts)` if given -/
def updOpt (opts : Option (Dict Str Str)) (d : Dict Str Str) : Dict Str Str :=
  match opts with | none => d | some o => Dict.update d o

/-- the loop over the parameters of the job (gridconfig.py:118-123) -/
def paramOpts (g : GridOpts) (jobExtra : Option (Dict Str (Dict Str Str))) : List Str → Dict Str Str → Except BErr (Dict Str Str)
  | [], d => .ok d
  | p :: ps, d => match Dict.get? g.params p with
    | none => .error .keyError
    | some v => paramOpts g jobExtra ps (updExtra jobExtra p (updExtra g.paramExtra p (Dict.set d (c!"param[" ++ p ++ c!"]") v)))

/-- the ini file of a job (gridconfig.py:113-199); `jobExtra`, `jobOpts`: `param_extra_opts` and `extra_opts` of its group;
`cov`: options set by the search for a proposal matrix -/
def jobIni (g : GridOpts) (j : Info) (jobExtra : Option (Dict Str (Dict Str Str))) (jobOpts : Option (Dict Str Str))
    (cov : Dict Str Str) : Except BErr Ini :=
  match paramOpts g jobExtra j.params [] with
  | .error e => .error e
  | .ok d =>
    let d := updOpt jobOpts (updOpt g.extraOpts d)
    let d := Dict.set d c!"file_root" j.chainRoot
    let d := Dict.update d cov
    let d := Dict.set d c!"start_at_bestfit" g.startAtBestfit
    match updItems g.commonPath ⟨d, []⟩ j.data.params with
    | .error e => .error e
    | .ok ini =>
      let defs := ini.defaults ++ g.defaults.map (g.commonPath ++ ·)
      let defs := match g.overrideDefaults with | none => defs | some l => l.map (g.commonPath ++ ·) ++ defs
      .ok ⟨Dict.set ini.params c!"action" c!"0", defs⟩

/-- `setMinimize` (gridconfig.py:50-54) -/
def setMinimize (j : Info) (d : Dict Str Str) : Dict Str Str :=
  let d := Dict.set d c!"action" c!"2"
  let d := Dict.set d c!"lmin_store_all_cmb" c!"2500"
  let d := if j.params.contains c!"omegak" then Dict.set d c!"accuracy_level" c!"1.2" else d
  if j.params.contains c!"meffsterile" then Dict.set d c!"sterile_mphys_max" c!"10000" else d

/-- the ini file of an importance job `imp` of `j` (gridconfig.py:205-228) -/
def impIni (g : GridOpts) (importanceDefaults : List Str) (l : List Job) (j imp : Info) (inis : List PItem) (minimize : Bool) :
    Except BErr Ini :=
  if hasName l (replaceStr c!"_post" [] imp.name) then .error .exception
  else match updItems g.commonPath {} inis with
    | .error e => .error e
    | .ok ini =>
      let ini := if minimize then { ini with params := setMinimize j (Dict.set ini.params c!"file_root" imp.chainRoot) }
        else ⟨Dict.set (Dict.set ini.params c!"redo_outroot" imp.chainRoot) c!"action" c!"1",
              ini.defaults ++ importanceDefaults.map (g.commonPath ++ ·)⟩
      .ok { ini with defaults := ini.defaults ++ [j.iniFile []] }

/-- the jobs kept by `makeGrid` when only reading an existing grid (gridconfig.py:97-101) -/
def existingOnly (chainExists : Info → Bool) (l : List Job) : List Job := l.filter (fun j => chainExists j.info)

end Verif.Batch
