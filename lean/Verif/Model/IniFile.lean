import Verif.Py.Str
import Verif.Py.Dict

/-!
# Model of `python/getdist/inifile.py`

Strings are `List Char`; the file system is a function from path to text; the environment is a function from name to
value.  Exceptions are values of `Err`.  The recursion depth of `readFile` is bounded by a fuel argument which plays
the role of python's recursion limit (`RecursionError`).
-/

namespace Verif.IniFile
open Verif.Py

/-- Exceptions that can leave `IniFile` methods. -/
inductive Err
  | dup (key : Str)            -- IniError('Error: duplicate key: ...')        inifile.py:95
  | indexError                 -- s[index + 1] past the end                    inifile.py:54
  | valueError                 -- s.index(')') not found                       inifile.py:60
  | noFile (path : Str)        -- open() fails                                 inifile.py:75
  | recursion                  -- RecursionError
  | noFilename                 -- IniError('No filename for iniFile.saveFile()') inifile.py:139
  | undefined (key : Str)      -- IniError('parameter not defined: ')          inifile.py:180
  | notBool (key : Str)        -- IniError('... valid T(rue) or F(alse) ...')  inifile.py:249
  deriving DecidableEq, Repr

/-- Values stored in `params`: text, a python `bool`, or any other object given by its `str()`. -/
inductive Val
  | str (s : Str)
  | bool (b : Bool)
  | other (repr : Str)
  deriving DecidableEq, Repr

/-- inifile.py:52-67: the body of the `while` loop of `expand_placeholders`, on the text still to be scanned
(`s[index:]`; the re-slicing `s = s[index + 2:]; index = s.index(')')` only ever moves forward in the same text).
`env` is `os.environ`. -/
def expandLoop (env : Str → Option Str) : Nat → Str → Str → Except Err Str
  | 0, res, _ => .ok res                       -- unreachable with fuel > length
  | _ + 1, res, [] => .ok res                  -- while index < pathlen
  | n + 1, res, c :: rest =>
    if c = '$' then
      match rest with
      | [] => .error .indexError               -- s[index + 1] (line 54)
      | d :: rest' =>
        if d = '$' then                        -- lines 54-56
          expandLoop env n (res ++ [c]) rest'
        else if d = '(' then                   -- lines 57-63
          match find ')' rest' with
          | none => .error .valueError
          | some i =>
            let var := rest'.take i
            let res' := match env var with
              | some v => res ++ v
              | none => res
            expandLoop env n res' (rest'.drop (i + 1))
        else                                   -- neither branch: only index += 1
          expandLoop env n res (d :: rest')
    else
      expandLoop env n (res ++ [c]) rest       -- line 65

/-- inifile.py:44-67 `expand_placeholders` -/
def expandPlaceholders (env : Str → Option Str) (s : Str) : Except Err Str :=
  if !contains c!"$(" s then .ok s             -- lines 46-47
  else expandLoop env (s.length + 1) [] s

/-- inifile.py:32-38: the attributes of an `IniFile`. -/
structure Ini where
  params : Dict Str Val := []
  comments : Dict Str (List Str) := []
  readOrder : List Str := []
  defaults : List Str := []
  includes : List Str := []
  originalFilename : Option Str := none
  expandEnv : Bool := true
  deriving DecidableEq, Repr

/-- Local variables of the line loop of `readFile` (inifile.py:71-74). -/
structure Loop where
  ini : Ini
  fileincludes : List Str := []
  filedefaults : List Str := []
  comments : List Str := []
deriving DecidableEq

/-- `s[s.find('(') + 1:s.rfind(')')]` (inifile.py:85, 87).  `s` contains `'('` in both uses; if there is no `')'`
then `rfind` is -1 and the slice ends before the last character. -/
def bracketArg (s : Str) : Str :=
  let lo := match find '(' s with | some i => i + 1 | none => 0
  let hi := match find ')' s.reverse with | some j => s.length - 1 - j | none => s.length - 1
  (s.take hi).drop lo

/-- inifile.py:96-98: the stored value of a setting line -/
def readValue (env : Str → Option Str) (expand : Bool) (raw : Str) : Except Err Str :=
  if expand then expandPlaceholders env raw else .ok raw

/-- Result of one iteration of the line loop: stop at `END`, or continue. -/
inductive Step
  | stop (l : Loop)
  | go (l : Loop)

/-- inifile.py:77-104: one iteration of `for line in textFileHandle`. -/
def readLine (env : Str → Option Str) (ifNotDefined : Bool) (l : Loop) (line : Str) : Except Err Step :=
  let s := strip line                                                        -- 78
  if s = c!"END" then .ok (.stop l)                                          -- 79-80
  else if startsWith c!"#" s then
    .ok (.go { l with comments := l.comments ++ [rstrip (s.drop 1)] })       -- 81-83 (continue)
  else if startsWith c!"INCLUDE(" s then
    .ok (.go { l with fileincludes := l.fileincludes ++ [bracketArg s], comments := [] })   -- 84-85, 103-104
  else if startsWith c!"DEFAULT(" s then
    .ok (.go { l with filedefaults := l.filedefaults ++ [bracketArg s], comments := [] })   -- 86-87, 103-104
  else if s ≠ [] then                                                        -- 88
    match find '=' s with
    | some eq =>                                                             -- 89-90
      let key := strip (s.take eq)                                           -- 91
      if l.ini.params.has key then                                           -- 92
        if ifNotDefined then .ok (.go l)                                     -- 93-94 (continue: comments are kept)
        else .error (.dup key)                                               -- 95
      else
        match readValue env l.ini.expandEnv (strip (s.drop (eq + 1))) with   -- 96-98
        | .error e => .error e
        | .ok value =>
          .ok (.go { l with
            ini := { l.ini with
              params := l.ini.params.set key (.str value)                    -- 99
              readOrder := l.ini.readOrder ++ [key]                          -- 100
              comments := if l.comments.length ≠ 0 then l.ini.comments.set key l.comments
                          else l.ini.comments }                              -- 101-102
            comments := [] })                                                -- 103-104
    | none => .ok (.go { l with comments := [] })
  else .ok (.go { l with comments := [] })

/-- inifile.py:77-104: the whole line loop. -/
def readLines (env : Str → Option Str) (ifNotDefined : Bool) : Loop → List Str → Except Err Loop
  | l, [] => .ok l
  | l, line :: lines =>
    match readLine env ifNotDefined l line with
    | .error e => .error e
    | .ok (.stop l') => .ok l'
    | .ok (.go l') => readLines env ifNotDefined l' lines

/-- `os.path.isabs` (posix) -/
def isAbs (p : Str) : Bool := startsWith c!"/" p
/-- `os.path.dirname` (posix) for paths whose directory part does not end in several slashes: text before the last `/`
(the root `/` itself is kept). -/
def dirname (p : Str) : Str :=
  let d := (p.reverse.dropWhile (· != '/')).reverse      -- up to and including the last slash
  let t := (d.reverse.dropWhile (· == '/')).reverse
  if t.isEmpty then d else t
/-- `os.path.join(a, b)` (posix) -/
def pathJoin (a b : Str) : Str :=
  if isAbs b then b
  else if a.isEmpty || endsWith c!"/" a then a ++ b
  else a ++ c!"/" ++ b

/-- inifile.py:110-119: path of an included file relative to the including file -/
def resolve (filename ffile : Str) : Str :=
  if isAbs ffile then ffile else pathJoin (dirname filename) ffile

/-- inifile.py:110-114 and 115-119: the two loops over included files; `rd` is the recursive call
`self.readFile(path, if_not_defined=nd)` -/
def readFiles (rd : Ini → Str → Bool → Except Err Ini) (filename : Str) (nd : Bool) :
    Ini → List Str → Except Err Ini
  | ini, [] => .ok ini
  | ini, f :: fl =>
    match rd ini (resolve filename f) nd with
    | .error e => .error e
    | .ok ini' => readFiles rd filename nd ini' fl

/-- inifile.py:69-124 `readFile(filename, keep_includes, if_not_defined)` (the nested calls always use
`keep_includes=False`).  `fs path` is the text of the file. -/
def readFile (fs : Str → Option Str) (env : Str → Option Str) :
    Nat → Ini → Str → Bool → Bool → Except Err Ini
  | 0, _, _, _, _ => .error .recursion
  | n + 1, ini, filename, keepIncludes, ifNotDefined =>
    match fs filename with
    | none => .error (.noFile filename)                                       -- 75
    | some text =>
      match readLines env ifNotDefined { ini := { ini with originalFilename := some filename } } (fileIter text) with
      | .error e => .error e
      | .ok l =>
        if keepIncludes then                                                  -- 106-108
          .ok { l.ini with includes := l.ini.includes ++ l.fileincludes,
                           defaults := l.ini.defaults ++ l.filedefaults }
        else                                                                  -- 110-119
          let rd := fun i f nd => readFile fs env n i f false nd
          match readFiles rd filename ifNotDefined l.ini l.fileincludes with
          | .error e => .error e
          | .ok ini' => readFiles rd filename true ini' l.filedefaults

/-- inifile.py:145-150 `asIniText` -/
def asIniText : Val → Str
  | .str s => s
  | .bool true => c!"T"
  | .bool false => c!"F"
  | .other r => r

/-- `a < b` for python strings: lexicographic on code points. -/
def strLe : Str → Str → Bool
  | [], _ => true
  | _ :: _, [] => false
  | a :: as, b :: bs => if a.toNat < b.toNat then true else if b.toNat < a.toNat then false else strLe as bs

/-- insertion into a sorted list; `list.sort()` is modelled by insertion sort (keys are distinct so stability is
irrelevant) -/
def insertStr (x : Str) : List Str → List Str
  | [] => [x]
  | y :: l => if strLe x y then x :: y :: l else y :: insertStr x l

def sortStr : List Str → List Str
  | [] => []
  | x :: l => insertStr x (sortStr l)

/-- inifile.py:163: `key + '=' + asIniText(self.params[key])`; the key is always present here -/
def settingLine (params : Dict Str Val) (key : Str) : Str :=
  match params.get? key with
  | some v => key ++ c!"=" ++ asIniText v
  | none => []       -- KeyError, unreachable: key is one of params.keys()

/-- inifile.py:161-164: loop over the read order, removing each written key from `keys` -/
def orderedKeys : List Str → List Str → List Str × List Str
  | [], keys => ([], keys)
  | k :: ro, keys =>
    if k ∈ keys then
      let r := orderedKeys ro (keys.erase k)
      (k :: r.1, r.2)
    else orderedKeys ro keys

/-- keys in the order `fileLines` writes them (inifile.py:158-166) -/
def writeOrder (ini : Ini) : List Str :=
  let r := orderedKeys ini.readOrder (sortStr ini.params.keys)
  r.1 ++ r.2

/-- inifile.py:143-168 `fileLines` -/
def fileLines (ini : Ini) : List Str :=
  ini.includes.map (fun i => c!"INCLUDE(" ++ i ++ c!")") ++
  ini.defaults.map (fun d => c!"DEFAULT(" ++ d ++ c!")") ++
  (writeOrder ini).map (settingLine ini.params)

/-- inifile.py:126-127 `__str__`, the text written by `saveFile` -/
def toText (ini : Ini) : Str := join c!"\n" (fileLines ini)

/-- inifile.py:129-141 `saveFile(filename)`: returns the path written to and the text. -/
def saveFile (ini : Ini) (filename : Option Str) : Except Err (Str × Str) :=
  match filename with
  | some f => if f.isEmpty then
      (match ini.originalFilename with
       | some g => if g.isEmpty then .error .noFilename else .ok (g, toText ini)
       | none => .error .noFilename)
    else .ok (f, toText ini)
  | none => match ini.originalFilename with
    | some g => if g.isEmpty then .error .noFilename else .ok (g, toText ini)
    | none => .error .noFilename

/-- inifile.py:175-177 `delete_keys` -/
def deleteKeys (ini : Ini) (ks : List Str) : Ini :=
  { ini with params := ks.foldl (fun p k => p.erase k) ini.params }

/-- direct assignment `ini.params[k] = v`, used throughout the grid scripts -/
def setParam (ini : Ini) (k : Str) (v : Val) : Ini := { ini with params := ini.params.set k v }

/-- inifile.py:191-199 `isSet` -/
def isSet (ini : Ini) (name : Str) (allowEmpty : Bool) : Bool :=
  match ini.params.get? name with
  | none => false
  | some v => allowEmpty || v ≠ .str []

/-- inifile.py:234-253 `bool(name, default)`; for a non-string, non-bool value `s[0]` is a TypeError, reported here as
`notBool` (also an exception). -/
def getBool (ini : Ini) (name : Str) (default : Option Bool) : Except Err Bool :=
  if isSet ini name false then
    match ini.params.get? name with
    | some (.bool b) => .ok b
    | some (.str ('T' :: _)) => .ok true
    | some (.str ('F' :: _)) => .ok false
    | _ => .error (.notBool name)
  else match default with
    | some d => .ok d
    | none => .error (.undefined name)

/-- inifile.py:267-275 `string(name, default, allowEmpty)` via `asType(.., str, ..)` (lines 201-214) -/
def getString (ini : Ini) (name : Str) (default : Option Str) (allowEmpty : Bool := true) : Except Err Str :=
  if isSet ini name allowEmpty then
    match ini.params.get? name with
    | some (.str s) => .ok s
    | some (.bool true) => .ok c!"True"
    | some (.bool false) => .ok c!"False"
    | some (.other r) => .ok r
    | none => .error (.undefined name)     -- unreachable
  else match default with
    | some d => .ok d
    | none => .error (.undefined name)

/-- inifile.py:408-412 `relativeFileName` -/
def relativeFileName (ini : Ini) (name : Str) (default : Option Str) : Except Err Str :=
  match getString ini name default with
  | .error e => .error e
  | .ok s =>
    if !isAbs s then
      match ini.originalFilename with
      | some f => .ok (pathJoin (dirname f) s)
      | none => .ok s
    else .ok s

/-- inifile.py:20-42: the constructor for a file name -/
def load (fs : Str → Option Str) (env : Str → Option Str) (limit : Nat) (filename : Str)
    (keepIncludes : Bool := false) (expandEnv : Bool := true) : Except Err Ini :=
  readFile fs env limit { expandEnv := expandEnv } filename keepIncludes false

end Verif.IniFile
