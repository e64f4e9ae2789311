import Verif.Model.ParamNames

/-!
# Model of making lists of parameters (`python/getdist/paramnames.py:72-220, 299-300, 352-406`)

`Model/ParamNames` has reading, writing, look up and globs.  Here: the constructors of `ParamInfo` and `ParamList`, default names,
labels, derived parameters, and formats of columns of names.

Simplified: the content of the files that a constructor reads is given as the list of parameters in it (or the error); names are texts.
-/

namespace Verif.NameLists
open Verif.Py Verif.ParamNames

/-- `ParamInfo(name=, label=, comment=, derived=, renames=)` without a line (paramnames.py:79-89) -/
def newInfo (name label comment : Str) (derived : Bool) (renames : List Str) : Except Err Info :=
  match setName {} name with
  | .error e => .error e
  | .ok p => .ok { p with label := if label = [] then name else label, comment := comment, isDerived := derived, renames := renames }

/-- an argument that is a name or a parameter -/
inductive Arg
  | str (s : Str)
  | info (p : Info)

/-- `ParamInfo.nameEquals` (paramnames.py:91-95): the argument is compared with itself; a parameter is not equal to its name -/
def nameEquals (_ : Info) : Arg → Bool
  | .info _ => false
  | .str s => s == s

/-- `getLabel` (paramnames.py:120-124) -/
def getLabel (p : Info) : Str := if p.label = [] then p.name else p.label

/-- `latexLabel` (paramnames.py:126-130) -/
def latexLabel (p : Info) : Str := if p.label = [] then p.name else c!"$" ++ p.label ++ c!"$"

/-- `setDefault` (paramnames.py:179-181) -/
def setDefault (n : Nat) : List Info :=
  (List.range n).map (fun i => { name := c!"param" ++ strNat (i + 1), label := c!"p_{" ++ strNat (i + 1) ++ c!"}" })

/-- `setWithNames` (paramnames.py:183-185): each name is read as a line of a file -/
def setWithNames : List Str → Except Err (List Info)
  | [] => .ok []
  | n :: ns => match ofLine n with
    | .error e => .error e
    | .ok p => match setWithNames ns with
      | .error e => .error e
      | .ok ps => .ok (p :: ps)

/-- `setLabels` (paramnames.py:187-189) -/
def setLabels : List Info → List Str → List Info
  | p :: ps, l :: ls => { p with label := l } :: setLabels ps ls
  | ps, _ => ps

/-- `setLabelsFromParamNames` (paramnames.py:299-300) -/
def setLabelsFrom (ps other : List Info) : List Info := setLabelsAndDerived false ps other

/-- the arguments of the constructor -/
structure Args where
  default : Nat := 0
  names : Option (List Str) := none
  file : Option (Except Err (List Info)) := none
  override : Option (Except Err (List Info)) := none
  labels : Option (List Str) := none

/-- names and default (paramnames.py:168-171) -/
def fromArgs (a : Args) : Except Err (List Info) := match a.names with
  | some ns => setWithNames ns
  | none => .ok (if a.default = 0 then [] else setDefault a.default)

/-- the file (paramnames.py:172-173) -/
def withFile (f : Option (Except Err (List Info))) (ps : List Info) : Except Err (List Info) := match f with
  | none => .ok ps
  | some r => r

/-- the file with labels (paramnames.py:174-175) -/
def withOverride (f : Option (Except Err (List Info))) (ps : List Info) : Except Err (List Info) := match f with
  | none => .ok ps
  | some (.error e) => .error e
  | some (.ok q) => .ok (setLabelsFrom ps q)

/-- `ParamList.__init__` (paramnames.py:158-177) -/
def construct (a : Args) : Except Err (List Info) := match fromArgs a with
  | .error e => .error e
  | .ok ps => match withFile a.file ps with
    | .error e => .error e
    | .ok ps => match withOverride a.override ps with
      | .error e => .error e
      | .ok ps => .ok (match a.labels with
        | none => ps
        | some ls => setLabels ps ls)

/-- `list` (paramnames.py:194-198) -/
def list (ps : List Info) : List Str := ps.map (·.name)

/-- `labels` (paramnames.py:200-204) -/
def labels (ps : List Info) : List Str := ps.map (·.label)

/-- `listString` (paramnames.py:206-207) -/
def listString (ps : List Info) : Str := join c!" " (list ps)

/-- `numNonDerived` (paramnames.py:212-213) -/
def numNonDerived (ps : List Info) : Nat := (ps.filter (fun p => !p.isDerived)).length

/-- `getDerivedNames` (paramnames.py:395-399) -/
def getDerivedNames (ps : List Info) : List Str := (ps.filter (fun p => p.isDerived)).map (·.name)

/-- `getRunningNames` (paramnames.py:401-405) -/
def getRunningNames (ps : List Info) : List Str := (ps.filter (fun p => !p.isDerived)).map (·.name)

/-- `addDerived` (paramnames.py:352-364) -/
def addDerived (ps : List Info) (name label comment : Str) (derived : Option Bool) (renames : List Str) : Except Err (List Info) :=
  match newInfo name label comment (derived.getD true) renames with
  | .error e => .error e
  | .ok p => .ok (ps ++ [p])

/-- `maxNameLen` (paramnames.py:366-367); `none`: `max` of nothing -/
def maxNameLen (ps : List Info) : Option Nat := (ps.map (fun p => p.name.length)).max?

/-- the width of the column (paramnames.py:369-371) -/
def parWidth (ps : List Info) : Option Nat := (maxNameLen ps).map (fun m => max 9 m + 1)

/-- `parFormat() % s` (paramnames.py:369-371) -/
def parForm (ps : List Info) (s : Str) : Option Str := (parWidth ps).map (fun w => s ++ List.replicate (w - s.length) ' ')

/-- `name` (paramnames.py:373-378); `none`: IndexError -/
def nameAt (ps : List Info) (ix : Nat) (tag : Bool) : Option Str := ps[ix]?.map (fun p => if tag && p.isDerived then p.name ++ c!"*" else p.name)

/-- the parameters that `getGelmanRubinEigenvalues` uses (chains.py:1408-1410) -/
def rubinNames (ps : List Info) (nparam : Option Nat) : List Str :=
  (list ps).take (match nparam with
    | none => numNonDerived ps
    | some 0 => numNonDerived ps
    | some (k + 1) => k + 1)

end Verif.NameLists
