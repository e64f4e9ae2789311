import Verif.Model.IniFile

/-!
# Independent specification of the .ini file format

What a line is, what a file defines, and in which order a tree of INCLUDE/DEFAULT files defines its settings.
-/

namespace Verif.IniFile
open Verif.Py

/-- The kinds of line in a .ini file. -/
inductive Line
  | stop                         -- `END`
  | comment (text : Str)         -- `# text`
  | incl (file : Str)            -- `INCLUDE(file)`
  | dflt (file : Str)            -- `DEFAULT(file)`
  | setting (key raw : Str)      -- `key = value`
  | blank                        -- anything else
  deriving DecidableEq, Repr

/-- the argument of `NAME(argument)`: what is between the first `(` and the last `)`.  A line whose bracket is not
closed loses its last character. -/
def between (s : Str) : Str :=
  let t := (s.dropWhile (· ≠ '(')).tail
  if ')' ∈ t then (t.reverse.dropWhile (· ≠ ')')).tail.reverse else t.dropLast

/-- the kind of a line (surrounding white space is ignored) -/
def lineKind (line : Str) : Line :=
  let s := strip line
  if s = c!"END" then .stop
  else if s.head? = some '#' then .comment (rstrip s.tail)
  else if c!"INCLUDE(" <+: s then .incl (between s)
  else if c!"DEFAULT(" <+: s then .dflt (between s)
  else if '=' ∈ s then .setting (strip (s.takeWhile (· ≠ '='))) (strip (s.dropWhile (· ≠ '=')).tail)
  else .blank

/-- the lines that count: those before `END` -/
def body (text : Str) : List Line := ((fileIter text).map lineKind).takeWhile (· ≠ .stop)

def settingsOf (ls : List Line) : List (Str × Str) :=
  ls.filterMap fun | .setting k r => some (k, r) | _ => none
def includesOf (ls : List Line) : List Str := ls.filterMap fun | .incl f => some f | _ => none
def defaultsOf (ls : List Line) : List Str := ls.filterMap fun | .dflt f => some f | _ => none

/-- One definition of a setting: the name, the text after `=`, and whether it is only a default. -/
structure Def where
  key : Str
  raw : Str
  isDefault : Bool
  deriving DecidableEq, Repr

/-- The definitions made by a file, in order of precedence: its own settings, those of its INCLUDE files, those of its
DEFAULT files (which are all defaults).  `none` if a file is missing or the nesting is deeper than `limit`. -/
def definitions (fs : Str → Option Str) : Nat → Str → Bool → Option (List Def)
  | 0, _, _ => none
  | limit + 1, file, isDef =>
    match fs file with
    | none => none
    | some text =>
      let ls := body text
      match (includesOf ls).mapM (fun g => definitions fs limit (resolve file g) isDef),
            (defaultsOf ls).mapM (fun g => definitions fs limit (resolve file g) true) with
      | some is, some ds =>
        some ((settingsOf ls).map (fun e => ⟨e.1, e.2, isDef⟩) ++ is.flatten ++ ds.flatten)
      | _, _ => none

/-- the first definition of a name -/
def firstDef (ds : List Def) (k : Str) : Option Def := ds.find? (fun d => d.key == k)

/-- no setting that is not a default repeats a name defined before it -/
def NoClash : List Def → List Str → Prop
  | [], _ => True
  | d :: ds, seen => (d.isDefault = false → d.key ∉ seen) ∧ NoClash ds (d.key :: seen)

end Verif.IniFile
