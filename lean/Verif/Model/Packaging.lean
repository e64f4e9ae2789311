import Verif.Py.Str

/-!
# Model of the packaging script (`python/setup.py:12-78`)

`find_version`, `get_long_description`, the launcher script of `make_app`.  Texts are as read, with `\n` at the ends of lines.  Not modelled: where
the files are, copying of directories, the number in `Info.plist`, what `setuptools` does.
-/

namespace Verif.Packaging
open Verif.Py

def isQuote (c : Char) : Bool := c == '\'' || c == '"'

/-- `__version__ = ` -/
def mark : Str := c!"__version__ = "

/-- the text between quotes at the start of a text: `['\"]([^'\"]*)['\"]` -/
def quoted : Str → Option Str
  | [] => none
  | q :: s => if isQuote q then
      (if (s.takeWhile (fun c => !isQuote c)).length < s.length then some (s.takeWhile (fun c => !isQuote c)) else none)
    else none

/-- a match of the pattern at the start of a text (setup.py:14) -/
def versionHere (s : Str) : Option Str := if startsWith mark s then quoted (s.drop mark.length) else none

/-- `re.search` with `re.M` (setup.py:14): at the starts of lines, from the first on; `bol`: at the start of a line -/
def search (bol : Bool) : Str → Option Str
  | [] => none
  | c :: s => match (if bol then versionHere (c :: s) else none) with
    | some v => some v
    | none => search (c == '\n') s

/-- `find_version` (setup.py:12-17); `none`: RuntimeError -/
def findVersion (text : Str) : Option Str := search true text

/-- the loop from the last line (setup.py:23-26); `none`: IndexError -/
def before : List Str → Option (List Str)
  | [] => none
  | l :: ls => if contains c!"=====" l then some ls.reverse else before ls

/-- `get_long_description` (setup.py:20-26) for the lines of the file -/
def longDescription (lines : List Str) : Option Str := (before lines.reverse).map List.flatten

/-- one line of the launcher (setup.py:65-69) -/
def appLine (exe line : Str) : Str := if contains c!"python=" line then c!"python=\"" ++ exe ++ c!"\"" else strip line

/-- the launcher script (setup.py:63-71) -/
def appScript (exe : Str) (lines : List Str) : Str := join c!"\n" (lines.map (appLine exe))

end Verif.Packaging
