import Verif.Model.ParamNames
import Verif.Py.Replace

/-!
# Model of the command line script (`python/getdist/command_line.py:13-66, 158-172, 216-277`) and of the plot scripts it
writes (`python/getdist/mcsamples.py:2434-2532`)

`os.path.isfile` and `glob.glob` are parameters.  `sys.exit` and the `ValueError` of `do_error` are one result.  Reading
the chains and the statistics are modelled elsewhere (ReadChains, ChainFiles, MargeStats, PCA).  Of the scripts the text
of the parameter lists is modelled, not the header.
-/

namespace Verif.CommandLine
open Verif.Py Verif.ParamNames

/-- the two positional arguments (command_line.py:319-323) -/
structure Args where
  iniFile : Option Str
  chainRoot : Option Str
deriving DecidableEq, Repr

/-- what a call does before settings are read -/
inductive Plan
  /-- `do_error`: neither argument given -/
  | mustGive
  /-- `do_error`: parameter file does not exist -/
  | noIni (f : Str)
  /-- `'.ini' not in None` -/
  | typeError
  /-- one recursive call for each file -/
  | each (l : List Args)
  /-- settings file, chain root, whether plots are off by default -/
  | analyse (ini : Str) (root : Option Str) (noPlots : Bool)
deriving DecidableEq, Repr

/-- `'*' in s or '?' in s` (command_line.py:42, 164) -/
def wild (s : Str) : Bool := s.contains '*' || s.contains '?'

/-- command_line.py:39-40 -/
def dropTxt (r : Str) : Str := if endsWith c!".txt" r then r.take (r.length - 4) else r

/-- command_line.py:45 -/
def endings : List Str := [c!".paramnames", c!"updated.yaml"]

/-- command_line.py:37-51, once the settings file is known -/
def withIni (isFile : Str → Bool) (glob : Str → List Str) (ini : Str) (root : Option Str) (noPlots : Bool) : Plan :=
  if !isFile ini then .noIni ini
  else
    let root := root.map dropTxt
    match root with
    | some r =>
      if wild r then
        .each (endings.flatMap fun e => (glob (r ++ e)).map fun f => ⟨some ini, some (replaceStr e [] f)⟩)
      else .analyse ini root noPlots
    | none => .analyse ini none noPlots

/-- `getdist_script` up to reading the settings (command_line.py:27-51) -/
def resolve (isFile : Str → Bool) (glob : Str → List Str) (dflt : Str) (a : Args) : Plan :=
  match a.iniFile, a.chainRoot with
  | none, none => .mustGive
  | none, some _ => .typeError
  | some f, none => if contains c!".ini" f then withIni isFile glob f none false else withIni isFile glob dflt (some f) true
  | some f, some r => withIni isFile glob f (some r) false

/-- an analysis started: settings file, chain root, plots off by default -/
abbrev Run := Str × Option Str × Bool

/-- all analyses a call starts (command_line.py:13-51 with its recursion); `none`: stopped by an error or by the limit of
`n` nested calls -/
def runs (isFile : Str → Bool) (glob : Str → List Str) (dflt : Str) : Nat → Args → Option (List Run)
  | 0, _ => none
  | n + 1, a =>
    match resolve isFile glob dflt a with
    | .analyse i r b => some [(i, r, b)]
    | .each l => (l.mapM (runs isFile glob dflt n)).map List.flatten
    | _ => none

/-- the root of the chain files (command_line.py:62-67); `none`: `KeyError` or `do_error` -/
def inRoot (fileRoot : Option Str) (root : Option Str) : Option Str :=
  let r := match root with
    | some r => some r
    | none => fileRoot
  match r with
  | some [] => none
  | r => r

/-- `ini.bool('no_plots', no_plots)` (command_line.py:91) -/
def plotsOff (setting : Option Bool) (noPlots : Bool) : Bool := setting.getD noPlots

/-! ### choosing parameters -/

/-- one word of a parameter list (command_line.py:163-167) -/
def wordPars (ps : List Info) (w : Str) : List Str :=
  if wild w then (getMatches ps w).map (·.name)
  else if (parWithName ps w).isSome then [w] else []

/-- command_line.py:158-167 -/
def parList (ps : List Info) (line : Str) : List Str :=
  if (strip line).isEmpty then ps.map (·.name) else (splitWs line).flatMap (wordPars ps)

/-- `filterParList` (command_line.py:158-171) -/
def filterParList (ps : List Info) (line : Str) (num : Option Nat) : Option (List Str) :=
  let pars := parList ps line
  match num with
  | none => some pars
  | some k => if pars.length ≠ k then none else some pars

/-- the custom 2D plots (command_line.py:228-236) -/
def custom2D (ps : List Info) (lines : List Str) : List (List Str) := lines.filterMap (filterParList ps · (some 2))

/-- whether there is a triangle plot, and its parameters (command_line.py:238-244) -/
def triangle (ps : List Info) (line : Str) : Option (List Str) :=
  let pars := parList ps line
  if pars.length > 1 then some pars else none

/-! ### the plot scripts -/

/-- python truth of an optional string -/
def truthy (p : Option Str) : Bool := p.any (fun s => !s.isEmpty)

/-- `par1 + '__' + par2` -/
def joined (a b : Str) : Str := a ++ c!"__" ++ b

/-- the tests of mcsamples.py:2470-2474 -/
def keep (p : Option Str) (cust : List (Str × Str)) (par1 par2 : Str) : Bool :=
  if truthy p && p ≠ some par2 then false
  else if cust ≠ [] && !((cust.map fun q => joined q.1 q.2).contains (joined par1 par2)) then false
  else true

/-- the inner loop (mcsamples.py:2468-2478) without the check of `done2D` -/
def row (names : List Str) (p : Option Str) (cust : List (Str × Str)) (par1 : Str) (j2min : Nat) : List (Str × Str) :=
  ((names.drop j2min).filter (keep p cust par1)).map fun par2 => (par1, par2)

/-- `if (par1, par2) not in done2D` (mcsamples.py:2475) -/
def addNew (done : List (Str × Str)) (q : Str × Str) : List (Str × Str) := if done.contains q then done else done ++ [q]

/-- the pairs plotted by `_writeScriptPlots2D` (mcsamples.py:2456-2478), in order -/
def plots2D (names : List Str) (p : Option Str) (cust : List (Str × Str)) : List (Str × Str) :=
  (names.zipIdx.flatMap fun e =>
    if truthy p || cust ≠ [] then
      if p = some e.1 then [] else row names p cust e.1 0
    else row names p cust e.1 (e.2 + 1)).foldl addNew []

/-- `"pairs.append(['%s','%s'])"` (mcsamples.py:2478) -/
def pairLine (q : Str × Str) : Str := c!"pairs.append(['" ++ q.1 ++ c!"','" ++ q.2 ++ c!"'])"

/-- the list of names in `_writeScriptPlots1D` (mcsamples.py:2444) -/
def names1D (l : List Str) : Str := c!"[" ++ join c!"," (l.map fun s => c!"'" ++ s ++ c!"'") ++ c!"]"

end Verif.CommandLine
