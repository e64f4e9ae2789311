import Verif.Model.Table
import Verif.Model.NumFmt
import Verif.Model.MargeStats

/-!
# LaTeX of limits and whole tables

(`python/getdist/types.py:22-27, 166-258, 261-363, 388-409, 744-828`, `python/getdist/mcsamples.py:2136-2199`)

The texts of cells from marginalised limits, the lines of a table with titles, rules and blocks, and the snippets of `getLatex`.  Rows and cells are those of
`Verif.Model.Table`; how numbers are printed is given by a structure of functions, which `numFmt` fills with those of `Verif.Model.NumFmt`.  Square roots are a
given function.  Images of tables (`tablePNG`) are not modelled.
-/

namespace Verif.TexTable
open Verif.Py Verif.MargeStats Verif.Table

inductive Err
  | index
  | value
  | zeroDivision
  | type
deriving DecidableEq, Repr

/-! ## Cells -/

/-- `'%d' % e` -/
def showInt (e : Int) : Str := if e < 0 then '-' :: strNat e.natAbs else strNat e.natAbs

/-- `times_ten_power` (types.py:26-27) -/
def timesTen (e : Int) : Str := c!"\\cdot 10^{" ++ showInt e ++ ['}']

/-- the functions of `NumberFormatter` used for cells -/
structure Fmt (K : Type) where
  /-- `namesigFigs(value, plus, minus, wantSign=False, sci=False)`: value and error -/
  sig : K → K → K → Except Err (Str × Str)
  /-- `namesigFigs(value, plus, minus, wantSign, sci=True)` -/
  sigSci : K → K → K → Bool → Except Err (Str × Str × Str × Int)
  /-- `formatNumber(x, 3, sci=True)` -/
  num : K → Str × Int
  /-- `plusMinusLimit(limit, upper, lower)` -/
  plusMinus : Nat → K → K → Except Err Bool
  /-- `'%.1f'` and `'%+.1f'` -/
  fix1 : K → Str
  plus1 : K → Str
  sqrt : K → K

section cells
variable {K : Type} [Field K] [LinearOrder K]

/-- `l[limit - 1]` -/
def limitAt {α : Type} (l : List α) (limit : Nat) : Option α := if limit = 0 then l.getLast? else l[limit - 1]?

/-- the power of ten after a number (types.py:791-792, 796-797, 822-823) -/
def withPower (s : Str) (e : Int) : Str := if e ≠ 0 then s ++ timesTen e else s

/-- the power of ten after a number with errors (types.py:786-787) -/
def bracket (s : Str) (e : Int) : Str := if e ≠ 0 then c!"\\left(\\," ++ s ++ c!"\\,\\right)" ++ timesTen e else s

/-- a limit of `chi2` parameters (types.py:766-773) -/
def chi2Tex (F : Fmt K) (p : Par K) (limit : Nat) : Except Err Str := match F.sig p.mean p.err p.err with
  | .error e => .error e
  | .ok (res, sigma) => .ok (if limit = 1 then res ++ c!"\\pm " ++ sigma else res ++ c!"\\,({\\nu\\rm{:}\\," ++ F.fix1 (p.err ^ 2 / 2) ++ c!"})")

/-- limits on both sides (types.py:774-787) -/
def twoTex (F : Fmt K) (p : Par K) (lim : Lim K) (limit : Nat) : Except Err Str := match F.plusMinus limit (lim.upper - p.mean) (lim.lower - p.mean) with
  | .error e => .error e
  | .ok false => match F.sigSci p.mean p.err p.err false with
    | .error e => .error e
    | .ok (res, plus, _, e) => .ok (bracket (res ++ c!"\\pm " ++ plus) e)
  | .ok true => match F.sigSci p.mean (lim.upper - p.mean) (lim.lower - p.mean) true with
    | .error e => .error e
    | .ok (res, plus, minus, e) => .ok (bracket (res ++ c!"^{" ++ plus ++ c!"}_{" ++ minus ++ c!"}") e)

/-- the limit (types.py:764-800) -/
def limTex (F : Fmt K) (p : Par K) (lim : Lim K) (limit : Nat) : Except Err Str :=
  if startsWith c!"chi2" p.name then chi2Tex F p limit
  else if lim.twotail then twoTex F p lim limit
  else if lim.onetailUpper then .ok (withPower (c!"< " ++ (F.num lim.upper).1) (F.num lim.upper).2)
  else if lim.onetailLower then .ok (withPower (c!"> " ++ (F.num lim.lower).1) (F.num lim.lower).2)
  else .ok noConstraint

/-- what is shown of the shift from reference results: nothing special, or shifts for subsets and for independent data -/
structure Shift where
  subset : Bool
  indep : Bool

/-- the shift (types.py:804-817); the string of line 817 is a raw one, so that its backslashes are two -/
def shiftTex (F : Fmt K) (sh : Shift) (p ref : Par K) : Str :=
  if sh.indep || sh.subset then
    c!"\\quad(" ++ (if sh.subset then F.plus1 ((p.mean - ref.mean) / max (F.sqrt |p.err ^ 2 - ref.err ^ 2|) (ref.err / 20)) ++ c!" \\sigma_s" else []) ++
      (if sh.indep then c!", " ++ F.plus1 ((p.mean - ref.mean) / F.sqrt (p.err ^ 2 + ref.err ^ 2)) ++ c!" \\sigma_i" else []) ++ c!")"
  else c!"\\quad(" ++ F.plus1 ((p.mean - ref.mean) / ref.err) ++ c!" \\\\sigma)"

/-- `parWithName` -/
def find? (ps : List (Par K)) (name : Str) : Option (Par K) := ps.find? (fun p => p.name == name)

/-- the shift is added if there is a reference and a limit (types.py:801-803) -/
def addShift (F : Fmt K) (sh : Shift) (ref : Option (List (Par K))) (p : Par K) (res : Str) : Str :=
  if res = noConstraint then res
  else match ref.bind (fun l => find? l p.name) with
    | none => res
    | some r => res ++ shiftTex F sh p r

/-- `texValues` (types.py:757-828); `best` has the best fit values, if there are any -/
def texValues (F : Fmt K) (m : Marge K) (best : Option (Str → K)) (ref : Option (List (Par K))) (sh : Shift) (name : Str) (limit : Nat) : Except Err (Option (List Str)) :=
  match find? m.names name with
  | none => .ok none
  | some p => match limitAt p.limits limit with
    | none => .error .index
    | some lim => match limTex F p lim limit with
      | .error e => .error e
      | .ok res => match best with
        | none => .ok (some [addShift F sh ref p res])
        | some b => match F.sigSci (b p.name) ((lim.upper - lim.lower) / 10) (-((lim.upper - lim.lower) / 10)) true with
          | .error e => .error e
          | .ok (s, _, _, e) => .ok (some [addShift F sh ref p res, withPower s e])

/-! ## Labels -/

variable [FloorRing K]

/-- `limitText` (types.py:744-748); `round` gives an integer, printed without `.0` -/
def limitText (m : Marge K) (limit : Nat) : Except Err Str := match limitAt m.limits limit with
  | none => .error .index
  | some l => .ok (showInt (roundEven (l * 100)))

/-- `getColumnLabels` (types.py:750-755) -/
def columnLabels (m : Marge K) (hasBest : Bool) (limit : Nat) : Except Err (List Str) := match limitText m limit with
  | .error e => .error e
  | .ok t => .ok ((if hasBest then [c!"Best fit"] else []) ++ [t ++ c!"\\% limits"])

/-! ## Snippets -/

/-- one parameter of `getLatex` (mcsamples.py:2170-2177): label and text -/
def latexOf (F : Fmt K) (m : Marge K) (label : Par K → Str) (limit : Nat) (name : Str) : Except Err (Option (Str × Str)) :=
  match texValues F m none none ⟨false, false⟩ name limit with
  | .error e => .error e
  | .ok none => .ok none
  | .ok (some []) => .error .index
  | .ok (some (t :: _)) => match find? m.names name with
    | none => .error .type
    | some p => .ok (some (label p, t))

/-- `getLatex` for a list of parameters, or all (mcsamples.py:2147-2179) -/
def getLatex (F : Fmt K) (m : Marge K) (label : Par K → Str) (limit : Nat) : List Str → Except Err (List (Option (Str × Str)))
  | [] => .ok []
  | n :: ns => match latexOf F m label limit n with
    | .error e => .error e
    | .ok x => match getLatex F m label limit ns with
      | .error e => .error e
      | .ok xs => .ok (x :: xs)

/-- `getInlineLatex` (mcsamples.py:2181-2197) -/
def inlineLatex (F : Fmt K) (m : Marge K) (label : Par K → Str) (limit : Nat) (name : Str) : Except Err Str :=
  match getLatex F m label limit [name] with
  | .error e => .error e
  | .ok (some (l, t) :: _) => .ok (if t.head? = some '<' ∨ t.head? = some '>' then l ++ c!" " ++ t else l ++ c!" = " ++ t)
  | .ok _ => .error .value

end cells

/-- the functions of `Verif.Model.NumFmt`; `dec` is the exact decimal of a float, `fix` and `plus` print with one decimal -/
def numFmt (dec : ℚ → NumFmt.Dec) (sqrt : ℚ → ℚ) (tol : ℚ) (fix plus : ℚ → Str) (sigf err : Nat) : Fmt ℚ where
  sig v p m := match NumFmt.namesigFigs sigf err (dec v) (dec p) (dec m) false with
    | .ok (a, b, _) => .ok (a, b)
    | .error _ => .error .zeroDivision
  sigSci v p m w := match NumFmt.namesigFigsSci sigf err (dec (max |v - m| |v + p|)) (dec v) (dec p) (dec m) w with
    | .ok ((a, b, c), e) => .ok (a, b, c, e)
    | .error _ => .error .zeroDivision
  num x := NumFmt.numberFigsSci (dec x) 3
  plusMinus n u l := match NumFmt.plusMinusLimit tol n u l with
    | some b => .ok b
    | none => .error .zeroDivision
  fix1 := fix
  plus1 := plus
  sqrt := sqrt

/-! ## Tables -/

/-- the attributes of a formatter (types.py:166-181, 229-239, 245-255): `lines` are those for the positions that have their own -/
structure Style where
  border : Str
  major : Str
  minor : Str
  colDiv : Str
  hline : Str
  lines : Dict Str Str
  /-- `titleSubColumn` has dividers -/
  boxed : Bool
  /-- `belowTitleLine` is a partial rule -/
  cline : Bool

/-- `TableFormatter` (types.py:166-181) -/
def plainStyle : Style where
  border := c!"|"
  major := c!"|"
  minor := c!"|"
  colDiv := c!"||"
  hline := c!"\\hline"
  lines := [(c!"aboveTitles", c!"\\hline"), (c!"belowTitles", [])]
  boxed := true
  cline := false

/-- `OpenTableFormatter` (types.py:229-242) -/
def openStyle : Style where
  border := []
  major := c!"|"
  minor := []
  colDiv := c!"||"
  hline := c!"\\hline"
  lines := [(c!"aboveTitles", c!"\\noalign{\\vskip 3pt}\\hline\\noalign{\\vskip 1.5pt}\\hline\\noalign{\\vskip 5pt}"), (c!"belowTitles", c!"\\noalign{\\vskip 3pt}\\hline"),
    (c!"aboveHeader", []), (c!"belowHeader", c!"\\hline"), (c!"belowFinalRow", [])]
  boxed := false
  cline := false

/-- `NoLineTableFormatter` (types.py:245-258) -/
def noLineStyle : Style where
  border := []
  major := []
  minor := []
  colDiv := c!"|"
  hline := []
  lines := [(c!"aboveTitles", c!"\\noalign{\\vskip 3pt}\\hline\\noalign{\\vskip 1.5pt}\\hline\\noalign{\\vskip 5pt}"), (c!"belowTitles", c!"\\noalign{\\vskip 3pt}\\hline"),
    (c!"aboveHeader", []), (c!"belowHeader", c!"\\hline"), (c!"belowFinalRow", c!"\\hline"), (c!"belowBlockRow", c!"\\hline")]
  boxed := false
  cline := true

/-- `getLine` (types.py:183-186) -/
def getLine (st : Style) (pos : Str) : Str := (st.lines.get? pos).getD st.hline

/-- the columns of one result (types.py:192) -/
def part (st : Style) (cpr : Nat) : Str := st.major ++ times (c!" c" ++ st.minor) (cpr - 1) ++ c!" c"

/-- the column specification (types.py:193-195) -/
def colSpec (st : Style) (ncol cpr nres : Nat) : Str :=
  st.border ++ c!" l " ++ times (part st cpr) nres ++ times (st.colDiv ++ c!" l " ++ times (part st cpr) nres) (ncol - 1) ++ st.border

/-- `startTable` (types.py:191-195) -/
def startTable (st : Style) (ncol cpr nres : Nat) : Str := c!"\\begin{tabular} {" ++ colSpec st ncol cpr nres ++ c!"}"

/-- `texEscapeText` (types.py:22-23) -/
def texEscape (s : Str) : Str := replaceChar '_' c!"{\\textunderscore}" s

/-- `titleSubColumn` with `formatTitle` (types.py:200-205, 241-242) -/
def titleSub (st : Style) (n : Nat) (title : Str) : Str :=
  c!" \\multicolumn{" ++ strNat n ++ c!"}{" ++ (if st.boxed then st.major ++ c!"c" ++ st.major else c!"c") ++ c!"}{\\bf " ++ texEscape title ++ c!"}"

/-- the row of titles (types.py:349-351) -/
def titleRow (st : Style) (ncol cpr : Nat) (titles : List Str) : Str :=
  join colSep (List.replicate ncol (titleSub st 1 [] :: titles.map (titleSub st cpr))).flatten ++ endOfRow

/-- `belowTitleLine` (types.py:188-189, 257-258) -/
def belowTitle (st : Style) (cpr nres : Nat) : Str :=
  if st.cline then c!"\\noalign{\\vskip 3pt}\\cline{2-" ++ strNat (cpr * nres + 1) ++ c!"}\\noalign{\\vskip 3pt}" else getLine st c!"belowTitles"

/-- `addTitlesRow` (types.py:347-355) -/
def titleLines (st : Style) (ncol cpr nres : Nat) : Option (List Str) → List Str
  | none => []
  | some ts => [getLine st c!"aboveTitles", titleRow st ncol cpr ts] ++ (if belowTitle st cpr nres = [] then [] else [belowTitle st cpr nres])

/-- `addHeaderRow` (types.py:357-364) -/
def headerLines (st : Style) (header : Str) : List Str := [getLine st c!"aboveHeader", header, getLine st c!"belowHeader"]

/-- the line below a row that is not the last (types.py:326-329); `name` is that of its first parameter -/
def lineBelow (st : Style) (ncol : Nat) (blockEnd : Option (List Str)) (name : Str) : Str :=
  if ncol = 1 ∧ name ∈ blockEnd.getD [] then getLine st c!"belowBlockRow" else getLine st c!"belowRow"

/-- the rows and the lines below them (types.py:324-331) -/
def bodyLines (st : Style) (ncol : Nat) (blockEnd : Option (List Str)) : List (Str × Str) → List Str
  | [] => []
  | [r] => [r.2, getLine st c!"belowFinalRow"]
  | r :: r2 :: rs => r.2 :: lineBelow st ncol blockEnd r.1 :: bodyLines st ncol blockEnd (r2 :: rs)

/-- the lines of `ResultTable` (types.py:320-332); rows come with the name of their first parameter -/
def tableLines (st : Style) (ncol cpr nres : Nat) (titles blockEnd : Option (List Str)) (header : Str) (rows : List (Str × Str)) : List Str :=
  startTable st ncol cpr nres :: (titleLines st ncol cpr nres titles ++ headerLines st header ++ bodyLines st ncol blockEnd rows ++ [c!"\\end{tabular}"])

/-- a row with the name of its first parameter -/
def namedRow {α : Type} (name label : α → Str) (derived : α → Bool) (results : List (Result α)) (ncol : Nat) (row : List α) : Except TErr (Str × Str) :=
  match fullTableRow label derived results ncol row with
  | .error e => .error e
  | .ok s => .ok (((row.head?).map name).getD [], s)

/-- `ResultTable.__init__` (types.py:266-332) for given parameters -/
def resultTable {α : Type} (name label : α → Str) (derived : α → Bool) (st : Style) (ncol : Nat) (params : List α) (results : List (Result α)) (titles blockEnd : Option (List Str)) :
    Except TErr (List Str) :=
  match results with
  | [] => .error .indexError
  | r :: _ => match r.labels with
    | .error e => .error e
    | .ok ls => match tableRows params ncol with
      | .error e => .error e
      | .ok rows => match headerRow results ncol with
        | .error e => .error e
        | .ok h => match mapE (namedRow name label derived results ncol) rows with
          | .error e => .error e
          | .ok rs => .ok (tableLines st ncol ls.length results.length titles blockEnd h rs)

/-- the lines of a document (types.py:396-406) -/
def documentLines (preamble : Option Str) (packages lines : List Str) : List Str :=
  [c!"\\documentclass{article}", c!"\\pagestyle{empty}"] ++ packages.map (fun p => c!"\\usepackage{" ++ p ++ c!"}") ++ [c!"\\renewcommand{\\arraystretch}{1.5}"] ++
    (if preamble.getD [] = [] then [] else [preamble.getD []]) ++ [c!"\\begin{document}"] ++ lines ++ [c!"\\end{document}"]

/-- `tableTex` (types.py:388-409) -/
def tableTex (document : Bool) (preamble : Option Str) (packages lines : List Str) : Str :=
  join ['\n'] (if document then documentLines preamble packages lines else lines)

/-- the argument `results`: one object or a list (types.py:272-273) -/
inductive Arg (α : Type)
  | one (r : Result α)
  | list (l : List (Result α))

/-- the results of the argument: `results[0]` fails for one object (types.py:295, 305) -/
def Arg.results {α : Type} : Arg α → Except TErr (List (Result α))
  | .one _ => .error .typeError
  | .list l => .ok l

end Verif.TexTable
