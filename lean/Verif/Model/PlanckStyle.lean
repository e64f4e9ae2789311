import Verif.Model.TexTable
import Verif.Py.Replace
import Verif.Py.Path

/-!
# Model of the Planck plot and table style (`python/planckStyle.py`)

Modelled: the labels of data combinations, the bands of `plotBands`, the directory of exported files, the choice of plotter and the font sizes that
the functions for plotters leave in the module's settings, the likelihood files of `getLikelihood`, and the table formatter with the rows that
`ResultTable` makes with it.  Simplified: numbers are elements of a field; plotters are the directory that they read; the existence of files is a
parameter; in tables the texts of values and labels are parameters; `rcParams` has the numerical sizes of `params` (planckStyle.py:13-18).
-/

namespace Verif.PlanckStyle
open Verif.Py
open Verif.Table (times)
open Verif.TexTable (texEscape)

/-! ## Labels -/

/-- `datalabel` (planckStyle.py:49-78) -/
def datalabel : List (Str × Str) :=
  [(c!"plikHM_TT_lowl_lowE", c!"\\textit{Planck} TT$+$lowE"), (c!"plikHM_TE_lowE", c!"\\textit{Planck} TE$+$lowE"),
   (c!"plikHM_EE_lowE", c!"\\textit{Planck} EE$+$lowE"), (c!"plikHM_TE_lowl_lowE", c!"\\textit{Planck} TE+$lowT,P"),
   (c!"plikHM_EE_lowl_lowE", c!"\\textit{Planck} EE$+$lowT,P"), (c!"plikHM_TTTEEE_lowl_lowE", c!"\\textit{Planck} TT,TE,EE$+$lowE"),
   (c!"plikHM_TT_lowl", c!"\\textit{Planck} TT"), (c!"plikHM_TTTEEE_lowl", c!"\\textit{Planck} TT,TE,EE$+$lowT"),
   (c!"plikHM_TT_lowl_lowE_lensing", c!"\\textit{Planck} TT$+$lowE" ++ c!"$+$lensing"),
   (c!"plikHM_TTTEEE_lowl_lowE_lensing", c!"\\textit{Planck} TT,TE,EE$+$lowE" ++ c!"$+$lensing")]

/-- `shortlabel` (planckStyle.py:95-97) -/
def shortlabel : List (Str × Str) := datalabel.map (fun p => (p.1, replaceStr c!"\\textit{Planck} " [] p.2))

/-! ## Bands -/

/-- a filled band: its lower and upper curve and its opacity -/
structure Band (K : Type) where
  lower : List K
  upper : List K
  alpha : K

section bands
variable {K : Type} [Field K] [LinearOrder K]

/-- `means - k * errors` and `means + k * errors` -/
def band (means errors : List K) (k : K) (alpha : K) : Band K where
  lower := List.zipWith (fun m e => m - k * e) means errors
  upper := List.zipWith (fun m e => m + k * e) means errors
  alpha := alpha

/-- a band that is drawn only if there are enough (planckStyle.py:151-152) -/
def extra (means errors : List K) (k : K) (wanted : Prop) [Decidable wanted] (alpha : Option K) : Option (List (Band K)) :=
  if wanted then alpha.map (fun a => [band means errors k a]) else some []

/-- `plotBands` (planckStyle.py:149-154) with an array of means, in the order of drawing; `none`: IndexError -/
def plotBands (means errors : List K) (nbands : Int) (alphas : List K) : Option (List (Band K)) :=
  match extra means errors 3 (nbands > 2) alphas[2]?, extra means errors 2 (nbands > 1) alphas[1]?, alphas[0]? with
  | some b3, some b2, some a => some (b3 ++ b2 ++ [band means errors 1 a])
  | _, _, _ => none

/-- `means` as a scalar (planckStyle.py:150) -/
def plotBandsScalar (x : List K) (mean : K) (errors : List K) (nbands : Int) (alphas : List K) : Option (List (Band K)) :=
  plotBands (x.map (fun _ => mean)) errors nbands alphas

end bands

/-! ## Plotters -/

/-- the directory of `doExport` (planckStyle.py:180-181), for a system with the separator `/` -/
def exportDir (base : Str) (adir : Option Str) : Option Str := match adir with
  | none => none
  | some d => if d = [] then some d else if '/' ∈ d then some d else some (Path.join base d)

/-- `a or b` for a directory -/
def orDir (a : Option Str) (b : Str) : Str := if a.getD [] = [] then b else a.getD []

/-- the directory that the plotter of `getPlotter` reads (planckStyle.py:257-261); `none`: the variable is not set by this call -/
def plotterDir (usePlotData : Bool) (rootdir : Str) (plotData chainDir : Option Str) : Option Str :=
  if (chainDir.getD []) ≠ [] ∨ usePlotData = false then some (orDir chainDir rootdir)
  else if plotData.isSome ∨ usePlotData = true then some (orDir plotData (Path.join rootdir c!"plot_data"))
  else none

/-- the sizes in the settings of the module -/
structure Sizes (K : Type) where
  axes : K
  colorbar : K
  legend : K
  label : K
  font : K
  subplot : K
  ratio : Option K
  width : Option K
deriving DecidableEq

/-- arguments of the functions for plotters that reach the sizes -/
structure RcArgs (K : Type) where
  axes : Option K
  label : Option K
  legend : Option K

inductive Err
  | type
deriving DecidableEq

section sizes
variable {K : Type} [Field K] [LinearOrder K]

/-- `set_with_subplot_size(size)` (plots.py:266-278) -/
def setSubplot (size : K) (s : Sizes K) : Sizes K := { s with subplot := size, ratio := none }

/-- `a or b` for a size -/
def orSize (a : Option K) (b : K) : K := match a with | none => b | some v => if v = 0 then b else v

/-- `rc_sizes` (plots.py:280-291) with the sizes of `params` (planckStyle.py:13-18) -/
def rcSizes (a : RcArgs K) (s : Sizes K) : Sizes K :=
  { s with font := 8, legend := orSize a.legend 8, label := orSize a.label 9, axes := orSize a.axes 8 }

/-- `getSubplotPlotter` (planckStyle.py:264-269): the settings after it -/
def subplotPlotter (size : K) (s : Sizes K) : Sizes K :=
  let s1 := setSubplot size s
  { s1 with axes := s1.axes + 2, colorbar := s1.colorbar + 2, legend := s1.label + 1 }

/-- `getSinglePlotter` (planckStyle.py:288-291) -/
def singlePlotter (width : K) (s : Sizes K) : Sizes K := rcSizes ⟨none, none, none⟩ { setSubplot width s with width := some width }

/-- `inch_mm` -/
def inchMm : K := 393700787 / 10000000000

/-- `getPlotterWidth` (planckStyle.py:272-285): keyword arguments go to `rcSizes`, which has only the sizes (`subplot_size` is looked up but not removed, so
that it also goes there) -/
def plotterWidth (size : K) (subplotSize : Option K) (others : List Str) (a : RcArgs K) (s : Sizes K) : Except Err (Sizes K) :=
  let w := if size = 1 then 88 * inchMm else if size = 2 then 120 * inchMm else if size = 3 then 180 * inchMm else size * inchMm
  let s1 := setSubplot (subplotSize.getD 2) { s with width := some w }
  if subplotSize.isSome ∨ others ≠ [] then .error .type
  else .ok (rcSizes a s1)

/-- a call of one of the functions -/
inductive Call (K : Type)
  | subplot (size : K)
  | single (width : K)

def run (s : Sizes K) : List (Call K) → Sizes K
  | [] => s
  | .subplot x :: l => run (subplotPlotter x s) l
  | .single w :: l => run (singlePlotter w s) l

end sizes

/-! ## Likelihoods -/

/-- what `getLikelihood` loads (planckStyle.py:215-248) -/
inductive Like
  | plik (file params : Str)
  | plikBoth (file params binned : Str)
  | camspec (onlyTT : Bool)
  | notFound (file : Str)
deriving DecidableEq

/-- `os.path.join(os.path.dirname(__file__), '../', s.replace('%DATASETDIR%', 'data/'))` -/
def installed (code s : Str) : Str := Path.join (Path.join code c!"../") (replaceStr c!"%DATASETDIR%" c!"data/" s)

def getLikelihood (code : Str) (exist : Str → Bool) (chainRoot plikFile plikParams : Str) (unbinned : Bool) : Like :=
  if plikFile ≠ [] then
    let file := if exist plikFile then plikFile else installed code plikFile
    let params := if exist plikFile then plikParams else installed code plikParams
    if exist file = false then .notFound file
    else if unbinned then .plikBoth file params (replaceStr c!".clik" c!"_bin1.clik" file)
    else .plik file params
  else .camspec (contains c!"_TT_" chainRoot)

/-! ## Tables -/

/-- `tableOpen` (planckStyle.py:302-321) -/
def tableOpen : Str :=
  c!"\n\\begingroup\n\\openup 5pt\n\\newdimen\\tblskip \\tblskip=5pt\n\\nointerlineskip\n\\vskip -3mm\n\\scriptsize\n\\setbox\\tablebox=\\vbox{\n" ++
  c!"    \\newdimen\\digitwidth\n    \\setbox0=\\hbox{\\rm 0}\n    \\digitwidth=\\wd0\n    \\catcode`\"=\\active\n    \\def\"{\\kern\\digitwidth}\n%\n" ++
  c!"    \\newdimen\\signwidth\n    \\setbox0=\\hbox{+}\n    \\signwidth=\\wd0\n    \\catcode`!=\\active\n    \\def!{\\kern\\signwidth}\n%\n\\halign{"

/-- the columns of the results when there are many with two columns each (planckStyle.py:365-369); `k` results are left -/
def wideCols : Nat → Str
  | 0 => []
  | k + 1 => c!"\\hfil$#$\\hfil\\tabskip=0.5em&\n" ++ (if k = 0 then [] else c!"\\hfil$#$\\hfil\\tabskip=1.7em&\n") ++ wideCols k

/-- `startTable` (planckStyle.py:362-373) -/
def startTable (cpr nres : Nat) : Str :=
  tableOpen ++ c!"\n" ++ c!"\\hbox to 0.9in{$#$\\leaderfil}\\tabskip=1.5em&" ++
    (if nres > 3 ∧ cpr = 2 then wideCols nres else times c!"$#$\\hfil&" (cpr * nres - 1)) ++
    c!"\\hfil$#$\\hfil\\tabskip=0pt\\cr"

/-- `titleSubColumn` (planckStyle.py:349-350, 378-379) -/
def titleSub (cpr : Nat) (title : Str) : Str := c!"\\multispan" ++ strNat cpr ++ c!"\\hfil " ++ texEscape title ++ c!"\\hfil"

/-- the row of titles (types.py:349-351) -/
def titleRow (ncol cpr : Nat) (titles : List Str) : Str :=
  join c!"&" (List.replicate ncol (titleSub 1 [] :: titles.map (titleSub cpr))).flatten ++ c!"\\cr"

/-- the line below the titles (planckStyle.py:352-360) -/
def belowTitle (cpr nres : Nat) : Str :=
  c!"\\noalign{\\vskip -3pt}" ++
    (if cpr > 1 then c!"\n\\omit" ++ times (c!"&\\multispan" ++ strNat cpr ++ c!"\\hrulefill") nres ++ c!"\\cr" else [])

/-- the header (types.py:359-362) with the labels of the columns of all results -/
def headerRow (ncol : Nat) (labels : List Str) : Str :=
  join c!"&" (List.replicate ncol ((c!"Parameter" :: labels).map (fun s => c!"\\omit\\hfil " ++ s ++ c!"\\hfil"))).flatten ++ c!"\\cr"

/-- `textAsColumn` (planckStyle.py:381-398): there are no spaces, no dollars and no bold type -/
def textAsColumn (txt : Str) (separator : Bool) : Str := if separator then txt ++ c!"&" else txt

/-- `paramResultTex` (types.py:369-380): the second value is the best fit, which stands first -/
def resultTex (values : Option (List Str)) (cols : Nat) : Str := match values with
  | none => times (textAsColumn [] false) cols
  | some [] => []                                         -- IndexError
  | some [v] => textAsColumn v false
  | some (v :: b :: _) => textAsColumn b true ++ textAsColumn v false

/-- label and results of one parameter (types.py:335, 366-367, 382-383) -/
def paramTex (cols : Nat) (label : Str) (results : List (Option (List Str))) : Str :=
  textAsColumn label true ++ join c!"&" (results.map (fun r => resultTex r cols))

/-- `addFullTableRow` (types.py:334-338) -/
def fullRow (ncol cpr : Nat) (row : List (Str × List (Option (List Str)))) : Str :=
  join c!"&" (row.map (fun p => paramTex cpr p.1 p.2)) ++
    (if ncol = row.length then [] else times c!"&" ((1 + cpr * ((row.head?.map (fun p => p.2.length)).getD 0)) * (ncol - row.length))) ++ c!"\\cr"

end Verif.PlanckStyle
