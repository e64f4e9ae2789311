import Mathlib.Algebra.Field.Basic
import Verif.Py.Dict
import Verif.Py.Str
import Verif.Py.Num
import Verif.Py.Float

/-!
# Model of the foreground post-processing (`python/planck/plik_postprocess.py`, `python/planck/plikParams.py`)

Reading of best-fit files with regular expressions, insertion of three derived parameters into chains, names and best-fit files, sums of foreground components,
choice of the data file and the mark of processed chains.
Simplified: numbers are exact (chains are rewritten with seven digits); the components are functions of their parameters; regular expressions are matched with a small
backtracking matcher that tries alternatives in python's order.
-/

namespace Verif.PlikPost
open Verif.Py

inductive Err where
  | value | index | key | assertion | name | type | other
deriving DecidableEq, Repr

/-! ### regular expressions -/

/-- the parts of the expressions used: `\s+`, `(\d+)`, `(.+?)` and fixed text -/
inductive Atom where
  | ws | digits | lazy | lit (t : Str)

/-- number of characters at the beginning with a property -/
def run (p : Char → Bool) (s : Str) : Nat := (s.takeWhile p).length

/-- `n, n-1, …, 1`: order of a greedy repetition -/
def down (n : Nat) : List Nat := ((List.range n).map (· + 1)).reverse

/-- `1, 2, …, n`: order of a lazy repetition -/
def up (n : Nat) : List Nat := (List.range n).map (· + 1)

/-- match at the beginning; the groups of the first match in python's order -/
def matchAt : List Atom → Str → Option (List Str)
  | [], _ => some []
  | .ws :: r, s => (down (run isWs s)).findSome? fun k => matchAt r (s.drop k)
  | .digits :: r, s => (down (run Char.isDigit s)).findSome? fun k => (matchAt r (s.drop k)).map (s.take k :: ·)
  | .lazy :: r, s => (up (run (· ≠ '\n') s)).findSome? fun k => (matchAt r (s.drop k)).map (s.take k :: ·)
  | .lit t :: r, s => if startsWith t s then matchAt r (s.drop t.length) else none

/-- `re.search`: the first position that matches -/
def search (pat : List Atom) (s : Str) : Option (List Str) := s.tails.findSome? (matchAt pat)

/-- `\s+(\d+)\s+(.+?)\s+(.+?)\s+` (plik_postprocess.py:16, 177) -/
def entryPat : List Atom := [.ws, .digits, .ws, .lazy, .ws, .lazy, .ws]

/-- `\s+\d+\s+.+?\s+(chi2_.+?)\s+` (plik_postprocess.py:155) -/
def chi2Pat : List Atom := [.ws, .digits, .ws, .lazy, .ws, .lit c!"chi2_", .lazy, .ws]

/-! ### reading (plik_postprocess.py:12-27) -/

variable {F : Type}

/-- one line of `parse_minimumfile` -/
def minLine (fl : Str → Option F) (d : Dict Str F) (l : Str) : Except Err (Dict Str F) :=
  match search entryPat l with
  | some [_, v, n] => match fl v with
    | some x => .ok (d.set n x)
    | none => .error .value
  | _ => .ok d

/-- `parse_minimumfile` -/
def parseMin (fl : Str → Option F) : List Str → Dict Str F → Except Err (Dict Str F)
  | [], d => .ok d
  | l :: ls, d => match minLine fl d l with
    | .error e => .error e
    | .ok d' => parseMin fl ls d'

/-- `parse_paraname`: first words of lines that are not blank -/
def paraNames (ls : List Str) : List Str := ls.filterMap fun l => (splitWs (strip l)).head?

/-- fixed parameters of a `.ranges` file (plik_postprocess.py:136-141) -/
def rangeLine (fl : Str → Option F) (d : Dict Str F) (l : Str) : Except Err (Dict Str F) :=
  match splitWs l with
  | [a, b, c] => if b = c then match fl b with
      | some x => .ok (d.set a x)
      | none => .error .value
    else .ok d
  | _ => .error .value

def parseRanges (fl : Str → Option F) : List Str → Dict Str F → Except Err (Dict Str F)
  | [], d => .ok d
  | l :: ls, d => match rangeLine fl d l with
    | .error e => .error e
    | .ok d' => parseRanges fl ls d'

/-! ### the new file of names (plik_postprocess.py:119-134) -/

def isChi2 (l : Str) : Bool := startsWith c!"chi2_" l

/-- the lines of the new parameters -/
def newLines : List Str := [c!"f2000_143*\tf_{2000}^{143}", c!"f2000_x*\tf_{2000}^{143\\times217}", c!"f2000_217*\tf_{2000}^{217}"]

/-- `ib`: index at which the loop over lines stopped; without a line of chi squared that of the last line; no line at all: the variable is not defined -/
def insertAt (ls : List Str) : Except Err Nat :=
  match ls.findIdx? isChi2 with
  | some i => .ok i
  | none => if ls = [] then .error .name else .ok (ls.length - 1)

/-- the lines printed before the new ones: up to the break, else all -/
def beforeNew (ls : List Str) : List Str := ls.takeWhile fun l => !isChi2 l

/-- lines of the new file -/
def newNames (ls : List Str) : Except Err (List Str) :=
  match insertAt ls with
  | .error e => .error e
  | .ok ib => .ok ((beforeNew ls).map rstrip ++ newLines ++ (ls.drop ib).map rstrip)

/-! ### the new chain (plik_postprocess.py:186-216) -/

/-- a foreground component: names of its parameters and its 3×3 temperature block at multipole 2000 -/
structure Comp (F : Type) where
  varpar : List Str
  eval : List F → Nat → Nat → F

/-- `ldc`: library name to column of the chain (plik_postprocess.py:112-117) -/
def chainCols (keys ppf cpf : List Str) : Dict Str Nat :=
  (keys.zip ppf).foldl (fun d kp => if cpf.contains kp.2 then d.set kp.1 (cpf.idxOf kp.2) else d) []

/-- `rdc` of a best-fit file: every parameter must be there (plik_postprocess.py:57, 146) -/
def fixedVals : List (Str × Str) → Dict Str F → Dict Str (Option F) → Except Err (Dict Str (Option F))
  | [], _, r => .ok r
  | kp :: kps, dc, r => match dc.get? kp.2 with
    | none => .error .key
    | some x => fixedVals kps dc (r.set kp.1 (some x))

/-- `rdc` of a ranges file: None for what is not fixed (plik_postprocess.py:142) -/
def fixedRanges (kps : List (Str × Str)) (dc : Dict Str F) : Dict Str (Option F) := kps.foldl (fun r kp => r.set kp.1 (dc.get? kp.2)) []

/-- value of one parameter: from the chain, else the fixed value; None is no number for the components (plik_postprocess.py:202-206) -/
def paramOf (ldc : Dict Str Nat) (rdc : Dict Str (Option F)) (row : List F) (k : Str) : Except Err F :=
  match ldc.get? k with
  | some j => match row[j + 2]? with
    | some x => .ok x
    | none => .error .index
  | none => match rdc.get? k with
    | some (some x) => .ok x
    | some none => .error .type
    | none => .error .key

def paramsOf (ldc : Dict Str Nat) (rdc : Dict Str (Option F)) (row : List F) : List Str → Except Err (List F)
  | [] => .ok []
  | k :: ks => match paramOf ldc rdc row k with
    | .error e => .error e
    | .ok x => match paramsOf ldc rdc row ks with
      | .error e => .error e
      | .ok xs => .ok (x :: xs)

/-- sum of the components for a row (plik_postprocess.py:199-207) -/
def total [Field F] (ldc : Dict Str Nat) (rdc : Dict Str (Option F)) (row : List F) : List (Comp F) → (Nat → Nat → F) → Except Err (Nat → Nat → F)
  | [], res => .ok res
  | c :: cs, res => match paramsOf ldc rdc row c.varpar with
    | .error e => .error e
    | .ok xs => total ldc rdc row cs fun a b => res a b + c.eval xs a b

/-- the row with three more columns (plik_postprocess.py:209-213) -/
def newRow [Field F] (ib : Nat) (llp1 : F) (row : List F) (res : Nat → Nat → F) : List F :=
  row.take (ib + 2) ++ [res 1 1 * llp1, res 1 2 * llp1, res 2 2 * llp1] ++ row.drop (ib + 2)

def newRows [Field F] (ib : Nat) (llp1 : F) (ldc : Dict Str Nat) (rdc : Dict Str (Option F)) (cs : List (Comp F)) : List (List F) → Except Err (List (List F))
  | [] => .ok []
  | row :: rows => match total ldc rdc row cs fun _ _ => 0 with
    | .error e => .error e
    | .ok res => match newRows ib llp1 ldc rdc cs rows with
      | .error e => .error e
      | .ok out => .ok (newRow ib llp1 row res :: out)

/-- the loop over a chain file: a file of one row is read as a vector and cannot be indexed by rows (plik_postprocess.py:187, 204, 209) -/
def newChain [Field F] (ib : Nat) (llp1 : F) (ldc : Dict Str Nat) (rdc : Dict Str (Option F)) (cs : List (Comp F)) (rows : List (List F)) : Except Err (List (List F)) :=
  if rows.length = 1 then .error .index else newRows ib llp1 ldc rdc cs rows

/-! ### the new best-fit file (plik_postprocess.py:147-184) -/

/-- `"%5d"` -/
def fmt5 (n : Nat) : Str := rjust 5 (strNat n)

/-- renumbering of the lines from that of chi squared on, until a line that is none of the list -/
def renumber (keep : Bool) (cnt : Nat) : List Str → List Str
  | [] => []
  | l :: ls =>
    if (search entryPat l).isSome && keep then (fmt5 cnt ++ rstrip (l.drop 5)) :: renumber keep (cnt + 1) ls
    else rstrip l :: renumber false cnt ls

/-- the new file; `fmtv` prints number, value and name of the three parameters -/
def newMinimum (fmtv : Nat → Nat → Str) (ls : List Str) : Except Err (List Str) :=
  match ls.findIdx? fun l => (search chi2Pat l).isSome with
  | none => .error .assertion
  | some ib => match (splitWs (strip (ls[ib]?.getD []))).head? with
    | none => .error .index
    | some w => match intStr w with
      | none => .error .value
      | some vl => .ok ((ls.take ib).map rstrip ++ [fmtv vl 0, fmtv (vl + 1) 1, fmtv (vl + 2) 2] ++ renumber true (vl + 3) (ls.drop ib))

/-! ### file names with a tag (plik_postprocess.py:119, 188-192) -/

def newNamesFile (tag f : Str) : Str := f.take (f.length - (c!".paramnames").length) ++ tag ++ c!".paramnames"

def newChainFile (tag f : Str) : Str :=
  if tag ≠ [] then join ['_'] ((splitChar '_' f).dropLast ++ [replaceChar '_' [] tag, (splitChar '_' f).getLast?.getD []]) else f

/-! ### foregrounds of a best fit (plik_postprocess.py:41-91) -/

/-- the array of a component: size and values at one multipole -/
abbrev Arr (F : Type) := Nat × (Nat → Nat → F)

/-- one step of the loop: a larger component takes the sum so far into its corner, else the arrays are added (plik_postprocess.py:60-67) -/
def addArr [Field F] (res pes : Arr F) : Except Err (Arr F) :=
  if res.1 < pes.1 then .ok (pes.1, fun a b => if a < res.1 ∧ b < res.1 then pes.2 a b + res.2 a b else pes.2 a b)
  else if res.1 = pes.1 then .ok (res.1, fun a b => res.2 a b + pes.2 a b)
  else .error .value

def sumArr [Field F] : List (Arr F) → Arr F → Except Err (Arr F)
  | [], res => .ok res
  | p :: ps, res => match addArr res p with
    | .error e => .error e
    | .ok res' => sumArr ps res'

/-- placement of three channels among six (plik_postprocess.py:69-77) -/
def place [Field F] (noT : Bool) (res : Arr F) : Nat → Nat → F :=
  if res.1 = 6 then res.2
  else if noT then fun a b => if 3 ≤ a ∧ 3 ≤ b then res.2 (a - 3) (b - 3) else 0
  else fun a b => if a < 3 ∧ b < 3 then res.2 a b else 0

def fgArr [Field F] (noT : Bool) (ps : List (Arr F)) : Except Err (Nat → Nat → F) :=
  match sumArr ps (3, fun _ _ => 0) with
  | .error e => .error e
  | .ok r => .ok (place noT r)

/-- labels of the columns (plik_postprocess.py:84) -/
def fgLabels : List Str :=
  [c!"TT100x100", c!"TT143X143", c!"TT143X217", c!"TT217X217", c!"EE100X100", c!"EE100X143", c!"EE100X217", c!"EE143X143", c!"EE143X217", c!"EE217X217",
   c!"TE100X100", c!"TE100X143", c!"TE100X217", c!"TE143X143", c!"TE143X217", c!"TE217X217"]

/-- entries of the columns (plik_postprocess.py:88-89) -/
def fgColumns : List (Nat × Nat) :=
  [(0, 0), (1, 1), (1, 2), (2, 2), (3, 3), (3, 4), (3, 5), (4, 4), (4, 5), (5, 5), (0, 3), (0, 4), (0, 5), (1, 4), (1, 5), (2, 5)]

/-! ### all chains of a grid (plikParams.py:17-46) -/

/-- data file, parameter file and whether temperature foregrounds are added (plikParams.py:24-35); an option that is not there is empty -/
def chooseData (opt : Str → Str) : Except Err (Str × Str × Bool) :=
  if opt c!"clik_data_plik" ≠ [] then .ok (opt c!"clik_data_plik", opt c!"clik_params_plik", true)
  else if opt c!"clik_data_plikTE" ≠ [] then .ok (opt c!"clik_data_plikTE", opt c!"clik_params_plikTE", false)
  else if opt c!"clik_data_plikEE" ≠ [] then .ok (opt c!"clik_data_plikEE", opt c!"clik_params_plikEE", false)
  else .error .other

/-- files of a chain: lines of names, rows of each chain file, the mark -/
structure Files (F : Type) where
  names : List Str
  chains : List (List (List F))
  done : Bool

/-- what is done to each chain file: `add names rows`, the names are those at the beginning -/
def processChains (add : List (List F) → List (List F)) : Nat → List (List (List F)) → List (List (List F))
  | 0, cs => cs
  | _, [] => []
  | n + 1, c :: cs => add c :: processChains add n cs

/-- a run interrupted after the names and `stop` chain files were written; `stop` at least the number of chains: a complete run -/
def runJob (add : List Str → List (List F) → List (List F)) (stop : Nat) (s : Files F) : Except Err (Files F) :=
  if s.done then .ok s
  else match newNames s.names with
    | .error e => .error e
    | .ok ns => .ok ⟨ns, processChains (add s.names) stop s.chains, decide (s.chains.length ≤ stop)⟩

end Verif.PlikPost
