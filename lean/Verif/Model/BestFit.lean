import Verif.Py.Float
import Verif.Py.Dict
import Verif.Py.Np
import Verif.Model.IniFile
import Verif.Model.NumFmt
import Verif.Model.MargeStats
import Mathlib.Analysis.SpecialFunctions.Log.Basic

/-!
# Best fit files and likelihood statistics

python/getdist/types.py:479-582 (BestFit), 733-742 (addBestFit), 828-866 (LikeStats), mcsamples.py:2002-2036 (_setLikeStats).

A file is the list of its lines (with their newlines), as given by `readlines`; a byte order mark is not modelled.  Numbers are exact;
`int` is modelled for digits without sign.
-/

namespace Verif.BestFit
open Verif.Py Verif.NumFmt
open Verif.Py.Np (cumsum searchsorted)

variable {K : Type} [Field K] [LinearOrder K] [IsStrictOrderedRing K] [FloorRing K]

inductive BErr
  | index
  | value
  | format
  | attribute
deriving DecidableEq, Repr

structure Par (K : Type) where
  number : Nat
  bestFit : K
  name : Str
  label : Str
  isFixed : Bool
  isDerived : Bool
deriving DecidableEq, Repr

/-- the name of a contribution: a text, or (without a kind) a list of one text -/
inductive CName
  | str (s : Str)
  | list (l : List Str)
deriving DecidableEq, Repr

/-- types.py:473-476 LikelihoodChi2 -/
structure Chi2 (K : Type) where
  name : CName
  tag : Option Str
  chisq : K
deriving DecidableEq, Repr

structure Best (K : Type) where
  weight : Option K := none
  logLike : K
  chiSquareds : List (Str × Chi2 K) := []
  names : List (Par K) := []
deriving DecidableEq, Repr

/-- `float(s)` -/
def fl (s : Str) : Except BErr K :=
  match floatStr s with
  | some v => .ok v
  | none => .error .value

/-- `line.strip().split('=')` -/
def eqParts (line : Str) : List Str := splitChar '=' (strip line)

/-- `float(first[1].strip())` -/
def eqValue (line : Str) : Except BErr K :=
  match (eqParts line)[1]? with
  | some v => fl (strip v)
  | none => .error .index

/-- `first[0].strip()` -/
def eqName (line : Str) : Str := strip ((eqParts line).headD [])

/-- types.py:512-514: the line of the likelihood -/
def likeLine (line : Str) : Except BErr K :=
  if eqName line ≠ c!"-log(Like)" then .error .format else eqValue line

/-- types.py:545-549: `number best_fit name label` -/
def paramLine (isFixed isDerived : Bool) (line : Str) : Except BErr (Par K) :=
  match (splitWsN 3 line).map strip with
  | [n, v, name, label] =>
    match intStr n with
    | some n => do
      let v ← fl v
      pure ⟨n, v, name, label, isFixed, isDerived⟩
    | none => .error .value
  | _ => .error .value

/-- types.py:534-537 -/
def tagName (name : Str) : Except BErr (Option Str × Str) :=
  if '=' ∈ name then
    match (splitChar '=' name).map strip with
    | [t, n] => .ok (some t, n)
    | _ => .error .value
  else .ok (none, name)

/-- types.py:526-540: one contribution to the likelihood.  Without `:` the name stays the list made by `split` -/
def likePart (line : Str) : Except BErr (Str × Chi2 K) :=
  match ((splitWsN 2 line).map strip).drop 1 with
  | [chisq, name] =>
    match (splitChar1 ':' name).map strip with
    | [kind, name] => do
      let (tag, name) ← tagName name
      let v ← fl chisq
      pure (kind, ⟨.str name, tag, v⟩)
    | [name] =>
      if name = ['='] then .error .attribute
      else do
        let v ← fl chisq
        pure ([], ⟨.list [name], none, v⟩)
    | _ => .error .value
  | _ => .error .value

/-- types.py:524-540: blank lines are skipped -/
def likeParts : List Str → Except BErr (List (Str × Chi2 K))
  | [] => .ok []
  | l :: ls =>
    if strip l = [] then likeParts ls
    else do
      let a ← likePart l
      let r ← likeParts ls
      pure (a :: r)

/-- types.py:520-550: the loop over the lines after the head, with the values of `chunks`, `isFixed`, `isDerived` -/
def body (wantFixed : Bool) : Nat → Bool → Bool → List Str → Except BErr (List (Par K) × List (Str × Chi2 K))
  | _, _, _, [] => .ok ([], [])
  | chunks, isFixed, isDerived, line :: rest =>
    if strip line = [] then
      if chunks + 1 = 3 then
        if rest.length ≤ 1 then .ok ([], [])
        else do
          let ls ← likeParts (rest.drop 1)
          pure ([], ls)
      else body wantFixed (chunks + 1) (!isFixed) true rest
    else if !isFixed || wantFixed then do
      let p ← paramLine isFixed isDerived line
      let r ← body wantFixed chunks isFixed isDerived rest
      pure (p :: r.1, r.2)
    else body wantFixed chunks isFixed isDerived rest

/-- types.py:512-550: from the line of the likelihood on -/
def loadFrom (wantFixed : Bool) (weight : Option K) : List Str → Except BErr (Best K)
  | [] => .error .index
  | line :: rest => do
    let l ← likeLine line
    match rest with
    | [] => .error .index
    | second :: rest' =>
      let r ← body wantFixed 0 false false (if strip second = [] then rest' else rest'.drop 1)
      pure ⟨weight, l, r.2, r.1⟩

/-- types.py:503-550 BestFit.loadFromFile -/
def load (wantFixed : Bool) : List Str → Except BErr (Best K)
  | [] => .error .index
  | first :: rest =>
    if eqName first = c!"weight" then do
      let w ← eqValue first
      loadFrom wantFixed (some w) rest
    else loadFrom wantFixed none (first :: rest)

/-- types.py:552-557: the table by kind -/
def byKind (l : List (Str × Chi2 K)) : Dict Str (List (Chi2 K)) :=
  l.foldl (fun d p => d.set p.1 ((d.get? p.1).getD [] ++ [p.2])) []

def insertKind (x : Str × List (Chi2 K)) : List (Str × List (Chi2 K)) → List (Str × List (Chi2 K))
  | [] => [x]
  | y :: l => if IniFile.strLe x.1 y.1 then x :: y :: l else y :: insertKind x l

/-- types.py:552-558 sortedChiSquareds (the kinds are different, so only they are compared) -/
def sortedChiSquareds (b : Best K) : List (Str × List (Chi2 K)) := (byKind b.chiSquareds).foldr insertKind []

/-- types.py:560-564 -/
def chiSquareForKindName (b : Best K) (kind name : Str) : Option K :=
  (b.chiSquareds.find? (fun p => p.1 = kind ∧ p.2.name = .str name)).map (fun p => p.2.chisq)

/-- types.py:573-580 -/
def getParamDict (b : Best K) (includeDerived : Bool) : Dict Str K :=
  let res : Dict Str K := b.names.foldl (fun d p => if includeDerived || !p.isDerived then d.set p.name p.bestFit else d) []
  (res.set c!"weight" 1).set c!"loglike" b.logLike

/-- paramnames.py:197-205 parWithName without renames -/
def Best.par (b : Best K) (name : Str) : Option (Par K) := b.names.find? (fun p => p.name = name)

/-- what `addBestFit` sets of a parameter of the marginalised statistics -/
structure WithBest (K : Type) where
  par : MargeStats.Par K
  bestFit : K

/-- types.py:733-742 -/
def addBestFit (m : MargeStats.Marge K) (b : Best K) : List (WithBest K) :=
  m.names.filterMap (fun x => (b.par x.name).map (fun p => ⟨{ x with isDerived := p.isDerived }, p.bestFit⟩))

/-! ## Likelihood statistics -/

structure LikeStats where
  best : Option ℚ
  meanInv : Option ℚ
  mean : Option ℚ
  meanLike : Option ℚ
  complexity : Option ℚ
deriving DecidableEq, Repr

/-- types.py:836-842: the table of the lines before the first blank one -/
def statLines : Dict Str ℚ → List Str → Except BErr (Dict Str ℚ)
  | d, [] => .ok d
  | d, l :: ls =>
    if strip l = [] then .ok d
    else match (splitChar '=' l).map strip with
      | [name, value] => do
        let v ← fl value
        statLines (d.set name v) ls
      | _ => .error .value

/-- types.py:834-848 LikeStats.loadFromFile -/
def loadStats (lines : List Str) : Except BErr LikeStats := do
  let d ← statLines [] lines
  pure ⟨d.get? c!"Best fit sample -log(Like)", d.get? c!"Ln(mean 1/like)", d.get? c!"mean(-Ln(like))", d.get? c!"-Ln(mean like)",
    d.get? c!"complexity"⟩

/-- types.py:852-860 likeSummary (for statistics computed from samples, where only the mean of 1/like can be absent) -/
def likeSummary (best : ℚ) (meanInv : Option ℚ) (mean meanLike : ℚ) : List Str :=
  [c!"Best fit sample -log(Like) = " ++ fmtF 6 best ++ c!"\n"] ++
  (match meanInv with
    | some v => if v = 0 then [] else [c!"Ln(mean 1/like) = " ++ fmtF 6 v ++ c!"\n"]
    | none => []) ++
  [c!"mean(-Ln(like)) = " ++ fmtF 6 mean ++ c!"\n", c!"-Ln(mean like)  = " ++ fmtF 6 meanLike ++ c!"\n"]

/-! ### N-dimensional confidence region -/

/-- mcsamples.py:2026-2028: the rows of the region for the fraction `c` -/
def region (argsort : List K → List Nat) (loglikes weights : List K) (c : K) : List Nat :=
  let idx := argsort loglikes
  idx.take (searchsorted (cumsum (idx.map (fun i => weights.getD i 0))) (weights.sum * c))

def minMax? : List K → Option (K × K)
  | [] => none
  | x :: l => some (l.foldl min x, l.foldl max x)

/-- mcsamples.py:2029-2033: limits of one parameter in the regions of the first two contours; `np.min` of nothing is a ValueError -/
def ndLimits (argsort : List K → List Nat) (loglikes weights : List K) (contours : List K) (col : List K) :
    Except BErr ((K × K) × (K × K)) :=
  match contours with
  | c1 :: c2 :: _ =>
    match minMax? ((region argsort loglikes weights c1).map (fun i => col.getD i 0)),
          minMax? ((region argsort loglikes weights c2).map (fun i => col.getD i 0)) with
    | some a, some b => .ok (a, b)
    | _, _ => .error .value
  | _ => .error .value

/-- chains.py mean: weighted mean of a vector -/
noncomputable def wmean (w x : List ℝ) : ℝ := (List.zipWith (· * ·) w x).sum / w.sum

/-- mcsamples.py:2012-2015; `best` is the lowest value -/
noncomputable def logMeanInvLike (w ll : List ℝ) (best : ℝ) : ℝ := Real.log (wmean w (ll.map (fun l => Real.exp (l - best)))) + best

/-- mcsamples.py:2019 -/
noncomputable def logMeanLike (w ll : List ℝ) (best : ℝ) : ℝ := -Real.log (wmean w (ll.map (fun l => Real.exp (-(l - best))))) + best

/-- mcsamples.py:2021 -/
noncomputable def complexity (w ll : List ℝ) (best : ℝ) : ℝ := 2 * (wmean w ll - best)

end Verif.BestFit
