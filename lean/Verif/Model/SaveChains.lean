import Verif.Model.ReadChains
import Verif.Model.ChainFiles

/-!
# Model of saving chains as text (`python/getdist/chains.py:1034-1054`, `python/getdist/mcsamples.py:2424-2431`,
`python/planck/settings_planck_2018.py:121-127`)

Modelled: the text of a `WeightedSamples` object, the loop over chains of `saveChainsAsText`, reading the files found for a root again, the
importance filter `zre_importance.filter`.

Simplified: a directory is a dictionary from file names to tables of numbers; `rnd` is the number that remains when a number is printed with
`'%.8e'` and read again; only the separator `_` is used; names, ranges and properties are in `Model/ParamNames.lean`, `Model/Bounds.lean` and
`Model/SampleDict.lean`.
-/

namespace Verif.SaveChains
open Verif.Py Verif.Py.Np Verif.Thin Verif.Samples Verif.Chains Verif.ChainFiles

variable {K : Type} [Field K] [LinearOrder K] [FloorRing K]

/-- one line of the file -/
def line (rnd : K → K) (w l : K) (r : List K) : List K := rnd w :: rnd l :: r.map rnd

/-- the table written by `WeightedSamples.saveAsText` (chains.py:1043-1054); missing likelihoods are zero, missing weights an error -/
def tableOf (rnd : K → K) (s : WS K) : Except NErr (Arr2 K) :=
  match s.weights, s.samples with
  | some w, some a =>
    let ll := s.loglikes.getD (List.replicate s.numrows 0)
    if w.length = a.rows.length ∧ ll.length = a.rows.length then
      .ok ⟨a.n + 2, (w.zip (ll.zip a.rows)).map (fun t => line rnd t.1 t.2.1 t.2.2)⟩
    else .error .valueError
  | _, _ => .error .typeError

abbrev Dir (K : Type) := Dict Str (Arr2 K)

/-- name of the file of chain `i` (chains.py:1050-1052) -/
def chainName (base : Str) (i : Nat) : Str := saveName base (some i)

/-- the loop of `saveChainsAsText` (mcsamples.py:2429-2430): the directory afterwards, and the exception if there was one -/
def saveLoop (rnd : K → K) (base : Str) : Nat → List (WS K) → Dir K → Dir K × Option NErr
  | _, [], d => (d, none)
  | i, s :: ss, d => match tableOf rnd s with
    | .error e => (d, some e)
    | .ok t => saveLoop rnd base (i + 1) ss (d.set (chainName base i) t)

/-- `saveChainsAsText` (mcsamples.py:2424-2430) -/
def saveChains (rnd : K → K) (base : Str) (c : CH K) (d : Dir K) : Dir K × Option NErr :=
  match getSeparateChains c with
  | .error e => (d, some e)
  | .ok cs => saveLoop rnd base 0 cs d

/-- the tables of the files of a root, in the order of the listing of the directory (chains.py:99-109, 1356) -/
def readDir (root : Str) (listing : List Str) (d : Dir K) : List (Arr2 K) :=
  (listing.filter (accepts root {})).filterMap d.get?

/-- `samples.filter(pars.zrei >= 6.5)` (settings_planck_2018.py:122-124) for the parameter in column `i` and the limit `t` -/
def filterFrom (i : Nat) (t : K) (c : CH K) : Except NErr (CH K) :=
  match c.ws.samples with
  | none => .error .typeError
  | some a => Chains.filter c (.mask ((a.col i).map (fun x => decide (t ≤ x))))

/-- `zre_importance.filter` (settings_planck_2018.py:121-126) -/
def filterRun (rnd : K → K) (base : Str) (i : Nat) (t : K) (c : CH K) (d : Dir K) : Dir K × Option NErr :=
  match filterFrom i t c with
  | .error e => (d, some e)
  | .ok c => saveChains rnd base c d

end Verif.SaveChains
