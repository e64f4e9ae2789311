import Verif.Model.CMBlikesHL

/-!
# Convergence of several chains: chains.py `getGelmanRubinEigenvalues`, `getGelmanRubin`

Real numbers and exact linear algebra; `eigh` and `eigvalsh` are any functions.  A row is a weight and the parameter values; `self` holds the rows of
all the chains.  numpy gives not-a-number instead of an exception where `GErr.nan` is used.
-/

namespace Verif.GelmanRubin
open Matrix
open Verif.CMBlikes.HL (Mat)

abbrev Row (m : Nat) := ℝ × (Fin m → ℝ)
abbrev Chain (m : Nat) := List (Row m)

inductive GErr
  | nan     -- a mean over no chains, or a variance over one chain
  | value   -- smallest of no eigenvalues: ValueError
deriving DecidableEq

/-- chains.py:641-654 `get_norm` -/
def norm {m : Nat} (c : Chain m) : ℝ := (c.map (fun r => r.1)).sum

/-- chains.py:373-379 `setMeans` -/
noncomputable def means {m : Nat} (c : Chain m) : Fin m → ℝ := fun i => (c.map (fun r => r.1 * r.2 i)).sum / norm c

/-- chains.py:697-721 `cov`: the upper triangle, copied to the lower -/
noncomputable def cov {m : Nat} (c : Chain m) : Mat m :=
  Matrix.of fun i j =>
    let f := fun i j => (c.map (fun r => (r.2 i - means c i) * r.1 * (r.2 j - means c j))).sum
    (if i ≤ j then f i j else f j i) / norm c

/-- `[:nparam]` of a vector and a matrix -/
def firstV {m p : Nat} (h : p ≤ m) (v : Fin m → ℝ) : Fin p → ℝ := fun i => v (Fin.castLE h i)
def firstM {m p : Nat} (h : p ≤ m) (a : Mat m) : Mat p := Matrix.of fun i j => a (Fin.castLE h i) (Fin.castLE h j)

/-- chains.py:1408-1416 the two sums over chains -/
noncomputable def meansCov {m p : Nat} (h : p ≤ m) (chains : List (Chain m)) : Mat p :=
  (1 / ((chains.length : ℝ) - 1)) •
    chains.foldl (fun a c => a + vecMulVec (firstV h (means c) - firstV h (means chains.flatten)) (firstV h (means c) - firstV h (means chains.flatten))) 0
noncomputable def meanCov {m p : Nat} (h : p ≤ m) (chains : List (Chain m)) : Mat p :=
  (1 / (chains.length : ℝ)) • chains.foldl (fun a c => a + firstM h (cov c)) 0

open Classical in
/-- chains.py:1396-1424 `getGelmanRubinEigenvalues`; `none` if the covariance is not positive -/
noncomputable def eigenvalues {m p : Nat} (h : p ≤ m) (eigh : Mat p → (Fin p → ℝ) × Mat p) (eigvalsh : Mat p → (Fin p → ℝ)) (chains : List (Chain m)) :
    Except GErr (Option (Fin p → ℝ)) :=
  if chains.length ≤ 1 then .error .nan
  else if p = 0 then .error .value
  else
    let w := (eigh (meanCov h chains)).1
    let U := (eigh (meanCov h chains)).2
    if ∀ i, 0 < w i then
      let U : Mat p := Matrix.of fun i j => U i j / Real.sqrt (w j)
      .ok (some (eigvalsh (Uᵀ * meansCov h chains * U)))
    else .ok none

/-- chains.py:1426-1436, mcsamples.py:908-917 `np.max`; `none` stays `None` -/
noncomputable def worst {p : Nat} (d : Option (Fin p → ℝ)) : Option ℝ :=
  match d with
  | some d => (List.ofFn d).max?
  | none => none

end Verif.GelmanRubin
