import Verif.Model.AutoCorr
import Verif.Model.GelmanRubin
import Verif.Model.Thin

/-!
# Model of the other convergence tests (`MCSamples.getConvergeTests`, `python/getdist/mcsamples.py` 863-909, 1092-1133)

Exact arithmetic.  Not-a-number and infinity of numpy are errors where they are printed with `%15i`, which raises; they are `none` where they are
printed as such.  Texts are not modelled.
-/

namespace Verif.Converge
open Verif.Py Verif.Py.Np

section lengths
variable {K : Type} [Field K] [LinearOrder K]
open Verif.AutoCorr

/-- one parameter in one chain: weights and values -/
structure Col (K : Type) where
  w : List K
  x : List K

/-- the samples of all chains together (`self`) -/
def join (cs : List (Col K)) : Col K := ⟨(cs.map (·.w)).flatten, (cs.map (·.x)).flatten⟩

def Col.ws (c : Col K) : WS K := ⟨c.w, 0⟩

/-- the sum over chains of auto-covariance times total weight (mcsamples.py:866-871) -/
def corrSum (pack : List K → Nat → List K) (idct1 : List K → List K) (cs : List (Col K)) : Except NErr (List K) := do
  let maxoff ← min? (cs.map (fun c => c.w.length / 10))
  cs.foldlM (fun (acc : List K) (c : Col K) => do
    let a ← autocorr pack idct1 c.ws c.x (some maxoff) true false
    pure (List.zipWith (· + ·) acc (a.map (· * AutoCorr.norm c.ws)))) (List.replicate (maxoff + 1) 0)

/-- `N` (mcsamples.py:872-874) -/
def corrN (pack : List K → Nat → List K) (idct1 : List K → List K) (cs : List (Col K)) : Except NErr K := do
  let corr ← corrSum pack idct1 cs
  let all := join cs
  pure (lengthOf (1 / 20) (corr.map (· / (AutoCorr.norm all.ws * AutoCorr.var all.ws all.x))))

/-- weight length, sample length and effective number in one line of the table (mcsamples.py:875-879); `'%15i'` of not-a-number or infinity raises -/
def corrLine (pack : List K → Nat → List K) (idct1 : List K → List K) (cs : List (Col K)) : Except NErr (K × K × K) := do
  let n ← corrN pack idct1 cs
  let all := join cs
  if AutoCorr.norm all.ws * AutoCorr.var all.ws all.x = 0 then throw .valueError
  if n = 0 then throw .valueError
  pure (n, n / (AutoCorr.norm all.ws / (all.w.length : K)), AutoCorr.norm all.ws / n)

/-- `self.indep_thin` (mcsamples.py:867, 875, 880): the largest, not below zero -/
def indepThin (ns : List K) : K := ns.foldl max 0

/-! ### correlations at given distances -/

/-- the distance between steps (mcsamples.py:1097-1105) -/
def stepThin [FloorRing K] (corrLengthThin : Int) (indep : K) : Int :=
  if corrLengthThin ≠ 0 then corrLengthThin
  else if indep = 0 then 20
  else if indep ≤ 30 then 5
  else Thin.trunc (5 * (indep / 30))

/-- `np.dot(diff[off:], diff[:-off]) / (thin_rows - off) / self.vars[j]` (mcsamples.py:1120-1121) -/
def stepTerm (var : K) (d : List K) (off : Nat) : K :=
  (List.zipWith (· * ·) (d.drop off) (d.take (d.length - off))).sum / ((d.length : K) - (off : K)) / var

/-- add to the first `m` entries (mcsamples.py:1119-1121) -/
def addSteps (var : K) (d : List K) (m : Nat) (acc : List K) : List K :=
  acc.zipIdx.map (fun p => if p.2 < m then p.1 + stepTerm var d (p.2 + 1) else p.1)

/-- the loop over chains (mcsamples.py:1113-1121) for one parameter: `ds` are the thinned differences from the mean of each chain -/
def stepLoop (var : K) (thin : Nat) : List (List K) → Nat → List K → Nat × List K
  | [], m, acc => (m, acc)
  | d :: ds, m, acc =>
    let m := min m (d.length / thin)
    stepLoop var thin ds m (addSteps var d m acc)

/-- the numbers printed for one parameter (mcsamples.py:1107-1133); `total` is the number of thinned rows of all chains together; which rows are kept is in `Model/Thin.lean` -/
def corrSteps (var : K) (thin steps total : Nat) (ds : List (List K)) : List K :=
  let m := min steps (total / (2 * ds.length))
  let r := stepLoop var thin ds m (List.replicate m 0)
  (r.2.take r.1).map (· / (ds.length : K))

end lengths

/-! ### variance of chain means -/

section meanvar
open Verif.GelmanRubin
variable {m : Nat}

/-- `between_chain_var[j]` (mcsamples.py:889-893) -/
noncomputable def betweenVar (chains : List (Chain m)) (j : Fin m) : ℝ :=
  chains.foldl (fun a c => a + (means c j - means chains.flatten j) ^ 2) 0 / ((chains.length : ℝ) - 1)

/-- `in_chain_var[j]` (mcsamples.py:895-900) -/
noncomputable def inVar (chains : List (Chain m)) (j : Fin m) : ℝ :=
  chains.foldl (fun a c => a + (c.map (fun r => r.1 * (r.2 j - means c j) ^ 2)).sum) 0 / GelmanRubin.norm chains.flatten

open Classical in
/-- the number printed (mcsamples.py:901-902), for more than one chain; not-a-number or infinity is `none` -/
noncomputable def meanVar (chains : List (Chain m)) (j : Fin m) : Option ℝ :=
  if inVar chains j = 0 then none else some (Real.sqrt (betweenVar chains j / inVar chains j))

end meanvar

end Verif.Converge
