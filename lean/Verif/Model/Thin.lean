import Verif.Py.Np
import Mathlib.Algebra.Order.Floor.Ring
import Mathlib.Data.Rat.Floor

/-!
# Model of thinning to single samples (`python/getdist/chains.py`)

Weights and the factor are elements of an ordered field `K` with a floor (exact floats).  The result array is allocated with `np.empty`, so an
entry that is never written is modelled as `none`.
-/

namespace Verif.Thin
open Verif.Py Verif.Py.Np

variable {K : Type} [Field K] [LinearOrder K] [FloorRing K]

/-- `x.astype(int)` / `int(x)`: truncation towards zero -/
def trunc (x : K) : Int := if 0 ≤ x then ⌊x⌋ else ⌈x⌉

/-- `if i < numrows: mult = weights[i]` (chains.py:888-889, 895-896) -/
def nextMult (w : List Int) (i : Nat) (mult : Int) : Int :=
  match w[i]? with
  | some m => m
  | none => mult

/-- the `while i < numrows` loop (chains.py:884-899); `cap` is the length of `thin_ix`.  Writing past the
end is an `IndexError`, which bounds the number of steps; `fuel` is that bound. -/
def loop (w : List Int) (f : Int) (cap : Nat) : Nat → Nat → Int → Int → List Nat → Except NErr (List Nat)
  | 0, i, _, _, out => if i < w.length then .error .diverges else .ok out
  | fuel + 1, i, tot, mult, out =>
    if i < w.length then
      if mult + tot < f then
        loop w f cap fuel (i + 1) (tot + mult) (nextMult w (i + 1) mult) out
      else if out.length < cap then
        if mult = f - tot then
          loop w f cap fuel (i + 1) 0 (nextMult w (i + 1) mult) (out ++ [i])
        else
          loop w f cap fuel i 0 (mult - (f - tot)) (out ++ [i])
      else .error .indexError
    else .ok out

/-- `thin_indices_single_samples` (chains.py:862-901) -/
def thinIndices (factor : K) (weights : List K) : Except NErr (List (Option Nat)) := do
  let norm1 := weights.sum
  let w := weights.map trunc
  let norm := w.sum
  if |(norm : K) - norm1| > 1 / 10000 then throw .weightedSampleError
  if factor ≠ (trunc factor : K) then throw .weightedSampleError
  let f := trunc factor
  let m ← max? w
  if f ≥ m then
    pure ((uniqueIndex ((cumsum w).map (fun c => c.fdiv f))).map some)
  else
    let size := norm.fdiv f
    if size < 0 then throw .valueError
    let cap := size.toNat
    let out ← loop w f cap (w.length + cap + 1) 0 0 (nextMult w 0 0) []
    pure (out.map some ++ List.replicate (cap - out.length) none)

end Verif.Thin
