import Mathlib.Algebra.Order.Field.Basic
import Mathlib.Algebra.BigOperators.Group.List.Basic
import Mathlib.Algebra.Order.BigOperators.Group.List

/-!
# Small models of numpy array helpers on lists

Floating point numbers are modelled by an arbitrary ordered field `K` (exact arithmetic).
-/

namespace Verif.Py

/-- exceptions raised by the numerical code -/
inductive NErr where
  | indexError
  | valueError
  | typeError
  | weightedSampleError
  | paramError
  | diverges          -- never returned; marks an exhausted loop bound
  deriving DecidableEq, Repr

namespace Np

/-- `x[start:stop]` for non-negative `start` and `stop` (`None` = to the end) -/
def slice {α : Type} (l : List α) (start : Nat) (stop : Option Nat) : List α :=
  (match stop with
   | none => l
   | some e => l.take e).drop start

/-- `np.cumsum` started from `acc` -/
def cumsumFrom {K : Type} [Add K] (acc : K) : List K → List K
  | [] => []
  | a :: l => (acc + a) :: cumsumFrom (acc + a) l

/-- `np.cumsum` -/
def cumsum {K : Type} [Add K] [Zero K] (l : List K) : List K := cumsumFrom 0 l

/-- `np.searchsorted(a, x)` (side `left`), documented for sorted `a`: the first position whose
entry is at least `x`. -/
def searchsorted {K : Type} [LT K] [DecidableLT K] (a : List K) (x : K) : Nat :=
  (a.takeWhile (fun c => decide (c < x))).length

/-- `a[indices]` with an integer index array -/
def gather {α : Type} (a : List α) (ix : List Nat) : Except NErr (List α) :=
  ix.mapM (fun i => match a[i]? with | some x => .ok x | none => .error .indexError)

/-- `a[mask]` with a boolean mask: numpy refuses a mask of another length -/
def mask {α : Type} (a : List α) (m : List Bool) : Except NErr (List α) :=
  if a.length = m.length then .ok ((a.zip m).filterMap (fun p => if p.2 then some p.1 else none))
  else .error .indexError

/-- `np.max` -/
def max? {K : Type} [LinearOrder K] : List K → Except NErr K
  | [] => .error .valueError
  | a :: l => .ok (l.foldl max a)

/-- `np.min` -/
def min? {K : Type} [LinearOrder K] : List K → Except NErr K
  | [] => .error .valueError
  | a :: l => .ok (l.foldl min a)

/-- first return value of `np.unique(l)`: the distinct values in order -/
def unique {α : Type} [LinearOrder α] (l : List α) : List α := (l.mergeSort (fun a b => decide (a ≤ b))).eraseDups

/-- `np.unique(l, return_index=True)[1]`: for each distinct value, in order of value, its first position -/
def uniqueIndex {α : Type} [LinearOrder α] (l : List α) : List Nat :=
  ((l.zipIdx.filter (fun p => l.idxOf p.1 == p.2)).mergeSort (fun a b => decide (a.1 ≤ b.1))).map (·.2)

/-- `np.unique(l, return_counts=True)` -/
def uniqueCounts {α : Type} [LinearOrder α] (l : List α) : List α × List Nat :=
  let u := unique l
  (u, u.map (fun a => l.count a))

/-- `u.dot(v)` -/
def dot {K : Type} [Add K] [Mul K] [Zero K] (u v : List K) : K := (List.zipWith (· * ·) u v).sum

end Np
end Verif.Py
