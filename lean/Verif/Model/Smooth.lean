import Mathlib.LinearAlgebra.Matrix.PosDef
import Mathlib.Algebra.Order.BigOperators.Group.Finset
import Mathlib.Algebra.Field.Basic

/-!
# Model of the smoothing of covariances (`python/planck/smoothing.py`)

The Gaussian window is any function of the distance in samples.  `np.convolve(..., mode='same')` has the length of the longer of data and window.
-/

namespace Verif.Smooth
open Matrix

variable {F : Type} [Field F]

/-- entries of the window for output `n` and input `k`: `start` is the position of the output in the full convolution, `len` the length of the window -/
def tap (win : Nat → F) (start len : Nat) (n k : Nat) : F := if k ≤ n + start ∧ n + start - k < len then win (n + start - k) else 0

/-- `np.convolve(data, win, mode='same')` for data not shorter than the window -/
def conv (win : Nat → F) (start len : Nat) {N : Nat} (data : Fin N → F) (n : Fin N) : F := ∑ k : Fin N, data k * tap win start len n k

/-- `gaussian_smooth_1d` (smoothing.py:9-12) -/
def smooth (win : Nat → F) (start len : Nat) {N : Nat} (data : Fin N → F) (n : Fin N) : F := conv win start len data n / conv win start len (fun _ => 1) n

/-- length of the result of `np.convolve` with `mode='same'` -/
def sameLength (n len : Nat) : Nat := max n len

/-- first loop of `smoothed_cov`: rows (smoothing.py:16-18) -/
def rowsLoop (win : Nat → F) (start len : Nat) {N : Nat} (is : List (Fin N)) (cov : Matrix (Fin N) (Fin N) F) : Matrix (Fin N) (Fin N) F :=
  is.foldl (fun M i => Matrix.of fun a b => if a = i then smooth win start len (fun k => cov i k) b else M a b) cov

/-- second loop: columns (smoothing.py:19-21) -/
def colsLoop (win : Nat → F) (start len : Nat) {N : Nat} (is : List (Fin N)) (scov : Matrix (Fin N) (Fin N) F) : Matrix (Fin N) (Fin N) F :=
  is.foldl (fun M i => Matrix.of fun a b => if b = i then smooth win start len (fun k => scov k i) a else M a b) scov

/-- `smoothed_cov` -/
def smoothedCov (win : Nat → F) (start len : Nat) {N : Nat} (cov : Matrix (Fin N) (Fin N) F) : Matrix (Fin N) (Fin N) F :=
  colsLoop win start len (List.finRange N) (rowsLoop win start len (List.finRange N) cov)

end Verif.Smooth
