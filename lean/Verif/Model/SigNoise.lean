import Mathlib.LinearAlgebra.Matrix.NonsingularInverse
import Mathlib.Data.Real.Basic

/-!
# Model of signal to noise eigenvalues (`getSignalToNoise`, `python/getdist/chains.py:143-165, 825-836`)

Real numbers and exact linear algebra.  `np.linalg.cholesky` (none: `LinAlgError`), `np.linalg.eigh` and `np.linalg.eigvalsh` are parameters.
-/

namespace Verif.SigNoise
open Matrix

inductive Err
  | neither      -- `WeightedSampleError`
  | linalg       -- `LinAlgError`
  deriving DecidableEq, Repr

variable {n : ℕ}

abbrev Mat (n : ℕ) := Matrix (Fin n) (Fin n) ℝ

/-- what is returned -/
inductive Result (n : ℕ)
  | eigs (w : Fin n → ℝ)
  | full (w : Fin n → ℝ) (U : Mat n)

/-- the default for `R` (chains.py:153-156) -/
noncomputable def rotation (chol : Mat n → Option (Mat n)) (noise : Option (Mat n)) : Except Err (Mat n) :=
  match noise with
  | none => .error .neither
  | some N => match chol N with
    | none => .error .linalg
    | some L => .ok L⁻¹

/-- `getSignalToNoise` (chains.py:143-165) -/
noncomputable def signalToNoise (chol : Mat n → Option (Mat n)) (eigh : Mat n → (Fin n → ℝ) × Mat n) (eigvalsh : Mat n → Fin n → ℝ) (C : Mat n)
    (noise R : Option (Mat n)) (eigsOnly : Bool) : Except Err (Result n) :=
  match (match R with
    | some R => Except.ok R
    | none => rotation chol noise) with
  | .error e => .error e
  | .ok R =>
    let M := R * C * Rᵀ
    if eigsOnly then .ok (.eigs (eigvalsh M))
    else .ok (.full (eigh M).1 ((eigh M).2ᵀ * R))

end Verif.SigNoise
