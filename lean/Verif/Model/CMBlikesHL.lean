import Mathlib.LinearAlgebra.Matrix.NonsingularInverse
import Mathlib.Analysis.SpecialFunctions.Log.Basic
import Mathlib.Analysis.SpecialFunctions.Sqrt
import Mathlib.Data.Sign.Basic

/-!
# Hamimeche-Lewis and exact likelihoods: CMBlikes.py:643-668

Real numbers and exact linear algebra.  `eigh` is any function; its theorems assume what numpy documents: orthonormal eigenvectors and eigenvalues of a
symmetric matrix.
-/

namespace Verif.CMBlikes.HL
open Matrix

abbrev Mat (n : Nat) := Matrix (Fin n) (Fin n) ℝ

/-- `np.sign(x - 1) * np.sqrt(2 * np.maximum(0, x - np.log(x) - 1))` (lines 647, 657) -/
noncomputable def g (x : ℝ) : ℝ := (SignType.sign (x - 1) : ℝ) * Real.sqrt (2 * max 0 (x - Real.log x - 1))

/-- lines 653-654: row `i`, then column `i` -/
noncomputable def divStep {n : Nat} (roots : Fin n → ℝ) (R : Mat n) (i : Fin n) : Mat n :=
  let R : Mat n := Matrix.of fun a b => if a = i then R a b / roots i else R a b
  Matrix.of fun a b => if b = i then R a b / roots i else R a b

/-- lines 652-654: rows and columns divided one after the other -/
noncomputable def divRoots {n : Nat} (roots : Fin n → ℝ) (rot : Mat n) : Mat n := (List.finRange n).foldl (divStep roots) rot

/-- line 660 -/
def scaleStep {n : Nat} (d : Fin n → ℝ) (U R : Mat n) (i : Fin n) : Mat n := Matrix.of fun a b => if b = i then U a i * d i else R a b

/-- lines 659-660 -/
def scaleCols {n : Nat} (d : Fin n → ℝ) (U rot : Mat n) : Mat n := (List.finRange n).foldl (scaleStep d U) rot

/-- CMBlikes.py:643-661 `transform(C, Chat, Cfhalf)`: the new value of `C` -/
noncomputable def transform {n : Nat} (eigh : Mat n → (Fin n → ℝ) × Mat n) (C Chat F : Mat n) : Mat n :=
  if h : n = 1 then
    let o : Fin n := ⟨0, by omega⟩
    Matrix.of fun a b => if a = o ∧ b = o then g (Chat o o / C o o) * F o o ^ 2 else C a b
  else
    let (d, U) := eigh C
    let rot := Uᵀ * Chat * U
    let rot := divRoots (fun i => Real.sqrt (d i)) rot
    let rot := U * (rot * Uᵀ)
    let (d, rot) := eigh rot
    let d := fun i => g (d i)
    let U := F * rot
    let rot := scaleCols d U rot
    rot * Uᵀ

/-- CMBlikes.py:663-668 `exact_chi_sq` -/
noncomputable def exactChi {n : Nat} (fsky : ℝ) (C Chat : Mat n) (L : ℕ) : ℝ :=
  if h : n = 1 then
    let o : Fin n := ⟨0, by omega⟩
    (2 * L + 1) * fsky * (Chat o o / C o o - 1 - Real.log (Chat o o / C o o))
  else
    let M := C⁻¹ * Chat
    (2 * L + 1) * fsky * (trace M - n - Real.log |det M|)

end Verif.CMBlikes.HL
