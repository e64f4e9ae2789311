import Mathlib.LinearAlgebra.Matrix.NonsingularInverse
import Mathlib.LinearAlgebra.Matrix.Block
import Mathlib.Analysis.SpecialFunctions.Pow.Real
import Verif.Py.Str
import Verif.Py.Dict

/-!
# Model of the principal component analysis (`MCSamples.PCA`, `python/getdist/mcsamples.py` 616-810)

Real numbers and exact linear algebra.  `np.linalg.eig`, `argsort` and `argmax` are parameters.  The layout of the text is not modelled; the numbers and
formulas printed in it are.  The logarithm of a number that is not positive, not-a-number or infinite in numpy, is some number here; the theorems exclude it.
-/

namespace Verif.PCA
open Verif.Py Matrix

/-! ## choice of parameters (641-672) -/

inductive PErr
  | key      -- KeyError: a conditional parameter that does not exist
  | index    -- IndexError: the map is too short
  | linalg   -- LinAlgError: singular matrix
deriving DecidableEq, Repr

/-- what is done to a parameter -/
inductive PMap
  | N | L | M
deriving DecidableEq, Repr

/-- the letters of `param_map`; any other letter is as `N` (mcsamples.py:678-687) -/
def letter : Char → PMap
  | 'L' => .L
  | 'M' => .M
  | _ => .N

/-- the default letter from the smallest and largest value (mcsamples.py:664-671) -/
noncomputable def defaultMap (pmin pmax : ℝ) : PMap :=
  open Classical in if pmax < 0 ∨ pmin < (pmax - pmin) / 10 then .N else .L

structure Choice where
  indices : List Nat
  maps : List PMap
  cond : List Nat
  norm : Option Nat
deriving DecidableEq, Repr

/-- mcsamples.py:643-654, 664-687: parameters that do not exist are dropped; `range` are the smallest and largest value of a parameter -/
noncomputable def choose (index : Dict Str Nat) (range : Nat → ℝ × ℝ) (params : List Str) (paramMap : Option (List Char)) (normparam : Option Str) (cond : List Str) :
    Except PErr Choice := do
  let ps := params.filter (fun n => (index.get? n).isSome)
  let ix := ps.filterMap index.get?
  let cs ← cond.mapM (fun n => match index.get? n with | some i => .ok i | none => .error .key)
  let maps ← match paramMap with
    | none => pure (ix.map (fun i => defaultMap (range i).1 (range i).2))
    | some m => if m.length < ix.length then .error .index else pure ((m.take ix.length).map letter)
  let nm := match normparam with
    | none => none
    | some n => if n ∈ ps then some (ps.idxOf n) else none
  pure ⟨ix, maps, cs, nm⟩

/-- the defaults of the command line (`command_line.py` 118-131): the map when none is given, for `num` parameters -/
def commandMap (func : Str) (num : Nat) : List Char := if func = [] then List.replicate num 'N' else func

/-! ## standardised parameters (674-696) -/

section data
variable {ι : Type}

/-- rows: weight and values -/
abbrev Rows (ι : Type) := List (ℝ × (ι → ℝ))

noncomputable def applyMap : PMap → ℝ → ℝ
  | .N, x => x
  | .L, x => Real.log x
  | .M, x => Real.log (-1 * x)

noncomputable def mapped (f : ι → PMap) (rows : Rows ι) : Rows ι := rows.map (fun r => (r.1, fun i => applyMap (f i) (r.2 i)))

/-- `np.dot(self.weights, v) / self.norm` -/
noncomputable def avg (rows : Rows ι) (g : (ι → ℝ) → ℝ) : ℝ := (rows.map (fun r => r.1 * g r.2)).sum / (rows.map (fun r => r.1)).sum

/-- `PCmean` -/
noncomputable def mean (rows : Rows ι) (i : ι) : ℝ := avg rows (fun x => x i)

/-- `sd` -/
noncomputable def sd (rows : Rows ι) (i : ι) : ℝ := Real.sqrt (avg rows (fun x => (x i - mean rows i) ^ 2))

/-- a row of `PCdata` (mcsamples.py:691-696) -/
noncomputable def std (rows : Rows ι) (x : ι → ℝ) (i : ι) : ℝ := open Classical in
  if sd rows i ≠ 0 then (x i - mean rows i) / sd rows i else x i - mean rows i

/-- `correlationMatrix` (mcsamples.py:700-704) -/
noncomputable def corr [DecidableEq ι] (rows : Rows ι) : Matrix ι ι ℝ :=
  Matrix.of fun i j => if i = j then 1 else avg rows (fun x => std rows x i * std rows x j)

end data

/-! ## components -/

section comps
variable {p q : Nat}

/-- parameters and conditional parameters -/
abbrev Ix (p q : Nat) := Fin p ⊕ Fin q

open Classical in
/-- the matrix whose eigenvectors are used (mcsamples.py:711-718) -/
noncomputable def matrix (rows : Rows (Ix p q)) : Except PErr (Matrix (Fin p) (Fin p) ℝ) :=
  if q = 0 then .ok (corr rows).toBlocks₁₁
  else if (corr rows).det = 0 then .error .linalg
  else if ((corr rows)⁻¹).toBlocks₁₁.det = 0 then .error .linalg
  else .ok (((corr rows)⁻¹).toBlocks₁₁)⁻¹

abbrev Eig (p : Nat) := Matrix (Fin p) (Fin p) ℝ → (Fin p → ℝ) × Matrix (Fin p) (Fin p) ℝ

/-- `np.transpose(evects[:, isorted])` (mcsamples.py:719-721) -/
def sortedVecs (evects : Matrix (Fin p) (Fin p) ℝ) (isorted : Fin p → Fin p) : Matrix (Fin p) (Fin p) ℝ := Matrix.of fun i j => evects j (isorted i)

/-- mcsamples.py:738-746: divided by the entry of `normparam`, or by the entry of largest modulus -/
noncomputable def scaled (argmax : (Fin p → ℝ) → Fin p) (s : Fin p → ℝ) (normparam : Option (Fin p)) (u : Matrix (Fin p) (Fin p) ℝ) : Matrix (Fin p) (Fin p) ℝ :=
  Matrix.of fun i j =>
    match normparam with
    | some k => u i j / u i k * s k
    | none => let k := argmax (fun j => |u i j|); u i j / u i k * s k

/-- everything the report is made from -/
structure Report (p : Nat) where
  evals : Fin p → ℝ
  vecs : Matrix (Fin p) (Fin p) ℝ
  u : Matrix (Fin p) (Fin p) ℝ

noncomputable def report (eig : Eig p) (argsort : (Fin p → ℝ) → Fin p → Fin p) (argmax : (Fin p → ℝ) → Fin p) (normparam : Option (Fin p)) (rows : Rows (Ix p q)) :
    Except PErr (Report p) := do
  let a ← matrix rows
  let e := eig a
  let s := argsort e.1
  let v := sortedVecs e.2 s
  pure ⟨fun i => e.1 (s i), v, scaled argmax (fun i => sd rows (.inl i)) normparam v⟩

/-- a component before `exp` (mcsamples.py:749-750); only the first columns are left in `PCdata` -/
noncomputable def lin (u : Matrix (Fin p) (Fin p) ℝ) (rows : Rows (Ix p q)) (x : Ix p q → ℝ) (i : Fin p) : ℝ := ∑ j, u i j * std rows x (.inl j)

/-- `doexp` -/
def doexp (f : Fin p → PMap) : Prop := ∃ i, f i ≠ .N

open Classical in
/-- a component (mcsamples.py:749-752) -/
noncomputable def comp (f : Fin p → PMap) (u : Matrix (Fin p) (Fin p) ℝ) (rows : Rows (Ix p q)) (x : Ix p q → ℝ) (i : Fin p) : ℝ :=
  if doexp f then Real.exp (lin u rows x i) else lin u rows x i

/-- `newmean` and `newsd` (mcsamples.py:775-776) -/
noncomputable def newmean (g : (Ix p q → ℝ) → ℝ) (rows : Rows (Ix p q)) : ℝ := avg rows g
noncomputable def newsd (g : (Ix p q → ℝ) → ℝ) (rows : Rows (Ix p q)) : ℝ := Real.sqrt (avg rows (fun x => (g x - newmean g rows) ^ 2))

/-! the formula printed for component `i` (mcsamples.py:761-774), before numbers are rounded -/

/-- the exponent or divisor printed for parameter `j` -/
noncomputable def expo (f : PMap) (s uij : ℝ) : ℝ := match f with
  | .N => s / uij
  | _ => 1 / s * uij

/-- the divisor of a logarithmic parameter -/
noncomputable def divisor (f : PMap) (m : ℝ) : ℝ := match f with
  | .M => -Real.exp m
  | _ => Real.exp m

/-- what the printed factor says at the value `x` of the parameter itself -/
noncomputable def factor (f : PMap) (m s uij x : ℝ) : ℝ := match f with
  | .N => Real.exp ((x - m) / expo .N s uij)
  | f => (x / divisor f m) ^ expo f s uij

/-- what the printed term says if no parameter is logarithmic -/
noncomputable def term (m s uij x : ℝ) : ℝ := (x - m) / expo .N s uij

end comps

end Verif.PCA
