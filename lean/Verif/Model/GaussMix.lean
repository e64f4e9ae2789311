import Mathlib.LinearAlgebra.Matrix.NonsingularInverse
import Mathlib.Analysis.SpecialFunctions.Pow.Real
import Mathlib.Analysis.SpecialFunctions.Trigonometric.Basic
import Mathlib.Data.Fintype.EquivFin
import Verif.Py.Str

/-!
# Model of Gaussian mixtures (`python/getdist/gaussian_mixtures.py`)

Real numbers. A mixture of dimension `d` has lists of means, covariances and weights, which the code goes through with `zip`.
Simplified: all means and covariances have the dimension of the first mean; parameter numbers are not negative; a list of values for
fixed parameters has the length of the list of these; names only (labels are those of the parameter list, see Model/ParamNames);
`linalg.inv` raises exactly for singular matrices. Random numbers are parameters.
Not modelled: `RandomTestMixtureND`, `randomTestMCSamples`, reading means and covariances from text files.
-/

namespace Verif.GaussMix
open Verif.Py Matrix Real

inductive Err where
  | linAlg | valueError | indexError | limits
deriving DecidableEq

abbrev Lim := Option ℝ × Option ℝ

structure Mix (d : Nat) where
  means : List (Fin d → ℝ)
  covs : List (Matrix (Fin d) (Fin d) ℝ)
  weights : List ℝ
  lims : Option (List Lim)
  names : List Str

/-- a component: mean, covariance, weight -/
abbrev Comp (d : Nat) := (Fin d → ℝ) × Matrix (Fin d) (Fin d) ℝ × ℝ

/-- `zip(self.means, self.covs, self.weights)` -/
def Mix.comps {d : Nat} (M : Mix d) : List (Comp d) := M.means.zip (M.covs.zip M.weights)

/-- `ParamList.setDefault` (paramnames.py:179-181), the names -/
def defaultNames (d : Nat) : List Str := (List.range d).map fun i => c!"param" ++ (toString (i + 1)).toList

/-- `MixtureND.__init__` (17-47): weights are divided by their sum. -/
noncomputable def make {d : Nat} (means : List (Fin d → ℝ)) (covs : List (Matrix (Fin d) (Fin d) ℝ)) (weights : Option (List ℝ))
    (lims : Option (List Lim)) (names : Option (List Str)) : Except Err (Mix d) :=
  if means = [] then .error .indexError
  else if ∃ c ∈ covs, c.det = 0 then .error .linAlg
  else
    let w := weights.getD (List.replicate means.length (1 / (means.length : ℝ)))
    if w.sum ≤ 0 then .error .valueError
    else if w.length ≠ means.length then .error .valueError
    else .ok { means, covs, weights := w.map (· / w.sum), lims, names := names.getD (defaultNames d) }

/-- `self.norms` (39) -/
noncomputable def norm {d : Nat} (c : Matrix (Fin d) (Fin d) ℝ) : ℝ := (2 * π) ^ ((1 / 2 : ℝ) * (d : ℝ)) * √c.det

/-- `self.total_mean` (44) -/
def totalMean {d : Nat} (M : Mix d) : Fin d → ℝ := fun i => ((M.weights.zip M.means).map fun p => p.1 * p.2 i).sum

/-- `self.total_cov` (45-47): the loop also goes through the elements of the total mean, which is subtracted as a number. -/
def totalCov {d : Nat} (M : Mix d) : Matrix (Fin d) (Fin d) ℝ := fun i j =>
  ((M.comps.zip (List.ofFn (totalMean M))).map fun p =>
    p.1.2.2 * (p.1.2.1 i j + (p.1.1 i - p.2) * (p.1.1 j - p.2))).sum

/-- one term of `MixtureND.pdf` for a vector (136-138) -/
noncomputable def density {d : Nat} (mean : Fin d → ℝ) (cov : Matrix (Fin d) (Fin d) ℝ) (x : Fin d → ℝ) : ℝ :=
  exp (-((cov⁻¹ *ᵥ (x - mean)) ⬝ᵥ (x - mean)) / 2) / norm cov

/-- `MixtureND.pdf` for a vector (125-145) -/
noncomputable def pdf {d : Nat} (M : Mix d) (x : Fin d → ℝ) : ℝ := (M.comps.map fun c => density c.1 c.2.1 x * c.2.2).sum

/-- one term of `MixtureND.pdf` for rows of values (140) -/
noncomputable def densityRow {d : Nat} (mean : Fin d → ℝ) (cov : Matrix (Fin d) (Fin d) ℝ) (x : Fin d → ℝ) : ℝ :=
  exp (-(∑ k, ∑ m, (x k - mean k) * cov⁻¹ k m * (x m - mean m)) / 2) / norm cov

/-- `MixtureND.pdf` for rows of values (125-145) -/
noncomputable def pdfRows {d : Nat} (M : Mix d) (xs : List (Fin d → ℝ)) : List ℝ :=
  xs.map fun x => (M.comps.map fun c => densityRow c.1 c.2.1 x * c.2.2).sum

/-- `Mixture2D.pdf` for two numbers (375-395) -/
noncomputable def pdf2 (M : Mix 2) (x y : ℝ) : ℝ := (M.comps.map fun c =>
  let dx := x - c.1 0
  let dy := y - c.1 1
  exp (-(dx ^ 2 * c.2.1⁻¹ 0 0 + 2 * dx * dy * c.2.1⁻¹ 0 1 + dy ^ 2 * c.2.1⁻¹ 1 1) / 2) / norm c.2.1 * c.2.2).sum

/-- a parameter: its name or number -/
inductive Par where
  | name (s : Str)
  | idx (n : Nat)

/-- one step of `_params_to_indices` (214-225); a number that is too large is an error when used -/
def resolve {d : Nat} (M : Mix d) : Par → Except Err (Fin d)
  | .name s => if s ∈ M.names then (if h : M.names.idxOf s < d then .ok ⟨M.names.idxOf s, h⟩ else .error .indexError)
    else .error .valueError
  | .idx n => if h : n < d then .ok ⟨n, h⟩ else .error .indexError

def resolveAll {d : Nat} (M : Mix d) : List Par → Except Err (List (Fin d))
  | [] => .ok []
  | p :: ps => do
    let i ← resolve M p
    let l ← resolveAll M ps
    .ok (i :: l)

/-- `_params_to_indices` (214-225) -/
def indices {d : Nat} (M : Mix d) (params : Option (List Par)) : Except Err (List (Fin d)) :=
  resolveAll M (params.getD (M.names.map .name))

/-- `checkNoLimits` (306-312) -/
def checkNoLimits {d : Nat} (M : Mix d) (keep : List (Fin d)) : Except Err Unit :=
  match M.lims with
  | none => .ok ()
  | some l => if l.zipIdx.any fun p => !(keep.map Fin.val).contains p.2 && (p.1.1.isSome || p.1.2.isSome) then .error .limits else .ok ()

/-- `if not no_limit_marge: self.checkNoLimits(keep)` -/
def checkUnless {d : Nat} (flag : Bool) (M : Mix d) (keep : List (Fin d)) : Except Err Unit :=
  if flag then .ok () else checkNoLimits M keep

/-- one term of `pdf_marged` (162-164) -/
noncomputable def density1 {d : Nat} (mean : Fin d → ℝ) (cov : Matrix (Fin d) (Fin d) ℝ) (i : Fin d) (x : ℝ) : ℝ :=
  exp (-(x - mean i) ^ 2 / cov i i / 2) / √(2 * π * cov i i)

/-- `pdf_marged` (147-169), without the check -/
noncomputable def marged {d : Nat} (M : Mix d) (i : Fin d) (x : ℝ) : ℝ := (M.comps.map fun c => density1 c.1 c.2.1 i x * c.2.2).sum

/-- `pdf_marged` (147-169) -/
noncomputable def pdfMarged {d : Nat} (M : Mix d) (p : Par) (x : ℝ) (noLimitMarge : Bool) : Except Err ℝ := do
  let i ← resolve M p
  checkUnless noLimitMarge M [i]
  .ok (marged M i x)

/-- elements by number -/
def pick {α : Type} {d : Nat} (l : List α) : List (Fin d) → Except Err (List α)
  | [] => .ok []
  | i :: is => match l[i.val]? with
    | none => .error .indexError
    | some a => do
      let r ← pick l is
      .ok (a :: r)

/-- `Mixture2D._updateLimits` (359-364) and the choice before it (347-350), for limits given as list -/
def lims2 (n : Nat) (l : Option (List Lim)) : Option (List Lim) := if n = 2 then some (l.getD [(none, none), (none, none)]) else l

/-- the limits in `marginalizedMixture` (246-249, 254-258) -/
def pickLims {d : Nat} (lims : Option (List Lim)) (l : List (Fin d)) : Except Err (Option (List Lim)) :=
  match lims with
  | none => .ok none
  | some ls => do
    let r ← pick ls l
    .ok (some r)

/-- `marginalizedMixture` (227-261) -/
noncomputable def marginalized {d : Nat} (M : Mix d) (params : Option (List Par)) (noLimitMarge : Bool) :
    Except Err ((m : Nat) × Mix m) := do
  let l ← indices M params
  checkUnless noLimitMarge M l
  let names ← pick M.names l
  let lims ← pickLims M.lims l
  let r ← make (M.means.map fun m => m ∘ l.get) (M.covs.map fun c => c.submatrix l.get l.get) (some M.weights)
    (lims2 l.length lims) (some names)
  .ok ⟨l.length, r⟩

/-- new mean and covariance in `conditionalMixture` (282-284): `f` are the fixed parameters, `k` those that are kept -/
noncomputable def condCov {d p q : Nat} (cov : Matrix (Fin d) (Fin d) ℝ) (_f : Fin p → Fin d) (k : Fin q → Fin d) :
    Matrix (Fin q) (Fin q) ℝ := (cov⁻¹.submatrix k k)⁻¹

noncomputable def condMean {d p q : Nat} (mean : Fin d → ℝ) (cov : Matrix (Fin d) (Fin d) ℝ) (f : Fin p → Fin d) (k : Fin q → Fin d)
    (v : Fin p → ℝ) : Fin q → ℝ :=
  mean ∘ k - condCov cov f k *ᵥ (cov⁻¹.submatrix k f *ᵥ (v - mean ∘ f))

/-- `logw` (288-292) -/
noncomputable def condLog {d p q : Nat} (mean : Fin d → ℝ) (cov : Matrix (Fin d) (Fin d) ℝ) (f : Fin p → Fin d) (k : Fin q → Fin d)
    (v : Fin p → ℝ) : ℝ :=
  (cov⁻¹.submatrix f f *ᵥ (v - mean ∘ f)) ⬝ᵥ (v - mean ∘ f) +
    log (cov.submatrix f f - cov.submatrix f k * ((cov.submatrix k k)⁻¹ * cov.submatrix k f)).det

/-- the smallest element -/
noncomputable def minimum : List ℝ → ℝ
  | [] => 0
  | [x] => x
  | x :: y :: l => min x (minimum (y :: l))

/-- `keep_params` (275): the parameters that are not fixed, in their order -/
def keepOf {d : Nat} (l : List (Fin d)) : List (Fin d) := (List.finRange d).filter (· ∉ l)

/-- `conditionalMixture` (263-304) -/
noncomputable def conditional {d : Nat} (M : Mix d) (fixed : List Par) (values : (p : Nat) → Fin p → ℝ) :
    Except Err ((m : Nat) × Mix m) := do
  let l ← indices M (some fixed)
  checkNoLimits M l
  let keep := keepOf l
  if keep = [] then .error .valueError else .ok ()
  let v := values l.length
  let cs := M.comps
  let logs := cs.map fun c => condLog c.1 c.2.1 l.get keep.get v
  let names ← pick M.names keep
  let r ← make (cs.map fun c => condMean c.1 c.2.1 l.get keep.get v) (cs.map fun c => condCov c.2.1 l.get keep.get)
    (some (logs.map fun g => exp (-(g - minimum logs) / 2))) none (some names)
  .ok ⟨keep.length, r⟩

/-- `getUpper` (314-317) -/
noncomputable def getUpper {d : Nat} (M : Mix d) (name : Str) : Except Err (Option ℝ) :=
  match M.lims with
  | none => .ok none
  | some l => if name ∈ M.names then
      match l[M.names.idxOf name]? with
      | none => .error .indexError
      | some lim => .ok lim.2
    else .error .valueError

/-- `getLower` (319-322): the same element is returned -/
noncomputable def getLower {d : Nat} (M : Mix d) (name : Str) : Except Err (Option ℝ) :=
  match M.lims with
  | none => .ok none
  | some l => if name ∈ M.names then
      match l[M.names.idxOf name]? with
      | none => .error .indexError
      | some lim => .ok lim.2
    else .error .valueError

/-- one step of the loop over components in `autoRanges` (114-121) -/
noncomputable def stretch {d : Nat} (sigmas : ℝ) (i : Fin d) (lim : Lim) (acc : Option (ℝ × ℝ))
    (c : (Fin d → ℝ) × Matrix (Fin d) (Fin d) ℝ) : Option (ℝ × ℝ) :=
  let sigma := √(c.2 i i)
  let xmin := c.1 i - sigmas * sigma
  let xmax := c.1 i + sigmas * sigma
  let xmax := match lim.1 with | some mn => max xmax (mn + sigmas * sigma) | none => xmax
  let xmin := match lim.2 with | some mx => min xmin (mx - sigmas * sigma) | none => xmin
  match acc with
  | none => some (xmin, xmax)
  | some (a, b) => some (min xmin a, max xmax b)

/-- `autoRanges` for one parameter (109-122) -/
noncomputable def autoRange {d : Nat} (M : Mix d) (sigmas : ℝ) (i : Fin d) (lim : Lim) : Option ℝ × Option ℝ :=
  match lim with
  | (some mn, some mx) => (some mn, some mx)
  | _ =>
    let r := (M.means.zip M.covs).foldl (stretch sigmas i lim) none
    (lim.1.orElse fun _ => r.map (·.1), lim.2.orElse fun _ => r.map (·.2))

/-- the limits used by `autoRanges` (107-110) for parameter `i` -/
noncomputable def limOf {d : Nat} (M : Mix d) (lims : Option (List Lim)) (i : Fin d) : Lim :=
  match lims.orElse fun _ => M.lims with
  | none => (none, none)
  | some l => l.getD i.val (none, none)

/-- `density1D` (171-188): the points and the values there -/
noncomputable def density1D {d : Nat} (M : Mix d) (p : Par) (num : Nat) (sigmas : ℝ) (noLimitMarge : Bool)
    (linspace : Option ℝ → Option ℝ → Nat → List ℝ) : Except Err (List ℝ × List ℝ) := do
  let i ← resolve M p
  checkUnless noLimitMarge M [i]
  let r := autoRange M sigmas i (limOf M none i)
  let x := linspace r.1 r.2 num
  -- `self.pdf_marged(index, x)`: the flag is not passed on
  checkNoLimits M [i]
  .ok (x, x.map (marged M i))

/-- `make_2D_Cov` (8-9) -/
def make2DCov (sx sy corr : ℝ) : Matrix (Fin 2) (Fin 2) ℝ := !![sx ^ 2, sx * sy * corr; sx * sy * corr, sy ^ 2]

/-- `Mixture2D._updateLimits` (359-364) -/
def updateLimits (lims : Lim × Lim) (xmin xmax ymin ymax : Option ℝ) : Lim × Lim :=
  ((xmin.orElse fun _ => lims.1.1, xmax.orElse fun _ => lims.1.2), (ymin.orElse fun _ => lims.2.1, ymax.orElse fun _ => lims.2.2))

/-- `Mixture2D.__init__` (347-350) -/
def limits2 (lims : Option (Lim × Lim)) (xmin xmax ymin ymax : Option ℝ) : Lim × Lim :=
  match lims with
  | some l => updateLimits l xmin xmax ymin ymax
  | none => ((xmin, xmax), (ymin, ymax))

/-- `_density2D` (366-373): the values on the grid, one row for each value of the second parameter -/
noncomputable def density2D (M : Mix 2) (x y : List ℝ) : List (List ℝ) := y.map fun b => x.map fun a => pdf2 M a b

/-- `GaussianND.__init__` (417-430) -/
noncomputable def gaussianND {d : Nat} (mean : Fin d → ℝ) (cov : Matrix (Fin d) (Fin d) ℝ) (isInv : Bool) (lims : Option (List Lim))
    (names : Option (List Str)) : Except Err (Mix d) :=
  if isInv then (if cov.det = 0 then .error .linAlg else make [mean] [cov⁻¹] none lims names)
  else make [mean] [cov] none lims names

/-- `Mixture1D.__init__` (438-456) -/
noncomputable def mixture1D (means sigmas : List ℝ) (weights : Option (List ℝ)) (lims : Option Lim) (xmin xmax : Option ℝ) (name : Str) :
    Except Err (Mix 1) :=
  let limit : Lim := match lims with
    | some l => (xmin.orElse fun _ => l.1, xmax.orElse fun _ => l.2)
    | none => (xmin, xmax)
  make (means.map fun m _ => m) (sigmas.map fun s => Matrix.of fun _ _ => s ^ 2) weights (some [limit]) (some [name])

/-! ### random samples -/

section sim

variable {V : Type}

/-- the cuts for one parameter (67-70) -/
noncomputable def cutOne (coord : Nat → V → ℝ) (v : List V) (p : Lim × Nat) : List V :=
  let v := match p.1.1 with | some mn => v.filter fun x => decide (mn ≤ coord p.2 x) | none => v
  match p.1.2 with | some mx => v.filter fun x => decide (coord p.2 x ≤ mx) | none => v

/-- the cuts for one block of samples (66-70) -/
noncomputable def cut (coord : Nat → V → ℝ) (lims : List Lim) (v : List V) : List V := lims.zipIdx.foldl (cutOne coord) v

/-- no cuts without limits (65) -/
noncomputable def cutAll (coord : Nat → V → ℝ) (lims : Option (List Lim)) (v : List V) : List V :=
  match lims with | some l => cut coord l v | none => v

/-- `int(1.1 * (size * (size - tot))) // max(tot, 1) + 1` with the bound of the next blocks (75-76) -/
def block (size tot : Nat) : Nat := min (max size 100000) (11 * (size * (size - tot)) / 10 / max tot 1 + 1)

/-- `MixtureND.sim` (49-82): `draw r n` are the samples drawn in round `r` when `n` are asked for, by component; `perm` is the
random order. The first argument bounds the number of rounds. -/
noncomputable def simLoop (coord : Nat → V → ℝ) (lims : Option (List Lim)) (size : Nat) (draw : Nat → Nat → List (List V)) :
    Nat → Nat → Option Nat → List (List V) → Option (List (List V))
  | 0, _, _, _ => none
  | fuel + 1, r, blk, res =>
    let new := ((draw r (blk.getD size)).filter (!·.isEmpty)).map (cutAll coord lims)
    let res := res ++ new
    let tot := (res.map List.length).sum
    if size ≤ tot then some res
    else simLoop coord lims size draw fuel (r + 1) (some (blk.getD (block size tot))) res

noncomputable def sim (coord : Nat → V → ℝ) (lims : Option (List Lim)) (size : Nat) (draw : Nat → Nat → List (List V))
    (perm : List V → List V) (fuel : Nat) : Option (List V) := do
  let res ← simLoop coord lims size draw fuel 0 none []
  -- `vstack` of nothing is an error
  if res.isEmpty then none else some ()
  let samples := if 1 < res.length then perm res.flatten else res.flatten
  if samples.length ≠ size then some (samples.take size) else some samples

end sim

end Verif.GaussMix
