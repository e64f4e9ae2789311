import Mathlib.LinearAlgebra.Matrix.NonsingularInverse
import Mathlib.Analysis.SpecialFunctions.Log.Base
import Mathlib.Analysis.SpecialFunctions.Trigonometric.Basic
import Verif.Py.Dict
import Verif.Py.Str

/-!
# Model of the supernova likelihood (`python/planck/SN.py`)

Real numbers.  `n` supernovae.  `linalg.inv` raises exactly for singular matrices.
The data file is a list of lines, the reading of a number is a parameter.
Simplified: columns and matrices of the wrong size raise one error; `dz` and the variance of the redshift, which are read but never used, and messages
are not modelled; the settings file is that of Model/IniFile.
-/

namespace Verif.SN
open Verif.Py Matrix Real

inductive Err where
  | linAlg | noHeader | value | attribute | index
deriving DecidableEq

/-! ### reading the data file (SN.py:71-106) -/

/-- SN.py:85-87 -/
def renames : List (Str × Str) :=
  [(c!"mb", c!"mag"), (c!"color", c!"colour"), (c!"x1", c!"stretch"), (c!"3rdvar", c!"third_var"), (c!"d3rdvar", c!"dthird_var"),
   (c!"cov_m_s", c!"cov_mag_stretch"), (c!"cov_m_c", c!"cov_mag_colour"), (c!"cov_s_c", c!"cov_stretch_colour")]

/-- replace the first occurrence: `cols[cols.index(rename)] = new` -/
def renameFirst (old new : Str) : List Str → List Str
  | [] => []
  | c :: cs => if c = old then new :: cs else c :: renameFirst old new cs

/-- the names of the columns (SN.py:84-89) -/
def header (line : Str) : List Str := renames.foldl (fun cs r => renameFirst r.1 r.2 cs) (splitWs line.tail)

/-- variables of the loop; `cols = none` before the header; `attrs` are the attributes that are arrays -/
structure Rd (K : Type) where
  cols : Option (List Str)
  attrs : Dict Str (List K)
  names : List Str
  ix : Nat

variable {K : Type}

/-- the attributes that a header sets (SN.py:91-96) -/
def fresh [Zero K] (len : Nat) (attrs : Dict Str (List K)) (cols : List Str) : Dict Str (List K) :=
  ([c!"third_var", c!"dthird_var", c!"set"] ++ cols).foldl (fun d c => Dict.set d c (List.replicate len 0)) attrs

/-- one value (SN.py:100-105) -/
def putVal (num : Str → Option K) (ix : Nat) (s : Except Err (Dict Str (List K) × List Str)) (cv : Str × Str) : Except Err (Dict Str (List K) × List Str) :=
  match s with
  | .error e => .error e
  | .ok (d, names) =>
    if cv.1 = c!"name" then .ok (d, names ++ [cv.2])
    else match num cv.2 with
      | none => .error .value
      | some x =>
        match Dict.get? d cv.1 with
        | none => .error .attribute
        | some a => if ix < a.length then .ok (Dict.set d cv.1 (a.set ix x), names) else .error .index

/-- one line (SN.py:83-106); `len` is `len(lines) - 1` -/
def readLine [Zero K] (num : Str → Option K) (len : Nat) (s : Rd K) (line : Str) : Except Err (Rd K) :=
  if '#' ∈ line then .ok { s with cols := some (header line), attrs := fresh len s.attrs (header line) }
  else if strip line = [] then .ok s
  else match s.cols with
    | none => .error .noHeader
    | some cols =>
      match (cols.zip (splitWs line)).foldl (putVal num s.ix) (.ok (s.attrs, s.names)) with
      | .error e => .error e
      | .ok (d, names) => .ok { s with attrs := d, names := names, ix := s.ix + 1 }

/-- all lines -/
def readData [Zero K] (num : Str → Option K) (lines : List Str) : Except Err (Rd K) :=
  lines.foldlM (readLine num (lines.length - 1)) ⟨none, [], [], 0⟩

open Classical in
/-- the numbers without the size at the beginning (SN.py:188-189) -/
noncomputable def covNumbers (xs : List ℝ) : List ℝ := if xs.headD 0 ^ 2 + 1 = (xs.length : ℝ) then xs.tail else xs

/-- `_read_covmat` (SN.py:186-190) of a file with one number per line: rows of the matrix.  A file with one number is an array without dimension. -/
noncomputable def readCov (n : Nat) (xs : List ℝ) : Except Err (List (List ℝ)) :=
  if xs.length ≤ 1 then .error .index
  else if (covNumbers xs).length = n * n then .ok ((List.range n).map fun i => ((covNumbers xs).drop (i * n)).take n)
  else .error .value

/-! ### the covariance (SN.py:121-137, 192-225) -/

variable {n : Nat}

/-- columns of the data file and variances computed from them -/
structure Data (n : Nat) where
  mag : Fin n → ℝ
  stretch : Fin n → ℝ
  colour : Fin n → ℝ
  third : Fin n → ℝ
  zcmb : Fin n → ℝ
  zhel : Fin n → ℝ
  magVar : Fin n → ℝ
  stretchVar : Fin n → ℝ
  colourVar : Fin n → ℝ
  covMS : Fin n → ℝ
  covMC : Fin n → ℝ
  covSC : Fin n → ℝ
  pecz : ℝ

/-- `self.covs` -/
structure Covs (n : Nat) where
  mag : Option (Matrix (Fin n) (Fin n) ℝ)
  stretch : Option (Matrix (Fin n) (Fin n) ℝ)
  colour : Option (Matrix (Fin n) (Fin n) ℝ)
  magStretch : Option (Matrix (Fin n) (Fin n) ℝ)
  magColour : Option (Matrix (Fin n) (Fin n) ℝ)
  stretchColour : Option (Matrix (Fin n) (Fin n) ℝ)

/-- `len(self.covs.items())` -/
def Covs.count (c : Covs n) : Nat := ([c.mag, c.stretch, c.colour, c.magStretch, c.magColour, c.stretchColour].filter Option.isSome).length

/-- `alphabeta_covmat` (SN.py:128) -/
def Covs.alphabeta (c : Covs n) : Bool := decide (1 < c.count) || c.mag.isNone

/-- `pre_vars`: errors of magnitudes and of peculiar velocities (SN.py:135-137) -/
noncomputable def preVars (d : Data n) (i : Fin n) : ℝ :=
  d.magVar i + 25 / log 10 ^ 2 * d.pecz ^ 2 * ((1 + d.zcmb i) / (d.zcmb i * (1 + 1 / 2 * d.zcmb i))) ^ 2

/-- the variance of each supernova (SN.py:217-220, 232-236) -/
noncomputable def diagVar (d : Data n) (a b : ℝ) (i : Fin n) : ℝ :=
  preVars d i + a * a * d.stretchVar i + b * b * d.colourVar i + 2 * a * d.covMS i - 2 * b * d.covMC i - 2 * (a * b) * d.covSC i

/-- the sum of matrices (SN.py:193-215); a matrix that is not given is left out -/
noncomputable def covSum (c : Covs n) (a b : ℝ) : Matrix (Fin n) (Fin n) ℝ :=
  c.mag.getD 0 +
    if c.alphabeta then (a * a) • c.stretch.getD 0 + (b * b) • c.colour.getD 0 + (2 * a) • c.magStretch.getD 0 - (2 * b) • c.magColour.getD 0
      - (2 * (a * b)) • c.stretchColour.getD 0
    else 0

/-- the covariance matrix before it is inverted (SN.py:193-223) -/
noncomputable def covMat (d : Data n) (c : Covs n) (a b : ℝ) : Matrix (Fin n) (Fin n) ℝ :=
  covSum c a b + diagonal (if c.alphabeta then diagVar d a b else preVars d)

/-- `_last_alpha`, `_last_beta` and `invcov`; `none` is `inf` and an attribute that does not exist -/
structure Cache (n : Nat) where
  last : Option (ℝ × ℝ)
  inv : Option (Matrix (Fin n) (Fin n) ℝ)

/-- `np.isclose` -/
def isClose (x y : ℝ) : Prop := |x - y| ≤ 1 / 10 ^ 8 + 1 / 10 ^ 5 * |y|

/-- the parameters are close to the last ones (SN.py:198) -/
def isLast (s : Cache n) (a b : ℝ) : Prop := ∃ p ∈ s.last, isClose a p.1 ∧ isClose b p.2

/-- `_last_alpha` and `_last_beta` after they are assigned (SN.py:200-201) -/
def nextLast (c : Covs n) (s : Cache n) (a b : ℝ) : Option (ℝ × ℝ) := if c.alphabeta then some (a, b) else s.last

open Classical in
/-- `inverse_covariance_matrix` (SN.py:192-225): the result or the exception, and the state -/
noncomputable def invCov (d : Data n) (c : Covs n) (s : Cache n) (a b : ℝ) : Except Err (Matrix (Fin n) (Fin n) ℝ) × Cache n :=
  if c.alphabeta = true ∧ isLast s a b then
    match s.inv with
    | none => (.error .attribute, s)
    | some m => (.ok m, s)
  else if (covMat d c a b).det = 0 then (.error .linAlg, ⟨nextLast c s a b, s.inv⟩)
  else (.ok (covMat d c a b)⁻¹, ⟨nextLast c s a b, some (covMat d c a b)⁻¹⟩)

/-! ### the likelihood (SN.py:139-155, 227-295) -/

/-- the sum weighted by inverse variances over the sum of weights (SN.py:237-238, 244-246) -/
noncomputable def weighted (v x : Fin n → ℝ) : ℝ := (∑ i, x i * (1 / v i)) / ∑ i, 1 / v i

/-- residuals (SN.py:239-240, 247) -/
noncomputable def diffMag (d : Data n) (c : Covs n) (lum : Fin n → ℝ) (a b : ℝ) : Fin n → ℝ :=
  if c.alphabeta then fun i => d.mag i - lum i + a * d.stretch i - b * d.colour i - weighted (diagVar d a b) fun j => d.mag j - lum j
  else fun i => d.mag i - lum i - weighted (preVars d) fun j => d.mag j - lum j

/-- one unknown magnitude (SN.py:250-251, 270-273), half of chi squared -/
noncomputable def like1 (m : Matrix (Fin n) (Fin n) ℝ) (x : Fin n → ℝ) : ℝ :=
  (x ⬝ᵥ m *ᵥ x + log ((∑ i, ∑ j, m i j) / (2 * π)) - (∑ i, (m *ᵥ x) i) ^ 2 / ∑ i, ∑ j, m i j) / 2

/-- two unknown magnitudes (SN.py:250-267, 273), half of chi squared -/
noncomputable def like2 (m : Matrix (Fin n) (Fin n) ℝ) (a1 a2 x : Fin n → ℝ) : ℝ :=
  let A := m *ᵥ x ⬝ᵥ x
  let B := m *ᵥ x ⬝ᵥ a1
  let C := m *ᵥ x ⬝ᵥ a2
  let D := m *ᵥ a1 ⬝ᵥ a2
  let E := m *ᵥ a1 ⬝ᵥ a1
  let F := m *ᵥ a2 ⬝ᵥ a2
  let G := F - D * D / E
  (A + log (E / (2 * π)) + log (G / (2 * π)) - C * C / G - B * B * F / (E * G) + 2 * B * C * D / (E * G)) / 2

/-- which supernovae belong to which magnitude: `twoscriptmfit`, `A1`, `A2` (SN.py:139-155) -/
noncomputable def split (two : Bool) (third : Fin n → ℝ) (cut : ℝ) : Option ((Fin n → ℝ) × (Fin n → ℝ)) :=
  open Classical in
  if two = true ∧ (∃ i, third i ≤ cut) ∧ ∃ i, cut < third i then
    some (fun i => if third i ≤ cut then 1 else 0, fun i => if cut < third i then 1 else 0)
  else none

/-- chi squared for given residuals (SN.py:250-273) -/
noncomputable def likeOf (sp : Option ((Fin n → ℝ) × (Fin n → ℝ))) (m : Matrix (Fin n) (Fin n) ℝ) (x : Fin n → ℝ) : ℝ :=
  match sp with
  | none => like1 m x
  | some (a1, a2) => like2 m a1 a2 x

/-- the whole likelihood object -/
structure Like (n : Nat) where
  data : Data n
  covs : Covs n
  split : Option ((Fin n → ℝ) × (Fin n → ℝ))

/-- the likelihood with a matrix that may have failed -/
noncomputable def likeWith (sp : Option ((Fin n → ℝ) × (Fin n → ℝ))) (x : Fin n → ℝ) : Except Err (Matrix (Fin n) (Fin n) ℝ) → Except Err ℝ
  | .error e => .error e
  | .ok m => .ok (likeOf sp m x)

/-- the matrix used (SN.py:241-242, 248); `given` is the argument `invcovmat` -/
noncomputable def useMat (l : Like n) (s : Cache n) (a b : ℝ) (given : Option (Matrix (Fin n) (Fin n) ℝ)) : Except Err (Matrix (Fin n) (Fin n) ℝ) × Cache n :=
  if l.covs.alphabeta then
    match given with
    | some m => (.ok m, s)
    | none => invCov l.data l.covs s a b
  else
    match s.inv with
    | none => (.error .attribute, s)
    | some m => (.ok m, s)

/-- `alpha_beta_like` (SN.py:227-273) -/
noncomputable def alphaBetaLike (l : Like n) (s : Cache n) (lum : Fin n → ℝ) (a b : ℝ) (given : Option (Matrix (Fin n) (Fin n) ℝ)) : Except Err ℝ × Cache n :=
  (likeWith l.split (diffMag l.data l.covs lum a b) (useMat l s a b given).1, (useMat l s a b given).2)

/-- `5 * np.log10(…)` (SN.py:281) -/
noncomputable def lumDists (d : Data n) (dist : Fin n → ℝ) (i : Fin n) : ℝ := 5 * (log ((1 + d.zhel i) * (1 + d.zcmb i) * dist i) / log 10)

/-- `loglike` without marginalisation (SN.py:278-281, 290-295) -/
noncomputable def logLike (l : Like n) (s : Cache n) (dist : Fin n → ℝ) (a b : ℝ) : Except Err ℝ × Cache n :=
  if l.covs.alphabeta then alphaBetaLike l s (lumDists l.data dist) a b none else alphaBetaLike l s (lumDists l.data dist) 0 0 none

/-! ### marginalisation over the grid (SN.py:157-181, 282-289) -/

/-- the points of the grid (SN.py:166-172): within a circle -/
def gridPoints (steps : Nat) : List (Int × Int) :=
  ((List.range (2 * steps + 1)).flatMap fun i : Nat => (List.range (2 * steps + 1)).map fun j : Nat => ((i : Int) - steps, (j : Int) - steps)).filter
    fun p => decide (p.1 ^ 2 + p.2 ^ 2 ≤ (steps : Int) ^ 2)

/-- options of the grid -/
structure Marge where
  steps : Nat
  wa : ℝ
  wb : ℝ
  ca : ℝ
  cb : ℝ

/-- values of the parameters on the grid -/
noncomputable def Marge.values (g : Marge) : List (ℝ × ℝ) := (gridPoints g.steps).map fun p => (g.ca + p.1 * g.wa, g.cb + p.2 * g.wb)

/-- results of a loop with an exception -/
def consOk {β : Type} : Except Err β → Except Err (List β) → Except Err (List β)
  | .error e, _ => .error e
  | .ok _, .error e => .error e
  | .ok x, .ok xs => .ok (x :: xs)

/-- matrices computed in advance (SN.py:179-181) -/
noncomputable def precompute (d : Data n) (c : Covs n) : Cache n → List (ℝ × ℝ) → Except Err (List (Matrix (Fin n) (Fin n) ℝ)) × Cache n
  | s, [] => (.ok [], s)
  | s, p :: ps => (consOk (invCov d c s p.1 p.2).1 (precompute d c (invCov d c s p.1 p.2).2 ps).1, (precompute d c (invCov d c s p.1 p.2).2 ps).2)

/-- the likelihood at all points of the grid (SN.py:284-286); a matrix that was not computed is `None`.  The state after an exception is not that of the code. -/
noncomputable def gridLikes (l : Like n) (lum : Fin n → ℝ) : Cache n → List ((ℝ × ℝ) × Option (Matrix (Fin n) (Fin n) ℝ)) → Except Err (List ℝ) × Cache n
  | s, [] => (.ok [], s)
  | s, p :: ps =>
    (consOk (alphaBetaLike l s lum p.1.1 p.1.2 p.2).1 (gridLikes l lum (alphaBetaLike l s lum p.1.1 p.1.2 p.2).2 ps).1,
      (gridLikes l lum (alphaBetaLike l s lum p.1.1 p.1.2 p.2).2 ps).2)

/-- the smallest of a list -/
noncomputable def least : List ℝ → ℝ
  | [] => 0
  | x :: xs => xs.foldl min x

/-- `grid_best - np.log(…)` (SN.py:287-289) -/
noncomputable def combine (g : Marge) (xs : List ℝ) : ℝ := least xs - log ((xs.map fun x => exp (-x + least xs)).sum * g.wa * g.wb)

/-- the grid of matrices after the loop -/
def someAll {β : Type} : Except Err (List β) → Except Err (List (Option β))
  | .error e => .error e
  | .ok xs => .ok (xs.map some)

/-- the exception of a call whose result is not used -/
def onlyErr {β : Type} : Except Err β → Except Err (List (Option β))
  | .error e => .error e
  | .ok _ => .ok []

/-- what the constructor computes in advance, and the cache it leaves (SN.py:157-184) -/
noncomputable def start (l : Like n) (marge : Option Marge) (pre : Bool) : Except Err (List (Option (Matrix (Fin n) (Fin n) ℝ))) × Cache n :=
  match marge with
  | none =>
    if l.covs.alphabeta then (.ok [], ⟨none, none⟩)
    else (onlyErr (invCov l.data l.covs ⟨none, none⟩ 0 0).1, (invCov l.data l.covs ⟨none, none⟩ 0 0).2)
  | some g =>
    if pre then (someAll (precompute l.data l.covs ⟨none, none⟩ g.values).1, (precompute l.data l.covs ⟨none, none⟩ g.values).2)
    else (.ok (g.values.map fun _ => none), ⟨none, none⟩)

/-- the combination of the grid, or its exception -/
noncomputable def combineWith (g : Marge) : Except Err (List ℝ) → Except Err ℝ
  | .error e => .error e
  | .ok xs => .ok (combine g xs)

/-- `loglike` with marginalisation (SN.py:282-289) -/
noncomputable def margeLike (l : Like n) (g : Marge) (ms : List (Option (Matrix (Fin n) (Fin n) ℝ))) (s : Cache n) (dist : Fin n → ℝ) : Except Err ℝ × Cache n :=
  (combineWith g (gridLikes l (lumDists l.data dist) s (g.values.zip ms)).1, (gridLikes l (lumDists l.data dist) s (g.values.zip ms)).2)

end Verif.SN
