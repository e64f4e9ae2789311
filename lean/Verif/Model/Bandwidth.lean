import Verif.Model.Kde1D
import Mathlib.Analysis.SpecialFunctions.Pow.Real
import Mathlib.Analysis.SpecialFunctions.Log.Basic
import Mathlib.Analysis.SpecialFunctions.Trigonometric.Basic
import Mathlib.Algebra.BigOperators.Group.Finset.Basic

/-!
# Automatic bandwidths: python/getdist/kde_bandwidth.py, python/getdist/mcsamples.py:1147-1193, 1222-1227

The formulas over the reals.  The solvers of scipy (`fsolve`, `brentq`, `minimize`) and the cosine transform are given functions; an exception is an error value.
Simplified: powers of negative numbers (NaN in numpy) do not occur, which is a theorem for the formulas in two dimensions; underflow of `exp` to zero and samples
that are all equal (a division by zero) are not modelled.  The odd moments `psi_odd` of the correlated case are given numbers here (see `Model/OddMoments`).
-/

namespace Verif.Bandwidth
open Verif.Py Verif.Py.Np Verif.Kde1D Real

inductive Err
  | zeroF                -- 'zero f in _bandwidth_fixed_point (non-convergence)'
  | solver               -- exceptions of scipy
  | bias                 -- 'bias not positive definite'
  | bandwidth            -- `BandwidthError`
  | square               -- 'KernelOptimizer2D only handles square arrays currently'
deriving DecidableEq, Repr

noncomputable section

/-- `np.prod(np.arange(1, 2 * j, 2))` -/
def oddProd : Nat → Nat
  | 0 => 1
  | j + 1 => (2 * j + 1) * oddProd j

/-! ## One dimension -/

/-- kde_bandwidth.py:49-50 `_kde_consts_1d` -/
def const1 (j : Nat) : ℝ := (1 + (1 / 2 : ℝ) ^ ((j : ℝ) + 1 / 2)) / 3 * (oddProd j : ℝ) / (√π / √2)

/-- `I[k]` (lines 110, 150): `(k + 1) ** 2` -/
def sq (k : Nat) : ℝ := ((k : ℝ) + 1) ^ 2

/-- kde_bandwidth.py:57-58, 65: `2 * np.pi ** (2 * j) * np.dot(a2, np.exp(j * logI - I * (pisquared * t)))` -/
def norm1 (a2 : List ℝ) (j : Nat) (t : ℝ) : ℝ :=
  2 * π ^ (2 * j) * (a2.zipIdx.map (fun e => e.1 * exp ((j : ℝ) * log (sq e.2) - sq e.2 * (π ^ 2 * t)))).sum

/-- kde_bandwidth.py:59-67, one pass: with `f` zero `t_j` is infinite, the next `f` is zero and an exception is raised -/
def stage (N : ℝ) (a2 : List ℝ) (f : ℝ) (j : Nat) : Except Err ℝ :=
  if f = 0 then .error .zeroF
  else
    let t := (const1 j / N / f) ^ (2 / (3 + 2 * (j : ℝ)))
    let f := norm1 a2 j t
    if f = 0 then .error .zeroF else .ok f

/-- kde_bandwidth.py:57-67: the estimate of the norm of the second derivative -/
def lastNorm (N : ℝ) (a2 : List ℝ) (h : ℝ) : Except Err ℝ := [6, 5, 4, 3, 2].foldlM (stage N a2) (norm1 a2 7 (h ^ 2))

/-- kde_bandwidth.py:53-68 `_bandwidth_fixed_point` -/
def fixedPoint (N : ℝ) (a2 : List ℝ) (h : ℝ) : Except Err ℝ :=
  if h ≤ 0 then .ok (h - 1)
  else (lastNorm N a2 h).map (fun f => h - (2 * N * √π * f) ^ (-1 / 5 : ℝ))

structure Solvers where
  /-- `fsolve(f, x0)[0]` -/
  fsolve : (ℝ → Except Err ℝ) → ℝ → Except Err ℝ
  /-- `brentq(f, a, b)` -/
  brentq : (ℝ → Except Err ℝ) → ℝ → ℝ → Except Err ℝ

/-- kde_bandwidth.py:110-112: squared coefficients of the binned data -/
def coeffs (dct : List ℝ → List ℝ) (data : List ℝ) : List ℝ := ((dct (data.map (fun x => x / data.sum))).drop 1).map (fun x => (x / 2) ^ 2)

/-- kde_bandwidth.py:113-129: the bandwidth, `none` for a failure -/
def solve (S : Solvers) (N : ℝ) (a2 : List ℝ) : Option ℝ :=
  let n := N ^ (-1 / 5 : ℝ)
  match S.fsolve (fixedPoint N a2) (53 / 100 * n) with
  | .error _ => none
  | .ok h =>
    if h < 19 / 1000 * n then
      match S.brentq (fixedPoint N a2) (19 / 1000 * n) (1 / 2) with
      | .ok h' => some h'
      | .error _ => some h
    else some h

/-- kde_bandwidth.py:97-129 `gaussian_kde_bandwidth_binned(data, Neff)` -/
def binned (S : Solvers) (dct : List ℝ → List ℝ) (data : List ℝ) (N : ℝ) : Option ℝ := solve S N (coeffs dct data)

/-- `np.count_nonzero(np.diff(samples)) + 1` -/
def changes : List ℝ → Nat
  | a :: b :: l => (if b - a = 0 then 0 else 1) + changes (b :: l)
  | _ => 1

/-- kde_bandwidth.py:85-94 `gaussian_kde_bandwidth` -/
def bandwidth (S : Solvers) (dct : List ℝ → List ℝ) (v : List ℝ) (N : Option ℝ) (rmin rmax : Option ℝ) (nbins : Nat) : Except NErr (Option ℝ) :=
  let N := N.getD (changes v : ℝ)
  match kdeBin v rmin rmax nbins (1 / 10) with
  | .error e => .error e
  | .ok (bins, R) =>
    match bincount bins (List.replicate bins.length 1) nbins with
    | .error e => .error e
    | .ok data => .ok ((binned S dct data N).map (fun h => h * R))

/-! ## `getAutoBandwidth1D` (mcsamples.py:1147-1193) -/

structure Sett where
  sigma : ℝ             -- `par.sigma_range`
  quiet : Bool          -- the name is one of those without warnings
  raises : Bool         -- `raise_on_bandwidth_errors`

/-- mcsamples.py:1167 -/
def binRange (p : Par ℝ) : ℝ := max p.pmax p.rmax - min p.pmin p.rmin

/-- mcsamples.py:1169: the width used when the search fails -/
def fallback (p : Par ℝ) (s : Sett) (N : ℝ) : ℝ := 106 / 100 * s.sigma * N ^ (-1 / 5 : ℝ) / binRange p

/-- mcsamples.py:1168: `h` is the result of `gaussian_kde_bandwidth_binned` -/
def tooSmall (p : Par ℝ) (N : ℝ) (h : Option ℝ) : Prop :=
  match h with
  | none => True
  | some h => h < 1 / 100 * N ^ (-1 / 5 : ℝ) * (p.rmax - p.rmin) / binRange p

open Classical in
/-- mcsamples.py:1167-1180 -/
def basicWidth (p : Par ℝ) (s : Sett) (N : ℝ) (h : Option ℝ) : Except Err ℝ :=
  if tooSmall p N h then
    if !s.quiet && s.raises then .error .bandwidth else .ok (fallback p s N)
  else .ok (h.getD 0)

/-- mcsamples.py:1182-1193 for the width `h` -/
def ordered (N h : ℝ) (m : Nat) (kernelOrder : Int) : ℝ :=
  let m := if kernelOrder > 1 then max m 1 else m
  if m ≠ 0 then h * N ^ (1 / 5 - 1 / (4 * (m : ℝ) + 5)) else h

/-- mcsamples.py:1147-1193 `getAutoBandwidth1D` with the result `h` of the search -/
def auto1D (p : Par ℝ) (s : Sett) (N : ℝ) (h : Option ℝ) (m : Nat) (kernelOrder : Int) : Except Err ℝ :=
  (basicWidth p s N h).map (fun h => ordered N h m kernelOrder)

/-- mcsamples.py:1222-1227: effective number of samples in two dimensions.  `arg` is `use_2D_Neff`, `setting` is `use_effective_samples_2D`. -/
def neff2D (arg : Option Bool) (setting : Bool) (corr e2 nx ny : ℝ) : ℝ :=
  if arg.getD setting = true ∧ |corr| < 999 / 1000 then e2 else min nx ny

/-- the argument when it is left out (mcsamples.py:1196), as in the call at line 1697 -/
def defaultArg : Option Bool := some false

/-! ## Two dimensions -/

/-- kde_bandwidth.py:135-136 `K` -/
def kern (s : Nat) : ℝ := (-1) ^ s * (oddProd s : ℝ) / √(2 * π)

/-- squared coefficients `a2[y, x]` (line 149), `n` in each direction -/
structure Coef where
  n : Nat
  a2 : Nat → Nat → ℝ

/-- kde_bandwidth.py:176-180 `psi([s0, s1], t)` -/
def psi (C : Coef) (s0 s1 : Nat) (t : ℝ) : ℝ :=
  let w := fun (k s : Nat) => exp (-sq k * (π ^ 2 * t) + log (sq k) * (s : ℝ))
  (-1) ^ (s0 + s1) * (∑ x ∈ Finset.range C.n, (∑ y ∈ Finset.range C.n, w y s1 * C.a2 y x) * w x s0) * π ^ (2 * (s0 + s1)) / 4

/-- kde_bandwidth.py:187: the time of a moment from the sum of the next ones -/
def time (N : ℝ) (s0 s1 : Nat) (sum : ℝ) : ℝ :=
  (-2 * ((1 + (1 / 2 : ℝ) ^ (s0 + s1 + 1)) / 3) * kern s0 * kern s1 / N / sum) ^ (1 / (2 + ((s0 + s1 : Nat) : ℝ)))

/-- kde_bandwidth.py:182-190 `func2d`, with the number of recursions left (`5 - sums`) -/
def func2d (C : Coef) (N : ℝ) : Nat → Nat → Nat → ℝ → ℝ
  | 0, s0, s1, t => psi C s0 s1 t
  | k + 1, s0, s1, t => psi C s0 s1 (time N s0 s1 (func2d C N k (s0 + 1) s1 t + func2d C N k s0 (s1 + 1) t))

/-- `func2d(s, t)` -/
def moment (C : Coef) (N : ℝ) (s0 s1 : Nat) (t : ℝ) : ℝ := func2d C N (5 - (s0 + s1)) s0 s1 t

/-- kde_bandwidth.py:172-174 -/
def newTime (C : Coef) (N t : ℝ) : ℝ := (2 * π * N * (moment C N 0 2 t + moment C N 2 0 t + 2 * moment C N 1 1 t)) ^ (-1 / 3 : ℝ)

/-- kde_bandwidth.py:171-174 `_bandwidth_fixed_point_2D` -/
def fixedPoint2D (C : Coef) (N t : ℝ) : ℝ := (t - newTime C N t) / newTime C N t

/-- kde_bandwidth.py:154-169: `t_star` from the result of `brentq` -/
def tStar (root : Except Err ℝ) (fallbackT : Option ℝ) : Except Err ℝ :=
  match root with
  | .ok t => (match fallbackT with
    | some b => if b ≠ 0 ∧ t > 1 / 100 ∧ t > 2 * b then .ok b else .ok t
    | none => .ok t)
  | .error e => (match fallbackT with
    | some b => .ok b
    | none => .error e)

/-- the moments `p` of `get_h` (lines 248-262) -/
structure Mom where
  p40 : ℝ
  p04 : ℝ
  p22 : ℝ
  p31 : ℝ
  p13 : ℝ

/-- kde_bandwidth.py:217 -/
def variance (N hx hy c : ℝ) : ℝ := 1 / (4 * π * hx * hy * √(1 - c ^ 2) * N)

/-- kde_bandwidth.py:218-221 -/
def biasOf (p : Mom) (hx hy c : ℝ) : ℝ :=
  1 / 4 * (hx ^ 4 * p.p40 + hy ^ 4 * p.p04 + 2 * hx ^ 2 * hy ^ 2 * p.p22 * (2 * c ^ 2 + 1) + 4 * c * hx * hy * (hx ^ 2 * p.p31 + hy ^ 2 * p.p13))

open Classical in
/-- kde_bandwidth.py:210-224 `AMISE` -/
def amise (p : Mom) (N hx hy c : ℝ) : Except Err ℝ :=
  if biasOf p hx hy c < 0 then .error .bias else .ok (variance N hx hy c + biasOf p hx hy c)

/-- kde_bandwidth.py:240-241: `h_x`; `h_y` is the same with the moments exchanged -/
def diagWidth (N pOwn pOther p11 : ℝ) : ℝ :=
  (pOther ^ (3 / 4 : ℝ) / (4 * π * N * pOwn ^ (3 / 4 : ℝ) * (p11 + √(pOwn * pOther)))) ^ (1 / 6 : ℝ)

/-- widths, correlation and their `AMISE` -/
structure Best where
  hx : ℝ
  hy : ℝ
  c : ℝ
  val : ℝ

open Classical in
/-- kde_bandwidth.py:262-273; `min2` is `res.x` of `minimize` when it has success -/
def tryFixed (p : Mom) (N corr : ℝ) (min2 : ℝ × ℝ → Option (ℝ × ℝ)) (b : Best) : Best :=
  if corr = 0 then b
  else match min2 (b.hx / √(1 - |corr|), b.hy / √(1 - |corr|)) with
    | none => b
    | some x => match amise p N x.1 x.2 corr with
      | .error _ => b
      | .ok v => if v < b.val then ⟨x.1, x.2, corr, v⟩ else b

open Classical in
/-- kde_bandwidth.py:276-285 -/
def tryFree (p : Mom) (N corr : ℝ) (min3 : ℝ × ℝ × ℝ → Option (ℝ × ℝ × ℝ)) (b : Best) : Best :=
  match min3 (b.hx, b.hy, corr) with
  | none => b
  | some x => match amise p N x.1 x.2.1 x.2.2 with
    | .error _ => b
    | .ok v => if v < b.val * (9 / 10) then ⟨x.1, x.2.1, x.2.2, v⟩ else b

/-- kde_bandwidth.py:226-286 `get_h`, from the moments -/
def getH (p : Mom) (N corr : ℝ) (doCorr : Bool) (min2 : ℝ × ℝ → Option (ℝ × ℝ)) (min3 : ℝ × ℝ × ℝ → Option (ℝ × ℝ × ℝ)) : Except Err (ℝ × ℝ × ℝ) :=
  let hx := diagWidth N p.p40 p.p04 p.p22
  let hy := diagWidth N p.p04 p.p40 p.p22
  if !doCorr then .ok (hx, hy, 0)
  else
    match amise p N hx hy 0 with
    | .error e => .error e
    | .ok v =>
      let b := tryFree p N corr min3 (tryFixed p N corr min2 ⟨hx, hy, 0, v⟩)
      .ok (b.hx, b.hy, b.c)

/-- kde_bandwidth.py:231-239, 246-260: the moments for the time `t_star`; the odd ones are given -/
def moments (C : Coef) (N t p31 p13 : ℝ) : Mom := ⟨moment C N 2 0 t, moment C N 0 2 t, moment C N 1 1 t, p31, p13⟩

end

end Verif.Bandwidth
