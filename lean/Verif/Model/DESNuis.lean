import Mathlib.Analysis.SpecialFunctions.Pow.Real
import Mathlib.Algebra.BigOperators.Group.Finset.Basic
import Verif.Model.DES

/-!
# Model of the theory of the DES likelihood (`python/planck/DES.py:455-595`)

`get_theory_for_params` and `get_theory` for given distances and power spectra, with sums over Bessel functions.
Simplified: numbers are exact; the results of the Boltzmann code, splines and Bessel functions are parameters; distances are positive and there are at
least two; the Hankel transforms (DES.py:559-577) are not modelled.  Which pairs of bins are computed is in `DES.computed`.
-/

namespace Verif.DESNuis
open Verif.Py
open Verif.DES (Err)

/-- arguments of `get_theory` that are sampled (DES.py:475-479) -/
structure Nuis where
  bias : List ℝ
  shear : List ℝ
  amp : ℝ
  alpha : ℝ
  z0 : ℝ
  wlErr : List ℝ
  lensErr : List ℝ

/-- `paramdic[name]` -/
def need (d : Dict Str ℝ) (n : Str) : Except Err ℝ :=
  match d.get? n with
  | some v => .ok v
  | none => .error .key

/-- list of values, in order -/
def needAll (d : Dict Str ℝ) : List Str → Except Err (List ℝ)
  | [] => .ok []
  | n :: ns => do
    let v ← need d n
    let vs ← needAll d ns
    return v :: vs

/-- the parameters as arguments (DES.py:463-473) -/
def nuisOf (d : Dict Str ℝ) : Except Err Nuis := do
  let wl ← needAll d [c!"DES_DzS1", c!"DES_DzS2", c!"DES_DzS3", c!"DES_DzS4"]
  let le ← needAll d [c!"DES_DzL1", c!"DES_DzL2", c!"DES_DzL3", c!"DES_DzL4", c!"DES_DzL5"]
  let b ← needAll d [c!"DES_b1", c!"DES_b2", c!"DES_b3", c!"DES_b4", c!"DES_b5"]
  let m ← needAll d [c!"DES_m1", c!"DES_m2", c!"DES_m3", c!"DES_m4"]
  let a ← need d c!"DES_AIA"
  let al ← need d c!"DES_alphaIA"
  return ⟨b, m, a, al, 0.62, wl, le⟩

/-- what the Boltzmann code gives at the redshifts used (DES.py:480-491); power spectra by place of the redshift and wave number -/
structure Cosmo where
  n : Nat
  zs : Nat → ℝ
  chis : Nat → ℝ
  hs : Nat → ℝ
  growth : Nat → ℝ
  h2 : ℝ
  omm : ℝ
  pk : Nat → ℝ → ℝ
  kmax : ℝ

/-- the Weyl potential, if used -/
abbrev Weyl := Option ((Nat → ℝ → ℝ) × ℝ)

/-- redshift distributions, and the transforms: Bessel functions by angle and multipole, the spline through the spectrum, groups of multipoles -/
structure Setup where
  nz : Nat
  nw : Nat
  zbin : Nat → ℝ → ℝ
  zbinW : Nat → ℝ → ℝ
  j0 : Nat → Nat → ℝ
  j2 : Nat → Nat → ℝ
  j4 : Nat → Nat → ℝ
  spl : (ℝ → ℝ) → ℝ → ℝ
  gs : List (Nat × Nat)
  usedTypes : List Str

variable (C : Cosmo) (S : Setup) (N : Nuis) (W : Weyl)

/-- `(1e5 / c) ** 2` (DES.py:492, 506, 528) -/
noncomputable def hubble2 : ℝ := (1e5 / 299792458) ^ 2

/-- `n_chi` with redshifts shifted by an error (DES.py:499-501, 515-517) -/
noncomputable def nChi (dist : ℝ → ℝ) (err : ℝ) (i : Nat) : ℝ := if C.zs i - err < 0 then 0 else C.hs i * dist (C.zs i - err)

/-- `Alignment_z` (DES.py:495-496) -/
noncomputable def alignZ (i : Nat) : ℝ := N.amp * ((1 + C.zs i) / (1 + N.z0)) ^ N.alpha * 0.0134 / C.growth i

/-- `w_align` (DES.py:506) -/
noncomputable def wAlign (b i : Nat) : ℝ := alignZ C N i * nChi C (S.zbin b) (N.wlErr.getD b 0) i / (C.chis i * (1 + C.zs i) * 3 * C.h2 * hubble2 / 2)

/-- lensing efficiency of a bin (DES.py:502-505) -/
noncomputable def lens (b i : Nat) : ℝ := DES.lensW C.chis (fun j => nChi C (S.zbin b) (N.wlErr.getD b 0) j * DES.dchis C.chis C.n j) C.n i

/-- `wq` (DES.py:507) -/
noncomputable def wq (b i : Nat) : ℝ := lens C S N b i - wAlign C S N b i

/-- `qgal` (DES.py:510-519) -/
noncomputable def qgal (b i : Nat) : ℝ := nChi C (S.zbinW b) (N.lensErr.getD b 0) i * N.bias.getD b 0

/-- `qs` (DES.py:523-528) -/
noncomputable def qs (b i : Nat) : ℝ :=
  match W with
  | some _ => C.chis i * wq C S N b i
  | none => 1.5 * C.omm * C.h2 * hubble2 * C.chis i * (1 + C.zs i) * wq C S N b i

/-- a row of `tmp`: weight times power (DES.py:535-542) -/
noncomputable def tmpAt (p : Nat → ℝ → ℝ) (kmax l : ℝ) (i : Nat) : ℝ :=
  (if (l + 0.5) / C.chis i < 1e-4 ∨ kmax ≤ (l + 0.5) / C.chis i then 0 else DES.dchis C.chis C.n i / C.chis i ^ 2) * p i ((l + 0.5) / C.chis i)

/-- `tmplens` (DES.py:544-553) -/
noncomputable def tmpLens (l : ℝ) (i : Nat) : ℝ :=
  match W with
  | some (p, k) => tmpAt C p k l i
  | none => tmpAt C C.pk C.kmax l i

/-- `np.dot(tmp, f * g)` -/
noncomputable def cl (tmp : ℝ → Nat → ℝ) (f g : Nat → ℝ) (l : ℝ) : ℝ := ∑ i ∈ Finset.range C.n, tmp l i * (f i * g i)

/-- `1 + shear_calibration_parameters[f]` -/
def cal (f : Nat) : ℝ := 1 + N.shear.getD f 0

/-- the correlations of a pair of bins at an angle (DES.py:578-593) -/
noncomputable def corr (tp : Str) (f1 f2 th : Nat) : ℝ :=
  if tp = c!"xip" then DES.transform (S.j0 th) (S.spl (cl C (tmpLens C W) (qs C S N W f1) (qs C S N W f2))) S.gs * (cal N f1 * cal N f2)
  else if tp = c!"xim" then DES.transform (S.j4 th) (S.spl (cl C (tmpLens C W) (qs C S N W f1) (qs C S N W f2))) S.gs * (cal N f1 * cal N f2)
  else if tp = c!"gammat" then DES.transform (S.j2 th) (S.spl (cl C (tmpAt C C.pk C.kmax) (qgal C S N f1) (qs C S N W f2))) S.gs * cal N f2
  else DES.transform (S.j0 th) (S.spl (cl C (tmpAt C C.pk C.kmax) (qgal C S N f1) (qgal C S N f2))) S.gs

/-- `get_theory` (DES.py:475-595): lists indexed by bins, and the refusal of the Weyl potential with galaxies and lensing -/
noncomputable def getTheory : Except Err (Str → Nat → Nat → Nat → ℝ) :=
  if N.lensErr.length < S.nw ∨ N.bias.length < S.nw then .error .index
  else if N.wlErr.length < S.nz then .error .index
  else if W.isSome ∧ c!"gammat" ∈ S.usedTypes then .error .value
  else .ok (corr C S N W)

/-- `get_theory_for_params` (DES.py:455-473) -/
noncomputable def theoryForParams (d : Dict Str ℝ) : Except Err (Str → Nat → Nat → Nat → ℝ) := do
  let nu ← nuisOf d
  getTheory C S nu W

end Verif.DESNuis
