import Mathlib.Analysis.SpecialFunctions.Exp
import Mathlib.Analysis.SpecialFunctions.Sqrt
import Verif.Model.CamSpec

/-!
# Model of the foregrounds of CamSpec (`python/planck/CMB_CamSpec.py:118-131, 143-202`)

Simplified: numbers are exact, and a root of a negative number is `none` (numpy gives nan); templates are functions of the multipole and
long enough; `Aps` and the other arrays are functions.
-/

namespace Verif.Foregrounds
open Verif.Py
open Verif.CamSpec (Err)

/-- templates set by the constructor (CMB_CamSpec.py:118-131); `dust` in the order 100, 143, 217, 143x217 -/
structure Templates where
  sz : Nat → ℝ
  ksz : Nat → ℝ
  tszxcib : Nat → ℝ
  cib : Nat → ℝ
  dust : Nat → Nat → ℝ
  lnrat : Nat → ℝ

/-- values of the parameters read (CMB_CamSpec.py:150-167) -/
structure Pars where
  aps100 : ℝ
  aps143 : ℝ
  aps217 : ℝ
  psr : ℝ
  dust : Nat → ℝ
  acib143 : ℝ
  acib217 : ℝ
  cibr : ℝ
  ncib : ℝ
  cibrun : ℝ
  asz143 : ℝ
  xi : ℝ
  aksz : ℝ

/-- `data_params[name]` -/
def need (d : Dict Str ℝ) (n : Str) : Except Err ℝ :=
  match d.get? n with
  | some v => .ok v
  | none => .error .key

/-- reading of the parameters in order (CMB_CamSpec.py:150-167) -/
def readPars (d : Dict Str ℝ) : Except Err Pars := do
  let a0 ← need d c!"aps100"
  let a1 ← need d c!"aps143"
  let a2 ← need d c!"aps217"
  let r ← need d c!"psr"
  let d0 ← need d c!"dust100"
  let d1 ← need d c!"dust143"
  let d2 ← need d c!"dust217"
  let d3 ← need d c!"dust143x217"
  let c2 ← need d c!"acib217"
  let cr ← need d c!"cibr"
  let nc ← need d c!"ncib"
  let run ← need d c!"cibrun"
  let s ← need d c!"asz143"
  let x ← need d c!"xi"
  let k ← need d c!"aksz"
  return ⟨a0, a1, a2, r, fun i => [d0, d1, d2, d3].getD i 0, (d.get? c!"acib143").getD (-1), c2, cr, nc, run, s, x, k⟩

/-- `np.sqrt` -/
noncomputable def root (x : ℝ) : Option ℝ := if 0 ≤ x then some (Real.sqrt x) else none

/-- `cl_cib` (CMB_CamSpec.py:171) -/
noncomputable def clCib (t : Templates) (p : Pars) (l : Nat) : ℝ := Real.exp (p.ncib * t.lnrat l + p.cibrun * t.lnrat l ^ 2 / 2) * t.cib l

/-- `acib143` (CMB_CamSpec.py:172-174) -/
noncomputable def acib143Of (p : Pars) : ℝ := if p.acib143 < 0 then 0.094 * p.acib217 / 1.134 * 1.33 else p.acib143

/-- `A_cib_143_bandpass` (CMB_CamSpec.py:185) -/
noncomputable def cib143 (p : Pars) : ℝ := acib143Of p * 1.134

/-- `A_sz_143_bandpass` (CMB_CamSpec.py:184) -/
noncomputable def sz143 (p : Pars) : ℝ := p.asz143 * 0.95

/-- `A_cib_217_bandpass` (CMB_CamSpec.py:191) -/
noncomputable def cib217 (p : Pars) : ℝ := p.acib217 * 1.33

/-- `Aps` (CMB_CamSpec.py:150-155) -/
noncomputable def aps (p : Pars) : Nat → Option ℝ
  | 0 => some (p.aps100 * (1e-6 / 9))
  | 1 => some (p.aps143 * (1e-6 / 9))
  | 2 => some (p.aps217 * (1e-6 / 9))
  | 3 => (root (p.aps143 * p.aps217)).map fun r => p.psr * r * (1e-6 / 9)
  | _ => none

/-- `C_foregrounds` before dust and point sources (CMB_CamSpec.py:178-197) -/
noncomputable def gas (t : Templates) (p : Pars) (i l : Nat) : Option ℝ :=
  match i with
  | 0 => some (p.aksz * t.ksz l + p.asz143 * 2.022 * t.sz l)
  | 1 => (root (cib143 p * sz143 p)).map fun r =>
      cib143 p * clCib t p l + p.aksz * t.ksz l + sz143 p * t.sz l - 2 * r * p.xi * t.tszxcib l
  | 2 => some (cib217 p * clCib t p l + p.aksz * t.ksz l)
  | 3 => (root (cib143 p * cib217 p)).bind fun r => (root (cib217 p * sz143 p)).map fun q =>
      p.cibr * (r * clCib t p l) + p.aksz * t.ksz l - q * p.xi * t.tszxcib l
  | _ => none

/-- `get_foregrounds` at a spectrum and multipole (CMB_CamSpec.py:143-202) -/
noncomputable def fgAt (t : Templates) (p : Pars) (i l : Nat) : Option ℝ :=
  (gas t p i l).bind fun g => (aps p i).map fun a => g + (p.dust i * t.dust i l + a * (l * (l + 1)))

/-- `get_foregrounds` (CMB_CamSpec.py:143-202) -/
noncomputable def foregrounds (t : Templates) (d : Dict Str ℝ) : Except Err (Nat → Nat → Option ℝ) := do
  let p ← readPars d
  return fgAt t p

/-- `lnrat` as the constructor sets it: whole numbers (CMB_CamSpec.py:129-131) -/
noncomputable def setLnrat (lmin : Nat) (t : Templates) : Templates := { t with lnrat := fun l => (CamSpec.lnrat lmin l : ℤ) }

end Verif.Foregrounds
