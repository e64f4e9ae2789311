import Mathlib.LinearAlgebra.Matrix.NonsingularInverse
import Mathlib.LinearAlgebra.Matrix.PosDef
import Mathlib.Data.Rat.Defs
import Verif.Py.Dict
import Verif.Py.Str

/-!
# Model of the high-multipole Planck likelihood in python (`python/planck/CMB_plik.py`)

Translation of parameter names, binning and ordering of spectra, chi squared, and coadded spectra.
Simplified: the library `clik` (file contents, foreground components, calibrations, the matrix `Jt` and the list `oo`) is a parameter; numbers are exact;
`ClsArray.get` gives an array of spectra from zero to at least `lmax`.
-/

namespace Verif.Plik
open Verif.Py Matrix

inductive Err where
  | key | type | value | linAlg
deriving DecidableEq

/-! ### parameter names (CMB_plik.py:90-99) -/

/-- `_translate_parname`: names of the library to names of the file, by position -/
def translate (clikNames parnames : List Str) : Dict Str Str := (clikNames.zip parnames).foldl (fun d q => d.set q.1 q.2) []

/-- value of one parameter -/
def nuisanceOf {F : Type} (tr : Dict Str Str) (values : Dict Str F) (par : Str) : Except Err F :=
  match tr.get? par with
  | none => .error .key
  | some new => match values.get? new with
    | none => .error .key
    | some v => .ok v

/-- `get_nuisance_vector` -/
def nuisanceVector {F : Type} (tr : Dict Str Str) (values : Dict Str F) : List Str → Except Err (List F)
  | [] => .ok []
  | par :: ps =>
    match nuisanceOf tr values par with
    | .error e => .error e
    | .ok v => match nuisanceVector tr values ps with
      | .error e => .error e
      | .ok vs => .ok (v :: vs)

/-! ### file of parameter names (CMB_plik.py:21-30) -/

/-- `s.replace(old, new)` -/
def replaceAll (old new : Str) : Nat → Str → Str
  | 0, s => s
  | _ + 1, [] => []
  | fuel + 1, c :: s => if old.isPrefixOf (c :: s) then new ++ replaceAll old new fuel ((c :: s).drop old.length) else c :: replaceAll old new fuel s

/-- candidate name for one ending of the version -/
def candidate (name rem : Str) : Str :=
  let a := replaceAll rem c!"_" (name.length + 1) name
  replaceAll c!"_bin1" [] (a.length + 1) a

/-- endings of versions -/
def rems : List Str := [c!"_", c!"a_", c!"b_", c!"c_", c!"d_"]

/-- the loop: first candidate that exists, or the last one -/
def searchNames (ex : Str → Bool) (name : Str) : List Str → Str → Str
  | [], last => last
  | r :: rs, _ => if ex (candidate name r) then candidate name r else searchNames ex name rs (candidate name r)

/-- name of the file of parameter names -/
def namesFile (ex : Str → Bool) (name : Str) : Str := searchNames ex name rems []

variable {F : Type} [Field F] [DecidableEq F]

/-! ### spectra (CMB_plik.py:101-112, 157-203) -/

/-- the spectra in the order of the library that are in the data; `cl i` is the spectrum at `indices[i]` -/
def orderFrom (has : Nat → Bool) (cl : Nat → Nat → F) (llp1 : Nat → F) : List Nat → List (Nat → F)
  | [] => []
  | i :: is => if has i then (if i < 4 then (fun l => cl i l / llp1 l) else fun _ => 0) :: orderFrom has cl llp1 is else orderFrom has cl llp1 is

/-- `get_cl_clik_ordering` -/
def clikOrdering (has : Nat → Bool) (cl : Nat → Nat → F) (llp1 : Nat → F) : List (Nat → F) := orderFrom has cl llp1 (List.range 6)

/-- the loop that puts the list back: `cls[i] = mcls[j]` -/
def spread (has : Nat → Bool) (mcls : List (Nat → F)) : List Nat → Nat → (Nat → Nat → F) → Nat → Nat → F
  | [], _, cls => cls
  | i :: is, j, cls => if has i then spread has mcls is (j + 1) (fun k => if k = i then mcls.getD j (fun _ => 0) else cls k) else spread has mcls is j cls

/-- `cls` of `get_cmb_rq` -/
def clsOf (has : Nat → Bool) (cl : Nat → Nat → F) (llp1 : Nat → F) : Nat → Nat → F :=
  spread has (clikOrdering has cl llp1) (List.range 6) 0 (fun _ _ => 0)

/-- bins: first and last position, counted from `lmin`, and weights -/
structure Bins (F : Type) where
  lmin : Nat
  blmin : Nat → Nat
  blmax : Nat → Nat
  ws : Nat → F

/-- sum over a bin of an array that starts at zero -/
def binned (B : Bins F) (f : Nat → F) (b : Nat) : F :=
  ((List.range (B.blmax b + 1 - B.blmin b)).map fun k : Nat => f (B.lmin + B.blmin b + k) * B.ws (B.blmin b + k)).sum

/-- sum over a bin of an array that starts at `lmin` (`get_nuisance_rq`, CMB_plik.py:151-154) -/
def binnedShort (B : Bins F) (f : Nat → F) (b : Nat) : F :=
  ((List.range (B.blmax b + 1 - B.blmin b)).map fun k : Nat => f (B.blmin b + k) * B.ws (B.blmin b + k)).sum

/-- `rq[b, r0:r1, c0:c1] += v` -/
def addBlock (r0 r1 c0 c1 : Nat) (v : F) (rq : Nat → Nat → F) : Nat → Nat → F :=
  fun i j => if r0 ≤ i ∧ i < r1 ∧ c0 ≤ j ∧ j < c1 then rq i j + v else rq i j

/-- the blocks with temperature -/
def blocksT (mt me mb : Nat) (s : Nat → F) (rq : Nat → Nat → F) : Nat → Nat → F :=
  if mt = 0 then rq else
    let rq := addBlock 0 mt 0 mt (s 0) rq
    let rq := if me = 0 then rq else addBlock mt (mt + me) 0 mt (s 3) (addBlock 0 mt mt (mt + me) (s 3) rq)
    if mb = 0 then rq else addBlock (mt + me) (mb + mt + me) 0 mt (s 4) (addBlock 0 mt (mt + me) (mb + mt + me) (s 4) rq)

/-- the other blocks with E -/
def blocksE (mt me mb : Nat) (s : Nat → F) (rq : Nat → Nat → F) : Nat → Nat → F :=
  if me = 0 then rq else
    let rq := addBlock mt (mt + me) mt (mt + me) (s 1) rq
    if mb = 0 then rq else
      addBlock (mt + me) (mb + mt + me) mt (mt + me) (s 5) (addBlock mt (mt + me) (mt + me) (mb + mt + me) (s 5) rq)

/-- the block of B -/
def blocksB (mt me mb : Nat) (s : Nat → F) (rq : Nat → Nat → F) : Nat → Nat → F :=
  if mb = 0 then rq else addBlock (mt + me) (mt + me + mb) (mt + me) (mb + mt + me) (s 2) rq

/-- `get_cmb_rq`: matrix of one bin -/
def cmbRq (mt me mb : Nat) (B : Bins F) (cls : Nat → Nat → F) (b : Nat) : Nat → Nat → F :=
  let s := fun k => binned B (cls k) b
  blocksB mt me mb s (blocksE mt me mb s (blocksT mt me mb s fun _ _ => 0))

/-! ### nuisance components (CMB_plik.py:120-155) -/

/-- a component with fewer channels gets zeros for the others -/
def padded (n : Nat) (f : Nat → Nat → Nat → F) : Nat → Nat → Nat → F := fun l i j => if i < n ∧ j < n then f l i j else 0

/-- sum of the binned components: each has a number of channels and a spectrum matrix from `lmin` on -/
def nuisanceRq (B : Bins F) (m : Nat) (comps : List (Nat × (Nat → Nat → Nat → F))) (b i j : Nat) : F :=
  (comps.map fun p => binnedShort B (fun l => (if p.1 = m then p.2 else padded p.1 p.2) l i j) b).sum

/-! ### model vector and chi squared (CMB_plik.py:205-236) -/

/-- `get_calib` -/
def calib (cal bal : Nat → Nat → Nat → F) (acmb : Nat → F) (b i j : Nat) : F := cal b i j * bal b i j * (acmb i * acmb j)

/-- `get_model_vector` -/
def modelRq (g cmb nuis : Nat → Nat → Nat → F) (b i j : Nat) : F := g b i j * (cmb b i j + nuis b i j)

/-- differences of the entries selected by `oo` -/
def deltaVec {n : Nat} (oo : Fin n → Nat × Nat × Nat) (model hat : Nat → Nat → Nat → F) : Fin n → F :=
  fun k => model (oo k).1 (oo k).2.1 (oo k).2.2 - hat (oo k).1 (oo k).2.1 (oo k).2.2

/-- `chi_squared` with `clik=False` -/
def chiSq {n : Nat} (S : Matrix (Fin n) (Fin n) F) (d : Fin n → F) : F := d ⬝ᵥ (S *ᵥ d)

/-! ### coadded spectra (CMB_plik.py:238-276) -/

/-- positions of rows whose sum is not zero -/
def goodRows {N n : Nat} (J : Matrix (Fin N) (Fin n) F) : List (Fin N) := (List.finRange N).filter fun i => (∑ k, J i k) ≠ 0

/-- the rows kept, times the calibration -/
def scaledRows {N n : Nat} (J : Matrix (Fin N) (Fin n) F) (g : Fin n → F) : Matrix (Fin (goodRows J).length) (Fin n) F :=
  Matrix.of fun i k => J ((goodRows J)[i.val]) k * g k

/-- `np.where(Jt != 0)` -/
def nonzeros {m n : Nat} (A : Matrix (Fin m) (Fin n) F) : List (Fin m × Fin n) :=
  ((List.finRange m).flatMap fun i => (List.finRange n).map fun j => (i, j)).filter fun p => A p.1 p.2 ≠ 0

/-- `M[i] += a * row` -/
def addRow {m n : Nat} (i : Fin m) (a : F) (row : Fin n → F) (M : Matrix (Fin m) (Fin n) F) : Matrix (Fin m) (Fin n) F :=
  Matrix.of fun i' k => if i' = i then M i' k + a * row k else M i' k

/-- first loop -/
def jtS {m n : Nat} (A : Matrix (Fin m) (Fin n) F) (S : Matrix (Fin n) (Fin n) F) : Matrix (Fin m) (Fin n) F :=
  (nonzeros A).foldl (fun M p => addRow p.1 (A p.1 p.2) (fun k => S p.2 k) M) 0

/-- second loop -/
def jtSJ {m n : Nat} (A : Matrix (Fin m) (Fin n) F) (T : Matrix (Fin m) (Fin n) F) : Matrix (Fin m) (Fin m) F :=
  (nonzeros A).foldl (fun M p => addRow p.1 (A p.1 p.2) (fun k => T k p.2) M) 0

/-- `rVec`, with the inverse for the solution of the linear equations -/
noncomputable def rVec {m n : Nat} (A : Matrix (Fin m) (Fin n) F) (S : Matrix (Fin n) (Fin n) F) (Yo : Fin n → F) : Fin m → F :=
  -((jtSJ A (jtS A S))⁻¹ *ᵥ (jtS A S *ᵥ Yo))

/-- `tVec[good] = rVec` -/
def spreadGood {N : Nat} (good : List (Fin N)) (r : Nat → F) (i : Fin N) : F :=
  if i ∈ good then r (good.idxOf i) else 0

/-! ### coadded temperature (CMB_plik.py:278-291) -/

/-- `cov[i, :] *= fac` -/
def scaleRow {n : Nat} (i : Fin n) (fac : Fin n → F) (C : Matrix (Fin n) (Fin n) F) : Matrix (Fin n) (Fin n) F :=
  Matrix.of fun a b => if a = i then C a b * fac b else C a b

/-- `cov[:, i] *= fac` -/
def scaleCol {n : Nat} (i : Fin n) (fac : Fin n → F) (C : Matrix (Fin n) (Fin n) F) : Matrix (Fin n) (Fin n) F :=
  Matrix.of fun a b => if b = i then C a b * fac a else C a b

/-- the loop over rows and columns -/
def scaleLoop {n : Nat} (fac : Fin n → F) (C : Matrix (Fin n) (Fin n) F) : Matrix (Fin n) (Fin n) F :=
  (List.finRange n).foldl (fun C i => scaleCol i fac (scaleRow i fac C)) C

/-- python numbers: division of integers is a float -/
inductive PyNum where
  | int (n : Int)
  | float (x : ℚ)
deriving DecidableEq

/-- `/` of python 3 -/
def trueDiv (a b : Int) : PyNum := .float (a / b)

/-- `//` -/
def floorDiv (a b : Int) : PyNum := .int (a / b)

/-- a number as an index or a length: floats are not accepted -/
def asIndex : PyNum → Except Err Int
  | .int n => .ok n
  | .float _ => .error .type

/-- `self.nb = nbins / hascl.sum()`, then `self.bns[:self.nb]` (CMB_plik.py:50, 61) -/
def numBins (nbins nspec : Int) : Except Err Int := asIndex (trueDiv nbins nspec)

/-- `np.zeros(ls[-1] + 1)` where `ls` is a product of float arrays (CMB_plik.py:61, 281) -/
def ttLength (lsLast : ℚ) : Except Err Int := asIndex (.float (lsLast + 1))

/-- `TT[ls[0]:] = coadded * fac`, with the multipoles as integers: lengths must agree (one value is repeated) (CMB_plik.py:281-283) -/
def ttOf (ls : List Nat) (vals : List F) : Except Err (List F) :=
  let first := ls.headD 0
  let n := ls.getLastD 0 + 1
  let slots := n - first
  if slots = vals.length then .ok (List.replicate (min first n) 0 ++ vals)
  else if vals.length = 1 then .ok (List.replicate (min first n) 0 ++ List.replicate slots (vals.headD 0))
  else .error .value

end Verif.Plik
