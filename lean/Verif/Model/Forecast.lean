import Verif.Model.CMBlikes
import Verif.Model.CMBlikesHL
import Verif.Model.IniFile
import Verif.Py.Num

/-!
# Data sets for forecasts: python/makePerfectForecastDataset.py, and reading them without bins: python/CMBlikes.py:419-453, 670-719

`make_forecast_cmb_dataset` writes a `.dataset` file, a table of noise and a copy of the input spectra.  Directories and the copy are not modelled.  Numbers written
with `%E` and read again are a given function `rd` of the number.  `np.pi`, `xlc` and `np.exp` are given (`Fns`), so that the same definitions serve real numbers
and examples.  `lmin` is a natural number.  A number file is its first comment and its rows, with the multipole as an integer.
-/

namespace Verif.Forecast
open Verif.Py
open Verif.IniFile (Val Ini)

inductive Err
  | noCols          -- 'input CL file must specific names of columns'
  | noNoise         -- 'Must specify noise'
  | both            -- 'Specific either noise_muK_arcmin or NoiseVar'
  | type            -- TypeError: None in arithmetic
  | unbound         -- UnboundLocalError: noise_cols
  | index           -- IndexError: lens_recon_noise[l]
  | truth           -- ValueError: truth value of an array
deriving DecidableEq, Repr

/-- `np.pi`, `xlc` (line 77) and `np.exp` -/
structure Fns (K : Type) where
  pi : K
  xlc : K
  exp : K → K

/-- `lens_recon_noise` -/
inductive Lens (K : Type)
  | none
  | array (l : List K)
  | list (l : List K)

variable {K : Type}

structure Args (K : Type) where
  noiseT : Option K
  noiseP : Option K
  noiseVar : Option K
  eFac : K
  fwhm : Option K
  lmin : Nat
  lmax : Option Nat
  fsky : Str             -- the text of the number
  fieldsUse : Str        -- empty for `None`
  lens : Lens K
  cols : Str

section
variable [Field K] [DecidableEq K]

/-- `bool(lens_recon_noise)` -/
def Lens.truth : Lens K → Except Err Bool
  | .none => .ok false
  | .list l => .ok (decide (l ≠ []))
  | .array [] => .ok false
  | .array [x] => .ok (decide (x ≠ 0))
  | .array _ => .error .truth

/-- the numbers -/
def Lens.values : Lens K → List K
  | .none => []
  | .list l => l
  | .array l => l

/-- makePerfectForecastDataset.py:39 `use_CMB` -/
def Args.cmb (a : Args K) : Bool :=
  match a.noiseT with
  | some x => decide (x ≠ 0) || a.noiseVar.isSome
  | none => a.noiseVar.isSome

/-- makePerfectForecastDataset.py:44-49: the names of the columns of the input -/
def colsOf (a : Args K) (top : Option Str) : Except Err Str :=
  if a.cols ≠ [] then .ok a.cols
  else match top with
    | some (c :: t) => .ok (c :: t)
    | _ => .error .noCols

/-- makePerfectForecastDataset.py:52-59: `NoiseVar` and `ENoiseFac` -/
def noisePars (F : Fns K) (a : Args K) : Except Err (K × K) :=
  match a.noiseVar with
  | some v => if a.noiseT.isSome || a.noiseP.isSome then .error .both else .ok (v, a.eFac)
  | none =>
    match a.noiseT with
    | none => .error .noNoise
    | some t => .ok ((t * F.pi / 180 / 60) ^ 2, match a.noiseP with | some p => (p / t) ^ 2 | none => a.eFac)

/-- makePerfectForecastDataset.py:65, only evaluated when there is a column PP -/
def fieldP (a : Args K) (cols : Str) : Except Err Str :=
  if contains c!"PP" cols then a.lens.truth.map fun t => if t then c!" P" else [] else .ok []

/-- makePerfectForecastDataset.py:60-65: the fields.  `'TT' or …` is the text 'TT', which counts as true. -/
def fields (a : Args K) (cols : Str) : Except Err Str :=
  if a.fieldsUse ≠ [] then .ok a.fieldsUse
  else (fieldP a cols).map fun p =>
    (if c!"TT" ≠ [] ∨ contains c!"TE" cols then c!"T" else []) ++ (if c!"EE" ≠ [] ∨ contains c!"TE" cols then c!" E" else []) ++
      (if contains c!"BB" cols then c!" B" else []) ++ p

/-- what is known before files are written -/
structure Plan (K : Type) where
  cmb : Option (K × K × K)     -- NoiseVar, ENoiseFac, sigma2
  fields : Str
  lensing : Bool
  noiseCols : Str

/-- makePerfectForecastDataset.py:76-78: the square of the width of the beam -/
def sigma2 (F : Fns K) (w : K) : K := (w / 60 / F.xlc) ^ 2

/-- makePerfectForecastDataset.py:51-80 with noise of the CMB -/
def planCmb (F : Fns K) (a : Args K) (cols : Str) : Except Err (Plan K) := do
  let (v, e) ← noisePars F a
  let f ← fields a cols
  match a.fwhm with
  | none => .error .type
  | some w => do
    let t ← a.lens.truth
    pure ⟨some (v, e, sigma2 F w), f, t, c!"TT           EE          BB" ++ if t then c!"          PP" else []⟩

/-- makePerfectForecastDataset.py:66-82 without -/
def planLens (a : Args K) : Except Err (Plan K) := do
  let t ← a.lens.truth
  if t then pure ⟨none, if a.fieldsUse ≠ [] then a.fieldsUse else c!"P", true, c!"PP"⟩ else .error .unbound

def plan (F : Fns K) (a : Args K) (cols : Str) : Except Err (Plan K) := if a.cmb then planCmb F a cols else planLens a

/-- makePerfectForecastDataset.py:88 `NoiseCl` -/
def noiseCl (F : Fns K) (v s2 : K) (l : Nat) : K := (l : K) * ((l : K) + 1) / 2 / F.pi * v * F.exp ((l : K) * ((l : K) + 1) * s2)

/-- makePerfectForecastDataset.py:91 -/
def lensAt (a : Args K) (t : Bool) (l : Nat) : Except Err (List K) :=
  if t then match a.lens.values[l]? with | some x => .ok [x] | none => .error .index else .ok []

/-- makePerfectForecastDataset.py:88-92: the numbers of one line; without noise of the CMB line 88 multiplies by `None` -/
def noises (F : Fns K) (a : Args K) (p : Plan K) (l : Nat) : Except Err (List K) :=
  match p.cmb with
  | none => .error .type
  | some (v, e, s2) => (lensAt a p.lensing l).map fun x => [noiseCl F v s2 l, e * noiseCl F v s2 l, e * noiseCl F v s2 l] ++ x

/-- one line of the table of noise, as it is read: the multipole is the first column -/
def noiseRow (F : Fns K) (rd : K → K) (a : Args K) (p : Plan K) (l : Nat) : Except Err (Int × List K) :=
  (noises F a p l).map fun xs => ((l : Int), (l : K) :: xs.map rd)

structure Out (K : Type) where
  params : Dict Str Val        -- `ini.params` when it is saved
  header : Str                 -- first line of the table of noise
  rows : List (Int × List K)

/-- makePerfectForecastDataset.py:44-49, 73, 94-107: the settings -/
def settings (a : Args K) (root fields : Str) (lmax : Nat) : Dict Str Val :=
  let d : Dict Str Val := if a.cols ≠ [] then [(c!"cl_hat_order", .str a.cols)] else []
  d ++ [(c!"fields_use", .str fields), (c!"fullsky_exact_fksy", .other a.fsky), (c!"dataset_format", .str c!"CMBLike2"), (c!"like_approx", .str c!"exact"),
    (c!"cl_lmin", .other (strNat a.lmin)), (c!"cl_lmax", .other (strNat lmax)), (c!"binned", .bool false), (c!"cl_hat_includes_noise", .bool false),
    (c!"cl_hat_file", .str (root ++ c!".dat")), (c!"cl_noise_file ", .str (root ++ c!"_Noise.dat"))]

/-- makePerfectForecastDataset.py:14-109 `make_forecast_cmb_dataset`; `top` is the last comment at the top of the input file -/
def forecast (F : Fns K) (rd : K → K) (a : Args K) (top : Option Str) (root : Str) : Except Err (Out K) := do
  let cols ← colsOf a top
  let p ← plan F a cols
  match a.lmax with
  | none => .error .type
  | some lmax => do
    let rows ← ((List.range (lmax + 1 - a.lmin)).map (a.lmin + ·)).mapM (noiseRow F rd a p)
    pure ⟨settings a root p.fields lmax, c!"#L " ++ p.noiseCols, rows⟩

end

/-! ## Reading without bins -/

/-- the four fields of the likelihood (CMBlikes.py:141) -/
def fieldNames : List Str := [c!"T", c!"E", c!"B", c!"P"]

/-- what is kept after reading: the names of the maps, `bandpowers[c, b]` and `cl_noise[c, b]` -/
structure Data (K : Type) where
  used : List Str
  band : Nat → Nat → K
  noise : Nat → Nat → K

/-- CMBlikes.py:336-453 for `binned = F`, `like_approx = exact` and `cl_hat_includes_noise = F`, with no names of maps: `bin_min` and `bin_max` are the limits of
multipoles -/
def readExact [Zero K] [Add K] (fieldsUse : List Str) (lmin lmax : Nat) (hatOrder : Str) (hatTop : Option Str) (hat : List (Int × List K)) (noiseTop : Option Str)
    (noise : List (Int × List K)) : Except CMBlikes.Err (Data K) := do
  let m ← CMBlikes.readMaps ⟨fieldNames, [], [], fieldsUse, [], [], false⟩
  let h ← CMBlikes.readCl false 'x' (CMBlikes.usedOrder m) (CMBlikes.count m.use) false lmin lmax hatOrder hatTop hat
  let n ← CMBlikes.readCl false 'x' (CMBlikes.usedOrder m) (CMBlikes.count m.use) false lmin lmax [] noiseTop noise
  pure ⟨CMBlikes.usedOrder m, fun c b => h c b + n c b, n⟩

open CMBlikes.HL in
/-- CMBlikes.py:684-705: the matrix of a multipole, `theory i j` being the spectrum of two of the maps for `j ≤ i`, from `lmin` on, and the noise -/
def theoryMat (n : Nat) (theory : Nat → Nat → Nat → ℝ) (noise : Nat → Nat → ℝ) (b : Nat) : Mat n :=
  Matrix.of fun i j => (if j ≤ i then theory i j b else theory j i b) + CMBlikes.toMatrix n (fun c => noise c b) (fun _ _ => 0) i j

open CMBlikes.HL in
/-- CMBlikes.py:448 `bandpower_matrix` -/
def bandMat (n : Nat) (band : Nat → Nat → ℝ) (b : Nat) : Mat n := Matrix.of fun i j => CMBlikes.toMatrix n (fun c => band c b) (fun _ _ => 0) i j

/-- CMBlikes.py:670-719 for the exact likelihood: the sum over multipoles -/
noncomputable def exactTotal (fsky : ℝ) (d : Data ℝ) (lmin lmax : Nat) (theory : Nat → Nat → Nat → ℝ) : ℝ :=
  ((List.range (lmax + 1 - lmin)).map fun b =>
    CMBlikes.HL.exactChi fsky (theoryMat d.used.length theory d.noise b) (bandMat d.used.length d.band b) (lmin + b)).sum

end Verif.Forecast
