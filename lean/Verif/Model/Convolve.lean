import Verif.Py.Np
import Verif.Py.Dict
import Mathlib.Algebra.Order.Floor.Ring
import Mathlib.Algebra.BigOperators.Group.List.Basic

/-!
# Convolutions (`python/getdist/convolve.py`)

Arrays are lists over an arbitrary ordered field (exact arithmetic); two-dimensional arrays are a shape and an entry function.  The Fourier
transforms of numpy and scipy are parameters (`FFT`, `pack`/`idct1`); what is assumed of them is stated in the `Props` files, where the
documented formulas are shown to have it.
Simplified: the arguments `xfft` and `yfft` (never passed by callers) are not modelled; the case of two empty arrays is not modelled; modes
other than the three documented ones return `None` and are not modelled.
-/

namespace Verif.Convolve

open Verif.Py (NErr Dict)
open Verif.Py.Np (searchsorted slice)

/-- convolve.py:5-19 -/
def fastFFT : List Nat :=
  [2, 4, 6, 8, 10, 12, 16, 20, 24, 32, 40, 48, 64, 80,
   96, 128, 144, 160, 192, 256, 288, 320, 384, 432, 480, 512, 576, 640,
   720, 768, 864, 960, 1024, 1152, 1280, 1440, 1536, 1728, 1920, 2048, 2304, 2560,
   2880, 3072, 3456, 3840, 4096, 4608, 5120, 5760, 6144, 6912, 7680, 8192, 9216, 10240,
   11520, 12288, 13824, 15360, 16384, 18432, 20480, 23040, 24576, 27648, 30720, 32768, 36864, 40960,
   46080, 49152, 55296, 61440, 65536, 73728, 81920, 92160, 98304, 110592, 122880, 131072, 147456, 163840,
   184320, 196608, 221184, 245760, 262144, 294912, 327680, 368640, 393216, 442368, 491520, 524288, 589824, 655360,
   737280, 786432, 884736, 983040, 1048576, 1179648, 1310720, 1474560, 1572864, 1769472, 1966080, 2097152, 2359296, 2621440,
   2949120, 3145728, 3538944, 3932160, 4194304, 4718592, 5242880, 5898240, 6291456, 7077888, 7864320, 8388608, 9437184, 10485760,
   11796480, 12582912, 14155776, 15728640, 16777216, 18874368, 20971520, 23592960, 25165824, 28311552, 31457280, 33554432, 37748736, 41943040,
   47185920, 50331648, 56623104, 62914560, 67108864, 75497472, 83886080, 94371840, 100663296, 113246208, 125829120, 134217728, 150994944, 167772160,
   188743680, 201326592, 226492416, 234881024, 251658240, 268435456, 301989888, 335544320, 377487360, 402653184, 452984832, 503316480, 536870912, 603979776,
   671088640, 754974720, 805306368, 905969664, 1006632960, 1207959552, 1342177280, 1358954496, 1509949440, 1610612736, 1811939328, 2013265920]

/-- convolve.py:22-23 `nearestFFTnumber` -/
def nearestFFTnumber (x : Nat) : Except NErr Nat :=
  match fastFFT[searchsorted fastFFT x]? with
  | some f => .ok (max x f)
  | none => .error .indexError

inductive Mode where
  | same | full | valid
  deriving DecidableEq, Repr

/-- the real Fourier transform of numpy: `np.fft.rfft(x, n)`, the product of transforms, and `np.fft.irfft` (used for even lengths only, where
the calls with and without explicit length agree) -/
structure FFT (K : Type) where
  F : Type
  rfft : List K → Nat → F
  mul : F → F → F
  irfft : F → List K

/-- an array object: `id` is its `id()` -/
structure Obj (K : Type) where
  id : Nat
  val : List K

variable {K : Type} [Field K] [LinearOrder K]

/-- the cache of transforms; convolve.py:48,56 the key is `(fsize, size, id)` -/
abbrev Cache (A : FFT K) := Dict (Nat × Nat × Nat) A.F

/-- convolve.py:46-53 (and 54-61): the transform of one argument, `use` says whether the argument is in `cache_args` -/
def getFFT (A : FFT K) (use : Bool) (cache : Option (Cache A)) (fsize : Nat) (o : Obj K) : A.F × Option (Cache A) :=
  match cache with
  | none => (A.rfft o.val fsize, none)
  | some c =>
    if use then
      match c.get? (fsize, o.val.length, o.id) with
      | some f => (f, some c)
      | none => (A.rfft o.val fsize, some (c.set (fsize, o.val.length, o.id) (A.rfft o.val fsize)))
    else (A.rfft o.val fsize, some c)

/-- convolve.py:62-68: the part of the full result for the mode -/
def part (mode : Mode) (nx ny : Nat) (res : List K) : List K :=
  match mode with
  | .same => slice res ((ny - 1) / 2) (some ((ny - 1) / 2 + nx))
  | .full => res
  | .valid => slice res (ny - 1) (some nx)

/-- convolve.py:38-68 `convolveFFT` -/
def convolveFFT (A : FFT K) (x y : Obj K) (mode : Mode) (largest : Nat) (cache : Option (Cache A)) (use1 use2 : Bool) :
    Except NErr (List K × Option (Cache A)) := do
  let size := x.val.length + y.val.length - 1
  let fsize ← nearestFFTnumber (max largest size)
  let fy := getFFT A use2 cache fsize y
  let fx := getFFT A use1 fy.2 fsize x
  pure (part mode x.val.length y.val.length (slice (A.irfft (A.mul fx.1 fy.1)) 0 (some size)), fx.2)

/-- entry of an array, zero outside -/
def ent (l : List K) (i : Nat) : K := l.getD i 0

/-- entry `k` of the sum of products, as computed by `np.convolve` -/
def lin (x y : List K) (k : Nat) : K := ((List.range (k + 1)).map (fun i => ent x i * ent y (k - i))).sum

/-- `np.convolve(x, y, mode)` as documented by numpy: the longer array comes first -/
def npConvolve (x y : List K) (mode : Mode) : Except NErr (List K) :=
  let a := if y.length > x.length then y else x
  let v := if y.length > x.length then x else y
  if v = [] then .error .valueError
  else
    let full := (List.range (a.length + v.length - 1)).map (lin a v)
    .ok (match mode with
      | .same => slice full ((v.length - 1) / 2) (some ((v.length - 1) / 2 + a.length))
      | .full => full
      | .valid => slice full (v.length - 1) (some a.length))

/-- convolve.py:26-30 `convolve1D` -/
def convolve1D (A : FFT K) (x y : Obj K) (mode : Mode) (largest : Nat) (cache : Option (Cache A)) (use1 use2 : Bool) :
    Except NErr (List K × Option (Cache A)) :=
  if min x.val.length y.val.length > 1000 then convolveFFT A x y mode largest cache use1 use2
  else do
    let r ← npConvolve x.val y.val mode
    pure (r, cache)

/-- a two-dimensional array: shape and entries -/
structure Arr (K : Type) where
  h : Nat
  w : Nat
  v : Nat → Nat → K

/-- entry, zero outside -/
def Arr.ent (a : Arr K) (i j : Nat) : K := if i < a.h ∧ j < a.w then a.v i j else 0

/-- `np.fft.rfftn`, product, `np.fft.irfftn(.., fsize)` -/
structure FFT2 (K : Type) where
  F : Type
  rfftn : Arr K → Nat × Nat → F
  mul : F → F → F
  irfftn : F → Nat × Nat → Arr K

structure Obj2 (K : Type) where
  id : Nat
  val : Arr K

abbrev Cache2 (A : FFT2 K) := Dict ((Nat × Nat) × (Nat × Nat) × Nat) A.F

/-- `a[s:s+n]` on both axes -/
def Arr.sub (a : Arr K) (si ni sj nj : Nat) : Arr K :=
  ⟨min a.h (si + ni) - si, min a.w (sj + nj) - sj, fun i j => a.v (si + i) (sj + j)⟩

/-- convolve.py:104-109 `_centered`; the new size may be negative (`valid` with a larger second argument) -/
def centered (a : Arr K) (nh nw : Int) : Arr K :=
  let sh := ((a.h : Int) - nh) / 2
  let sw := ((a.w : Int) - nw) / 2
  a.sub sh.toNat nh.toNat sw.toNat nw.toNat

/-- convolve.py:77-91: lookup of one argument in the cache, and storing it -/
def getFFT2 (A : FFT2 K) (use : Bool) (cache : Option (Cache2 A)) (fsize : Nat × Nat) (o : Obj2 K) : A.F × Option (Cache2 A) :=
  match cache with
  | none => (A.rfftn o.val fsize, none)
  | some c =>
    if use then
      match c.get? (fsize, (o.val.h, o.val.w), o.id) with
      | some f => (f, some c)
      | none => (A.rfftn o.val fsize, some (c.set (fsize, (o.val.h, o.val.w), o.id) (A.rfftn o.val fsize)))
    else (A.rfftn o.val fsize, some c)

/-- convolve.py:72-101 `convolveFFTn` (`convolve2D`, 33-34) for two axes.  Simplified: in the code both cache lookups come before both stores;
as here the first is stored before the second is looked up, the same entry is found when both arguments are the same object. -/
def convolve2D (A : FFT2 K) (x y : Obj2 K) (mode : Mode) (largest : Nat) (cache : Option (Cache2 A)) (use1 use2 : Bool) :
    Except NErr (Arr K × Option (Cache2 A)) := do
  let sh := x.val.h + y.val.h - 1
  let sw := x.val.w + y.val.w - 1
  let fh ← nearestFFTnumber (max largest sh)
  let fw ← nearestFFTnumber (max largest sw)
  let fx := getFFT2 A use1 cache (fh, fw) x
  let fy := getFFT2 A use2 fx.2 (fh, fw) y
  let ret := (A.irfftn (A.mul fx.1 fy.1) (fh, fw)).sub 0 sh 0 sw
  pure (match mode with
    | .full => ret
    | .same => centered ret x.val.h x.val.w
    | .valid => centered ret ((x.val.h : Int) - y.val.h + 1) ((x.val.w : Int) - y.val.w + 1), fy.2)

/-- `l[a:b:2]` -/
def stride2 (l : List K) (a b : Nat) : List K := (List.range ((b - a + 1) / 2)).map (fun k => l.getD (a + 2 * k) 0)

/-- convolve.py:135-138: the power spectrum from the packed transform of scipy -/
def autoPower (xt : List K) : List K :=
  (xt.headD 0 ^ 2) ::
    (List.zipWith (fun a b => a ^ 2 + b ^ 2) (stride2 xt 1 (xt.length - 2)) (stride2 xt 2 (xt.length - 1)) ++ [xt.getLastD 0 ^ 2])

/-- convolve.py:139 `n = n or x.size` -/
def orSize (n : Option Nat) (size : Nat) : Nat :=
  match n with
  | none => size
  | some n => if n = 0 then size else n

/-- convolve.py:123-143 `autoConvolve`; `pack` is `fftpack.rfft`, `idct1` is `fftpack.idct(.., type=1)`.  A division by zero gives `inf` or `nan`
in numpy; here it is reported as `ValueError`, as is the division of arrays of different sizes. -/
def autoConvolve (pack : List K → Nat → List K) (idct1 : List K → List K) (x : List K) (n : Option Nat) (normalize : Bool) :
    Except NErr (List K) := do
  let s ← nearestFFTnumber (2 * x.length)
  let auto := autoPower (pack x s)
  let n := orSize n x.length
  let res := (slice (idct1 auto) 0 (some n)).map (· / (s : K))
  if normalize then
    if n > x.length then .error .valueError
    else if res.length ≠ n then .error .valueError
    else pure (List.zipWith (fun v d => v / d) res ((List.range n).map (fun k => ((x.length - k : Nat) : K))))
  else pure res

/-- convolve.py:112-120 `autoCorrelation` -/
def autoCorrelation (pack : List K → Nat → List K) (idct1 : List K → List K) (x : List K) (n : Option Nat) (normalized : Bool)
    (start : Nat) : Except NErr (List K) := do
  let m := x.sum / (x.length : K)
  let r ← autoConvolve pack idct1 (x.map (· - m)) n true
  let r := if normalized then r.map (· / r.headD 0) else r
  pure (r.drop start)

/-- `l[a:-b]` for `b > 0`, and `l[a:-0] = l[a:0]` -/
def sliceNeg (l : List K) (a b : Nat) : List K := if b = 0 then slice l a (some 0) else slice l a (some (l.length - b))

/-- the kernels stored in the caches of the Gaussian convolutions: a packed real array (`convolveGaussian`) or a transform
(`convolveGaussianTrunc`) -/
inductive Kern (A : FFT K) where
  | packed (l : List K)
  | fft (f : A.F)

variable [FloorRing K]

/-- convolve.py:215-217: the normalised window of `2 fill + 1` points -/
def gaussWin (exp : K → K) (fill : Nat) (sigma : K) : List K :=
  let win := (List.range (2 * fill + 1)).map (fun p : Nat => exp (-(((p : K) - (fill : K)) / sigma) ^ 2 / 2))
  win.map (· / win.sum)

abbrev KCache (A : FFT K) := Dict (Nat × Nat × K) (Kern A)

/-- convolve.py:193-199 and 213-220: the kernel from the cache, or a new one which is stored -/
def kernGet (A : FFT K) (cache : Option (KCache A)) (key : Nat × Nat × K) (new : Kern A) : Kern A × Option (KCache A) :=
  match cache with
  | none => (new, none)
  | some c =>
    match c.get? key with
    | some g => (g, some c)
    | none => (new, some (c.set key new))

/-- convolve.py:222-227 -/
def truncPart (mode : Mode) (fill : Nat) (res : List K) : List K :=
  match mode with
  | .same => sliceNeg res fill fill
  | .full => res
  | .valid => sliceNeg res (2 * fill) (2 * fill)

/-- convolve.py:210 and 186: `int(sigma_range * sigma)` for non-negative values -/
def fillOf (range sigma : K) : Nat := ⌊range * sigma⌋.toNat

/-- convolve.py:204-227 `convolveGaussianTrunc`.  A packed kernel in the cache has another shape, and the product is refused. -/
def gaussianTrunc (A : FFT K) (exp : K → K) (x : List K) (sigma range : K) (mode : Mode) (cache : Option (KCache A)) :
    Except NErr (List K × Option (KCache A)) :=
  match nearestFFTnumber (x.length + 2 * fillOf range sigma) with
  | .error e => .error e
  | .ok s =>
    match kernGet A cache (fillOf range sigma, x.length + 2 * fillOf range sigma, sigma)
        (.fft (A.rfft (gaussWin exp (fillOf range sigma) sigma) s)) with
    | (.packed _, _) => .error .valueError
    | (.fft f, cache') =>
      .ok (truncPart mode (fillOf range sigma) (slice (A.irfft (A.mul (A.rfft x s) f)) 0 (some (x.length + 2 * fillOf range sigma))), cache')

/-- convolve.py:180-201 `convolveGaussian`; `apply x s g` is `fftpack.irfft(fftpack.rfft(x, s) * g, s)`, `packed s sigma` the kernel 195-197.
A transform in the cache has another shape, and the product is refused. -/
def gaussian (A : FFT K) (apply : List K → Nat → List K → List K) (packed : Nat → K → List K) (x : List K) (sigma range : K)
    (cache : Option (KCache A)) : Except NErr (List K × Option (KCache A)) :=
  match if fillOf range sigma > 0 then nearestFFTnumber (x.length + 2 * fillOf range sigma) else .ok (x.length + 2 * fillOf range sigma) with
  | .error e => .error e
  | .ok s =>
    match kernGet A cache (fillOf range sigma, x.length + 2 * fillOf range sigma, sigma) (.packed (packed s sigma)) with
    | (.fft _, _) => .error .valueError
    | (.packed l, cache') => .ok (slice (apply x s l) 0 (some x.length), cache')

/-- convolve.py:155-162: the array padded with zeros to `s` entries -/
def dctPad (x : List K) (fill s : Nat) : List K :=
  if fill > 0 then List.replicate fill 0 ++ x ++ List.replicate (s - x.length - fill) 0 else x

/-- convolve.py:165-168; without cache the assignment fails -/
def dctKern (gauss : Nat → K → List K) (cache : Option (Dict (Nat × K) (List K))) (s : Nat) (hnorm : K) :
    Except NErr (List K × Dict (Nat × K) (List K)) :=
  match cache with
  | none => .error .typeError
  | some c =>
    match c.get? (s, hnorm) with
    | some g => .ok (g, c)
    | none => .ok (gauss s hnorm, c.set (s, hnorm) (gauss s hnorm))

/-- convolve.py:170-177 -/
def dctPart (mode : Mode) (fill fill2 : Nat) (res : List K) : Except NErr (List K) :=
  if fill = 0 then .ok res
  else match mode with
    | .same => .ok (sliceNeg res fill fill2)
    | .valid => .ok (sliceNeg res (fill * 2) (fill2 + fill))
    | .full => .error .valueError

/-- convolve.py:147-177 `convolveGaussianDCT`; `apply x g` is `idct(dct(x) * g) / (2 s)` and `gauss s h` the kernel 167.  Mode `full` stands for
any other mode. -/
def gaussianDCT (apply : List K → List K → List K) (gauss : Nat → K → List K) (x : List K) (sigma pad : K) (mode : Mode)
    (cache : Option (Dict (Nat × K) (List K))) : Except NErr (List K × Dict (Nat × K) (List K)) :=
  match if fillOf pad sigma > 0 then nearestFFTnumber (x.length + fillOf pad sigma * 2) else .ok x.length with
  | .error e => .error e
  | .ok s0 =>
    match dctKern gauss cache (dctPad x (fillOf pad sigma) s0).length (sigma / ((dctPad x (fillOf pad sigma) s0).length : K)) with
    | .error e => .error e
    | .ok (g, c) =>
      match dctPart mode (fillOf pad sigma) (s0 - x.length - fillOf pad sigma) (apply (dctPad x (fillOf pad sigma) s0) g) with
      | .error e => .error e
      | .ok r => .ok (r, c)

end Verif.Convolve
