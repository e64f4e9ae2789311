import Verif.Model.Density

/-!
# Model of density objects (`python/getdist/densities.py:58-175, 250-296, 298-326`)

An object holds a reference to an array of values and a spline that is made when first needed.  Modelled: the check of sizes and default of `setP`, `normalize` in place or with a
copy, the cache of the spline, bounds, the order of the axes in two dimensions.

Simplified: arrays live on a heap and are given by shape and values; a spline is represented by the values it was made from; what it gives between the points of the grid is a parameter.
-/

namespace Verif.DensityObj
open Verif.Density (By maxOf)

inductive Err
  | densities
  | attribute
deriving DecidableEq

section
variable {K : Type} [Field K] [LinearOrder K]

structure Arr (K : Type) where
  shape : List Nat
  data : List K
deriving DecidableEq

/-- `GridDensity` (densities.py:58-67): `P` is a position on the heap, `spl` the values from which the spline was made -/
structure Obj (K : Type) where
  axes : List (List K)
  view : Option (List (K × K))
  P : Nat
  spl : Option (List K)
deriving DecidableEq

structure World (K : Type) where
  heap : List (Arr K)
  objs : List (Obj K)

/-- the loop of `setP` (densities.py:99-101): `zip` stops at the shorter list -/
def fits : List Nat → List (List K) → Bool
  | n :: ns, ax :: axs => (n == ax.length) && fits ns axs
  | _, _ => true

/-- `np.zeros([ax.size for ax in self.axes])` -/
def zeros (axes : List (List K)) : Arr K := ⟨axes.map List.length, List.replicate ((axes.map List.length).prod) 0⟩

/-- `setP` (densities.py:92-105), for an object that may be new -/
def setP (w : World K) (o : Obj K) : Option Nat → Except Err (World K × Obj K)
  | none => .ok (⟨w.heap ++ [zeros o.axes], w.objs⟩, { o with P := w.heap.length, spl := none })
  | some r => match w.heap[r]? with
    | none => .error .attribute
    | some a => if fits a.shape o.axes then .ok (w, { o with P := r, spl := none }) else .error .densities

/-- `__init__` (densities.py:137-148, 256-267, 306-326) -/
def create (w : World K) (axes : List (List K)) (view : Option (List (K × K))) (P : Option Nat) : Except Err (World K) :=
  match setP w ⟨axes, view, 0, none⟩ P with
  | .error e => .error e
  | .ok (w, o) => .ok ⟨w.heap, w.objs ++ [o]⟩

/-- the norm (densities.py:77-84) -/
def norm (integral : Arr K → K) (by_ : By) (a : Arr K) : Except Err K :=
  match by_ with
  | .integral => .ok (integral a)
  | .max => if maxOf a.data = 0 then .error .densities else .ok (maxOf a.data)
  | .other => .error .densities

def scaled (a : Arr K) (n : K) : Arr K := ⟨a.shape, a.data.map (· / n)⟩

/-- `normalize` (densities.py:69-90) -/
def normalize (integral : Arr K → K) (w : World K) (i : Nat) (by_ : By) (inPlace : Bool) : Except Err (World K) :=
  match w.objs[i]? with
  | none => .error .attribute
  | some o => match w.heap[o.P]? with
    | none => .error .attribute
    | some a => match norm integral by_ a with
      | .error e => .error e
      | .ok n =>
        if inPlace then .ok ⟨w.heap.set o.P (scaled a n), w.objs.set i { o with spl := none }⟩
        else match setP ⟨w.heap ++ [scaled a n], w.objs⟩ o (some w.heap.length) with
          | .error e => .error e
          | .ok (w, o) => .ok ⟨w.heap, w.objs.set i o⟩

/-- a call (densities.py:169-170, 293-295): the spline is made if there is none; the values it was made from are returned -/
def call (w : World K) (i : Nat) : Except Err (World K × List K) :=
  match w.objs[i]? with
  | none => .error .attribute
  | some o => match o.spl with
    | some d => .ok (w, d)
    | none => match w.heap[o.P]? with
      | none => .error .attribute
      | some a => .ok (⟨w.heap, w.objs.set i { o with spl := some a.data }⟩, a.data)

/-- what can happen -/
inductive Op (K : Type)
  | create (axes : List (List K)) (view : Option (List (K × K))) (P : Option Nat)
  | setP (i : Nat) (P : Option Nat)
  | normalize (i : Nat) (by_ : By) (inPlace : Bool)
  | call (i : Nat)
  | write (r : Nat) (data : List K)

def step (integral : Arr K → K) (w : World K) : Op K → Except Err (World K)
  | .create axes view P => create w axes view P
  | .setP i P => match w.objs[i]? with
    | none => .error .attribute
    | some o => match setP w o P with
      | .error e => .error e
      | .ok (w, o) => .ok ⟨w.heap, w.objs.set i o⟩
  | .normalize i b p => normalize integral w i b p
  | .call i => match call w i with
    | .error e => .error e
    | .ok (w, _) => .ok w
  | .write r d => match w.heap[r]? with
    | none => .error .attribute
    | some a => .ok ⟨w.heap.set r ⟨a.shape, d⟩, w.objs⟩

def run (integral : Arr K → K) : World K → List (Op K) → Except Err (World K)
  | w, [] => .ok w
  | w, op :: ops => match step integral w op with
    | .error e => .error e
    | .ok w => run integral w ops

/-- first and last value -/
def ends (ax : List K) : K × K := (ax.headD 0, ax.getLastD 0)

/-- `bounds` (densities.py:107-118) -/
def bounds (o : Obj K) : List (K × K) :=
  match o.view with
  | some v => v
  | none => (o.axes.map ends).reverse

/-- axes of `Density2D` (densities.py:263-265) -/
def axes2 (x y : List K) : List (List K) := [y, x]

/-- axes of `DensityND` (densities.py:317-318) -/
def axesN (xs : List (List K)) : List (List K) := xs.reverse

/-- `P[i, j]` of an array with `n` columns -/
def entry (n : Nat) (d : List K) (i j : Nat) : K := d.getD (i * n + j) 0

/-- `Density2D.__call__` (densities.py:279-280, 292-295): `interp` is `RectBivariateSpline(x, y, P.T)`, given by the values of `P.T` -/
def call2 (interp : List K → List K → (Nat → Nat → K) → K → K → K) (x y : List K) (d : List K) (u v : K) : K :=
  interp x y (fun i j => entry x.length d j i) u v

/-- `Density2D.Prob` (densities.py:282-290): the value is not returned -/
def prob2 (interp : List K → List K → (Nat → Nat → K) → K → K → K) (x y : List K) (d : List K) (u v : K) : Option K :=
  match call2 interp x y d u v with
  | _ => none

/-- `Density1D.Prob` (densities.py:161-173): `ext=1` gives zero outside the grid; a number gives an array of one value -/
def prob1 (interp : List K → List K → K → K) (x : List K) (d : List K) (us : List K) : List K :=
  us.map (fun u => if (ends x).1 ≤ u ∧ u ≤ (ends x).2 then interp x d u else 0)

/-- `get2DDensity` (mcsamples.py:1604-1620): without the parameter there is no density to be normalised -/
def get2D (integral : Arr K → K) (density : Option (Arr K)) (normalized : Bool) : Except Err (Option (Arr K)) :=
  match normalized, density with
  | false, d => .ok d
  | true, none => .error .attribute
  | true, some a => match norm integral .integral a with
    | .error e => .error e
    | .ok n => .ok (some (scaled a n))

end
end Verif.DensityObj
