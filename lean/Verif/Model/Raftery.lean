import Verif.Model.Samples
import Verif.Model.Confidence
import Mathlib.Analysis.SpecialFunctions.Log.Basic

/-!
# Model of the Raftery and Lewis test (`MCSamples.getConvergeTests`, `python/getdist/mcsamples.py` 956-1090)

Numbers are real numbers and `math.log` is the real logarithm; `math.log(0)` and division by zero of python floats raise, as in python.
Local variables that live on from one parameter or chain to the next (`thin_rows`, `tran`, `hardest`, `hardestend`) are fields of a state.
The text of the table is not modelled.
-/

namespace Verif.Raftery
open Verif.Py Verif.Py.Np Verif.Thin

/-- `binchain = np.ones(...)`; `binchain[samples >= u] = 0` (mcsamples.py:981-982, 1034-1035) -/
noncomputable def binary (u : ℝ) (x : List ℝ) : List Nat := x.map fun v => if u ≤ v then 0 else 1

/-- `indexes = binchain[:-2] * 4 + binchain[1:-1] * 2 + binchain[2:]` (mcsamples.py:983), for at least two rows -/
def index3 (b : List Nat) : List Nat :=
  List.zipWith (fun p q => p + q)
    (List.zipWith (fun p q => p * 4 + q * 2) (b.take (b.length - 2)) ((b.drop 1).take (b.length - 2))) (b.drop 2)

/-- `tran = np.bincount(indexes, minlength=8).reshape((2, 2, 2))` (mcsamples.py:985) -/
def tran3 (b : List Nat) (i j k : Nat) : Nat := (index3 b).count (i * 4 + j * 2 + k)

/-- `indexes = binchain[:-1] * 2 + binchain[1:]` (mcsamples.py:1036) -/
def index2 (b : List Nat) : List Nat := List.zipWith (fun p q => p * 2 + q) (b.take (b.length - 1)) (b.drop 1)

/-- `tran2 = np.bincount(indexes, minlength=4).reshape(2, 2)` (mcsamples.py:1038) -/
def tran2 (b : List Nat) (i j : Nat) : Nat := (index2 b).count (i * 2 + j)

/-- one term of the first statistic (mcsamples.py:995-1002) -/
noncomputable def term3 (t : Nat → Nat → Nat → Nat) (i j k : Nat) : ℝ :=
  if t i j k ≠ 0 then
    let fitted : ℝ := ((t i j 0 + t i j 1) * (t 0 j k + t 1 j k) : ℝ) / (t 0 j 0 + t 0 j 1 + t 1 j 0 + t 1 j 1 : ℝ)
    let focus : ℝ := t i j k
    Real.log (focus / fitted) * focus
  else 0

/-- `g2` of the second order chain against the Markov chain (mcsamples.py:991-1003) -/
noncomputable def g2Markov (t : Nat → Nat → Nat → Nat) : ℝ :=
  (∑ i ∈ Finset.range 2, ∑ j ∈ Finset.range 2, ∑ k ∈ Finset.range 2, term3 t i j k) * 2

/-- what is compared with in one term of the second statistic (mcsamples.py:1048-1050); `rows` is `thin_rows` -/
noncomputable def fitted2 (t : Nat → Nat → Nat) (rows : Nat) (i j : Nat) : ℝ :=
  ((t i 0 + t i 1) * (t 0 j + t 1 j) : ℝ) / ((rows : ℝ) - 1)

/-- `fitted <= 0 or focus <= 0` for one of the counts that are not zero: the whole function returns nothing (mcsamples.py:1052-1054) -/
def problem (t : Nat → Nat → Nat) (rows : Nat) : Prop :=
  ∃ i < 2, ∃ j < 2, t i j ≠ 0 ∧ (fitted2 t rows i j ≤ 0 ∨ (t i j : ℝ) ≤ 0)

/-- `g2` of the Markov chain against independent samples (mcsamples.py:1044-1056) -/
noncomputable def g2Indep (t : Nat → Nat → Nat) (rows : Nat) : ℝ :=
  (∑ i ∈ Finset.range 2, ∑ j ∈ Finset.range 2,
    if t i j ≠ 0 then Real.log ((t i j : ℝ) / fitted2 t rows i j) * t i j else 0) * 2

/-- how a chain can be left: `LoopException`, any other exception, `return`, or never -/
inductive Exc | loop | other | returned | diverges
deriving DecidableEq

/-- the variables of the loop over chains: `thin_fac[ix]`, `nburn[ix]`, `hardest`, `hardestend`, `tran`, `thin_rows` -/
structure St where
  fac : Nat
  nburn : Int
  hardest : Int
  hardestend : Nat
  tran : Option (Nat → Nat → Nat → Nat)
  rows : Nat

/-- `chain.samples[thin_ix, j]` with `thin_ix = self.thin_indices(thin_fac[ix], chain.weights)` -/
noncomputable def thinned (w x : List ℝ) (fac : Nat) : Except NErr (List ℝ) := do
  let ix ← Samples.allSome (← thinIndices (fac : ℝ) w)
  gather x ix

/-- the `while True` loop that thins until the chain is Markov (mcsamples.py:976-1007).  `fuel` bounds the number of rounds. -/
noncomputable def markovLoop (w x : List ℝ) (u : ℝ) : Nat → St → Except (Exc × St) St
  | 0, s => .error (.diverges, s)
  | n + 1, s =>
    match thinned w x s.fac with
    | .error _ => .error (.other, s)
    | .ok y =>
      let s := { s with rows := y.length }
      if y.length < 2 then .ok s
      else
        let t := tran3 (binary u y)
        let s := { s with tran := some t }
        -- `math.log(float(thin_rows - 2))` of zero raises
        if y.length = 2 then .error (.other, s)
        else if g2Markov t - Real.log ((y.length : ℝ) - 2) * 2 < 0 then .ok s
        else markovLoop w x u n { s with fac := s.fac + 1 }

/-- `np.sum(tran[:, a, b])` -/
def trans (t : Nat → Nat → Nat → Nat) (a b : Nat) : Nat := t 0 a b + t 1 a b

/-- `alpha` and `beta` (mcsamples.py:1014-1015) -/
noncomputable def alpha (t : Nat → Nat → Nat → Nat) : ℝ := (trans t 0 1 : ℝ) / (trans t 0 0 + trans t 0 1 : ℝ)
noncomputable def beta (t : Nat → Nat → Nat → Nat) : ℝ := (trans t 1 0 : ℝ) / (trans t 1 0 + trans t 1 1 : ℝ)

/-- `int(tmp1 + 1)` (mcsamples.py:1016-1018) -/
noncomputable def burnSteps (a b eps : ℝ) : Int :=
  trunc (Real.log ((a + b) * eps / max a b) / Real.log |1 - (a + b)| + 1)

/-- transition probabilities and burn in of one parameter at one end (mcsamples.py:1009-1021) -/
noncomputable def burn (s : St) (j endb : Nat) : Except (Exc × St) St :=
  match s.tran with
  | none => .error (.other, s)
  | some t =>
    if trans t 0 1 = 0 ∨ trans t 1 0 = 0 then .error (.loop, { s with fac := 0 })
    else
      let a := alpha t
      let b := beta t
      if (a + b) * (1 / 1000) / max a b ≤ 0 then .error (.other, s)
      else if |1 - (a + b)| ≤ 0 then .error (.other, s)
      else if Real.log |1 - (a + b)| = 0 then .error (.other, s)
      else
        let n := burnSteps a b (1 / 1000) * s.fac
        if n > s.nburn then .ok { s with nburn := n, hardest := j, hardestend := endb }
        else .ok s

/-- the `while True` loop that thins until the samples look independent (mcsamples.py:1029-1061) -/
noncomputable def indepLoop (w x : List ℝ) (u : ℝ) : Nat → St → Except (Exc × St) St
  | 0, s => .error (.diverges, s)
  | n + 1, s =>
    match thinned w x s.fac with
    | .error _ => .error (.other, s)
    | .ok y =>
      let s := { s with rows := y.length }
      if y.length < 2 then .ok s
      else
        let t := tran2 (binary u y)
        open Classical in
        if problem t y.length then .error (.returned, s)
        else if g2Indep t y.length - Real.log ((y.length : ℝ) - 1) < 0 then .ok s
        else indepLoop w x u n { s with fac := s.fac + 1 }

/-- a chain: weights and one list of values for each parameter -/
structure Chain where
  weights : List ℝ
  cols : List (List ℝ)

/-- rounds that are enough for both loops: the total weight and two more -/
noncomputable def rounds (w : List ℝ) : Nat := ⌊w.sum⌋.toNat + 2

/-- column `j`, or an `IndexError` -/
def col (c : Chain) (j : Nat) (s : St) : Except (Exc × St) (List ℝ) :=
  match c.cols[j]? with
  | some x => .ok x
  | none => .error (.other, s)

def lift {α : Type} (r : Except NErr α) (s : St) : Except (Exc × St) α :=
  match r with
  | .ok a => .ok a
  | .error _ => .error (.other, s)

/-- one parameter of one chain (mcsamples.py:971-1021); `limits` are the two fractions -/
noncomputable def param (argsort : List ℝ → List Nat) (selfW : List ℝ) (c : Chain) (limits : ℝ × ℝ) (s : St) (j : Nat) :
    Except (Exc × St) St := do
  let x ← col c j s
  let u0 ← lift (Confidence.confidence argsort selfW x limits.1 false 0 none (some c.weights)) s
  let u1 ← lift (Confidence.confidence argsort selfW x limits.2 false 0 none (some c.weights)) s
  let s ← markovLoop c.weights x u0 (rounds c.weights) s
  let s ← burn s j 0
  let s ← markovLoop c.weights x u1 (rounds c.weights) s
  burn s j 1

/-- the body of the `try` (mcsamples.py:969-1061): the state at the end and `markov_thin[ix]`.  `all` holds the samples of all chains. -/
noncomputable def body (argsort : List ℝ → List Nat) (all c : Chain) (conf : ℝ) (nMC : Nat) (s : St) : Except (Exc × St) (St × Nat) := do
  let s ← (List.range nMC).foldlM (param argsort all.weights c (1 - (1 - conf) / 2, (1 - conf) / 2)) s
  let markov := s.fac
  let s := { s with hardest := max s.hardest 0 }
  let y ← col all s.hardest.toNat s
  let u ← lift (Confidence.confidence argsort all.weights y ((1 - conf) / 2) (s.hardestend == 0) 0 none none) s
  let x ← col c s.hardest.toNat s
  let s ← indepLoop c.weights x u (rounds c.weights) s
  pure (s, markov)

/-- `int(round(np.max(chain.weights)))`; a half is rounded up here, but the test is only done for weights next to integers -/
noncomputable def startFac (w : List ℝ) : Except NErr Nat := do
  let m ← max? w
  pure ⌊m + 1 / 2⌋.toNat

/-- the line of the table for a chain: `markov_thin`, `thin_fac`, `nburn`, or not enough samples -/
abbrev Line := Option (Nat × Nat × Int)

/-- one chain (mcsamples.py:967-1067).  `none` is the early `return`. -/
noncomputable def chain (argsort : List ℝ → List Nat) (all : Chain) (conf : ℝ) (nMC : Nat) (s : St) (c : Chain) :
    Except NErr (Option (Line × St)) := do
  let f ← startFac c.weights
  let s := { s with fac := f, nburn := 0 }
  match body argsort all c conf nMC s with
  | .error (.returned, _) => pure none
  | .error (.diverges, _) => throw .diverges
  | .error (.loop, s) => pure (some (none, s))
  | .error (.other, s) => pure (some (none, { s with fac := 0 }))
  | .ok (s, markov) =>
    if s.fac ≠ 0 ∧ s.rows < 2 then pure (some (none, { s with fac := 0 }))
    else if s.fac = 0 then pure (some (none, s))
    else pure (some (some (markov, s.fac, s.nburn), s))

/-- before the first chain (mcsamples.py:961-966) -/
def start : St := ⟨0, 0, -1, 0, none, 0⟩

/-- all chains (mcsamples.py:967-1078): the lines of the table, `none` for the early return -/
noncomputable def table (argsort : List ℝ → List Nat) (all : Chain) (conf : ℝ) (nMC : Nat) : St → List Chain → Except NErr (Option (List Line))
  | _, [] => .ok (some [])
  | s, c :: cs => do
    match ← chain argsort all conf nMC s c with
    | none => pure none
    | some (l, s') =>
      match ← table argsort all conf nMC s' cs with
      | none => pure none
      | some ls => pure (some (l :: ls))

/-- `self.RL_indep_thin = np.max(thin_fac)` (mcsamples.py:1080) -/
def indepThin (ls : List Line) : Except NErr Nat := max? (ls.map fun l => match l with | some (_, f, _) => f | none => 0)

/-- the guard: all weights are next to integers (mcsamples.py:956) -/
def integerWeights (w : List ℝ) (maxMult : ℝ) : Prop := ∀ x ∈ w, |x - (trunc x : ℝ)| < (1 / 10000) / maxMult

end Verif.Raftery
