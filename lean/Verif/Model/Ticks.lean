import Mathlib.Algebra.Order.Floor.Ring
import Verif.Py.Float
import Verif.Model.Thin

/-!
# Model of the choice of axis ticks (`python/getdist/matplotlib_ext.py`)

Exact arithmetic over an ordered field.  What the locator asks of matplotlib are fields of `Loc`: `ticker.scale_range`, the number part of a label
after `set_locs`, the size of the font relative to the axis and the cosine of the rotation of the labels; `10 ** (log10(step) // 1)` is the field
`magnitude`.  `10 ** (log10(offset / step) - 12)` is `offset / step / 10 ^ 12`.
Loops without bound take a number of rounds; the theorems show how many rounds always suffice.
-/

namespace Verif.Ticks
open Verif.Py

variable {K : Type} [Field K] [LinearOrder K] [FloorRing K]

/-- `BoundedMaxNLocator` and the axis it is used for -/
structure Loc (K : Type) where
  /-- `bounded_prune` -/
  prune : Bool
  /-- `_nbins`, `none` is `'auto'` -/
  nbins : Option Int
  /-- `step_groups` -/
  groups : List (List K)
  /-- `ticker.scale_range`: scale and offset -/
  scaleRange : K → K → Int → K × K
  magnitude : K → K
  fmt : List K → K → Str
  /-- the formatter is a `ScalarFormatter` -/
  scalar : Bool
  sizeRatio : K
  cosRot : K

/-! ### whole numbers of steps (matplotlib_ext.py:328-359) -/

/-- the tolerance of `_closeto` (matplotlib_ext.py:329-334) -/
def tol (offset step : K) : K :=
  if 0 < offset then min (4999 / 10000) (max (1 / 10 ^ 10) (offset / step / 10 ^ 12)) else 1 / 10 ^ 10

/-- `_closeto` (matplotlib_ext.py:328-335) -/
def closeTo (ms edge offset step : K) : Bool := decide (|ms - edge| < tol offset step)

/-- `_le` (matplotlib_ext.py:338-343) -/
def leN (x offset step : K) : Int :=
  let d := ⌊x / step⌋
  if closeTo ((x - d * step) / step) 1 |offset| step then d + 1 else d

/-- `_ge` (matplotlib_ext.py:346-351) -/
def geN (x offset step : K) : Int :=
  let d := ⌊x / step⌋
  if closeTo ((x - d * step) / step) 0 |offset| step then d else d + 1

/-- `_staircase` (matplotlib_ext.py:354-359) -/
def staircase (steps actual : List K) : List K :=
  if 1 < actual.length ∧ 10 * actual.headD 0 = actual.getLastD 0 then
    steps.dropLast.map (1 / 10 * ·) ++ steps ++ steps.tail.map (10 * ·)
  else steps.map (1 / 10 * ·) ++ steps ++ steps.map (10 * ·)

/-- half of the even steps (matplotlib_ext.py:53-58) -/
def halves (g : List K) : List K := g.map fun x : K => if x - 2 * ⌊x / 2⌋ < 1 / 10 ^ 6 then (⌊x / 2⌋ : K) else 0

/-- `_step_groups` and `_offsets` (matplotlib_ext.py:50-59) -/
def stairs (groups : List (List K)) : List (List K × List K) := groups.map fun g => (staircase g g, staircase (halves g) g)

/-! ### labels (matplotlib_ext.py:62-89, 210-214) -/

/-- the number of characters of a label, a point counts less (matplotlib_ext.py:77-86) -/
def charLen (s : Str) : K := if '.' ∈ s then (s.length : K) - 2 / 5 else s.length

/-- `_get_label_len` (matplotlib_ext.py:70-89), in units of the axis -/
def labelLen (l : Loc K) (r : K × K) (locs : List K) : K :=
  if locs = [] then 0 else
    let c := charLen (l.fmt locs (locs.headD 0))
    let c := if 1 < locs.length then max c (charLen (l.fmt locs (locs.getLastD 0))) else c
    max (27 / 20) (c * (13 / 20 * l.cosRot)) * (l.sizeRatio * (r.2 - r.1))

/-- the first tick is dropped if it is too close to the lower end (matplotlib_ext.py:64-65) -/
def pruneLow (r : K × K) (len : K) (locs : List K) : List K := if locs.headD 0 - r.1 < len * (1 / 2) then locs.tail else locs

/-- matplotlib_ext.py:66-67 -/
def pruneHigh (r : K × K) (len : K) (locs : List K) : List K :=
  if r.2 - locs.getLastD 0 < len * (1 / 2) ∧ 1 < locs.length then locs.dropLast else locs

/-- `_bounded_prune` (matplotlib_ext.py:62-68) -/
def boundedPrune (l : Loc K) (r : K × K) (locs : List K) (len : K) : List K :=
  if 1 < locs.length ∧ l.prune then pruneHigh r len (pruneLow r len locs) else locs

/-- `_valid` (matplotlib_ext.py:210-214) -/
def valid (l : Loc K) (r : K × K) (locs : List K) : Bool :=
  let len := labelLen l r locs
  decide (locs.length < 2 ∨ len * (11 / 10) < locs.getD 1 0 - locs.headD 0) &&
    (!l.prune || decide (len / 2 < locs.headD 0 - r.1) && decide (len / 2 < r.2 - locs.getLastD 0))

/-! ### evenly spaced ticks (matplotlib_ext.py:216-325) -/

/-- what does not change within a call of `_spaced_ticks` -/
structure Ctx (K : Type) where
  range : K × K
  vmin : K
  vmax : K
  scale : K
  offset : K
  center : K
  /-- times 1.1 -/
  len : K
  rawStep1 : K
  minTicks : Int
  nbins : Int
  changing : Bool

/-- matplotlib_ext.py:222-227 -/
def roundCenter (vmin vmax scale : K) : K :=
  let c : K → K := fun sc => (roundEven ((vmin + vmax) / (2 * sc * scale)) : K) * sc * scale
  let eps := (vmax - vmin) * (1 / 10 ^ 6)
  if vmin - eps ≤ c 100 ∧ c 100 ≤ vmax + eps then c 100
  else if vmin - eps ≤ c 10 ∧ c 10 ≤ vmax + eps then c 10 else c 1

/-- a point of the lattice of ticks, before half offsets (matplotlib_ext.py:254-258) -/
def baseOf (x : Ctx K) (ix : Nat) (step : K) : K :=
  if ix ≠ 0 ∧ x.vmin ≤ x.center ∧ x.center ≤ x.vmax then x.center - ⌊(x.center - x.vmin) / step⌋ * step
  else ⌊x.vmin / step⌋ * step

/-- `best_vmin` (matplotlib_ext.py:254-266) -/
def startOf (x : Ctx K) (ix : Nat) (step : K) (half : Option K) : K :=
  match half with
  | none => baseOf x ix step
  | some h => if x.vmin ≤ baseOf x ix step - x.scale * h then baseOf x ix step - x.scale * h else baseOf x ix step + x.scale * h

/-- the ticks, if they are neither too few nor too many (matplotlib_ext.py:271-274) -/
def ticksOf (x : Ctx K) (step start : K) : Option (List K) :=
  let low := geN (x.vmin - start) x.offset step
  let high := leN (x.vmax - start) x.offset step
  if x.minTicks ≤ high - low + 1 ∧ high - low + 1 ≤ x.nbins then
    some ((List.range (high - low + 1).toNat).map fun k : Nat => ((low + k : Int) : K) * step + (start + x.offset))
  else none

/-- some tick is ten times a whole number (matplotlib_ext.py:283) -/
def nice (sc : K) (ticks : List K) : Bool := ticks.any fun t => decide (roundEven (t / sc / 10) * 10 = roundEven (t / sc))

/-- the loop over shifts (matplotlib_ext.py:279-285); the shifts add up -/
def shiftLoop (l : Loc K) (r : K × K) (sc step : K) : List Int → List K → List K
  | [], ticks => ticks
  | s :: ss, ticks =>
    if step / 2 ≤ |(s : K) * sc| then ticks
    else
      let shifted := ticks.map (· + (s : K) * sc)
      shiftLoop l r sc step ss (if nice sc shifted && valid l r shifted then shifted else ticks)

/-- matplotlib_ext.py:276-285 -/
def shiftTicks (l : Loc K) (x : Ctx K) (off : Bool) (step : K) (ticks : List K) : List K :=
  if off = true ∧ x.center ≠ 0 ∧ x.changing = true ∧ 2 * l.magnitude step < step then
    shiftLoop l x.range (l.magnitude step) step [0, -1, 1, -2, 2] ticks
  else ticks

/-- the best ticks so far and their score, `none` is minus infinity -/
structure St (K : Type) where
  best : List K
  score : Option Int

/-- matplotlib_ext.py:287 -/
def bigStep (x : Ctx K) (step : K) : Bool := decide (x.rawStep1 < step ∧ x.len * (3 / 2) < step)

/-- matplotlib_ext.py:289-297 -/
def oddGaps (l : Loc K) (x : Ctx K) (step : K) (ticks : List K) : Bool :=
  let full := x.range.2 - x.range.1
  let sc := l.magnitude step
  decide (1 < x.minTicks) &&
    (decide (ticks.length = 2 ∧ full * (7 / 10) < step) ||
     (l.prune && decide (max (min (full / 3) step) (x.len * (11 / 10)) < ticks.headD 0 - x.range.1 ∨
        max (min (full / 3) step) (x.len * (11 / 10)) < x.range.2 - ticks.getLastD 0)) ||
     (!l.prune && decide (ticks.length = 3 ∧ max (2 * x.len) (full / 3) < step ∧ 1 < roundEven (step / sc) ∧
        0 < roundEven (ticks.getLastD 0 / sc) % 10)))

/-- matplotlib_ext.py:299 -/
def closeTicks (x : Ctx K) (step : K) (ticks : List K) : Bool := decide (step < x.len * (13 / 10) ∧ 2 < ticks.length)

/-- matplotlib_ext.py:305-306 -/
def tooFew (x : Ctx K) (ix : Nat) (step : K) (ticks : List K) : Bool :=
  (decide (ticks.length < 3 ∧ (if ix ≠ 0 then 3 else 4) < x.nbins) || decide ((ticks.length : Int) < max 2 ((x.nbins + 1) / 2))) &&
    decide (x.len * (3 / 2) < step)

/-- matplotlib_ext.py:307-315 -/
def scoreOf (l : Loc K) (x : Ctx K) (ix : Nat) (off : Bool) (steps : List K) (step : K) (ticks : List K) : Int :=
  - (tooFew x ix step ticks).toInt - ix * 2 - (closeTicks x step ticks).toInt * 2 - (oddGaps l x step ticks).toInt
    - (if ticks.length < 3 ∧ bigStep x step then 2 else 0) - (if off then 3 else 0)
    + (if roundEven (step / l.magnitude step) = 1 ∧ off = false then 1 else 0) + (if 0 ∈ steps then 1 else 0)

/-- `_score <= best_score` -/
def notBetter (s : Int) : Option Int → Bool
  | none => false
  | some b => decide (s ≤ b)

/-- what is done with ticks: skipped, kept as the best so far, or returned (matplotlib_ext.py:288-324) -/
def judge (l : Loc K) (x : Ctx K) (ix : Nat) (off : Bool) (steps : List K) (step : K) (ticks : List K) (st : St K) : St K ⊕ List K :=
  let big := bigStep x step
  let odd := oddGaps l x step ticks
  let cl := closeTicks x step ticks
  if ((big && odd || cl) && decide (min 3 ticks.length ≤ st.best.length)) = true then .inl st
  else if (!st.best.isEmpty && odd && decide (ix ≠ 0) || x.changing && !valid l x.range ticks) = true then .inl st
  else
    let score := scoreOf l x ix off steps step ticks
    if notBetter score st.score = true then .inl st
    else if (off && decide (ix = 0) || big && (st.best.isEmpty || decide (ticks.length < st.best.length)) || cl || tooFew x ix step ticks || odd) = true then
      .inl ⟨ticks, some score⟩
    else .inr ticks

/-- a step (matplotlib_ext.py:254-324) -/
def tryStep (l : Loc K) (x : Ctx K) (ix : Nat) (off : Bool) (steps : List K) (step half : K) (st : St K) : St K ⊕ List K :=
  match ticksOf x step (startOf x ix step (if off then some half else none)) with
  | none => .inl st
  | some ticks => judge l x ix off steps step (shiftTicks l x off step ticks) st

/-- the loop over steps, largest first (matplotlib_ext.py:247-252) -/
def stepLoop (l : Loc K) (x : Ctx K) (ix : Nat) (off : Bool) (steps offs : List K) : List Nat → St K → St K ⊕ List K
  | [], st => .inl st
  | i :: is, st =>
    if off = true ∧ offs.getD i 0 = 0 then stepLoop l x ix off steps offs is st
    else if steps.getD i 0 < x.len then .inl st
    else match tryStep l x ix off steps (steps.getD i 0) (offs.getD i 0) st with
      | .inl st' => stepLoop l x ix off steps offs is st'
      | .inr t => .inr t

/-- the loop over half offsets (matplotlib_ext.py:244-246) -/
def offLoop (l : Loc K) (x : Ctx K) (ix : Nat) (steps offs : List K) (istep : Nat) (st : St K) : St K ⊕ List K :=
  match stepLoop l x ix false steps offs (List.range (istep + 1)).reverse st with
  | .inr t => .inr t
  | .inl st' =>
    if 2 < st'.best.length ∨ st'.best.length = 2 ∧ (x.center = 0 ∨ 1 < ix) then .inl st'
    else stepLoop l x ix true steps offs (List.range (istep + 1)).reverse st'

/-- the loop over groups of steps (matplotlib_ext.py:234-242) -/
def groupLoop (l : Loc K) (x : Ctx K) : Nat → List (List K × List K) → K → St K → St K ⊕ List K
  | _, [], _, st => .inl st
  | ix, g :: gs, raw, st =>
    let steps := g.1.map (· * x.scale)
    let raw' := if ix ≠ 0 ∧ st.best.length < 3 then max raw ((x.vmax - x.vmin) / 2) else raw
    let istep := min (steps.length - 1) (steps.findIdx (raw' ≤ ·))
    if istep = 0 then groupLoop l x (ix + 1) gs raw' st
    else match offLoop l x ix steps g.2 istep st with
      | .inl st' => groupLoop l x (ix + 1) gs raw' st'
      | .inr t => .inr t

/-- the constants of a call (matplotlib_ext.py:218-233) -/
def ctxOf (l : Loc K) (r : K × K) (vmin vmax len : K) (minTicks nbins : Int) (changing : Bool) : Ctx K :=
  let so := l.scaleRange vmin vmax nbins
  { range := r, vmin := vmin - so.2, vmax := vmax - so.2, scale := so.1, offset := so.2
    center := roundCenter (vmin - so.2) (vmax - so.2) so.1
    len := len * (11 / 10)
    rawStep1 := ((vmax - so.2) - (vmin - so.2)) / ((max 1 (nbins - (if l.prune then 0 else 1)) : Int) : K)
    minTicks := minTicks, nbins := nbins, changing := changing }

/-- `raw_step` (matplotlib_ext.py:230) -/
def rawStep (x : Ctx K) : K := max x.len ((x.vmax - x.vmin) / ((if 2 < x.nbins then x.nbins - 2 else 1 : Int) : K))

/-- `_spaced_ticks` (matplotlib_ext.py:216-325) -/
def spacedTicks (l : Loc K) (r : K × K) (vmin vmax len : K) (minTicks nbins : Int) (changing : Bool) : List K × Bool :=
  let x := ctxOf l r vmin vmax len minTicks nbins changing
  match groupLoop l x 0 (stairs l.groups) (rawStep x) ⟨[], none⟩ with
  | .inl st => (st.best, false)
  | .inr t => (t, true)

/-! ### all ticks (matplotlib_ext.py:91-208) -/

/-- the first guess of the length of labels and of the room they need (matplotlib_ext.py:115-122) -/
def guess (l : Loc K) (r : K × K) : K × K :=
  if 1 / 20 < l.cosRot then
    let len := l.sizeRatio * (3 / 2) * (r.2 - r.1)
    (len, len * (11 / 10))
  else
    let len := l.sizeRatio * (27 / 20) * (r.2 - r.1)
    (len, len * (5 / 4))

/-- `label_len / 2 if self.bounded_prune else 0` -/
def deltaOf (l : Loc K) (len : K) : K := if l.prune then len / 2 else 0

/-- the number of bins there is room for (matplotlib_ext.py:124-128) -/
def roomFor (l : Loc K) (r : K × K) : Int :=
  let g := guess l r
  let n := Thin.trunc ((r.2 - r.1 - 2 * deltaOf l g.1) / g.2) + 1
  if 4 < n then Thin.trunc ((r.2 - r.1 - 2 * deltaOf l g.1) / ((if 6 < n then 3 / 2 else 13 / 10) * g.2)) + 1 else n

/-- typical ticks, fewer and fewer of them (matplotlib_ext.py:132-138): ticks, `min_n_ticks`, `nbins`; `none` if the rounds are used up -/
def firstLoop (l : Loc K) (r : K × K) (len : K) : Nat → Int → Int → Option (List K × Int × Int)
  | 0, _, _ => none
  | k + 1, minTicks, nbins =>
    let locs := (spacedTicks l r (r.1 + deltaOf l len) (r.2 - deltaOf l len) len minTicks nbins false).1
    if locs ≠ [] ∨ minTicks = 1 then some (locs, minTicks, nbins)
    else
      let m := if nbins = 2 then minTicks - 1 else minTicks
      firstLoop l r len k m (max m 2)

/-- the ticks need another look (matplotlib_ext.py:146-148) -/
def poor (r : K × K) (len : K) (nbins : Int) (locs : List K) : Bool :=
  let step := locs.getD 1 0 - locs.headD 0
  decide ((locs.length : Int) < max 3 nbins) || decide (step < len * (if locs.length < 4 then 11 / 10 else 3 / 2)) ||
    decide (min (step * (101 / 100)) (len * (3 / 2)) < locs.headD 0 - r.1) || decide (min (step * (101 / 100)) (len * (3 / 2)) < r.2 - locs.getLastD 0)

/-- the number of bins for the true length of labels (matplotlib_ext.py:150-156) -/
def roomAgain (l : Loc K) (r : K × K) (len : K) : Int :=
  let n : K → Int := fun fac => Thin.trunc ((r.2 - r.1 - 2 * deltaOf l len) / (fac * max (2 * (l.sizeRatio * (r.2 - r.1))) len)) + 1
  let m := if 4 ≤ n (3 / 2) then n (3 / 2) else if 4 ≤ n (27 / 20) then n (27 / 20) else n (11 / 10)
  match l.nbins with
  | none => m
  | some b => min b m

/-- `np.isclose` -/
def isClose (a b : K) : Bool := decide (|a - b| ≤ 1 / 10 ^ 8 + 1 / 10 ^ 5 * |b|)

/-- the ticks are accepted (matplotlib_ext.py:184-186) -/
def accepted (l : Loc K) (r : K × K) (minTicks : Int) (locs : List K) : Bool :=
  decide (minTicks = 1 ∧ locs.length = 1) ||
    (decide (minTicks ≤ (locs.length : Int) ∧ 1 < minTicks) && decide (labelLen l r locs * (11 / 10) < locs.getD 1 0 - locs.headD 0))

/-- variables of the second loop -/
structure Vars (K : Type) where
  len : K
  delta : K
  retry : Bool
  shorter : Bool

/-- what a round of the second loop does with the variables: `inl` is `continue`, `inr` the ticks to be accepted or not (matplotlib_ext.py:162-182) -/
def round2 (l : Loc K) (r : K × K) (nbins minTicks : Int) (v : Vars K) : Vars K ⊕ (List K × Vars K) :=
  let s := spacedTicks l r (r.1 + v.delta) (r.2 - v.delta) v.len minTicks nbins true
  if s.1 ≠ [] then
    let new := labelLen l r s.1
    if s.2 = true ∨ isClose new v.len = true then .inr (s.1, v)
    else if v.retry = true then .inl ⟨new, deltaOf l new, false, v.shorter⟩
    else .inr (boundedPrune l r s.1 new, ⟨new, deltaOf l new, v.retry, v.shorter⟩)
  else if v.shorter = true then
    let t := (spacedTicks l r (r.1 + v.delta / 2) (r.2 - v.delta / 2) (v.len / 2) minTicks nbins true).1
    if t ≠ [] then .inl ⟨labelLen l r t, deltaOf l (labelLen l r t), v.retry, false⟩
    else .inr (t, ⟨v.len / 2, v.delta / 2, v.retry, false⟩)
  else .inr ([], v)

/-- the second loop (matplotlib_ext.py:161-188); `none` if the rounds are used up -/
def secondLoop (l : Loc K) (r : K × K) (nbins : Int) : Nat → Int → Vars K → Option (List K)
  | 0, _, _ => none
  | k + 1, minTicks, v =>
    if minTicks ≤ 1 then some []
    else match round2 l r nbins minTicks v with
      | .inl v' => secondLoop l r nbins k minTicks v'
      | .inr (locs, v') => if accepted l r minTicks locs = true then some locs else secondLoop l r nbins k (minTicks - 1) v'

/-- the points at one and three quarters of the axis, rounded (matplotlib_ext.py:193-194) -/
def quarters (r : K × K) (sc : K) : List K :=
  [(roundEven ((r.1 * 3 + r.2) / (4 * sc)) : K) * sc, (roundEven ((r.1 + 3 * r.2) / (4 * sc)) : K) * sc]

/-- matplotlib_ext.py:195-196 -/
def quartersFit (l : Loc K) (r : K × K) (sc : K) : Bool :=
  let q := quarters r sc
  decide (q.headD 0 ≠ q.getLastD 0 ∧ r.1 ≤ q.headD 0 ∧ q.getLastD 0 ≤ r.2) && valid l r q

/-- any two points that fit, or a round number in the middle (matplotlib_ext.py:189-204) -/
def anyTwo (l : Loc K) (r : K × K) : List K :=
  let scale := (l.scaleRange r.1 r.2 1).1
  if quartersFit l r scale = true then quarters r scale
  else if quartersFit l r (scale / 10) = true then quarters r (scale / 10)
  else
    let loc := (roundEven ((r.1 + r.2) / (2 * scale)) : K) * scale
    if r.1 < loc ∧ loc < r.2 then boundedPrune l r [loc] (labelLen l r [loc])
    else quarters r (scale / 10)

/-- ticks for the true length of labels (matplotlib_ext.py:149-208) -/
def again (l : Loc K) (r : K × K) (rounds : Nat) (minTicks : Int) (len : K) : Option (List K) :=
  let nbins := roomAgain l r len
  match secondLoop l r nbins rounds (min minTicks nbins) ⟨len, deltaOf l len, true, true⟩ with
  | none => none
  | some locs =>
    if locs.length ≤ 1 ∧ l.sizeRatio * (13 / 20 * l.cosRot) < 9 / 10 then some (anyTwo l r)
    else some locs

/-- the ticks that were found first, or new ones (matplotlib_ext.py:139-208) -/
def finish (l : Loc K) (r : K × K) (rounds : Nat) (len : K) (t : List K × Int × Int) : Option (List K) :=
  if 1 / 20 < l.cosRot ∧ l.scalar = true ∧ 1 < t.1.length then
    let len' := labelLen l r t.1
    let locs := boundedPrune l r t.1 len'
    if poor r len' t.2.2 locs = true then again l r rounds t.2.1 len' else some locs
  else some (boundedPrune l r t.1 len)

/-- matplotlib_ext.py:130 -/
def firstBins (l : Loc K) (room : Int) : Int :=
  match l.nbins with
  | none => min 9 room
  | some b => min b room

/-- `tick_values` (matplotlib_ext.py:91-208) -/
def tickValues (l : Loc K) (rounds : Nat) (vmin vmax : K) : Option (List K) :=
  let r := (vmin, vmax)
  let room := roomFor l r
  match firstLoop l r (guess l r).1 rounds (min room 2) (firstBins l room) with
  | none => none
  | some t => finish l r rounds (guess l r).1 t

end Verif.Ticks
