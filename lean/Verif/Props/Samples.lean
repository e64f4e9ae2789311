import Verif.Model.Samples
import Mathlib.Tactic.Linarith
import Mathlib.Tactic.Ring
import Mathlib.Tactic.NormNum

/-!
# C16, C17: histories of row operations

C16: the three parallel arrays behave as one list of records `Row`.  The specification `specStep` acts on a
list of records, so a row's sample, weight and likelihood can never be separated.

C17: the cached statistics always equal the values computed from the current arrays.
-/

namespace Verif.Samples
open Verif.Py Verif.Py.Np Verif.Thin
set_option linter.unusedSectionVars false

variable {K : Type} [Field K] [LinearOrder K] [FloorRing K]

/-- one sample with its weight and its -log(likelihood) -/
structure Row (K : Type) where
  sample : List K
  weight : K
  loglike : K
  deriving DecidableEq

/-- the arrays of `s` are the columns of the list of records `rows` (`hasL`: likelihoods are present) -/
structure Rep (s : WS K) (hasL : Bool) (n : Nat) (rows : List (Row K)) : Prop where
  samples : s.samples = some ⟨n, rows.map (·.sample)⟩
  weights : s.weights = some (rows.map (·.weight))
  loglikes : s.loglikes = if hasL then some (rows.map (·.loglike)) else none
  hn : s.n = n
  hrows : s.numrows = rows.length

/-! ### specification on records -/

/-- minimum weight cut on records -/
def cut (r : K) (rows : List (Row K)) : Except NErr (List (Row K)) :=
  if 0 ≤ r then
    match max? (rows.map (·.weight)), min? (rows.map (·.weight)) with
    | .ok mx, .ok mn => .ok (if mn < mx * r then rows.filter (fun x => decide (mx * r < x.weight)) else rows)
    | _, _ => .error .valueError
  else .ok rows

/-- the automatic cut made when new samples are stored -/
def autoCut (ratio : Option K) (rows : List (Row K)) : Except NErr (List (Row K)) :=
  match ratio with
  | none => .ok rows
  | some r => cut r rows

/-- what each operation should do to the list of records (`n` columns) -/
def specStep (exp : K → K) (ratio : Option K) (hasL : Bool) (n : Nat) (rows : List (Row K)) :
    Op K → Except NErr (Nat × List (Row K))
  | .filter wh => do pure (n, ← select rows wh)
  | .thin f => do
    let ix ← allSome (← thinIndices f (rows.map (·.weight)))
    pure (n, (← gather rows ix).map (fun r => { r with weight := 1 }))
  | .weightedThin f => do
    let ix ← allSome (← thinIndices f (rows.map (·.weight)))
    let u := unique ix
    let kept ← gather rows u
    pure (n, List.zipWith (fun r i => { r with weight := (ix.count i : K) }) kept u)
  | .reweight ll => do
    let scale ← min? ll
    let b ← broadcast ll rows.length
    pure (n, List.zipWith
      (fun r b => { r with weight := r.weight * exp (-(b - scale)), loglike := r.loglike + b }) rows b)
  | .cool c =>
    if hasL then do
      let m ← max? (rows.map (·.loglike))
      pure (n, rows.map (fun r => { r with
        weight := r.weight * exp (-(r.loglike * c - r.loglike) - m * (1 - c)), loglike := r.loglike * c }))
    else .error .typeError
  | .deleteZeros => .ok (n, rows.filter (fun r => decide (0 < r.weight)))
  | .setMinWeightRatio r => do pure (n, ← cut r rows)
  | .deleteFixedParams => do
    let fixed ← fixedCols ⟨n, rows.map (·.sample)⟩
    let ix := fixed.map (·.1)
    let rows ← autoCut ratio (rows.map (fun r => { r with sample := deleteIdx r.sample ix }))
    pure ((deleteIdx (List.range n) ix).length, rows)
  | .removeBurn r => do
    let rows ← autoCut ratio (sliceFrom rows (burnRows rows.length r))
    pure (n, rows)
  | _ => .ok (n, rows)

/-- a history on records -/
def specRun (exp : K → K) (ratio : Option K) (hasL : Bool) : Nat → List (Row K) → List (Op K) →
    Except NErr (Nat × List (Row K))
  | n, rows, [] => .ok (n, rows)
  | n, rows, op :: ops => match specStep exp ratio hasL n rows op with
    | .ok p => specRun exp ratio hasL p.1 p.2 ops
    | .error e => .error e

/-! ### selection is natural -/

theorem mapM_map_nat {α β : Type} (f : α → β) (a : List α) (ix : List Nat) :
    gather (a.map f) ix = (gather a ix).map (List.map f) := by
  induction ix with
  | nil => rfl
  | cons i ix ih =>
    unfold gather at ih ⊢
    rw [List.mapM_cons, List.mapM_cons, List.getElem?_map]
    cases a[i]? with
    | none => rfl
    | some x =>
      simp only [Option.map_some, bind, Except.bind]
      simp only [ih]
      generalize (ix.mapM (fun i => match a[i]? with | some x => Except.ok x | none => Except.error NErr.indexError) :
        Except NErr (List α)) = r
      cases r <;> rfl

theorem mask_map {α β : Type} (f : α → β) (a : List α) (m : List Bool) :
    Np.mask (a.map f) m = (Np.mask a m).map (List.map f) := by
  unfold Np.mask
  simp only [List.length_map]
  split
  · simp only [Except.map]
    congr 1
    clear * -
    induction a generalizing m with
    | nil => simp
    | cons x a ih =>
      cases m with
      | nil => simp
      | cons b m => cases b <;> simp [ih]
  · rfl

theorem select_map {α β : Type} (f : α → β) (a : List α) (wh : Where) :
    select (a.map f) wh = (select a wh).map (List.map f) := by
  cases wh with
  | mask m => exact mask_map f a m
  | idx ix => exact mapM_map_nat f a ix

theorem gather_length {α : Type} {a b : List α} {ix : List Nat} (h : gather a ix = .ok b) : b.length = ix.length := by
  induction ix generalizing b with
  | nil => cases h; rfl
  | cons i ix ih =>
    unfold gather at h ih
    rw [List.mapM_cons] at h
    cases hx : a[i]? with
    | none => rw [hx] at h; cases h
    | some x =>
      rw [hx] at h
      simp only [bind, Except.bind] at h
      generalize hr : (ix.mapM (fun i => match a[i]? with | some x => Except.ok x | none => Except.error NErr.indexError) :
        Except NErr (List α)) = r at h ih
      cases r with
      | error e => cases h
      | ok l => cases h; simp [ih rfl]

theorem select_gtMask {α : Type} (f : α → K) (t : K) (a : List α) :
    select a (gtMask (a.map f) t) = .ok (a.filter (fun x => decide (t < f x))) := by
  unfold gtMask select Np.mask
  simp only [List.length_map, if_true]
  congr 1
  induction a with
  | nil => rfl
  | cons x a ih =>
    simp only [List.map_cons, List.zip_cons_cons, List.filterMap_cons, List.filter_cons]
    by_cases h : t < f x
    · simp only [h, decide_true, if_true, ih]
    · simp only [h, decide_false, ih, if_false, Bool.false_eq_true]

theorem sliceFrom_map {α β : Type} (f : α → β) (a : List α) (ix : Int) :
    sliceFrom (a.map f) ix = (sliceFrom a ix).map f := by
  unfold sliceFrom; split <;> simp [List.map_drop]

/-! ### freshness of the caches -/

/-- weighted mean of (weight, value) pairs -/
def wmean (l : List (K × K)) : K := (l.map (fun p => p.1 * p.2)).sum / (l.map (·.1)).sum

/-- weighted variance of (weight, value) pairs -/
def wvar (l : List (K × K)) : K := (l.map (fun p => p.1 * (p.2 - wmean l) ^ 2)).sum / (l.map (·.1)).sum

/-- weighted covariance of (weight, x, y) triples -/
def wcov (l : List (K × K × K)) : K :=
  (l.map (fun p => p.1 * (p.2.1 - wmean (l.map (fun q => (q.1, q.2.1)))) *
    (p.2.2 - wmean (l.map (fun q => (q.1, q.2.2)))))).sum / (l.map (·.1)).sum

/-- (weight, value of parameter i) -/
def wv (rows : List (Row K)) (i : Nat) : List (K × K) := rows.map (fun r => (r.weight, r.sample.getD i 0))

/-- (weight, parameter i, parameter j) -/
def wv2 (rows : List (Row K)) (i j : Nat) : List (K × K × K) :=
  rows.map (fun r => (r.weight, r.sample.getD i 0, r.sample.getD j 0))

/-- the statistics computed from scratch -/
def specMeans (n : Nat) (rows : List (Row K)) : List K := (List.range n).map (fun i => wmean (wv rows i))
def specVars (n : Nat) (rows : List (Row K)) : List K := (List.range n).map (fun i => wvar (wv rows i))
def specCov (n : Nat) (rows : List (Row K)) : List (List K) :=
  (List.range n).map (fun i => (List.range n).map (fun j => wcov (wv2 rows i j)))
def specDiffs (n : Nat) (rows : List (Row K)) : List (List K) :=
  (List.range n).map (fun i => rows.map (fun r => r.sample.getD i 0 - wmean (wv rows i)))
def specNorm (rows : List (Row K)) : K := (rows.map (·.weight)).sum

/-- every cache is empty or equal to the value computed from the current rows -/
structure Fresh (sqrt : K → K) (s : WS K) (n : Nat) (rows : List (Row K)) : Prop where
  norm : s.norm = some (specNorm rows)
  means : ∀ m, s.means = some m → m = specMeans n rows
  meanLoglike : ∀ m, s.meanLoglike = some m →
    ∃ l, s.loglikes = some l ∧ m = wmean ((rows.map (·.weight)).zip l)
  diffs : ∀ d, s.diffs = some d → d = specDiffs n rows
  fullcov : ∀ c, s.fullcov = some c → c = specCov n rows
  corr : ∀ c, s.correlationMatrix = some c → c = covToCorr sqrt (specCov n rows)
  vars : ∀ v, s.vars = some v → v = specVars n rows
  sddev : ∀ v, s.sddev = some v → v = (specVars n rows).map sqrt

theorem fresh_weightsChanged (sqrt : K → K) {s : WS K} {hasL : Bool} {n : Nat} {rows : List (Row K)}
    (h : Rep s hasL n rows) : Fresh sqrt (weightsChanged s) n rows := by
  constructor <;> simp [weightsChanged, h.weights, specNorm]

theorem fresh_setRaw (sqrt : K → K) (s : WS K) (hasL : Bool) (n : Nat) (rows : List (Row K)) :
    Fresh sqrt (setSamplesRaw s ⟨n, rows.map (·.sample)⟩ (some (rows.map (·.weight)))
      (if hasL then some (rows.map (·.loglike)) else none)) n rows := by
  unfold setSamplesRaw
  apply fresh_weightsChanged sqrt (hasL := hasL)
  constructor <;> simp [assign]

/-! ### refinement -/

theorem rep_setRaw (s : WS K) (hasL : Bool) (n : Nat) (rows : List (Row K)) :
    Rep (setSamplesRaw s ⟨n, rows.map (·.sample)⟩ (some (rows.map (·.weight)))
      (if hasL then some (rows.map (·.loglike)) else none)) hasL n rows := by
  constructor <;> simp [setSamplesRaw, assign, weightsChanged]

theorem rep_weightsChanged {s : WS K} {hasL : Bool} {n : Nat} {rows : List (Row K)} (h : Rep s hasL n rows) :
    Rep (weightsChanged s) hasL n rows := by
  obtain ⟨h1, h2, h3, h4, h5⟩ := h
  constructor <;> simp [weightsChanged, h1, h2, h3, h4, h5]

theorem ratio_weightsChanged (s : WS K) : (weightsChanged s).minWeightRatio = s.minWeightRatio := by
  unfold weightsChanged
  cases s.weights with
  | some w => rfl
  | none => cases s.samples <;> rfl

theorem ratio_setRaw (s : WS K) (a : Arr2 K) (w l : Option (List K)) :
    (setSamplesRaw s a w l).minWeightRatio = s.minWeightRatio := by
  unfold setSamplesRaw; rw [ratio_weightsChanged]; rfl

/-- outcome of a concrete operation agrees with the outcome on records; under `F` the caches are fresh -/
def Agrees (sqrt : K → K) (F : Prop) (s : WS K) (hasL : Bool) (r : Except NErr (WS K))
    (spec : Except NErr (Nat × List (Row K))) : Prop :=
  match spec with
  | .error e => r = .error e
  | .ok p => ∃ s', r = .ok s' ∧ Rep s' hasL p.1 p.2 ∧ s'.minWeightRatio = s.minWeightRatio ∧
      (F → Fresh sqrt s' p.1 p.2)

theorem selectOpt_rep {s : WS K} {hasL : Bool} {n : Nat} {rows kept : List (Row K)} (h : Rep s hasL n rows)
    {wh : Where} (hk : select rows wh = .ok kept) :
    selectOpt s.loglikes wh = .ok (if hasL then some (kept.map (·.loglike)) else none) := by
  rw [h.loglikes]
  cases hasL with
  | false => rfl
  | true => simp [selectOpt, select_map, hk, Except.map]

theorem filter_agrees (sqrt : K → K) (F : Prop) {s : WS K} {hasL : Bool} {n : Nat} {rows : List (Row K)} (h : Rep s hasL n rows) (wh : Where) :
    Agrees sqrt F s hasL (filter s wh) (do pure (n, ← select rows wh)) := by
  unfold filter
  rw [h.samples, h.weights]
  simp only [select_map]
  cases hk : select rows wh with
  | error e => rfl
  | ok kept =>
    rw [selectOpt_rep h hk]
    exact ⟨_, rfl, rep_setRaw s hasL n kept, ratio_setRaw _ _ _ _, fun _ => fresh_setRaw sqrt s hasL n kept⟩

theorem max?_error {l : List K} {e : NErr} (h : max? l = .error e) : e = .valueError ∧ l = [] := by
  cases l <;> simp [max?] at h; exact ⟨h.symm, rfl⟩
theorem min?_error {l : List K} {e : NErr} (h : min? l = .error e) : e = .valueError ∧ l = [] := by
  cases l <;> simp [min?] at h; exact ⟨h.symm, rfl⟩

theorem minWeight_agrees (sqrt : K → K) {s : WS K} {hasL : Bool} {n : Nat} {rows : List (Row K)} (h : Rep s hasL n rows) (r : K) :
    Agrees sqrt (Fresh sqrt s n rows) s hasL (setMinWeightRatio s r) (do pure (n, ← cut r rows)) := by
  unfold setMinWeightRatio cut
  rw [h.weights]
  simp only []
  split
  · cases hmx : max? (rows.map (·.weight)) with
    | error e =>
      obtain ⟨rfl, _⟩ := max?_error hmx
      rfl
    | ok mx =>
      cases hmn : min? (rows.map (·.weight)) with
      | error e =>
        obtain ⟨rfl, _⟩ := min?_error hmn
        rfl
      | ok mn =>
        simp only [bind, Except.bind]
        split
        · have := filter_agrees sqrt (Fresh sqrt s n rows) h (gtMask (rows.map (·.weight)) (mx * r))
          rw [select_gtMask] at this
          exact this
        · exact ⟨s, rfl, h, rfl, id⟩
  · exact ⟨s, rfl, h, rfl, id⟩

/-- storing new sample rows with the automatic cut -/
theorem setSamples_agrees (sqrt : K → K) (F : Prop) (s : WS K) (hasL : Bool) (n : Nat) (rows : List (Row K)) :
    Agrees sqrt F s hasL (setSamples s ⟨n, rows.map (·.sample)⟩ (some (rows.map (·.weight)))
      (if hasL then some (rows.map (·.loglike)) else none))
      (do pure (n, ← autoCut s.minWeightRatio rows)) := by
  unfold setSamples autoCut
  set s0 := assign s ⟨n, rows.map (·.sample)⟩ (some (rows.map (·.weight)))
      (if hasL then some (rows.map (·.loglike)) else none) with hs0
  have hrep : Rep s0 hasL n rows := by constructor <;> simp [hs0, assign]
  have hratio : s0.minWeightRatio = s.minWeightRatio := rfl
  dsimp only
  rw [hratio]
  cases hr : s.minWeightRatio with
  | none =>
    exact ⟨_, rfl, rep_weightsChanged hrep, by rw [ratio_weightsChanged, hratio, hr],
        fun _ => fresh_weightsChanged sqrt hrep⟩
  | some r =>
    simp only []
    by_cases h0 : 0 ≤ r
    · rw [if_pos h0]
      have := minWeight_agrees sqrt hrep r
      unfold Agrees at this ⊢
      cases hc : cut r rows with
      | error e =>
        rw [hc] at this
        simp only [bind, Except.bind] at this ⊢
        rw [this]
      | ok kept =>
        rw [hc] at this
        simp only [bind, Except.bind, pure, Except.pure] at this ⊢
        obtain ⟨s', h1, h2, h3, _⟩ := this
        rw [h1]
        exact ⟨_, rfl, rep_weightsChanged h2, by rw [ratio_weightsChanged, h3, hratio, hr],
          fun _ => fresh_weightsChanged sqrt h2⟩
    · rw [if_neg h0]
      have : cut r rows = .ok rows := by unfold cut; rw [if_neg h0]
      rw [this]
      exact ⟨_, rfl, rep_weightsChanged hrep, by rw [ratio_weightsChanged, hratio, hr],
        fun _ => fresh_weightsChanged sqrt hrep⟩

theorem broadcast_length {b c : List K} {n : Nat} (h : broadcast b n = .ok c) : c.length = n := by
  unfold broadcast at h
  split at h
  · cases h; assumption
  · split at h
    · cases h; simp
    · cases h

theorem zipWith_map_left' {α β γ δ : Type} (f : α → β) (g : β → γ → δ) (a : List α) (b : List γ) :
    List.zipWith g (a.map f) b = List.zipWith (fun x y => g (f x) y) a b := by
  rw [List.zipWith_map_left]

theorem map_zipWith_left {α β γ : Type} (f : α → γ) (g : α → β → α) (hfg : ∀ x y, f (g x y) = f x) :
    ∀ (a : List α) (b : List β), a.length = b.length → (List.zipWith g a b).map f = a.map f := by
  intro a
  induction a with
  | nil => intro b _; simp
  | cons x a ih =>
    intro b h
    cases b with
    | nil => simp at h
    | cons y b => simp [hfg, ih b (by simpa using h)]

/-- statistics accessors succeed and leave the arrays alone -/
structure Keeps (s s' : WS K) : Prop where
  samples : s'.samples = s.samples
  weights : s'.weights = s.weights
  loglikes : s'.loglikes = s.loglikes
  hn : s'.n = s.n
  hrows : s'.numrows = s.numrows
  ratio : s'.minWeightRatio = s.minWeightRatio

theorem Keeps.rep {s s' : WS K} (h : Keeps s s') {hasL : Bool} {n : Nat} {rows : List (Row K)}
    (hr : Rep s hasL n rows) : Rep s' hasL n rows :=
  ⟨by rw [h.samples, hr.samples], by rw [h.weights, hr.weights], by rw [h.loglikes, hr.loglikes],
   by rw [h.hn, hr.hn], by rw [h.hrows, hr.hrows]⟩

theorem Keeps.refl (s : WS K) : Keeps s s := ⟨rfl, rfl, rfl, rfl, rfl, rfl⟩

/-! ### accessors -/

theorem dot_rows {α : Type} (f g : α → K) (rows : List α) :
    dot (rows.map f) (rows.map g) = (rows.map (fun r => f r * g r)).sum := by
  unfold dot
  congr 1
  induction rows with
  | nil => rfl
  | cons r rows ih => simp [ih]

theorem col_rows (n i : Nat) (rows : List (Row K)) :
    (Arr2.col ⟨n, rows.map (·.sample)⟩ i) = rows.map (fun r => r.sample.getD i 0) := by
  simp [Arr2.col]

theorem getMeans_spec {sqrt : K → K} {s : WS K} {hasL : Bool} {n : Nat} {rows : List (Row K)}
    (h : Rep s hasL n rows) (hf : Fresh sqrt s n rows) :
    ∃ s', getMeans s = .ok (specMeans n rows, s') ∧ Keeps s s' ∧ Fresh sqrt s' n rows ∧
      s'.means = some (specMeans n rows) := by
  unfold getMeans
  cases hm : s.means with
  | some m =>
    have := hf.means m hm
    subst this
    exact ⟨s, rfl, Keeps.refl s, hf, hm⟩
  | none =>
    simp only []
    have hsm : setMeans s = .ok { s with
        means := some (specMeans n rows)
        meanLoglike := s.loglikes.map (fun l => dot (rows.map (·.weight)) l / specNorm rows) } := by
      unfold setMeans
      rw [h.samples, h.weights, hf.norm]
      simp only []
      congr 3
      unfold specMeans
      apply List.map_congr_left
      intro i _
      rw [col_rows, dot_rows]
      simp [wmean, wv, specNorm, Function.comp_def]
    rw [hsm]
    refine ⟨_, rfl, ⟨rfl, rfl, rfl, rfl, rfl, rfl⟩, ?_, rfl⟩
    refine ⟨hf.norm, ?_, ?_, hf.diffs, hf.fullcov, hf.corr, hf.vars, hf.sddev⟩
    · intro m hm; simp only [Option.some.injEq] at hm; exact hm.symm
    · intro m hm
      simp only [Option.map_eq_some_iff] at hm
      obtain ⟨l, hl, rfl⟩ := hm
      refine ⟨l, hl, ?_⟩
      have hl2 := h.loglikes
      rw [hl] at hl2
      cases hasL with
      | false => cases hl2
      | true =>
        simp only [if_true, Option.some.injEq] at hl2
        subst hl2
        rw [dot_rows]
        unfold wmean specNorm
        have e : (rows.map (fun r => r.weight)).zip (rows.map (fun r => r.loglike)) =
            rows.map (fun r => (r.weight, r.loglike)) := by
          induction rows with
          | nil => rfl
          | cons r rows ih => simp [List.zip_map']
        rw [e]; simp [Function.comp_def]

theorem specMeans_getD {n i : Nat} (hi : i < n) (rows : List (Row K)) :
    (specMeans n rows).getD i 0 = wmean (wv rows i) := by
  simp [specMeans, List.getD_eq_getElem?_getD, hi]

theorem getVars_spec {sqrt : K → K} {s : WS K} {hasL : Bool} {n : Nat} {rows : List (Row K)}
    (h : Rep s hasL n rows) (hf : Fresh sqrt s n rows) :
    ∃ s', getVars sqrt s = .ok (specVars n rows, s') ∧ Keeps s s' ∧ Fresh sqrt s' n rows := by
  obtain ⟨s1, h1, hk, hf1, _⟩ := getMeans_spec h hf
  have hr := hk.rep h
  have hv : getVars sqrt s = .ok (specVars n rows,
      { s1 with vars := some (specVars n rows), sddev := some ((specVars n rows).map sqrt) }) := by
    unfold getVars
    rw [h1]
    simp only [bind, Except.bind]
    rw [hr.samples, hr.weights, hf1.norm]
    have : (List.range s1.n).map (fun i => dot (rows.map (·.weight))
        (((Arr2.col ⟨n, rows.map (·.sample)⟩ i)).map (fun x => (x - (specMeans n rows).getD i 0) ^ 2))
          / specNorm rows) = specVars n rows := by
      rw [hr.hn]
      apply List.map_congr_left
      intro i hi
      rw [specMeans_getD (List.mem_range.mp hi), col_rows, List.map_map, dot_rows]
      simp [wvar, wv, specNorm, Function.comp_def]
    simp only [this]
    rfl
  refine ⟨_, hv, ⟨hk.samples, hk.weights, hk.loglikes, hk.hn, hk.hrows, hk.ratio⟩, ?_⟩
  refine ⟨hf1.norm, hf1.means, hf1.meanLoglike, hf1.diffs, hf1.fullcov, hf1.corr, ?_, ?_⟩
  · intro v hv; simp only [Option.some.injEq] at hv; exact hv.symm
  · intro v hv; simp only [Option.some.injEq] at hv; exact hv.symm

theorem meanDiffs_spec {sqrt : K → K} {s : WS K} {hasL : Bool} {n : Nat} {rows : List (Row K)}
    (h : Rep s hasL n rows) (hf : Fresh sqrt s n rows) :
    ∃ s', meanDiffs s = .ok (specDiffs n rows, s') ∧ Keeps s s' ∧ Fresh sqrt s' n rows := by
  obtain ⟨s1, h1, hk, hf1, _⟩ := getMeans_spec h hf
  have hr := hk.rep h
  refine ⟨s1, ?_, hk, hf1⟩
  unfold meanDiffs
  rw [h1]
  simp only [bind, Except.bind]
  rw [hr.samples]
  have : (List.range s1.n).map (fun i => (Arr2.col ⟨n, rows.map (·.sample)⟩ i).map
      (fun x => x - (specMeans n rows).getD i 0)) = specDiffs n rows := by
    rw [hr.hn]
    apply List.map_congr_left
    intro i hi
    rw [specMeans_getD (List.mem_range.mp hi), col_rows, List.map_map]
    rfl
  simp only [this]
  rfl

theorem specDiffs_getD {n i : Nat} (hi : i < n) (rows : List (Row K)) :
    (specDiffs n rows).getD i [] = rows.map (fun r => r.sample.getD i 0 - wmean (wv rows i)) := by
  simp [specDiffs, List.getD_eq_getElem?_getD, hi]

theorem wcov_comm (rows : List (Row K)) (i j : Nat) : wcov (wv2 rows i j) = wcov (wv2 rows j i) := by
  unfold wcov wv2
  simp only [List.map_map, Function.comp_def]
  congr 2
  apply List.map_congr_left
  intro r _
  ring

theorem covOf_spec (n : Nat) (rows : List (Row K)) :
    covOf (specDiffs n rows) (rows.map (·.weight)) (specNorm rows) = specCov n rows := by
  unfold covOf specCov
  have hlen : (specDiffs n rows).length = n := by simp [specDiffs]
  rw [hlen]
  apply List.map_congr_left
  intro i hi
  apply List.map_congr_left
  intro j hj
  have hi := List.mem_range.mp hi
  have hj := List.mem_range.mp hj
  have key : ∀ a b, a < n → b < n → dot (List.zipWith (· * ·) ((specDiffs n rows).getD a []) (rows.map (·.weight)))
      ((specDiffs n rows).getD b []) / specNorm rows = wcov (wv2 rows a b) := by
    intro a b ha hb
    rw [specDiffs_getD ha, specDiffs_getD hb]
    have e : List.zipWith (· * ·) (rows.map (fun r => r.sample.getD a 0 - wmean (wv rows a))) (rows.map (·.weight))
        = rows.map (fun r => (r.sample.getD a 0 - wmean (wv rows a)) * r.weight) := by
      rw [List.zipWith_map, List.zipWith_self]
    rw [e, dot_rows]
    unfold wcov wv2 specNorm
    simp only [List.map_map, Function.comp_def]
    congr 2
    apply List.map_congr_left
    intro r _
    unfold wv
    ring
  simp only []
  rw [key _ _ (by omega) (by omega)]
  rcases Nat.le_total i j with hij | hij
  · rw [Nat.min_eq_left hij, Nat.max_eq_right hij]
  · rw [Nat.min_eq_right hij, Nat.max_eq_left hij, wcov_comm]

theorem covAll_spec {sqrt : K → K} {s : WS K} {hasL : Bool} {n : Nat} {rows : List (Row K)}
    (h : Rep s hasL n rows) (hf : Fresh sqrt s n rows) :
    ∃ s', covAll s = .ok (specCov n rows, s') ∧ Keeps s s' ∧ Fresh sqrt s' n rows := by
  obtain ⟨s1, h1, hk, hf1⟩ := meanDiffs_spec h hf
  have hr := hk.rep h
  refine ⟨s1, ?_, hk, hf1⟩
  unfold covAll
  rw [h1]
  simp only [bind, Except.bind]
  rw [hr.weights]
  simp only [getNorm, hf1.norm, covOf_spec]
  rfl

theorem getCov_spec {sqrt : K → K} {s : WS K} {hasL : Bool} {n : Nat} {rows : List (Row K)}
    (h : Rep s hasL n rows) (hf : Fresh sqrt s n rows) :
    ∃ s', getCov s = .ok (specCov n rows, s') ∧ Keeps s s' ∧ Fresh sqrt s' n rows := by
  unfold getCov
  cases hc : s.fullcov with
  | some c =>
    have := hf.fullcov c hc
    subst this
    exact ⟨s, rfl, Keeps.refl s, hf⟩
  | none =>
    obtain ⟨s1, h1, hk, hf1⟩ := covAll_spec h hf
    rw [h1]
    refine ⟨_, rfl, ⟨hk.samples, hk.weights, hk.loglikes, hk.hn, hk.hrows, hk.ratio⟩, ?_⟩
    refine ⟨hf1.norm, hf1.means, hf1.meanLoglike, hf1.diffs, ?_, hf1.corr, hf1.vars, hf1.sddev⟩
    intro v hv; simp only [Option.some.injEq] at hv; exact hv.symm

theorem getCorr_spec {sqrt : K → K} {s : WS K} {hasL : Bool} {n : Nat} {rows : List (Row K)}
    (h : Rep s hasL n rows) (hf : Fresh sqrt s n rows) :
    ∃ s', getCorrelationMatrix sqrt s = .ok (covToCorr sqrt (specCov n rows), s') ∧ Keeps s s' ∧
      Fresh sqrt s' n rows := by
  unfold getCorrelationMatrix
  cases hc : s.correlationMatrix with
  | some c =>
    have := hf.corr c hc
    subst this
    exact ⟨s, rfl, Keeps.refl s, hf⟩
  | none =>
    obtain ⟨s1, h1, hk, hf1⟩ := getCov_spec h hf
    rw [h1]
    refine ⟨_, rfl, ⟨hk.samples, hk.weights, hk.loglikes, hk.hn, hk.hrows, hk.ratio⟩, ?_⟩
    refine ⟨hf1.norm, hf1.means, hf1.meanLoglike, hf1.diffs, hf1.fullcov, ?_, hf1.vars, hf1.sddev⟩
    intro v hv; simp only [Option.some.injEq] at hv; exact hv.symm

theorem setDiffs_spec {sqrt : K → K} {s : WS K} {hasL : Bool} {n : Nat} {rows : List (Row K)}
    (h : Rep s hasL n rows) (hf : Fresh sqrt s n rows) :
    ∃ s', setDiffs s = .ok (specDiffs n rows, s') ∧ Keeps s s' ∧ Fresh sqrt s' n rows := by
  obtain ⟨s1, h1, hk, hf1⟩ := meanDiffs_spec h hf
  unfold setDiffs
  rw [h1]
  refine ⟨_, rfl, ⟨hk.samples, hk.weights, hk.loglikes, hk.hn, hk.hrows, hk.ratio⟩, ?_⟩
  refine ⟨hf1.norm, hf1.means, hf1.meanLoglike, ?_, hf1.fullcov, hf1.corr, hf1.vars, hf1.sddev⟩
  intro v hv; simp only [Option.some.injEq] at hv; exact hv.symm

theorem getNorm_spec {sqrt : K → K} {s : WS K} {n : Nat} {rows : List (Row K)} (hf : Fresh sqrt s n rows) :
    getNorm s = .ok (specNorm rows, s) := by
  unfold getNorm; rw [hf.norm]

/-! ### every operation agrees with its specification -/

theorem map_zipWith_right {α β γ : Type} (f : α → γ) (g : α → β → α) (h : β → γ) (hfg : ∀ x y, f (g x y) = h y) :
    ∀ (a : List α) (b : List β), a.length = b.length → (List.zipWith g a b).map f = b.map h := by
  intro a
  induction a with
  | nil => intro b hb; cases b with
    | nil => rfl
    | cons y b => simp at hb
  | cons x a ih =>
    intro b hl
    cases b with
    | nil => simp at hl
    | cons y b => simp [hfg, ih b (by simpa using hl)]

theorem thin_agrees (sqrt : K → K) (F : Prop) {s : WS K} {hasL : Bool} {n : Nat} {rows : List (Row K)}
    (h : Rep s hasL n rows) (exp : K → K) (ratio : Option K) (f : K) :
    Agrees sqrt F s hasL (thin s f) (specStep exp ratio hasL n rows (.thin f)) := by
  unfold thin specStep
  rw [h.samples, h.weights]
  simp only []
  cases hix : thinIndices f (rows.map (·.weight)) with
  | error e => rfl
  | ok oix =>
    simp only [bind, Except.bind]
    cases hix2 : allSome oix with
    | error e => rfl
    | ok ix =>
      simp only [mapM_map_nat]
      cases hk : gather rows ix with
      | error e => rfl
      | ok kept =>
        simp only [Except.map]
        rw [selectOpt_rep h (wh := .idx ix) hk]
        refine ⟨_, rfl, ?_, ratio_setRaw _ _ _ _, fun _ => ?_⟩
        · constructor <;> simp [setSamplesRaw, assign, weightsChanged, Function.comp_def]
        · constructor <;> simp [setSamplesRaw, assign, weightsChanged, specNorm, Function.comp_def]

theorem weightedThin_agrees (sqrt : K → K) (F : Prop) {s : WS K} {hasL : Bool} {n : Nat} {rows : List (Row K)}
    (h : Rep s hasL n rows) (exp : K → K) (ratio : Option K) (f : K) :
    Agrees sqrt F s hasL (weightedThin s f) (specStep exp ratio hasL n rows (.weightedThin f)) := by
  unfold weightedThin specStep
  rw [h.samples, h.weights]
  simp only []
  cases hix : thinIndices f (rows.map (·.weight)) with
  | error e => rfl
  | ok oix =>
    simp only [bind, Except.bind]
    cases hix2 : allSome oix with
    | error e => rfl
    | ok ix =>
      simp only [mapM_map_nat, uniqueCounts]
      cases hk : gather rows (unique ix) with
      | error e => rfl
      | ok kept =>
        simp only [Except.map]
        rw [selectOpt_rep h (wh := .idx (unique ix)) hk]
        have hlen := gather_length hk
        set new := List.zipWith (fun (r : Row K) i => ({ r with weight := (ix.count i : K) } : Row K)) kept (unique ix)
          with hnew
        have e1 : new.map (·.sample) = kept.map (·.sample) := map_zipWith_left _ _ (by simp) _ _ hlen
        have e2 : new.map (·.loglike) = kept.map (·.loglike) := map_zipWith_left _ _ (by simp) _ _ hlen
        have e3 : new.map (·.weight) = ((unique ix).map (fun a => ix.count a)).map Nat.cast := by
          rw [List.map_map]; exact map_zipWith_right _ _ _ (by simp) _ _ hlen
        simp only [pure, Except.pure]
        rw [← e1, ← e2, ← e3]
        exact ⟨_, rfl, rep_setRaw s hasL n new, ratio_setRaw _ _ _ _, fun _ => fresh_setRaw sqrt s hasL n new⟩

theorem reweight_agrees (sqrt : K → K) (F : Prop) {s : WS K} {hasL : Bool} {n : Nat} {rows : List (Row K)}
    (h : Rep s hasL n rows) (exp : K → K) (ratio : Option K) (ll : List K) :
    Agrees sqrt F s hasL (reweight exp s ll) (specStep exp ratio hasL n rows (.reweight ll)) := by
  unfold reweight specStep
  rw [h.weights, h.loglikes]
  dsimp only
  cases hm : min? ll with
  | error e => rfl
  | ok scale =>
    simp only [bind, Except.bind, List.length_map]
    cases hb : broadcast ll rows.length with
    | error e => cases hasL <;> simp [Agrees, hb, pure, Except.pure]
    | ok b =>
      have hlen := broadcast_length hb
      set new := List.zipWith (fun (r : Row K) b =>
        ({ r with weight := r.weight * exp (-(b - scale)), loglike := r.loglike + b } : Row K)) rows b with hnew
      have e1 : new.map (·.sample) = rows.map (·.sample) := map_zipWith_left _ _ (by simp) _ _ hlen.symm
      have e2 : new.map (·.loglike) = List.zipWith (· + ·) (rows.map (·.loglike)) b := by
        rw [hnew, List.map_zipWith, List.zipWith_map_left]
      have e3 : new.map (·.weight) = List.zipWith (fun w b => w * exp (-(b - scale))) (rows.map (·.weight)) b := by
        rw [hnew, List.map_zipWith, List.zipWith_map_left]
      have hl : new.length = rows.length := by simp [hnew, hlen]
      have hrep : Rep { s with
          loglikes := if hasL then some (new.map (·.loglike)) else none
          weights := some (new.map (·.weight)) } hasL n new := by
        refine ⟨?_, rfl, rfl, h.hn, by rw [hl]; exact h.hrows⟩
        rw [e1]; exact h.samples
      refine ⟨weightsChanged { s with
          loglikes := if hasL then some (new.map (·.loglike)) else none
          weights := some (new.map (·.weight)) }, ?_, rep_weightsChanged hrep, ratio_weightsChanged _,
          fun _ => fresh_weightsChanged sqrt hrep⟩
      rw [e2, e3]
      cases hasL <;> simp [hb, pure, Except.pure]

theorem cool_agrees (sqrt : K → K) (F : Prop) {s : WS K} {hasL : Bool} {n : Nat} {rows : List (Row K)}
    (h : Rep s hasL n rows) (exp : K → K) (ratio : Option K) (c : K) :
    Agrees sqrt F s hasL (cool exp s c) (specStep exp ratio hasL n rows (.cool c)) := by
  unfold cool specStep
  rw [h.weights, h.loglikes]
  cases hasL with
  | false => rfl
  | true =>
    simp only [if_true]
    cases hm : max? (rows.map (·.loglike)) with
    | error e => rfl
    | ok m =>
      simp only [bind, Except.bind, pure, Except.pure]
      set new := rows.map (fun (r : Row K) => ({ r with
        weight := r.weight * exp (-(r.loglike * c - r.loglike) - m * (1 - c)), loglike := r.loglike * c } : Row K))
        with hnew
      have ez : List.zipWith (fun nl ol => exp (-(nl - ol) - m * (1 - c))) ((rows.map (·.loglike)).map (· * c))
          (rows.map (·.loglike)) = rows.map (fun r => exp (-(r.loglike * c - r.loglike) - m * (1 - c))) := by
        rw [List.map_map, List.zipWith_map, List.zipWith_self]; rfl
      have hb : broadcast (rows.map (fun r => exp (-(r.loglike * c - r.loglike) - m * (1 - c))))
          (rows.map (·.weight)).length = .ok (rows.map (fun r => exp (-(r.loglike * c - r.loglike) - m * (1 - c)))) := by
        unfold broadcast; rw [if_pos (by simp)]
      have e1 : new.map (·.sample) = rows.map (·.sample) := by simp [hnew]
      have e2 : new.map (·.loglike) = (rows.map (·.loglike)).map (· * c) := by simp [hnew]
      have e3 : new.map (·.weight) = List.zipWith (· * ·) (rows.map (·.weight))
          (rows.map (fun r => exp (-(r.loglike * c - r.loglike) - m * (1 - c)))) := by
        rw [List.zipWith_map, List.zipWith_self]; simp [hnew]
      have hrep : Rep { s with
          loglikes := some (new.map (·.loglike))
          weights := some (new.map (·.weight)) } true n new := by
        refine ⟨?_, rfl, rfl, h.hn, by simpa [hnew] using h.hrows⟩
        rw [e1]; exact h.samples
      refine ⟨weightsChanged { s with
          loglikes := some (new.map (·.loglike))
          weights := some (new.map (·.weight)) }, ?_, rep_weightsChanged hrep, ratio_weightsChanged _,
          fun _ => fresh_weightsChanged sqrt hrep⟩
      rw [ez, hb, e2, e3]

theorem deleteFixed_agrees (sqrt : K → K) (F : Prop) {s : WS K} {hasL : Bool} {n : Nat} {rows : List (Row K)}
    (h : Rep s hasL n rows) (exp : K → K) :
    Agrees sqrt F s hasL (do pure (← deleteFixedParams s).1)
      (specStep exp s.minWeightRatio hasL n rows .deleteFixedParams) := by
  unfold deleteFixedParams specStep
  rw [h.samples]
  simp only []
  cases hfx : fixedCols ⟨n, rows.map (·.sample)⟩ with
  | error e => rfl
  | ok fixed =>
    simp only [bind, Except.bind]
    set ix := fixed.map (·.1) with hix
    set new := rows.map (fun (r : Row K) => ({ r with sample := deleteIdx r.sample ix } : Row K)) with hnew
    have e0 : deleteCols ⟨n, rows.map (·.sample)⟩ ix = ⟨(deleteIdx (List.range n) ix).length, new.map (·.sample)⟩ := by
      simp [deleteCols, hnew, Function.comp_def]
    have e2 : new.map (·.loglike) = rows.map (·.loglike) := by simp [hnew]
    have e3 : new.map (·.weight) = rows.map (·.weight) := by simp [hnew]
    have := setSamples_agrees sqrt F s hasL (deleteIdx (List.range n) ix).length new
    unfold changeSamples
    rw [e0, h.weights, h.loglikes, ← e2, ← e3]
    unfold Agrees at this ⊢
    cases hc : autoCut s.minWeightRatio new with
    | error e =>
      rw [hc] at this
      simp only [bind, Except.bind] at this ⊢
      rw [this]
    | ok kept =>
      rw [hc] at this
      simp only [bind, Except.bind, pure, Except.pure] at this ⊢
      obtain ⟨s', h1, h2⟩ := this
      exact ⟨s', by rw [h1], h2⟩

theorem removeBurn_agrees (sqrt : K → K) (F : Prop) {s : WS K} {hasL : Bool} {n : Nat} {rows : List (Row K)}
    (h : Rep s hasL n rows) (exp : K → K) (r : K) :
    Agrees sqrt F s hasL (removeBurn s r) (specStep exp s.minWeightRatio hasL n rows (.removeBurn r)) := by
  unfold removeBurn specStep changeSamples
  rw [h.samples]
  simp only [h.weights, h.loglikes, h.hrows, Option.map_some, sliceFrom_map]
  set new := sliceFrom rows (burnRows rows.length r) with hnew
  have e : Option.map (sliceFrom · (burnRows rows.length r)) (if hasL then some (rows.map (·.loglike)) else none) =
      if hasL then some (new.map (·.loglike)) else none := by
    cases hasL <;> simp [sliceFrom_map, hnew]
  rw [e]
  exact setSamples_agrees sqrt F { s with
    weights := some (new.map (·.weight)), loglikes := if hasL then some (new.map (·.loglike)) else none } hasL n new

/-- **C16/C17, one step**: on a state whose arrays are the columns of `rows`, every operation has exactly the
outcome of its specification on records (same error, or the same resulting records), and the caches stay fresh. -/
theorem step_agrees (exp sqrt : K → K) {s : WS K} {hasL : Bool} {n : Nat} {rows : List (Row K)}
    (h : Rep s hasL n rows) (hf : Fresh sqrt s n rows) (op : Op K) :
    Agrees sqrt True s hasL (step exp sqrt s op) (specStep exp s.minWeightRatio hasL n rows op) := by
  cases op with
  | filter wh => exact filter_agrees sqrt True h wh
  | thin f => exact thin_agrees sqrt True h exp _ f
  | weightedThin f => exact weightedThin_agrees sqrt True h exp _ f
  | reweight ll => exact reweight_agrees sqrt True h exp _ ll
  | cool c => exact cool_agrees sqrt True h exp _ c
  | deleteZeros =>
    have := filter_agrees sqrt True h (gtMask (rows.map (·.weight)) 0)
    rw [select_gtMask] at this
    simp only [step, deleteZeros, h.weights]
    exact this
  | setMinWeightRatio r =>
    have := minWeight_agrees sqrt h r
    simp only [step, specStep]
    unfold Agrees at this ⊢
    split
    · rename_i e he; rw [he] at this; exact this
    · rename_i p hp
      rw [hp] at this
      obtain ⟨s', h1, h2, h3, h4⟩ := this
      exact ⟨s', h1, h2, h3, fun _ => h4 hf⟩
  | deleteFixedParams => exact deleteFixed_agrees sqrt True h exp
  | removeBurn r => exact removeBurn_agrees sqrt True h exp r
  | getMeans =>
    obtain ⟨s', h1, hk, hf', _⟩ := getMeans_spec h hf
    exact ⟨s', by simp [step, h1, bind, Except.bind, pure, Except.pure], hk.rep h, hk.ratio, fun _ => hf'⟩
  | getVars =>
    obtain ⟨s', h1, hk, hf'⟩ := getVars_spec h hf
    exact ⟨s', by simp [step, h1, bind, Except.bind, pure, Except.pure], hk.rep h, hk.ratio, fun _ => hf'⟩
  | getCov =>
    obtain ⟨s', h1, hk, hf'⟩ := getCov_spec h hf
    exact ⟨s', by simp [step, h1, bind, Except.bind, pure, Except.pure], hk.rep h, hk.ratio, fun _ => hf'⟩
  | getCorrelationMatrix =>
    obtain ⟨s', h1, hk, hf'⟩ := getCorr_spec h hf
    exact ⟨s', by simp [step, h1, bind, Except.bind, pure, Except.pure], hk.rep h, hk.ratio, fun _ => hf'⟩
  | setDiffs =>
    obtain ⟨s', h1, hk, hf'⟩ := setDiffs_spec h hf
    exact ⟨s', by simp [step, h1, bind, Except.bind, pure, Except.pure], hk.rep h, hk.ratio, fun _ => hf'⟩

theorem run_agrees (exp sqrt : K → K) : ∀ (ops : List (Op K)) {s : WS K} {hasL : Bool} {n : Nat} {rows : List (Row K)},
    Rep s hasL n rows → Fresh sqrt s n rows →
    Agrees sqrt True s hasL (run exp sqrt s ops) (specRun exp s.minWeightRatio hasL n rows ops) := by
  intro ops
  induction ops with
  | nil => intro s hasL n rows h hf; exact ⟨s, rfl, h, rfl, fun _ => hf⟩
  | cons op ops ih =>
    intro s hasL n rows h hf
    have hs := step_agrees exp sqrt h hf op
    unfold run specRun
    cases hsp : specStep exp s.minWeightRatio hasL n rows op with
    | error e =>
      rw [hsp] at hs
      simp only [Agrees] at hs ⊢
      rw [hs]
    | ok p =>
      rw [hsp] at hs
      obtain ⟨s', h1, h2, h3, h4⟩ := hs
      simp only [h1]
      have := ih h2 (h4 trivial)
      rw [h3] at this
      unfold Agrees at this ⊢
      rw [h3] at this
      exact this

/-- **C16** -/
theorem create_agrees (sqrt : K → K) (hasL : Bool) (n : Nat) (rows : List (Row K)) (ratio : Option K) :
    match autoCut ratio rows with
    | .error e => create ⟨n, rows.map (·.sample)⟩ (some (rows.map (·.weight)))
        (if hasL then some (rows.map (·.loglike)) else none) ratio = .error e
    | .ok kept => ∃ s, create ⟨n, rows.map (·.sample)⟩ (some (rows.map (·.weight)))
        (if hasL then some (rows.map (·.loglike)) else none) ratio = .ok s ∧
        Rep s hasL n kept ∧ s.minWeightRatio = ratio ∧ Fresh sqrt s n kept := by
  have := setSamples_agrees sqrt True ({ minWeightRatio := ratio } : WS K) hasL n rows
  simp only at this
  unfold create
  cases hc : autoCut ratio rows with
  | error e =>
    rw [hc] at this
    simp only [Agrees, bind, Except.bind] at this ⊢
    rw [this]
  | ok kept =>
    rw [hc] at this
    obtain ⟨s, h1, h2, h3, h4⟩ := this
    have hf := h4 trivial
    refine ⟨{ s with needsUpdate := true }, ?_, ⟨h2.1, h2.2, h2.3, h2.4, h2.5⟩, h3, ?_⟩
    · rw [h1]; rfl
    · exact ⟨hf.1, hf.2, hf.3, hf.4, hf.5, hf.6, hf.7, hf.8⟩

/-- **C16** for all histories: construct samples from aligned arrays and apply any sequence of operations.
The outcome is that of the same history on the list of records: sample, weight and likelihood of a row always
stay together, the arrays keep equal lengths, and errors occur exactly when the specification has one. -/
theorem history_on_records (exp sqrt : K → K) (hasL : Bool) (n : Nat) (rows : List (Row K)) (ratio : Option K)
    (ops : List (Op K)) :
    match (match autoCut ratio rows with
           | .error e => (.error e : Except NErr (Nat × List (Row K)))
           | .ok kept => specRun exp ratio hasL n kept ops) with
    | .error e => (match create ⟨n, rows.map (·.sample)⟩ (some (rows.map (·.weight)))
        (if hasL then some (rows.map (·.loglike)) else none) ratio with
        | .error e => (.error e : Except NErr (WS K))
        | .ok s => run exp sqrt s ops) = .error e
    | .ok p => ∃ s0 s, create ⟨n, rows.map (·.sample)⟩ (some (rows.map (·.weight)))
        (if hasL then some (rows.map (·.loglike)) else none) ratio = .ok s0 ∧ run exp sqrt s0 ops = .ok s ∧
        s.samples = some ⟨p.1, p.2.map (·.sample)⟩ ∧ s.weights = some (p.2.map (·.weight)) ∧
        s.loglikes = (if hasL then some (p.2.map (·.loglike)) else none) := by
  have hc := create_agrees sqrt hasL n rows ratio
  cases ha : autoCut ratio rows with
  | error e =>
    rw [ha] at hc
    simp only at hc ⊢
    rw [hc]
  | ok kept =>
    rw [ha] at hc
    obtain ⟨s0, h1, h2, h3, h4⟩ := hc
    have hr := run_agrees exp sqrt ops h2 h4
    rw [h3] at hr
    simp only [h1]
    cases hsr : specRun exp ratio hasL n kept ops with
    | error e => rw [hsr] at hr; exact hr
    | ok p =>
      rw [hsr] at hr
      obtain ⟨s, g1, g2, _, _⟩ := hr
      exact ⟨s0, s, rfl, g1, g2.samples, g2.weights, g2.loglikes⟩

/-- **C16**: samples loaded from a text file's columns (weight, -log(likelihood), parameters) are aligned -/
theorem setColData_agrees (sqrt : K → K) (s : WS K) (n : Nat) (lines : List (K × K × List K)) :
    Agrees sqrt True s true
      (setColData s ⟨n + 2, lines.map (fun l => l.1 :: l.2.1 :: l.2.2)⟩ true)
      (do pure (n, ← autoCut s.minWeightRatio (lines.map (fun l => ⟨l.2.2, l.1, l.2.1⟩)))) := by
  have := setSamples_agrees sqrt True s true n (lines.map (fun l => ⟨l.2.2, l.1, l.2.1⟩))
  unfold setColData
  simp only [if_true] at this ⊢
  rw [if_neg (by omega)]
  simpa [Arr2.col, Function.comp_def] using this

/-- **C17** for all histories: whatever was done before, the accessors return the statistics of the current
samples and weights. -/
theorem accessors_never_stale (exp sqrt : K → K) (hasL : Bool) (n : Nat) (rows : List (Row K)) (ratio : Option K)
    (ops : List (Op K)) (s0 s : WS K)
    (hc : create ⟨n, rows.map (·.sample)⟩ (some (rows.map (·.weight)))
      (if hasL then some (rows.map (·.loglike)) else none) ratio = .ok s0)
    (hrun : run exp sqrt s0 ops = .ok s) :
    ∃ m now, s.samples = some ⟨m, now.map (·.sample)⟩ ∧ s.weights = some (now.map (·.weight)) ∧
      (∃ s', getMeans s = .ok (specMeans m now, s')) ∧
      (∃ s', getVars sqrt s = .ok (specVars m now, s')) ∧
      (∃ s', getCov s = .ok (specCov m now, s')) ∧
      (∃ s', getCorrelationMatrix sqrt s = .ok (covToCorr sqrt (specCov m now), s')) ∧
      (∃ s', setDiffs s = .ok (specDiffs m now, s')) ∧
      getNorm s = .ok (specNorm now, s) := by
  have hcr := create_agrees sqrt hasL n rows ratio
  cases ha : autoCut ratio rows with
  | error e => rw [ha] at hcr; simp only at hcr; rw [hcr] at hc; cases hc
  | ok kept =>
    rw [ha] at hcr
    obtain ⟨s1, h1, h2, h3, h4⟩ := hcr
    rw [h1] at hc; cases hc
    have hr := run_agrees exp sqrt ops h2 h4
    rw [h3] at hr
    cases hsr : specRun exp ratio hasL n kept ops with
    | error e => rw [hsr] at hr; simp only [Agrees] at hr; rw [hr] at hrun; cases hrun
    | ok p =>
      rw [hsr] at hr
      obtain ⟨s2, g1, g2, _, g4⟩ := hr
      rw [g1] at hrun; cases hrun
      have hf := g4 trivial
      refine ⟨p.1, p.2, g2.samples, g2.weights, ?_, ?_, ?_, ?_, ?_, getNorm_spec hf⟩
      · obtain ⟨s', h, _⟩ := getMeans_spec g2 hf; exact ⟨s', h⟩
      · obtain ⟨s', h, _⟩ := getVars_spec g2 hf; exact ⟨s', h⟩
      · obtain ⟨s', h, _⟩ := getCov_spec g2 hf; exact ⟨s', h⟩
      · obtain ⟨s', h, _⟩ := getCorr_spec g2 hf; exact ⟨s', h⟩
      · obtain ⟨s', h, _⟩ := setDiffs_spec g2 hf; exact ⟨s', h⟩

/-! ### concrete histories meeting the hypotheses -/

/-- three rows of two parameters -/
def exRows : List (Row ℚ) := [⟨[1, 5], 2, 10⟩, ⟨[3, 5], 1, 20⟩, ⟨[4, 5], 0, 30⟩, ⟨[8, 5], 4, 40⟩]

example : specRun (fun x => 1 + x) none true 2 exRows
    [.getMeans, .deleteZeros, .filter (.mask [true, false, true]), .reweight [1, 2], .deleteFixedParams, .removeBurn 1]
    = .ok (1, [⟨[8], 0, 42⟩]) := by decide +kernel

example : ∃ s0 s, create ⟨2, exRows.map (·.sample)⟩ (some (exRows.map (·.weight))) (some (exRows.map (·.loglike))) none
      = .ok s0 ∧ run (fun x => 1 + x) id s0
        [.getMeans, .getCov, .deleteZeros, .filter (.mask [true, false, true]), .reweight [1, 2], .deleteFixedParams]
      = .ok s ∧ s.samples = some ⟨1, [[1], [8]]⟩ ∧ s.loglikes = some [11, 42] := by
  refine ⟨_, _, rfl, rfl, ?_⟩
  decide +kernel

example : setMinWeightRatio ({ samples := some ⟨1, [[1], [2]]⟩, weights := some [0, 3] } : WS ℚ) (1/10) =
    .ok { samples := some ⟨1, [[2]]⟩, weights := some [3], n := 1, numrows := 1, norm := some 3 } := by decide +kernel

end Verif.Samples
