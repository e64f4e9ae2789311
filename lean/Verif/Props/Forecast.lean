import Mathlib.Analysis.SpecialFunctions.Log.Basic
import Mathlib.Analysis.SpecialFunctions.Sqrt
import Mathlib.Analysis.Real.Pi.Bounds
import Verif.Model.Forecast
import Verif.Props.CMBlikes
import Verif.Props.CMBlikesHL
import Verif.Props.GridScripts
import Verif.Props.Settings

/-!
# C196, C197: data sets for forecasts
-/

namespace Verif.Forecast
open Verif.Py

set_option linter.unusedSectionVars false
open Verif.IniFile (Val Ini)

section
variable {K : Type} [Field K] [DecidableEq K]

/-! ### noise -/

/-- specification: the noise power of a field at a multipole, for a variance of the temperature, a factor for polarisation, a beam, and the noise of lensing -/
def NoiseOf (F : Fns K) (rd : K → K) (v e s2 : K) (lens : Option (List K)) (x : Str) (l : Nat) : K :=
  let white := (l * (l + 1) : K) / 2 / F.pi * v * F.exp (l * (l + 1) * s2)
  if x = c!"T" then rd white
  else if x = c!"P" then (match lens with | some k => rd (k.getD l 0) | none => 0)
  else rd (e * white)

/-- specification: the value of a spectrum in a row of a table -/
def EntryOf (names : List Str) (row : List K) (x y : Str) : K :=
  if x ++ y ∈ names then row.getD (names.idxOf (x ++ y)) 0
  else if y ++ x ∈ names then row.getD (names.idxOf (y ++ x)) 0
  else 0

/-- names of columns of the table of noise -/
def noiseNames (t : Bool) : List Str := [c!"L", c!"TT", c!"EE", c!"BB"] ++ if t then [c!"PP"] else []

theorem noiseNames_split (t : Bool) : splitWs (strip (c!"L " ++ (c!"TT           EE          BB" ++ if t then c!"          PP" else []))) = noiseNames t := by
  cases t <;> decide +kernel

/-- **C196** The comment at the top of the table of noise names its columns. -/
theorem noise_top (t : Bool) (l : Nat) (rest : Str) (more : List Str) :
    CMBlikes.lastTopComment ((c!"#L " ++ (c!"TT           EE          BB" ++ if t then c!"          PP" else []) ++ c!"\n") :: (strNat l ++ c!" " ++ rest) :: more) none =
      some (c!"L " ++ (c!"TT           EE          BB" ++ if t then c!"          PP" else [])) := by
  have h1 : strip (c!"#L " ++ (c!"TT           EE          BB" ++ if t then c!"          PP" else []) ++ c!"\n") =
      '#' :: (c!"L " ++ (c!"TT           EE          BB" ++ if t then c!"          PP" else [])) := by cases t <;> decide +kernel
  have h2 : strip (c!"L " ++ (c!"TT           EE          BB" ++ if t then c!"          PP" else [])) =
      c!"L " ++ (c!"TT           EE          BB" ++ if t then c!"          PP" else []) := by cases t <;> decide +kernel
  have h3 : ∃ c r, strip (strNat l ++ c!" " ++ rest) = c :: r ∧ c ≠ '#' := by
    cases hd : strNat l with
    | nil => exact absurd hd (strNat_ne_nil l)
    | cons d ds =>
      have hdig : d.isDigit = true := strNat_isDigit (n := l) (by rw [hd]; simp)
      refine ⟨d, rstrip (ds ++ c!" " ++ rest), ?_, ?_⟩
      · have := BestFit.strip_mid (a := []) (b := ds ++ c!" " ++ rest) (Settings.ws_of_digit hdig)
        simpa [lstrip] using this
      · rintro rfl
        revert hdig
        decide
  obtain ⟨c, r, h3, h4⟩ := h3
  rw [CMBlikes.lastTopComment, h1]
  simp only [ne_eq, not_true_eq_false, if_false]
  rw [h2, CMBlikes.lastTopComment, h3]
  simp only [if_pos h4]

example : CMBlikes.lastTopComment [c!"#L TT           EE          BB\n", c!"2 3 4 5\n"] none = some c!"L TT           EE          BB" := by decide +kernel

/-- which column has the noise of a pair -/
theorem noise_col (t : Bool) (x y : Str) (hx : x ∈ fieldNames) (hy : y ∈ fieldNames) :
    (if x ++ y ∈ noiseNames t then ((noiseNames t).idxOf (x ++ y) : Int) else if y ++ x ∈ noiseNames t then ((noiseNames t).idxOf (y ++ x) : Int) else -1) =
      if x = y then (if x = c!"T" then 1 else if x = c!"E" then 2 else if x = c!"B" then 3 else if t then 4 else -1) else -1 := by
  simp only [fieldNames, List.mem_cons, List.not_mem_nil, or_false] at hx hy
  rcases hx with rfl | rfl | rfl | rfl <;> rcases hy with rfl | rfl | rfl | rfl <;> cases t <;> decide +kernel

/-! ### maps -/

/-- the fields used, in the order of the likelihood -/
theorem maps_used (fu : List Str) (h0 : fu ≠ []) (h : ∀ f ∈ fu, f ∈ fieldNames) :
    ∃ m, CMBlikes.readMaps ⟨fieldNames, [], [], fu, [], [], false⟩ = .ok m ∧ CMBlikes.usedOrder m = fieldNames.filter (fun f => decide (f ∈ fu)) ∧
      CMBlikes.count m.use = (CMBlikes.usedOrder m).length := by
  have hm : fu.mapM (CMBlikes.indexOf fieldNames) = .ok (fu.map fieldNames.idxOf) := CMBlikes.mapM_indexOf _ _ h
  have hn : fieldNames.Nodup := by decide +kernel
  refine ⟨⟨false, fieldNames, List.range 4, (List.range 4).map (fun i => decide (fieldNames.getD i [] ∈ fu)), (List.range 4).map (fun i => decide (fieldNames.getD i [] ∈ fu))⟩, ?_, ?_, ?_⟩
  · have e : ∀ i, i < 4 → decide (i ∈ fu.map fieldNames.idxOf) = decide (fieldNames.getD i [] ∈ fu) := by
      intro i hi
      have := CMBlikes.idxOf_iff fieldNames hn fu h i hi
      rw [decide_eq_decide, ← this, List.mem_map]
    have e2 : (List.range 4).map (fun i => ((List.range 4).map (fun i => decide (i ∈ fu.map fieldNames.idxOf))).getD ((List.range 4).getD i 0) false) =
        (List.range 4).map (fun i => decide (fieldNames.getD i [] ∈ fu)) := by
      rw [show List.range 4 = [0, 1, 2, 3] from rfl]
      simp only [List.map_cons, List.map_nil, List.cons.injEq, and_true]
      exact ⟨e 0 (by omega), e 1 (by omega), e 2 (by omega), e 3 (by omega)⟩
    unfold CMBlikes.readMaps CMBlikes.readNames CMBlikes.theoryUse
    simp only [ne_eq, not_true_eq_false, if_false, if_pos h0, hm, bind, Except.bind, pure, Except.pure, CMBlikes.mark, CMBlikes.sliceAll, Bool.false_and, decide_false,
      Bool.false_eq_true]
    rw [show fieldNames.length = 4 from rfl]
    rw [e2]
    rfl
  · unfold CMBlikes.usedOrder CMBlikes.flagged
    simp only [fieldNames, show List.range 4 = [0, 1, 2, 3] from rfl, List.map_cons, List.map_nil, List.getD_cons_zero, List.getD_cons_succ, List.length_cons, List.length_nil]
    by_cases hT : c!"T" ∈ fu <;> by_cases hE : c!"E" ∈ fu <;> by_cases hB : c!"B" ∈ fu <;> by_cases hP : c!"P" ∈ fu <;>
      simp only [List.filter_cons, List.filter_nil, hT, hE, hB, hP, decide_true, decide_false] <;> rfl
  · unfold CMBlikes.usedOrder CMBlikes.flagged CMBlikes.count
    simp only [show List.range 4 = [0, 1, 2, 3] from rfl, List.map_cons, List.map_nil]
    generalize decide (fieldNames.getD 0 [] ∈ fu) = a
    generalize decide (fieldNames.getD 1 [] ∈ fu) = b
    generalize decide (fieldNames.getD 2 [] ∈ fu) = c
    generalize decide (fieldNames.getD 3 [] ∈ fu) = d
    cases a <;> cases b <;> cases c <;> cases d <;> rfl

/-- a column of a table, for maps by their names -/
theorem wantCol_entry (used names : List Str) (row : List K) (r c : Nat) :
    (if CMBlikes.wantCol false 'x' used names r c = -1 then 0 else row.getD (CMBlikes.wantCol false 'x' used names r c).toNat 0) =
      EntryOf names row (used.getD r []) (used.getD c []) := by
  unfold CMBlikes.wantCol CMBlikes.clName EntryOf
  simp only [Bool.false_eq_true, if_false]
  by_cases h1 : used.getD r [] ++ used.getD c [] ∈ names
  · simp only [if_pos h1]
    rw [if_neg (by omega), Int.toNat_natCast]
  · simp only [if_neg h1]
    by_cases h2 : used.getD c [] ++ used.getD r [] ∈ names
    · simp only [if_pos h2]
      rw [if_neg (by omega), Int.toNat_natCast]
    · simp only [if_neg h2, if_true]

/-- the noise in a row of the table -/
theorem noise_entry (F : Fns K) (rd : K → K) (v e s2 : K) (lens : Option (List K)) (l : Nat) (z : K) (x y : Str) (hx : x ∈ fieldNames) (hy : y ∈ fieldNames) :
    EntryOf (noiseNames lens.isSome) (z :: ([noiseCl F v s2 l, e * noiseCl F v s2 l, e * noiseCl F v s2 l] ++ (match lens with | some k => [k.getD l 0] | none => [])).map rd) x y =
      if x = y then NoiseOf F rd v e s2 lens x l else 0 := by
  simp only [fieldNames, List.mem_cons, List.not_mem_nil, or_false] at hx hy
  cases lens with
  | none =>
    rcases hx with rfl | rfl | rfl | rfl <;> rcases hy with rfl | rfl | rfl | rfl <;> rfl
  | some k =>
    rcases hx with rfl | rfl | rfl | rfl <;> rcases hy with rfl | rfl | rfl | rfl <;> rfl

/-! ### the data set -/

/-- settings for which a data set can be made: `v`, `e` are the variance and the factor for polarisation, `w` the beam, `t` whether there is noise of lensing -/
structure Setup (F : Fns K) (a : Args K) (top : Option Str) (cols : Str) (v e w : K) (t : Bool) (lmax : Nat) : Prop where
  cols : colsOf a top = .ok cols
  cmb : a.cmb = true
  pars : noisePars F a = .ok (v, e)
  beam : a.fwhm = some w
  lens : a.lens.truth = .ok t
  long : t = true → lmax < a.lens.values.length
  lmax : a.lmax = some lmax

/-- specification: the noise of lensing, if there is any -/
def lensOf (a : Args K) (t : Bool) : Option (List K) := if t then some a.lens.values else none

/-- specification: the fields, as asked for, or temperature, E and those whose columns are in the file -/
def FieldsOf (a : Args K) (cols : Str) (t : Bool) : List Str :=
  if a.fieldsUse ≠ [] then splitWs a.fieldsUse
  else [c!"T", c!"E"] ++ (if contains c!"BB" cols then [c!"B"] else []) ++ (if contains c!"PP" cols = true ∧ t = true then [c!"P"] else [])

theorem fields_ok (a : Args K) (cols : Str) (t : Bool) (ht : a.lens.truth = .ok t) : ∃ f, fields a cols = .ok f ∧ splitWs f = FieldsOf a cols t := by
  unfold fields FieldsOf
  by_cases h0 : a.fieldsUse ≠ []
  · exact ⟨a.fieldsUse, by rw [if_pos h0], by rw [if_pos h0]⟩
  · rw [if_neg h0, if_neg h0]
    have hp : fieldP a cols = .ok (if contains c!"PP" cols = true ∧ t = true then c!" P" else []) := by
      unfold fieldP
      rw [ht]
      cases contains c!"PP" cols <;> cases t <;> rfl
    rw [hp]
    refine ⟨_, rfl, ?_⟩
    generalize contains c!"PP" cols = p
    generalize contains c!"BB" cols = b
    generalize contains c!"TE" cols = te
    cases p <;> cases b <;> cases t <;> cases te <;> decide +kernel

/-- specification: a line of the table of noise -/
def RowOf (F : Fns K) (rd : K → K) (v e s2 : K) (lens : Option (List K)) (l : Nat) : Int × List K :=
  ((l : Int), (l : K) :: ([noiseCl F v s2 l, e * noiseCl F v s2 l, e * noiseCl F v s2 l] ++ (match lens with | some k => [k.getD l 0] | none => [])).map rd)

theorem row_ok (F : Fns K) (rd : K → K) (a : Args K) (top : Option Str) (cols : Str) (v e w : K) (t : Bool) (lmax : Nat) (h : Setup F a top cols v e w t lmax)
    (f nc : Str) (l : Nat) (hl : l ≤ lmax) :
    noiseRow F rd a ⟨some (v, e, sigma2 F w), f, t, nc⟩ l =
      .ok (RowOf F rd v e (sigma2 F w) (lensOf a t) l) := by
  unfold noiseRow noises lensAt lensOf RowOf
  cases t with
  | false => rfl
  | true =>
    have hlt : l < a.lens.values.length := lt_of_le_of_lt hl (h.long rfl)
    simp only [if_true, List.getElem?_eq_getElem hlt, Except.map, List.getD_eq_getElem?_getD, Option.getD_some]

/-- **C196** A data set is made whenever there is noise, a beam, a largest multipole and, for lensing, noise up to it. -/
theorem forecast_ok (F : Fns K) (rd : K → K) (a : Args K) (top : Option Str) (root cols : Str) (v e w : K) (t : Bool) (lmax : Nat) (h : Setup F a top cols v e w t lmax) :
    ∃ o f, forecast F rd a top root = .ok o ∧ splitWs f = FieldsOf a cols t ∧ o.params = settings a root f lmax ∧
      o.header = '#' :: (c!"L " ++ (c!"TT           EE          BB" ++ if t then c!"          PP" else [])) ∧
      o.rows = ((List.range (lmax + 1 - a.lmin)).map (a.lmin + ·)).map (RowOf F rd v e (sigma2 F w) (lensOf a t)) := by
  obtain ⟨f, hf, hs⟩ := fields_ok a cols t h.lens
  refine ⟨⟨settings a root f lmax, c!"#L " ++ (c!"TT           EE          BB" ++ if t then c!"          PP" else []), _⟩, f, ?_, hs, rfl, rfl, rfl⟩
  unfold forecast plan planCmb
  simp only [h.cols, h.cmb, h.pars, hf, h.beam, h.lens, h.lmax, bind, Except.bind, pure, Except.pure, if_true]
  rw [CMBlikes.mapM_ok_map (noiseRow F rd a _) (RowOf F rd v e (sigma2 F w) (lensOf a t)) _ (fun l hl => by
    rw [List.mem_map] at hl
    obtain ⟨k, hk, rfl⟩ := hl
    rw [List.mem_range] at hk
    exact row_ok F rd a top cols v e w t lmax h _ _ (a.lmin + k) (by omega))]

/-- **C196** The data set is read back as it was meant: the maps are the fields, the noise of each multipole is that of the fields and has no correlations, and the
band powers are the spectra of the input with this noise. -/
theorem forecast_read (F : Fns K) (rd : K → K) (a : Args K) (top : Str) (root cols : Str) (v e w : K) (t : Bool) (lmax : Nat)
    (h : Setup F a (some top) cols v e w t lmax) (htop : top ≠ []) (hl : a.lmin < lmax)
    (hf : ∀ x ∈ FieldsOf a cols t, x ∈ fieldNames) (hf0 : FieldsOf a cols t ≠ [])
    (hat : List (Int × List K)) (h2 : 2 ≤ hat.length) (hnd : (hat.map Prod.fst).Nodup) (hlast : ∀ p, hat.getLast? = some p → (lmax : Int) ≤ p.1) :
    ∃ o f d, forecast F rd a (some top) root = .ok o ∧ o.params.get? c!"fields_use" = some (.str f) ∧
      readExact (splitWs f) a.lmin lmax a.cols (some top) hat (some o.header.tail) o.rows = .ok d ∧
      d.used = fieldNames.filter (fun x => decide (x ∈ FieldsOf a cols t)) ∧
      ∀ r c l row, c ≤ r → r < d.used.length → a.lmin ≤ l → l ≤ lmax → ((l : Int), row) ∈ hat →
        d.noise (CMBlikes.tri r + c) (l - a.lmin) = (if r = c then NoiseOf F rd v e (sigma2 F w) (lensOf a t) (d.used.getD r []) l else 0) ∧
        d.band (CMBlikes.tri r + c) (l - a.lmin) =
          EntryOf (splitWs (strip (if a.cols = [] then top else c!"L " ++ a.cols))) row (d.used.getD r []) (d.used.getD c []) +
          (if r = c then NoiseOf F rd v e (sigma2 F w) (lensOf a t) (d.used.getD r []) l else 0) := by
  obtain ⟨o, f, ho, hfs, hp, hh, hr⟩ := forecast_ok F rd a (some top) root cols v e w t lmax h
  obtain ⟨m, hm, hu, hc⟩ := maps_used (splitWs f) (by rw [hfs]; exact hf0) (by rw [hfs]; exact hf)
  rw [hfs] at hu
  have hlen : o.rows.length = lmax + 1 - a.lmin := by rw [hr]; simp
  have hfst : o.rows.map Prod.fst = ((List.range (lmax + 1 - a.lmin)).map (a.lmin + ·)).map (fun l : Nat => (l : Int)) := by
    rw [hr, List.map_map]
    rfl
  have hnd2 : (o.rows.map Prod.fst).Nodup := by
    rw [hfst]
    exact (List.nodup_range.map (fun x y hxy => by simpa using hxy)).map (fun x y hxy => by simpa using hxy)
  have hmem : ∀ l, a.lmin ≤ l → l ≤ lmax → RowOf F rd v e (sigma2 F w) (lensOf a t) l ∈ o.rows := by
    intro l h1 h2
    rw [hr]
    exact List.mem_map.mpr ⟨l, List.mem_map.mpr ⟨l - a.lmin, List.mem_range.mpr (by omega), by omega⟩, rfl⟩
  have hlast2 : ∀ p, o.rows.getLast? = some p → (lmax : Int) ≤ p.1 - 0 := by
    intro p hp
    have : (o.rows.map Prod.fst).getLast? = some p.1 := by rw [List.getLast?_map, hp]; rfl
    rw [hfst, show lmax + 1 - a.lmin = (lmax - a.lmin) + 1 by omega, List.range_succ, List.map_append, List.map_append, List.getLast?_append] at this
    simp only [List.map_cons, List.map_nil, List.getLast?_singleton, Option.some_or, Option.some.injEq] at this
    omega
  obtain ⟨n, hn, hnv⟩ := CMBlikes.readCl_spec false 'x' (CMBlikes.usedOrder m) (CMBlikes.count m.use) false a.lmin lmax []
    (c!"L " ++ (c!"TT           EE          BB" ++ if t then c!"          PP" else [])) o.rows (by omega) hnd2 (List.cons_ne_nil _ _) _ rfl 0 rfl hlast2
  obtain ⟨q, hq, hqv⟩ := CMBlikes.readCl_spec false 'x' (CMBlikes.usedOrder m) (CMBlikes.count m.use) false a.lmin lmax a.cols top hat h2 hnd htop _ rfl 0 rfl
    (fun p hp => by simpa using hlast p hp)
  rw [if_pos rfl, noiseNames_split] at hnv
  refine ⟨o, f, ⟨CMBlikes.usedOrder m, fun c b => q c b + n c b, n⟩, ho, ?_, ?_, hu, ?_⟩
  · rw [hp]
    unfold settings
    by_cases h0 : a.cols ≠ []
    · rw [if_pos h0]; rfl
    · rw [if_neg h0]; rfl
  · unfold readExact
    rw [hh]
    simp only [hm, List.tail_cons, hq, hn, bind, Except.bind, pure, Except.pure]
  · intro r c l row hcr hrl h1 h2 hrow
    dsimp only at hrl ⊢
    rw [← hc] at hrl
    have hmemU : ∀ k, k < (CMBlikes.usedOrder m).length → (CMBlikes.usedOrder m).getD k [] ∈ fieldNames := by
      intro k hk
      rw [List.getD_eq_getElem?_getD, List.getElem?_eq_getElem hk, Option.getD_some]
      have hall : ∀ x ∈ CMBlikes.usedOrder m, x ∈ fieldNames := by
        rw [hu]
        exact fun x hx => (List.mem_filter.mp hx).1
      exact hall _ (List.getElem_mem hk)
    have hndU : (CMBlikes.usedOrder m).Nodup := by
      rw [hu]
      exact List.Nodup.filter _ (by decide +kernel)
    have hne : ∀ k, k < CMBlikes.count m.use → (CMBlikes.usedOrder m).getD k [] ∈ fieldNames := fun k hk => hmemU k (by rw [← hc]; exact hk)
    have heq : ((CMBlikes.usedOrder m).getD r [] = (CMBlikes.usedOrder m).getD c []) ↔ r = c := by
      constructor
      · intro he
        have hr' : r < (CMBlikes.usedOrder m).length := by rw [← hc]; exact hrl
        have hc' : c < (CMBlikes.usedOrder m).length := by omega
        rw [List.getD_eq_getElem?_getD, List.getD_eq_getElem?_getD, List.getElem?_eq_getElem hr', List.getElem?_eq_getElem hc', Option.getD_some, Option.getD_some] at he
        exact (List.Nodup.getElem_inj_iff hndU).mp he
      · rintro rfl; rfl
    have e1 := hnv r c (l - a.lmin) l _ hcr hrl (hmem l h1 h2) (by omega) (by omega)
    have e2 := hqv r c (l - a.lmin) l row hcr hrl hrow (by omega) (by omega)
    rw [wantCol_entry] at e1 e2
    have ht : t = (lensOf a t).isSome := by unfold lensOf; cases t <;> rfl
    have e3 := noise_entry F rd v e (sigma2 F w) (lensOf a t) l (l : K) _ _ (hne r hrl) (hne c (by omega))
    rw [← ht] at e3
    rw [e3] at e1
    simp only [heq] at e1
    rw [e1, e2]
    exact ⟨rfl, rfl⟩

/-- **C196** Noise of maps: the variance is that of the temperature, and polarisation has the square of the ratio, or the factor given. -/
theorem pars_maps (F : Fns K) (a : Args K) (x : K) (hx : x ≠ 0) (h : a.noiseT = some x) (hv : a.noiseVar = none) :
    a.cmb = true ∧ noisePars F a = .ok ((x * F.pi / (180 * 60)) ^ 2, match a.noiseP with | some p => (p / x) ^ 2 | none => a.eFac) := by
  constructor
  · unfold Args.cmb; rw [h, hv]; simp [hx]
  · unfold noisePars; rw [hv, h]; simp only [div_div]; cases a.noiseP <;> rfl

example : noisePars (⟨3, 2, fun x => 1 + x⟩ : Fns ℚ) ⟨some 60, some 120, none, 2, none, 2, none, c!"1", [], .none, []⟩ = .ok ((60 * 3 / (180 * 60)) ^ 2, 4) := by decide +kernel

/-- **C196** Or the variance is given, and then no noise of maps may be. -/
theorem pars_var (F : Fns K) (a : Args K) (v : K) (hv : a.noiseVar = some v) :
    a.cmb = true ∧ noisePars F a = if a.noiseT.isSome ∨ a.noiseP.isSome then .error .both else .ok (v, a.eFac) := by
  constructor
  · unfold Args.cmb; rw [hv]; cases a.noiseT <;> simp
  · unfold noisePars; rw [hv]; cases a.noiseT <;> cases a.noiseP <;> rfl

example : noisePars (⟨3, 2, fun x => 1 + x⟩ : Fns ℚ) ⟨none, none, some 5, 2, none, 2, none, c!"1", [], .none, []⟩ = .ok (5, 2) ∧
    noisePars (⟨3, 2, fun x => 1 + x⟩ : Fns ℚ) ⟨some 60, none, some 5, 2, none, 2, none, c!"1", [], .none, []⟩ = .error .both := by decide +kernel

/-! ### the settings -/

/-- the setting whose name is written with a space after it -/
theorem lineKind_space {v : Str} (hv : IniFile.ValOK v) : IniFile.lineKind (c!"cl_noise_file " ++ '=' :: v) = .setting c!"cl_noise_file" v := by
  have e : strip (c!"cl_noise_file " ++ '=' :: v) = c!"cl_noise_file " ++ '=' :: v := by
    rw [BestFit.strip_mid (by decide), rstrip_eq_self hv.1.2]
    rfl
  unfold IniFile.lineKind
  simp only [e]
  have h5 : ¬ (c!"INCLUDE(" <+: c!"cl_noise_file " ++ '=' :: v) := by
    rw [IniFile.prefix_setting (by decide)]; decide
  have h6 : ¬ (c!"DEFAULT(" <+: c!"cl_noise_file " ++ '=' :: v) := by
    rw [IniFile.prefix_setting (by decide)]; decide
  rw [if_neg (by intro h; injection h with h _; revert h; decide), if_neg (by intro h; injection h with h; revert h; decide), if_neg h5, if_neg h6,
    if_pos (by simp)]
  have e1 : List.takeWhile (fun x => decide (x ≠ '=')) (c!"cl_noise_file " ++ '=' :: v) = c!"cl_noise_file " := rfl
  have e2 : List.dropWhile (fun x => decide (x ≠ '=')) (c!"cl_noise_file " ++ '=' :: v) = '=' :: v := rfl
  rw [e1, e2, List.tail_cons, strip_eq_self hv.1]
  rfl

/-- specification: the settings of the data set, in the order of their names -/
def SavedOf (a : Args K) (root f : Str) (lmax : Nat) : List (Str × Str) :=
  [(c!"binned", c!"F"), (c!"cl_hat_file", root ++ c!".dat"), (c!"cl_hat_includes_noise", c!"F")] ++ (if a.cols = [] then [] else [(c!"cl_hat_order", a.cols)]) ++
  [(c!"cl_lmax", strNat lmax), (c!"cl_lmin", strNat a.lmin), (c!"cl_noise_file", root ++ c!"_Noise.dat"), (c!"dataset_format", c!"CMBLike2"), (c!"fields_use", f),
    (c!"fullsky_exact_fksy", a.fsky), (c!"like_approx", c!"exact")]

theorem valOK_nat (n : Nat) : IniFile.ValOK (strNat n) := by
  have hd : ∀ c ∈ strNat n, isWs c = false := fun c hc => Settings.ws_of_digit (strNat_isDigit hc)
  refine ⟨⟨fun c hc => hd c (List.mem_of_mem_head? hc), fun c hc => hd c (List.mem_of_getLast? hc)⟩, ?_, ?_⟩
  · intro h; have := hd _ h; revert this; decide
  · intro h; have := hd _ h; revert this; decide

/-- the text of a list of settings, each written on a line of its own -/
theorem body_lines (ls : List (Str × Str × Str)) (h : ∀ e ∈ ls, OneLine e.1 ∧ e.1 ≠ [] ∧ IniFile.lineKind e.1 = .setting e.2.1 e.2.2) :
    IniFile.settingsOf (IniFile.body (join c!"\n" (ls.map Prod.fst))) = ls.map Prod.snd := by
  rw [IniFile.body_join]
  · rw [List.map_map]
    unfold IniFile.settingsOf
    induction ls with
    | nil => rfl
    | cons e ls ih =>
      have h1 := (h e (by simp)).2.2
      rw [List.map_cons, Function.comp_apply, h1, List.filterMap_cons, List.map_cons, ih (fun x hx => h x (by simp [hx]))]
  · intro l hl
    obtain ⟨e, he, rfl⟩ := List.mem_map.mp hl
    exact (h e he).1
  · intro l hl
    obtain ⟨e, he, rfl⟩ := List.mem_map.mp hl
    exact (h e he).2.1
  · intro l hl
    obtain ⟨e, he, rfl⟩ := List.mem_map.mp hl
    rw [(h e he).2.2]
    simp

theorem line_ok (k v : Str) (hk : IniFile.KeyOK k) (hv : IniFile.ValOK v) : OneLine (k ++ '=' :: v) ∧ k ++ '=' :: v ≠ [] ∧ IniFile.lineKind (k ++ '=' :: v) = .setting k v := by
  refine ⟨⟨?_, ?_⟩, by simp, IniFile.lineKind_setting hk hv⟩
  · simp only [List.mem_append, List.mem_cons, not_or]
    exact ⟨hk.2.2.1.1, by decide, hv.2.1⟩
  · simp only [List.mem_append, List.mem_cons, not_or]
    exact ⟨hk.2.2.1.2, by decide, hv.2.2⟩

theorem line_ok_space (v : Str) (hv : IniFile.ValOK v) :
    OneLine (c!"cl_noise_file " ++ '=' :: v) ∧ c!"cl_noise_file " ++ '=' :: v ≠ [] ∧ IniFile.lineKind (c!"cl_noise_file " ++ '=' :: v) = .setting c!"cl_noise_file" v := by
  refine ⟨⟨?_, ?_⟩, by simp, lineKind_space hv⟩
  · simp only [List.mem_append, List.mem_cons, not_or]
    exact ⟨by decide, by decide, hv.2.1⟩
  · simp only [List.mem_append, List.mem_cons, not_or]
    exact ⟨by decide, by decide, hv.2.2⟩

/-- the lines of the file -/
def linesOfSaved (a : Args K) (root f : Str) (lmax : Nat) : List (Str × Str × Str) :=
  (SavedOf a root f lmax).map fun e => ((if e.1 = c!"cl_noise_file" then c!"cl_noise_file " else e.1) ++ '=' :: e.2, e)

theorem lines_saved (a : Args K) (root f : Str) (lmax : Nat) :
    IniFile.fileLines { params := settings a root f lmax } = (linesOfSaved a root f lmax).map Prod.fst := by
  unfold linesOfSaved SavedOf settings
  by_cases h : a.cols = []
  · rw [if_neg (not_not.mpr h), if_pos h]; rfl
  · rw [if_pos h, if_neg h]; rfl

/-- the names without a space -/
def plainKeys : List Str :=
  [c!"binned", c!"cl_hat_file", c!"cl_hat_includes_noise", c!"cl_hat_order", c!"cl_lmax", c!"cl_lmin", c!"dataset_format", c!"fields_use", c!"fullsky_exact_fksy", c!"like_approx"]

/-- small letters and underscores -/
def isPlain (k : Str) : Bool := k.all fun c => c.isLower || c == '_'

theorem plain_keys : ∀ k ∈ plainKeys, isPlain k = true ∧ k ≠ c!"cl_noise_file" := by decide +kernel

theorem plain_char {c : Char} (h : (c.isLower || c == '_') = true) : isWs c = false ∧ c ≠ '=' ∧ c ≠ '#' ∧ c ≠ '\n' ∧ c ≠ '\r' ∧ c ≠ '(' := by
  have hn : 95 ≤ c.toNat ∧ c.toNat ≤ 122 := by
    rcases Bool.or_eq_true_iff.mp h with h | h
    · simp only [Char.isLower, ge_iff_le, Bool.and_eq_true, decide_eq_true_eq] at h
      have h1 := UInt32.le_iff_toNat_le.mp h.1
      have h2 := UInt32.le_iff_toNat_le.mp h.2
      simp at h1 h2
      omega
    · rw [beq_iff_eq] at h
      subst h
      decide
  have hne : ∀ d : Char, d.toNat < 95 ∨ 122 < d.toNat → c ≠ d := by
    rintro d hd rfl
    omega
  refine ⟨?_, hne _ (by decide), hne _ (by decide), hne _ (by decide), hne _ (by decide), hne _ (by decide)⟩
  unfold isWs
  simp only [Bool.or_eq_false_iff, Bool.and_eq_false_iff, decide_eq_false_iff_not, beq_eq_false_iff_ne]
  omega

theorem keyOK_plain (k : Str) (h : isPlain k = true) : IniFile.KeyOK k := by
  have hc : ∀ c ∈ k, isWs c = false ∧ c ≠ '=' ∧ c ≠ '#' ∧ c ≠ '\n' ∧ c ≠ '\r' ∧ c ≠ '(' := fun c hc => plain_char (List.all_eq_true.mp h c hc)
  refine ⟨fun h => (hc _ h).2.1 rfl, ⟨fun c h => (hc c (List.mem_of_mem_head? h)).1, fun c h => (hc c (List.mem_of_getLast? h)).1⟩,
    ⟨fun h => (hc _ h).2.2.2.1 rfl, fun h => (hc _ h).2.2.2.2.1 rfl⟩, fun h => (hc _ (List.mem_of_mem_head? h)).2.2.1 rfl, ?_, ?_⟩
  · intro hp
    exact (hc '(' (hp.subset (by decide))).2.2.2.2.2 rfl
  · intro hp
    exact (hc '(' (hp.subset (by decide))).2.2.2.2.2 rfl

theorem valOK_flag (v : Str) (h : v = c!"F" ∨ v = c!"CMBLike2" ∨ v = c!"exact") : IniFile.ValOK v := by
  rcases h with rfl | rfl | rfl <;> refine ⟨⟨?_, ?_⟩, by decide, by decide⟩ <;> intro c hc <;> (injection hc with hc; subst hc; decide)

theorem saved_vals (a : Args K) (root f : Str) (lmax : Nat) (hr : ∀ x : Str, x = c!".dat" ∨ x = c!"_Noise.dat" → IniFile.ValOK (root ++ x))
    (hf : IniFile.ValOK f) (hs : IniFile.ValOK a.fsky) (hc : IniFile.ValOK a.cols) :
    ∀ e ∈ SavedOf a root f lmax, IniFile.ValOK e.2 ∧ (e.1 = c!"cl_noise_file" ∨ e.1 ∈ plainKeys) := by
  intro e he
  unfold SavedOf at he
  simp only [List.mem_append, List.mem_cons, List.not_mem_nil, or_false] at he
  rcases he with ((rfl | rfl | rfl) | he) | rfl | rfl | rfl | rfl | rfl | rfl | rfl
  · exact ⟨valOK_flag _ (.inl rfl), .inr (by decide +kernel)⟩
  · exact ⟨hr _ (.inl rfl), .inr (show c!"cl_hat_file" ∈ plainKeys by decide +kernel)⟩
  · exact ⟨valOK_flag _ (.inl rfl), .inr (by decide +kernel)⟩
  · split at he
    · cases he
    · rw [List.mem_singleton] at he
      subst he
      exact ⟨hc, .inr (show c!"cl_hat_order" ∈ plainKeys by decide +kernel)⟩
  · exact ⟨valOK_nat _, .inr (show c!"cl_lmax" ∈ plainKeys by decide +kernel)⟩
  · exact ⟨valOK_nat _, .inr (show c!"cl_lmin" ∈ plainKeys by decide +kernel)⟩
  · exact ⟨hr _ (.inr rfl), .inl rfl⟩
  · exact ⟨valOK_flag _ (.inr (.inl rfl)), .inr (by decide +kernel)⟩
  · exact ⟨hf, .inr (show c!"fields_use" ∈ plainKeys by decide +kernel)⟩
  · exact ⟨hs, .inr (show c!"fullsky_exact_fksy" ∈ plainKeys by decide +kernel)⟩
  · exact ⟨valOK_flag _ (.inr (.inr rfl)), .inr (by decide +kernel)⟩

theorem saved_settings (a : Args K) (root f : Str) (lmax : Nat) (hr : ∀ x : Str, x = c!".dat" ∨ x = c!"_Noise.dat" → IniFile.ValOK (root ++ x))
    (hf : IniFile.ValOK f) (hs : IniFile.ValOK a.fsky) (hc : IniFile.ValOK a.cols) :
    IniFile.settingsOf (IniFile.body (IniFile.toText { params := settings a root f lmax })) = SavedOf a root f lmax := by
  unfold IniFile.toText
  rw [lines_saved, body_lines]
  · unfold linesOfSaved
    rw [List.map_map]
    exact (List.map_congr_left (g := id) (fun _ _ => rfl)).trans (List.map_id _)
  · have key : ∀ k ∈ plainKeys, IniFile.KeyOK k ∧ k ≠ c!"cl_noise_file" := fun k hk => ⟨keyOK_plain k (plain_keys k hk).1, (plain_keys k hk).2⟩
    intro e he
    obtain ⟨x, hx, rfl⟩ := List.mem_map.mp he
    obtain ⟨h1, h2⟩ := saved_vals a root f lmax hr hf hs hc x hx
    rcases h2 with h2 | h2
    · simp only [if_pos h2]
      rw [h2]
      exact line_ok_space x.2 h1
    · simp only [if_neg (key _ h2).2]
      exact line_ok x.1 x.2 (key _ h2).1 h1

theorem find_nodup (l : List (Str × Str)) (h : (l.map Prod.fst).Nodup) (k v : Str) (hm : (k, v) ∈ l) : l.find? (fun e => e.1 == k) = some (k, v) := by
  induction l with
  | nil => cases hm
  | cons e l ih =>
    rw [List.map_cons, List.nodup_cons] at h
    rcases List.mem_cons.mp hm with rfl | hm
    · rw [List.find?_cons_of_pos]
      exact beq_self_eq_true k
    · rw [List.find?_cons_of_neg, ih h.2 hm]
      intro he
      exact h.1 (List.mem_map.mpr ⟨(k, v), hm, (beq_iff_eq.mp he).symm⟩)

theorem saved_nodup (a : Args K) (root f : Str) (lmax : Nat) : ((SavedOf a root f lmax).map Prod.fst).Nodup := by
  unfold SavedOf
  by_cases h : a.cols = []
  · rw [if_pos h]
    simp only [List.map_append, List.map_cons, List.map_nil]
    decide +kernel
  · rw [if_neg h]
    simp only [List.map_append, List.map_cons, List.map_nil]
    decide +kernel

/-- **C196** When the data set is read, its settings are those meant, that of the table of noise too, whose name is written with a space after it. -/
theorem saved_read (a : Args K) (root f : Str) (lmax : Nat) (hr : ∀ x : Str, x = c!".dat" ∨ x = c!"_Noise.dat" → IniFile.ValOK (root ++ x))
    (hf : IniFile.ValOK f) (hs : IniFile.ValOK a.fsky) (hc : IniFile.ValOK a.cols)
    (fs env : Str → Option Str) (limit : Nat) (file : Str) (ex : Bool) (hfile : fs file = some (IniFile.toText { params := settings a root f lmax })) (ini : Ini)
    (h : IniFile.load fs env limit file false ex = .ok ini) (k v : Str) (hk : (k, v) ∈ SavedOf a root f lmax) :
    ∃ t, IniFile.readValue env ex v = .ok t ∧ ini.params.get? k = some (.str t) := by
  refine IniFile.load_own_setting_wins fs env limit file _ ex ini h hfile k v ?_
  rw [saved_settings a root f lmax hr hf hs hc]
  exact find_nodup _ (saved_nodup a root f lmax) k v hk

end

/-! ### the likelihood at the input -/

theorem sum_zero_iff (l : List ℝ) (h : ∀ x ∈ l, 0 ≤ x) : l.sum = 0 ↔ ∀ x ∈ l, x = 0 := by
  induction l with
  | nil => simp
  | cons a l ih =>
    have h1 := h a (by simp)
    have h2 : ∀ x ∈ l, 0 ≤ x := fun x hx => h x (by simp [hx])
    have h3 := List.sum_nonneg h2
    rw [List.sum_cons, List.forall_mem_cons, ← ih h2]
    constructor
    · intro e; constructor <;> linarith
    · rintro ⟨e1, e2⟩; linarith

open CMBlikes.HL in
theorem bandMat_eq (d : Data ℝ) (theory : Nat → Nat → Nat → ℝ) (b : Nat)
    (h : ∀ r c, c ≤ r → r < d.used.length → d.band (CMBlikes.tri r + c) b = theory r c b + d.noise (CMBlikes.tri r + c) b) :
    bandMat d.used.length d.band b = theoryMat d.used.length theory d.noise b := by
  funext i j
  simp only [bandMat, theoryMat, Matrix.of_apply, CMBlikes.toMatrix_get, if_pos (And.intro i.2 j.2)]
  by_cases hij : j ≤ i
  · have : (j : Nat) ≤ i := hij
    rw [if_pos hij, max_eq_left this, min_eq_right this, h _ _ this i.2]
  · have : (i : Nat) ≤ j := le_of_lt (not_le.mp hij)
    rw [if_neg hij, max_eq_right this, min_eq_left this, h _ _ this j.2]

/-- **C196** The likelihood of a data set whose band powers are spectra with its noise is never negative, and zero for these spectra and no others. -/
theorem exact_best (fsky : ℝ) (hf : 0 < fsky) (d : Data ℝ) (lmin lmax : Nat) (input theory : Nat → Nat → Nat → ℝ)
    (h : ∀ b r c, b < lmax + 1 - lmin → c ≤ r → r < d.used.length → d.band (CMBlikes.tri r + c) b = input r c b + d.noise (CMBlikes.tri r + c) b)
    (hi : ∀ b, b < lmax + 1 - lmin → CMBlikes.HL.PD (theoryMat d.used.length input d.noise b))
    (ht : ∀ b, b < lmax + 1 - lmin → CMBlikes.HL.PD (theoryMat d.used.length theory d.noise b)) :
    0 ≤ exactTotal fsky d lmin lmax theory ∧
      (exactTotal fsky d lmin lmax theory = 0 ↔ ∀ b r c, b < lmax + 1 - lmin → c ≤ r → r < d.used.length → theory r c b = input r c b) := by
  have hterm : ∀ b, b < lmax + 1 - lmin → 0 ≤ CMBlikes.HL.exactChi fsky (theoryMat d.used.length theory d.noise b) (bandMat d.used.length d.band b) (lmin + b) ∧
      (CMBlikes.HL.exactChi fsky (theoryMat d.used.length theory d.noise b) (bandMat d.used.length d.band b) (lmin + b) = 0 ↔
        ∀ r c, c ≤ r → r < d.used.length → theory r c b = input r c b) := by
    intro b hb
    rw [bandMat_eq d input b (fun r c => h b r c hb)]
    obtain ⟨h1, h2⟩ := CMBlikes.HL.exact_nonneg fsky hf _ _ (lmin + b) (ht b hb) (hi b hb)
    refine ⟨h1, h2.trans ?_⟩
    constructor
    · intro e r c hcr hr
      have := congrFun (congrFun e ⟨r, hr⟩) ⟨c, by omega⟩
      simp only [theoryMat, Matrix.of_apply, Fin.mk_le_mk, if_pos hcr] at this
      linarith
    · intro e
      funext i j
      simp only [theoryMat, Matrix.of_apply]
      by_cases hij : j ≤ i
      · rw [if_pos hij, if_pos hij, e _ _ hij i.2]
      · rw [if_neg hij, if_neg hij, e _ _ (le_of_lt (not_le.mp hij)) j.2]
  have hnn : ∀ x ∈ (List.range (lmax + 1 - lmin)).map fun b =>
      CMBlikes.HL.exactChi fsky (theoryMat d.used.length theory d.noise b) (bandMat d.used.length d.band b) (lmin + b), 0 ≤ x := by
    intro x hx
    obtain ⟨b, hb, rfl⟩ := List.mem_map.mp hx
    exact (hterm b (List.mem_range.mp hb)).1
  refine ⟨List.sum_nonneg hnn, ?_⟩
  unfold exactTotal
  rw [sum_zero_iff _ hnn]
  constructor
  · intro e b r c hb hcr hr
    exact (hterm b hb).2.mp (e _ (List.mem_map.mpr ⟨b, List.mem_range.mpr hb, rfl⟩)) r c hcr hr
  · intro e x hx
    obtain ⟨b, hb, rfl⟩ := List.mem_map.mp hx
    exact (hterm b (List.mem_range.mp hb)).2.mpr (fun r c => e b r c (List.mem_range.mp hb))

/-- **C196** For the data set made from an input, a theory has likelihood zero when and only when its spectra are those of the input for all pairs of fields and
all multipoles. -/
theorem forecast_best (F : Fns ℝ) (rd : ℝ → ℝ) (a : Args ℝ) (top : Str) (root cols : Str) (v e w : ℝ) (t : Bool) (lmax : Nat)
    (h : Setup F a (some top) cols v e w t lmax) (htop : top ≠ []) (hl : a.lmin < lmax)
    (hf : ∀ x ∈ FieldsOf a cols t, x ∈ fieldNames) (hf0 : FieldsOf a cols t ≠ [])
    (hat : List (Int × List ℝ)) (h2 : 2 ≤ hat.length) (hnd : (hat.map Prod.fst).Nodup) (hlast : ∀ p, hat.getLast? = some p → (lmax : Int) ≤ p.1)
    (row : Nat → List ℝ) (hrow : ∀ l, a.lmin ≤ l → l ≤ lmax → ((l : Int), row l) ∈ hat) (fsky : ℝ) (hfs : 0 < fsky) :
    ∃ o f d, forecast F rd a (some top) root = .ok o ∧ o.params.get? c!"fields_use" = some (.str f) ∧
      readExact (splitWs f) a.lmin lmax a.cols (some top) hat (some o.header.tail) o.rows = .ok d ∧
      ∀ input : Nat → Nat → Nat → ℝ,
        (∀ r c b, input r c b = EntryOf (splitWs (strip (if a.cols = [] then top else c!"L " ++ a.cols))) (row (a.lmin + b)) (d.used.getD r []) (d.used.getD c [])) →
        (∀ b, b < lmax + 1 - a.lmin → CMBlikes.HL.PD (theoryMat d.used.length input d.noise b)) →
        ∀ theory, (∀ b, b < lmax + 1 - a.lmin → CMBlikes.HL.PD (theoryMat d.used.length theory d.noise b)) →
          0 ≤ exactTotal fsky d a.lmin lmax theory ∧
          (exactTotal fsky d a.lmin lmax theory = 0 ↔ ∀ b r c, b < lmax + 1 - a.lmin → c ≤ r → r < d.used.length → theory r c b = input r c b) := by
  obtain ⟨o, f, d, h1, h3, h4, -, h6⟩ := forecast_read F rd a top root cols v e w t lmax h htop hl hf hf0 hat h2 hnd hlast
  refine ⟨o, f, d, h1, h3, h4, fun input hin hpi theory hpt => exact_best fsky hfs d a.lmin lmax input theory (fun b r c hb hcr hr => ?_) hpi hpt⟩
  obtain ⟨e1, e2⟩ := h6 r c (a.lmin + b) (row (a.lmin + b)) hcr hr (by omega) (by omega) (hrow _ (by omega) (by omega))
  rw [Nat.add_sub_cancel_left] at e1 e2
  rw [e2, e1, hin]

/-! ### the beam -/

/-- the functions of numpy, as real numbers -/
noncomputable def realFns : Fns ℝ := ⟨Real.pi, 180 * Real.sqrt (8 * Real.log 2) / Real.pi, Real.exp⟩

/-- **C196** A beam of `w` arcminutes is a Gaussian that falls to one half at the distance `w / 2`, which is `(w / 2) π / 10800` as an angle. -/
theorem beam_half (w : ℝ) (hw : 0 < w) : Real.exp (-((w / 2) * Real.pi / 10800) ^ 2 / (2 * sigma2 realFns w)) = 1 / 2 := by
  have h2 : 0 < Real.log 2 := Real.log_pos (by norm_num)
  have hs : Real.sqrt (8 * Real.log 2) ^ 2 = 8 * Real.log 2 := Real.sq_sqrt (by positivity)
  have hs0 : Real.sqrt (8 * Real.log 2) ≠ 0 := (Real.sqrt_pos.mpr (by positivity)).ne'
  have hp := Real.pi_pos.ne'
  have : -((w / 2) * Real.pi / 10800) ^ 2 / (2 * sigma2 realFns w) = -Real.log 2 := by
    unfold sigma2 realFns
    have hw' := hw.ne'
    field_simp
    rw [hs]
    ring
  rw [this, Real.exp_neg, Real.exp_log (by norm_num)]
  norm_num

/-! ### not so (C197) -/

/-- the settings of the functions, all left at their defaults -/
def dflt : Args ℚ := ⟨none, none, none, 2, none, 2, none, c!"1", [], .none, []⟩
/-- functions for examples -/
def exFns : Fns ℚ := ⟨3, 2, fun x => 1 + x⟩
/-- noise, beam and limits given -/
def given : Args ℚ := { dflt with noiseVar := some 1, fwhm := some 120, lmax := some 3 }

/-- the fields chosen are those whose spectra are in the file -/
def FieldsInFile : Prop := ∀ (a : Args ℚ) (cols f : Str), a.fieldsUse = [] → fields a cols = .ok f → ∀ x ∈ splitWs f, x ++ x ∈ splitWs cols

/-- With no fields asked for E is always used, as `'EE' or …` (makePerfectForecastDataset.py:62-63) is true whatever the columns are.  For a file of temperature alone
the spectrum of E is then zero. -/
theorem fields_file_fails : ¬ FieldsInFile := by
  intro h
  have := h given c!"L TT" c!"T E" rfl (by decide +kernel) c!"E" (by decide +kernel)
  revert this
  decide +kernel

/-- a data set can be made for lensing alone -/
def LensingAlone : Prop := ∀ (a : Args ℚ) (top : Option Str) (root cols : Str) (lmax : Nat), a.cmb = false → colsOf a top = .ok cols → a.lens.truth = .ok true →
  a.lmax = some lmax → a.lmin ≤ lmax → lmax < a.lens.values.length → ∃ o, forecast exFns id a top root = .ok o

/-- For lensing alone makePerfectForecastDataset.py:88 still multiplies by `NoiseVar`, which is `None`: the program stops for all settings. -/
theorem lensing_alone_fails : ¬ LensingAlone := by
  intro h
  obtain ⟨o, ho⟩ := h { dflt with lens := .list [1, 1, 1, 1], lmax := some 3 } (some c!"L PP") c!"r" c!"L PP" 3 rfl (by decide +kernel) (by decide +kernel) rfl (by decide) (by decide)
  have : forecast exFns id { dflt with lens := .list [1, 1, 1, 1], lmax := some 3 } (some c!"L PP") c!"r" = .error .type := by rfl
  rw [this] at ho
  cases ho

/-- it never succeeds -/
theorem lensing_alone_never {K : Type} [Field K] [DecidableEq K] (F : Fns K) (rd : K → K) (a : Args K) (top : Option Str) (root : Str) (h : a.cmb = false) (lmax : Nat) (hl : a.lmax = some lmax)
    (hle : a.lmin ≤ lmax) (o : Out K) : forecast F rd a top root ≠ .ok o := by
  unfold forecast plan planLens
  simp only [h, Bool.false_eq_true, if_false, hl, bind, Except.bind, pure, Except.pure]
  cases colsOf a top with
  | error e => intro h; cases h
  | ok cols =>
    dsimp only
    cases a.lens.truth with
    | error e => intro h; cases h
    | ok t =>
      dsimp only
      cases t with
      | false => intro h; cases h
      | true =>
        simp only [if_true]
        rw [show lmax + 1 - a.lmin = (lmax - a.lmin) + 1 by omega, List.range_succ_eq_map, List.map_cons, List.mapM_cons]
        intro h
        cases h

/-- the noise of lensing may be an array -/
def LensArray : Prop := ∀ (a : Args ℚ) (top : Option Str) (root cols : Str) (v e w : ℚ) (l : List ℚ) (lmax : Nat), a.lens = .array l → l ≠ [] → lmax < l.length → colsOf a top = .ok cols →
  a.cmb = true → noisePars exFns a = .ok (v, e) → a.fwhm = some w → a.lmax = some lmax → ∃ o, forecast exFns id a top root = .ok o

/-- The noise of lensing is documented as an array, but is used as a truth value (makePerfectForecastDataset.py:65, 80, 91), which numpy refuses for arrays of more than
one number: `ValueError`. -/
theorem lens_array_fails : ¬ LensArray := by
  intro h
  obtain ⟨o, ho⟩ := h { given with lens := .array [1, 1, 1, 1] } (some c!"L TT TE EE PP") c!"r" c!"L TT TE EE PP" 1 2 120 [1, 1, 1, 1] 3 rfl (by decide) (by decide) (by decide +kernel)
    (by decide +kernel) rfl rfl rfl
  have : forecast exFns id { given with lens := .array [1, 1, 1, 1] } (some c!"L TT TE EE PP") c!"r" = .error .truth := by rfl
  rw [this] at ho
  cases ho

/-- the largest multipole and the beam may be left out, as their defaults say -/
def DefaultsWork : Prop := ∀ (a : Args ℚ) (v : ℚ) (top root : Str), a.noiseVar = some v → a.noiseT = none → a.noiseP = none → top ≠ [] → a.lens = .none → a.lmax = none ∨ a.fwhm = none →
  ∃ o, forecast exFns id a (some top) root = .ok o

/-- `fwhm_arcmin=None` and `lmax=None` are the defaults, but makePerfectForecastDataset.py:76 divides the first and line 87 adds to the second: `TypeError`. -/
theorem defaults_fails : ¬ DefaultsWork := by
  intro h
  obtain ⟨o, ho⟩ := h { given with lmax := none } 1 c!"L TT" c!"r" rfl rfl rfl (by decide) rfl (.inl rfl)
  have : forecast exFns id { given with lmax := none } (some c!"L TT") c!"r" = .error .type := by rfl
  rw [this] at ho
  cases ho

/-- without noise of the temperature, and with no noise of lensing, the message is that noise must be given -/
def NoiseMessage : Prop := ∀ (a : Args ℚ) (top root : Str), a.noiseT = none → a.noiseVar = none → a.lens = .none → top ≠ [] → forecast exFns id a (some top) root = .error .noNoise

/-- The message of makePerfectForecastDataset.py:53-54 cannot be reached: `use_CMB` is then false.  With only noise of polarisation the error is that a variable was not
set (`noise_cols`, line 85). -/
theorem noise_message_fails : ¬ NoiseMessage := by
  intro h
  have h1 := h { dflt with noiseP := some 5, fwhm := some 120, lmax := some 3 } c!"L TT EE" c!"r" rfl rfl rfl (by decide)
  have : forecast exFns id { dflt with noiseP := some 5, fwhm := some 120, lmax := some 3 } (some c!"L TT EE") c!"r" = .error .unbound := by rfl
  rw [this] at h1
  cases h1

/-- maps with no noise can be made -/
def NoNoiseMaps : Prop := ∀ (a : Args ℚ) (top root : Str) (w : ℚ) (lmax : Nat), a.noiseT = some 0 → a.noiseVar = none → a.noiseP = none → a.lens = .none → top ≠ [] → a.fwhm = some w →
  a.lmax = some lmax → ∃ o, forecast exFns id a (some top) root = .ok o

/-- Noise of zero for the maps is taken for none given (makePerfectForecastDataset.py:39), though a variance of zero is accepted. -/
theorem no_noise_fails : ¬ NoNoiseMaps := by
  intro h
  obtain ⟨o, ho⟩ := h { dflt with noiseT := some 0, fwhm := some 120, lmax := some 3 } c!"L TT EE" c!"r" 120 3 rfl rfl rfl rfl (by decide) rfl rfl
  have : forecast exFns id { dflt with noiseT := some 0, fwhm := some 120, lmax := some 3 } (some c!"L TT EE") c!"r" = .error .unbound := by rfl
  rw [this] at ho
  cases ho

/-- each field used has noise in the table -/
def FieldsHaveNoise : Prop := ∀ (a : Args ℚ) (top : Option Str) (root : Str) (o : Out ℚ), forecast exFns id a top root = .ok o →
  ∀ x ∈ splitWs a.fieldsUse, x ++ x ∈ splitWs o.header.tail

/-- When lensing is among the fields asked for and its noise is not given, no message is made and the noise is zero (makePerfectForecastDataset.py:60, 80; a column that is
missing reads as zero, CMBlikes.py:227-240). -/
theorem fields_noise_fails : ¬ FieldsHaveNoise := by
  intro h
  have h1 := fun o ho => h { given with fieldsUse := c!"T P" } (some c!"L TT PP") c!"r" o ho c!"P" (by decide +kernel)
  have h2 : ∃ o, forecast exFns id { given with fieldsUse := c!"T P" } (some c!"L TT PP") c!"r" = .ok o ∧ o.header = c!"#L TT           EE          BB" := ⟨_, rfl, by decide +kernel⟩
  obtain ⟨o, h3, h4⟩ := h2
  have := h1 o h3
  rw [h4] at this
  revert this
  decide +kernel

/-- **C197 (partial)** What holds of the fields left to the program: B is used when and only when the columns name it, lensing when they do and its noise is given. -/
theorem fields_partial {K : Type} [Field K] [DecidableEq K] (a : Args K) (cols : Str) (t : Bool) (ht : a.lens.truth = .ok t) (h0 : a.fieldsUse = []) (f : Str) (h : fields a cols = .ok f) :
    c!"T" ∈ splitWs f ∧ c!"E" ∈ splitWs f ∧ (c!"B" ∈ splitWs f ↔ contains c!"BB" cols = true) ∧ (c!"P" ∈ splitWs f ↔ contains c!"PP" cols = true ∧ t = true) := by
  obtain ⟨g, hg, hs⟩ := fields_ok a cols t ht
  rw [hg] at h
  injection h with h
  rw [← h, hs]
  unfold FieldsOf
  rw [if_neg (not_not.mpr h0)]
  generalize contains c!"PP" cols = p
  generalize contains c!"BB" cols = b
  cases p <;> cases b <;> cases t <;> decide +kernel

/-! ### examples -/

example : Setup exFns given (some c!"L TT TE EE") c!"L TT TE EE" 1 2 120 false 3 := ⟨rfl, rfl, rfl, rfl, rfl, by decide, rfl⟩

example : (forecast exFns id given (some c!"L TT TE EE") c!"r").map (fun o => (o.header, o.rows)) =
    .ok (c!"#L TT           EE          BB", [(2, [2, 7, 14, 14]), (3, [3, 26, 52, 52])]) := by decide +kernel

example : sigma2 exFns (120 : ℚ) = 1 := by decide +kernel

example : (readExact [c!"T", c!"E"] 2 3 [] (some c!"L TT TE EE") [(2, [2, 100, 10, 20]), (3, [3, 110, 11, 21])] (some c!"L TT           EE          BB")
    [(2, [2, 7, 14, 14]), (3, [3, 26, 52, 52])]).map (fun d => (d.used, [d.band 0 0, d.band 1 0, d.band 2 0, d.band 2 1, d.noise 1 0])) =
    .ok ([c!"T", c!"E"], [(107 : ℚ), 10, 34, 73, 0]) := by decide +kernel

example : SavedOf given c!"r" c!"T E" 3 = [(c!"binned", c!"F"), (c!"cl_hat_file", c!"r.dat"), (c!"cl_hat_includes_noise", c!"F"), (c!"cl_lmax", c!"3"), (c!"cl_lmin", c!"2"),
    (c!"cl_noise_file", c!"r_Noise.dat"), (c!"dataset_format", c!"CMBLike2"), (c!"fields_use", c!"T E"), (c!"fullsky_exact_fksy", c!"1"), (c!"like_approx", c!"exact")] := by decide +kernel

example : IniFile.lineKind c!"cl_noise_file =r_Noise.dat" = .setting c!"cl_noise_file" c!"r_Noise.dat" := by decide +kernel

/-- the likelihood of a data set with one map and one multipole is positive away from the input -/
example : 0 < exactTotal 1 ⟨[c!"T"], fun _ _ => 2, fun _ _ => 1⟩ 2 2 (fun _ _ _ => 3) := by
  have hm : ∀ x : ℝ, theoryMat 1 (fun _ _ _ => x) (fun _ _ => 1) 0 = (x + 1) • (1 : CMBlikes.HL.Mat 1) := by
    intro x
    funext i j
    have hi : i = 0 := Subsingleton.elim _ _
    have hj : j = 0 := Subsingleton.elim _ _
    subst hi hj
    simp [theoryMat, CMBlikes.toMatrix_get]
  have hpd : ∀ x : ℝ, 0 < x → ∀ b, b < 2 + 1 - 2 → CMBlikes.HL.PD (theoryMat 1 (fun _ _ _ => x) (fun _ _ => 1) b) := by
    intro x hx b hb
    obtain rfl : b = 0 := by omega
    rw [hm]
    exact CMBlikes.HL.pd_one.smul (by linarith)
  obtain ⟨h1, h2⟩ := exact_best 1 one_pos ⟨[c!"T"], fun _ _ => 2, fun _ _ => 1⟩ 2 2 (fun _ _ _ => 1) (fun _ _ _ => 3) (fun b r c _ _ _ => by norm_num) (hpd 1 one_pos) (hpd 3 (by norm_num))
  refine lt_of_le_of_ne h1 (fun e => ?_)
  have := h2.mp e.symm 0 0 0 (by decide) (by decide) (by decide)
  norm_num at this

end Verif.Forecast
