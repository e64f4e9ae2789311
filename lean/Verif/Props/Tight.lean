import Verif.Props.NumFmt
import Verif.Props.Table
import Verif.Props.MargeStats
import Verif.Props.GridFiles
import Verif.Props.AutoCorr
import Mathlib.Tactic.FieldSimp
import Mathlib.Tactic.LinearCombination

/-!
# Further theorems on formatting, tables, statistics files, copying of grids and correlations

Added after wrong programs were found that earlier theorems did not tell from the model.
-/

set_option linter.unusedSectionVars false

/-! ## One error or two (C70) -/
namespace Verif.NumFmt
open Verif.Py

/-- **C70** For one-sigma limits of both signs a single error is shown exactly if the sizes of the two differ by at most the tolerance relative
to the lower one; other limits always show both; a lower error of zero is a division by zero. -/
theorem plusMinus_spec (tol : ℚ) (limit : Nat) (upper lower : ℚ) :
    (limit ≠ 1 → plusMinusLimit tol limit upper lower = some true) ∧
    (limit = 1 → lower = 0 → plusMinusLimit tol limit upper lower = none) ∧
    (limit = 1 → lower ≠ 0 → plusMinusLimit tol limit upper lower = some (decide (tol * |lower| < |(|upper| - |lower|)|))) := by
  unfold plusMinusLimit
  refine ⟨fun h => if_pos h, fun h1 h2 => ?_, fun h1 h2 => ?_⟩
  · rw [if_neg (by simpa using h1), if_pos h2]
  · rw [if_neg (by simpa using h1), if_neg h2]
    have hp : 0 < |lower| := abs_pos.mpr h2
    have e : |(|upper / lower| - 1)| = |(|upper| - |lower|)| / |lower| := by
      rw [abs_div]
      have : |upper| / |lower| - 1 = (|upper| - |lower|) / |lower| := by field_simp
      rw [this, abs_div, abs_abs]
    rw [e]
    simp only [lt_div_iff₀ hp]

example : plusMinusLimit (1 / 10) 1 3 (-2) = some true ∧ plusMinusLimit (1 / 10) 1 3 (-3) = some false ∧ plusMinusLimit (1 / 10) 1 3 0 = none ∧ plusMinusLimit (1 / 10) 2 3 0 = some true := by decide +kernel

/-- **C70** In the one-figure case of a large error the condition that the error is at least two always holds: it cannot decide anything. -/
theorem errSf_two {value limplus : ℚ} (hv : 20 ≤ value) (hl : 0 ≤ limplus) (hf : 1 / 10 < limplus / (|value| + limplus)) (err : Nat) :
    2 < limplus ∧ errSf err value (limplus / (|value| + limplus)) limplus = 1 := by
  have h0 : 0 < |value| + limplus := by rw [abs_of_nonneg (by linarith)]; linarith
  have : 2 < limplus := by
    rw [lt_div_iff₀ h0, abs_of_nonneg (by linarith)] at hf
    linarith
  exact ⟨this, if_pos ⟨hv, hf, this.le⟩⟩

example : errSf 2 (30 : ℚ) (5 / (|30| + 5)) 5 = 1 := by decide +kernel

end Verif.NumFmt

/-! ## Cells of a table (C43) -/
namespace Verif.Table
open Verif.Py
variable {α : Type}

theorem textAsColumn_math {s : Str} (h0 : s ≠ []) (h1 : s.head? ≠ some '$') (sep : Bool) :
    textAsColumn s true sep false = c!"$" ++ s ++ List.replicate (26 - s.length) ' ' ++ c!"$" ++ (if sep then c!" & " else []) := by
  obtain ⟨c, t, rfl⟩ : ∃ c t, s = c :: t := by cases s with | nil => exact absurd rfl h0 | cons c t => exact ⟨c, t, rfl⟩
  have hc : c ≠ '$' := by simpa using h1
  unfold textAsColumn texEquation colSep
  simp only [if_true, List.cons_append, ne_eq, reduceCtorEq, not_false_eq_true, List.head?_cons, Option.some.injEq, hc, and_self, Nat.add_zero,
    Bool.false_eq_true, if_false]
  have : 28 - ((c :: t).length + 2) = 26 - (c :: t).length := by simp only [List.length_cons]; omega
  rw [this]
  cases sep <;> simp

/-- **C43** A value is set in mathematics, padded to the width of the column; `---` (no constraint) is set as text; a best-fit value goes before
it in its own column, in mathematics. -/
theorem cell_spec (l : List Str) (values : α → Option (List Str)) (p : α) {v : Str} (h0 : v ≠ []) (h1 : v.head? ≠ some '$') :
    (v ≠ c!"---" → values p = some [v] →
      paramResultTex (.marge l values) p = .ok (c!"$" ++ v ++ List.replicate (26 - v.length) ' ' ++ c!"$")) ∧
    (v = c!"---" → values p = some [v] → paramResultTex (.marge l values) p = .ok (c!"---" ++ List.replicate 25 ' ')) ∧
    (∀ b, b ≠ [] → b.head? ≠ some '$' → v ≠ c!"---" → values p = some [v, b] → paramResultTex (.marge l values) p =
      .ok (c!"$" ++ b ++ List.replicate (26 - b.length) ' ' ++ c!"$" ++ c!" & " ++ (c!"$" ++ v ++ List.replicate (26 - v.length) ' ' ++ c!"$"))) ∧
    (∀ b, b ≠ [] → b.head? ≠ some '$' → v = c!"---" → values p = some [v, b] → paramResultTex (.marge l values) p =
      .ok (c!"$" ++ b ++ List.replicate (26 - b.length) ' ' ++ c!"$" ++ c!" & " ++ (c!"---" ++ List.replicate 25 ' '))) := by
  have hd : textAsColumn c!"---" false false false = c!"---" ++ List.replicate 25 ' ' := by decide +kernel
  refine ⟨fun hv e => ?_, fun hv e => ?_, fun b b0 b1 hv e => ?_, fun b b0 b1 hv e => ?_⟩ <;> unfold paramResultTex Result.texValues <;> dsimp only <;> rw [e]
  · have : decide (v ≠ noConstraint) = true := decide_eq_true hv
    simp only [this]
    rw [textAsColumn_math h0 h1]
    simp
  · have : decide (v ≠ noConstraint) = false := by simp [noConstraint, hv]
    simp only [this]
    rw [hv, hd]
  · have : decide (v ≠ noConstraint) = true := decide_eq_true hv
    simp only [this]
    rw [textAsColumn_math h0 h1, textAsColumn_math b0 b1]
    simp
  · have : decide (v ≠ noConstraint) = false := by simp [noConstraint, hv]
    simp only [this]
    rw [textAsColumn_math b0 b1, hv, hd]
    simp

example : paramResultTex (.marge [] (fun n : Nat => if n = 1 then some [c!"1.2\\pm 0.1", c!"1.25"] else some [c!"---"])) 1 =
    .ok (c!"$1.25                      $ & $1.2\\pm 0.1                $") := rfl

end Verif.Table

/-! ## Columns of a statistics file (C49) -/
namespace Verif.MargeStats
open Verif.Py
variable {K : Type} [Field K] [LinearOrder K] [IsStrictOrderedRing K] [FloorRing K]

theorem foldr_max_spec (l : List Nat) (h : l ≠ []) : (∀ x ∈ l, x ≤ l.foldr max 0) ∧ l.foldr max 0 ∈ l := by
  induction l with
  | nil => exact absurd rfl h
  | cons a l ih =>
    simp only [List.foldr_cons, List.mem_cons, forall_eq_or_imp]
    by_cases hl : l = []
    · subst hl; simp
    · obtain ⟨h1, h2⟩ := ih hl
      refine ⟨⟨le_max_left _ _, fun x hx => (h1 x hx).trans (le_max_right _ _)⟩, ?_⟩
      rcases max_choice a (l.foldr max 0) with e | e
      · exact .inl e
      · rw [e]; exact .inr h2

/-- **C49** The first column has room for every name with its mark and is no wider than needed, but at least ten. -/
theorem nameWidth_spec (l : List (Par K)) (h : l ≠ []) : ∃ w, nameWidth l = .ok w ∧ (∀ p ∈ l, (printedName p).length ≤ w) ∧ 10 ≤ w ∧
    (w = 10 ∨ ∃ p ∈ l, p.name.length + 1 = w) := by
  obtain ⟨h1, h2⟩ := foldr_max_spec (l.map (fun p => p.name.length)) (by simpa using h)
  refine ⟨_, by unfold nameWidth; rw [if_neg h], ?_, by omega, ?_⟩
  · intro p hp
    have := h1 p.name.length (List.mem_map.mpr ⟨p, hp, rfl⟩)
    unfold printedName
    split_ifs
    · rw [List.length_append, List.length_singleton]; omega
    · omega
  · obtain ⟨p, hp, e⟩ := List.mem_map.mp h2
    rcases max_choice 9 ((l.map (fun p => p.name.length)).foldr max 0) with e' | e'
    · exact .inl (by rw [e'])
    · exact .inr ⟨p, hp, by rw [e', e]⟩

example : nameWidth [(⟨c!"a", [], false, 1, 1, []⟩ : Par ℚ), ⟨c!"a_rather_long_name", [], false, 1, 1, []⟩] = .ok 19 := by decide +kernel

theorem ljust_length {w : Nat} {s : Str} (h : s.length ≤ w) : (ljust w s).length = w := by
  unfold ljust; rw [List.length_append, List.length_replicate]; omega

theorem header_col (j : Nat) (h : (strNat (j + 1)).length ≤ 2) :
    (ljust 15 (c!"lower" ++ strNat (j + 1)) ++ ljust 15 (c!"upper" ++ strNat (j + 1)) ++ ljust 7 (c!"limit" ++ strNat (j + 1))).length = 37 := by
  rw [List.length_append, List.length_append, ljust_length, ljust_length, ljust_length] <;> simp <;> omega

theorem flatMap_const_drop {β : Type} (f : Nat → List β) (c n : Nat) (h : ∀ j < n, (f j).length = c) (j : Nat) (hj : j < n) :
    (((List.range n).flatMap f).drop (c * j)).take c = f j := by
  induction n with
  | zero => omega
  | succ n ih =>
    rw [List.range_succ, List.flatMap_append]
    simp only [List.flatMap_cons, List.flatMap_nil, List.append_nil]
    have hlen : ∀ m, m ≤ n → ((List.range m).flatMap f).length = c * m := by
      intro m hm
      induction m with
      | zero => simp
      | succ m ihm =>
        rw [List.range_succ, List.flatMap_append, List.length_append, ihm (by omega)]
        simp only [List.flatMap_cons, List.flatMap_nil, List.append_nil]
        rw [h m (by omega)]; ring
    rcases Nat.lt_succ_iff_lt_or_eq.mp hj with hj' | rfl
    · have h1 : c * j + c ≤ c * n := by
        calc c * j + c = c * (j + 1) := by ring
          _ ≤ c * n := Nat.mul_le_mul_left _ (by omega)
      rw [List.drop_append_of_le_length (by rw [hlen n le_rfl]; omega), List.take_append_of_le_length (by rw [List.length_drop, hlen n le_rfl]; omega)]
      exact ih (fun j hj => h j (by omega)) hj'
    · rw [List.drop_append, hlen j le_rfl, Nat.sub_self, List.drop_of_length_le (by rw [hlen j le_rfl]), List.nil_append, List.drop_zero]
      exact List.take_of_length_le (by rw [h j (by omega)])

/-- **C49** The header names the columns where the values are: 15 characters each for mean and standard deviation after the name (two characters
later than the values, which are set right), then 15, 15 and 7 for each limit, numbered from one. -/
theorem header_spec (n w : Nat) (hw : 9 ≤ w) (hn : ∀ j < n, (strNat (j + 1)).length ≤ 2) :
    (headerLine n w).take 9 = c!"parameter" ∧ ((headerLine n w).drop (w + 2)).take 30 = c!"mean           sddev          " ∧
    ∀ j < n, ((headerLine n w).drop (w + 32 + 37 * j)).take 37 =
      ljust 15 (c!"lower" ++ strNat (j + 1)) ++ ljust 15 (c!"upper" ++ strNat (j + 1)) ++ ljust 7 (c!"limit" ++ strNat (j + 1)) := by
  have e1 : ljust 15 c!"mean" ++ ljust 15 c!"sddev" = c!"mean           sddev          " := by decide +kernel
  have e2 : (ljust w c!"parameter" ++ c!"  ").length = w + 2 := by
    rw [List.length_append, ljust_length (by simpa using hw)]; rfl
  have e3 : headerLine n w = (ljust w c!"parameter" ++ c!"  ") ++ (c!"mean           sddev          " ++ (List.range n).flatMap (fun j =>
      ljust 15 (c!"lower" ++ strNat (j + 1)) ++ ljust 15 (c!"upper" ++ strNat (j + 1)) ++ ljust 7 (c!"limit" ++ strNat (j + 1)))) := by
    unfold headerLine
    rw [← e1]
    simp only [List.append_assoc]
  refine ⟨?_, ?_, ?_⟩
  · rw [e3, List.append_assoc]
    unfold ljust
    rw [List.append_assoc]
    exact List.take_left' rfl
  · rw [e3, List.drop_left' e2]
    exact List.take_left' (by decide)
  · intro j hj
    rw [e3, show w + 32 + 37 * j = (w + 2) + (30 + 37 * j) by ring, ← List.drop_drop, List.drop_left' e2, ← List.drop_drop,
      List.drop_left' (by decide)]
    exact flatMap_const_drop _ 37 n (fun j hj => header_col j (hn j hj)) j hj

example : headerLine 2 10 =
    c!"parameter   mean           sddev          lower1         upper1         limit1 lower2         upper2         limit2 " := by decide +kernel

end Verif.MargeStats

/-! ## Age and kind of the files copied (C50) -/
namespace Verif.GridFiles
open Verif.Py
open Verif.ParamNames (fnmatchcase)
variable {K : Type} [Field K] [LinearOrder K] [IsStrictOrderedRing K] [FloorRing K]

theorem fresh_iff {a : Args K} {t : Int} (h : a.maxAge = some t) (fs : FS) (path : Str) :
    fresh a fs path = true ↔ ∃ f, fs.get? path = some f ∧ t < f.mtime := by
  unfold fresh
  rw [h]
  dsimp only
  cases e : fs.get? path with
  | none => simp
  | some f => simp

/-- **C50** With a maximal age every file written is from a newer file, except that for chains only the first chain file need be newer. -/
theorem age_spec {a : Args K} {t : Int} (h : a.maxAge = some t) (fs : FS) (j : JobD) :
    ∀ w ∈ copyJob a fs j,
      (∃ f, fs.get? (j.chainPath ++ (j.name ++ c!"_1.txt")) = some f ∧ t < f.mtime) ∨
      (∃ g f, fs.get? (j.chainPath ++ g) = some f ∧ t < f.mtime ∧ w.1 = j.relativePath ++ g) ∨
      (∃ g f, fs.get? (j.distPath ++ g) = some f ∧ t < f.mtime ∧ w.1 = j.relativePath ++ c!"dist/" ++ g) := by
  have hchain : copiesChains a fs j = true → ∃ f, fs.get? (j.chainPath ++ (j.name ++ c!"_1.txt")) = some f ∧ t < f.mtime := by
    intro hc
    unfold copiesChains at hc
    simp only [Bool.and_eq_true] at hc
    have e : chainFile j.name 1 = j.name ++ c!"_1.txt" := by
      unfold chainFile
      rw [List.append_assoc, List.append_assoc]
      have : strNat 1 = c!"1" := by decide +kernel
      rw [this]; rfl
    rw [e] at hc
    exact (fresh_iff h fs _).mp hc.2
  intro w hw
  rw [copyJob_eq] at hw
  simp only [List.mem_append] at hw
  rcases hw with ((hw | hw) | hw) | hw
  · left
    unfold chainWrites at hw
    split_ifs at hw with hc
    · exact hchain hc
    · simp at hw
  · left
    unfold propWrites writesProps at hw
    split_ifs at hw with hc
    · simp only [Bool.and_eq_true] at hc
      exact hchain hc.1.1.1
    · simp at hw
  · right; left
    obtain ⟨g, hg, hw⟩ := List.mem_flatMap.mp hw
    rw [List.mem_filter] at hg
    simp only [Bool.and_eq_true] at hg
    obtain ⟨f, h1, h2⟩ := (fresh_iff h fs _).mp hg.2.2
    exact ⟨g, f, h1, h2, doCopy_key _ _ _ _ _ _ w hw⟩
  · right; right
    unfold distWrites at hw
    split_ifs at hw
    · obtain ⟨g, hg, hw⟩ := List.mem_flatMap.mp hw
      rw [List.mem_filter] at hg
      simp only [Bool.and_eq_true] at hg
      obtain ⟨f, h1, h2⟩ := (fresh_iff h fs _).mp hg.2.2
      exact ⟨g, f, h1, h2, doCopy_key _ _ _ _ _ _ w hw⟩
    · simp at hw

/-- **C50** and a newer first chain is enough -/
theorem age_chains {a : Args K} {t : Int} (h : a.maxAge = some t) (fs : FS) (j : JobD) (hc : a.chains = true) (he : chainExists fs j = true)
    (hf : ∃ f, fs.get? (j.chainPath ++ (j.name ++ c!"_1.txt")) = some f ∧ t < f.mtime) : copiesChains a fs j = true := by
  have e : chainFile j.name 1 = j.name ++ c!"_1.txt" := by
    unfold chainFile
    rw [List.append_assoc, List.append_assoc]
    have : strNat 1 = c!"1" := by decide +kernel
    rw [this]; rfl
  unfold copiesChains
  rw [hc, he, e, (fresh_iff h fs _).mpr hf]
  rfl

theorem match_self {p : Str} (h : Plain p) : fnmatchcase p p = true := by
  rw [Verif.ParamNames.fnmatchcase_iff _ _ (plain_no_bracket h)]
  have := (glob_plain p [] p h).mpr ⟨[], by simp, (glob_nil _).mpr rfl⟩
  rwa [List.append_nil] at this

/-- **C50** Unless asked for otherwise, data, checkpoint, log and cached files of a run are not copied. -/
theorem skips_spec {a : Args K} (ha : a.skips = ({} : Args K).skips) (fs : FS) (j : JobD) (hn : Plain j.name) :
    ∀ e ∈ [c!".data", c!".chk", c!".chk_tmp", c!".log", c!".corr", c!".py", c!".m", c!".py_mcsamples", c!".pysamples"],
      ∀ w ∈ infoWrites a fs j, w.1 ≠ j.relativePath ++ (j.name ++ e) := by
  intro e he w hw hk
  obtain ⟨f, _, hm, _, _, hkey⟩ := info_key a fs j w hw
  rw [hk] at hkey
  have hf := (List.append_cancel_left hkey).symm
  subst hf
  have := ((fileMatches_iff a.skips _ _ _).mp hm).2 e (by rw [ha]; exact he)
  have hp : Plain (j.name ++ e) := plain_append hn (by
    simp only [List.mem_cons, List.not_mem_nil, or_false] at he
    rcases he with rfl | rfl | rfl | rfl | rfl | rfl | rfl | rfl | rfl <;> decide)
  rw [match_self hp] at this
  cases this

end Verif.GridFiles

/-! ## Correlation lengths for kernel density estimates (C84) -/
namespace Verif.AutoCorr
open Verif.Py (NErr)
variable {K : Type} [Field K] [LinearOrder K] [IsStrictOrderedRing K]

/-- **C84** The range is cut to the last of the values `maxK`, `maxK/3`, `maxK/9`, … reached with correlations below the threshold at every cut. -/
theorem shrink_spec (corr : Nat → K) (threshold : K) : ∀ (fuel maxK : Nat), maxK ≤ fuel →
    ∃ i, shrink corr threshold fuel maxK = maxK / 3 ^ i ∧ (∀ m < i, 10 < maxK / 3 ^ m ∧ corr (maxK / 3 ^ (m + 1)) < threshold) ∧
      (maxK / 3 ^ i ≤ 10 ∨ threshold ≤ corr (maxK / 3 ^ (i + 1)))
  | 0, maxK, h => ⟨0, by simp [shrink], by simp, .inl (by simp; omega)⟩
  | fuel + 1, maxK, h => by
    unfold shrink
    by_cases h1 : maxK > 10
    · rw [if_pos h1]
      by_cases h2 : corr (maxK / 3) ≥ threshold
      · rw [if_pos h2]
        exact ⟨0, by simp, by simp, .inr (by simpa using h2)⟩
      · rw [if_neg h2]
        obtain ⟨i, e, hm, hl⟩ := shrink_spec corr threshold fuel (maxK / 3) (by omega)
        have hp : ∀ k, maxK / 3 / 3 ^ k = maxK / 3 ^ (k + 1) := fun k => by rw [Nat.div_div_eq_div_mul, pow_succ, mul_comm]
        refine ⟨i + 1, by rw [e, hp], ?_, ?_⟩
        · intro m hmi
          cases m with
          | zero => simpa using ⟨h1, not_le.mp h2⟩
          | succ m =>
            have := hm m (by omega)
            rw [hp, hp] at this
            exact this
        · rw [hp, hp] at hl
          exact hl
    · rw [if_neg h1]
      exact ⟨0, by simp, by simp, .inl (by simpa using h1)⟩

example : shrink (fun k => if k ≤ 7 then (1 : ℚ) else 0) (1 / 2) 200 200 = 22 := by decide +kernel

/-- **C84** The range if none is given is one and a half of the correlation length and four more, rounded down. -/
theorem kdeRange_spec [FloorRing K] {length : K} (h : 0 ≤ length) : (kdeRange length : K) ≤ 3 / 2 * length + 4 ∧ 3 / 2 * length + 3 < kdeRange length := by
  have h0 : 0 ≤ ⌊length * (3 / 2)⌋ := Int.floor_nonneg.mpr (by positivity)
  have e : ((⌊length * (3 / 2)⌋.toNat : Nat) : K) = ((⌊length * (3 / 2)⌋ : Int) : K) := by rw [← Int.cast_natCast, Int.toNat_of_nonneg h0]
  unfold kdeRange
  push_cast
  rw [e]
  have h1 := Int.floor_le (length * (3 / 2))
  have h2 := Int.lt_floor_add_one (length * (3 / 2))
  constructor <;> linarith

example : kdeRange (7 / 2 : ℚ) = 9 := by decide +kernel

/-- **C84** The form is that of the inverse covariance: if the covariance takes `(u, v)` to `(a, b)` it is `(u a + v b) / h^2`. -/
theorem form2D_spec {c11 c12 c22 h u v : K} (hd : c11 * c22 - c12 ^ 2 ≠ 0) :
    form2D (c11, c12, c22) h (c11 * u + c12 * v) (c12 * u + c22 * v) = (u * (c11 * u + c12 * v) + v * (c12 * u + c22 * v)) / h ^ 2 := by
  unfold form2D
  dsimp only
  congr 1
  rw [div_eq_iff hd]
  ring

example : form2D ((2 : ℚ), 1, 3) 2 (2 * 1 + 1 * 4) (1 * 1 + 3 * 4) = (1 * (2 * 1 + 1 * 4) + 4 * (1 * 1 + 3 * 4)) / 2 ^ 2 := by decide +kernel

theorem at_const (n : Nat) (c : K) (i : Nat) (h : i < n) : at' (List.replicate n c) i = c := by
  unfold at'
  simp [h]

/-- **C84** For a second parameter that is constant, the correlations are those in one dimension. -/
theorem lagSum2D_one (ker : K → K) (w d1 : List K) (c : K) {v v2 h : K} (hv : v ≠ 0) (hv2 : v2 ≠ 0) (k : Nat) :
    lagSum2D ker w d1 (List.replicate w.length c) (form2D (v, 0, v2) h) k = lagSum ker w d1 (v * h ^ 2) k := by
  unfold lagSum2D lagSum
  congr 1
  refine List.map_congr_left (fun i hi => ?_)
  rw [List.mem_range] at hi
  rw [at_const _ _ _ (by omega), at_const _ _ _ (by omega)]
  have : form2D (v, 0, v2) h (at' d1 i - at' d1 (i + k)) (c - c) = (at' d1 i - at' d1 (i + k)) ^ 2 / (v * h ^ 2) := by
    unfold form2D
    dsimp only
    rw [sub_self, div_mul_eq_div_div]
    congr 1
    rw [div_eq_div_iff (by simpa using ⟨hv, hv2⟩) hv]
    ring
  rw [this]

example : lagSum2D (fun x : ℚ => 1 - x) [1, 2, 1] [0, 1, 3] [5, 5, 5] (form2D (2, 0, 7) 1) 1 = lagSum (fun x : ℚ => 1 - x) [1, 2, 1] [0, 1, 3] (2 * 1 ^ 2) 1 := by decide +kernel

/-- **C84** Exchanging the parameters changes nothing. -/
theorem lagSum2D_swap (ker : K → K) (w d1 d2 : List K) (c11 c12 c22 h : K) (k : Nat) :
    lagSum2D ker w d2 d1 (form2D (c22, c12, c11) h) k = lagSum2D ker w d1 d2 (form2D (c11, c12, c22) h) k := by
  unfold lagSum2D
  congr 1
  refine List.map_congr_left (fun i _ => ?_)
  have : ∀ a b : K, form2D (c22, c12, c11) h b a = form2D (c11, c12, c22) h a b := by
    intro a b
    unfold form2D
    dsimp only
    congr 2 <;> ring
  rw [this]

/-- **C84** The number of effective samples in two dimensions does not depend on the order of the parameters. -/
theorem effKDE2D_swap (ker : K → K) (s : WS K) (d1 d2 : List K) (c11 c12 c22 h : K) (maxoff : Nat) (mc : K) :
    effKDE2D ker s d2 d1 (c22, c12, c11) h maxoff mc = effKDE2D ker s d1 d2 (c11, c12, c22) h maxoff mc := by
  have : lagSum2D ker s.weights d2 d1 (form2D (c22, c12, c11) h) = lagSum2D ker s.weights d1 d2 (form2D (c11, c12, c22) h) :=
    funext (fun k => lagSum2D_swap ker s.weights d1 d2 c11 c12 c22 h k)
  unfold effKDE2D
  rw [this]

/-- **C84** nor on their units -/
theorem effKDE2D_units (ker : K → K) (s : WS K) (d1 d2 : List K) (c11 c12 c22 h : K) (maxoff : Nat) (mc : K) {p q : K} (hp : p ≠ 0) (hq : q ≠ 0) :
    effKDE2D ker s (d1.map (p * ·)) (d2.map (q * ·)) (p ^ 2 * c11, p * q * c12, q ^ 2 * c22) h maxoff mc =
      effKDE2D ker s d1 d2 (c11, c12, c22) h maxoff mc := by
  have hat : ∀ (d : List K) (r : K) (i : Nat), at' (d.map (r * ·)) i = r * at' d i := by
    intro d r i
    unfold at'
    rw [List.getD_eq_getElem?_getD, List.getD_eq_getElem?_getD, List.getElem?_map]
    cases d[i]? <;> simp
  have hf : ∀ a b : K, form2D (p ^ 2 * c11, p * q * c12, q ^ 2 * c22) h (p * a) (q * b) = form2D (c11, c12, c22) h a b := by
    intro a b
    unfold form2D
    dsimp only
    congr 1
    have e1 : q ^ 2 * c22 * (p * a) ^ 2 - 2 * (p * q * c12) * (p * a) * (q * b) + p ^ 2 * c11 * (q * b) ^ 2 =
        (p * q) ^ 2 * (c22 * a ^ 2 - 2 * c12 * a * b + c11 * b ^ 2) := by ring
    have e2 : p ^ 2 * c11 * (q ^ 2 * c22) - (p * q * c12) ^ 2 = (p * q) ^ 2 * (c11 * c22 - c12 ^ 2) := by ring
    rw [e1, e2, mul_div_mul_left]
    exact pow_ne_zero _ (mul_ne_zero hp hq)
  have : lagSum2D ker s.weights (d1.map (p * ·)) (d2.map (q * ·)) (form2D (p ^ 2 * c11, p * q * c12, q ^ 2 * c22) h) =
      lagSum2D ker s.weights d1 d2 (form2D (c11, c12, c22) h) := by
    funext k
    unfold lagSum2D
    congr 1
    refine List.map_congr_left (fun i _ => ?_)
    rw [hat, hat, hat, hat, ← mul_sub, ← mul_sub, hf]
  unfold effKDE2D
  rw [this]

end Verif.AutoCorr
