import Verif.Model.PlanckStyle
import Mathlib.Tactic.Ring
import Mathlib.Tactic.Linarith
import Mathlib.Algebra.Order.Field.Basic

/-!
# Properties of the Planck plot and table style (`Verif/Model/PlanckStyle.lean`)
-/

set_option linter.unusedSectionVars false

namespace Verif.PlanckStyle
open Verif.Py
open Verif.Table (times)
open Verif.TexTable (texEscape)

/-! ## Bands -/

section bands
variable {K : Type} [Field K] [LinearOrder K] [IsStrictOrderedRing K]

/-- a band lies inside another -/
def Inside (a b : Band K) : Prop := List.Forall₂ (fun x y => y ≤ x) a.lower b.lower ∧ List.Forall₂ (fun x y => x ≤ y) a.upper b.upper

theorem band_inside {k j : K} (hk : k ≤ j) (a b : K) : ∀ (means errors : List K), (∀ e ∈ errors, 0 ≤ e) → Inside (band means errors k a) (band means errors j b)
  | [], _, _ => ⟨.nil, .nil⟩
  | _ :: _, [], _ => ⟨.nil, .nil⟩
  | m :: ms, e :: es, h => by
    obtain ⟨h1, h2⟩ := band_inside hk a b ms es (fun x hx => h x (List.mem_cons_of_mem _ hx))
    have he := mul_le_mul_of_nonneg_right hk (h e (by simp))
    exact ⟨.cons (by dsimp only; linarith) h1, .cons (by dsimp only; linarith) h2⟩

/-- **C219**: with opacities for them all, one to three bands are drawn, the widest first and each inside the one before; the last is that of one error,
and the opacity belongs to the number of errors -/
theorem plotBands_spec (means errors : List K) (h : ∀ e ∈ errors, 0 ≤ e) (nbands : Int) (a0 a1 a2 : K) (rest : List K) :
    ∃ bs, plotBands means errors nbands (a0 :: a1 :: a2 :: rest) = some bs ∧ bs.length = max 1 (min 3 nbands.toNat) ∧
      bs.Pairwise (fun x y => Inside y x) ∧
      bs = (([(3, a2), (2, a1), (1, a0)] : List (K × K)).drop (3 - bs.length)).map (fun p => band means errors p.1 p.2) := by
  have h32 := band_inside (K := K) (k := 2) (j := 3) (by norm_num) a1 a2 means errors h
  have h31 := band_inside (K := K) (k := 1) (j := 3) (by norm_num) a0 a2 means errors h
  have h21 := band_inside (K := K) (k := 1) (j := 2) (by norm_num) a0 a1 means errors h
  by_cases h2 : nbands > 2
  · refine ⟨[band means errors 3 a2, band means errors 2 a1, band means errors 1 a0], ?_, ?_, ?_, rfl⟩
    · unfold plotBands extra
      rw [if_pos h2, if_pos (show nbands > 1 by omega)]; rfl
    · have : 3 ≤ nbands.toNat := by omega
      rw [min_eq_left this]; rfl
    · exact List.pairwise_cons.mpr ⟨by simp [h32, h31], List.pairwise_cons.mpr ⟨by simp [h21], List.pairwise_singleton _ _⟩⟩
  · by_cases h1 : nbands > 1
    · refine ⟨[band means errors 2 a1, band means errors 1 a0], ?_, ?_, ?_, rfl⟩
      · unfold plotBands extra
        rw [if_neg h2, if_pos h1]; rfl
      · have : nbands.toNat = 2 := by omega
        rw [this]; rfl
      · exact List.pairwise_cons.mpr ⟨by simp [h21], List.pairwise_singleton _ _⟩
    · refine ⟨[band means errors 1 a0], ?_, ?_, List.pairwise_singleton _ _, rfl⟩
      · unfold plotBands extra
        rw [if_neg h2, if_neg h1]; rfl
      · have : nbands.toNat ≤ 1 := by omega
        rw [List.length_singleton]
        omega

/-- **C219**: the point of the means is in the middle of every band -/
theorem band_center (means errors : List K) (k a : K) : List.zipWith (· + ·) (band means errors k a).lower (band means errors k a).upper = List.zipWith (fun m _ => m + m) means errors := by
  unfold band
  induction means generalizing errors with
  | nil => rfl
  | cons m ms ih =>
    cases errors with
    | nil => rfl
    | cons e es =>
      have := ih es
      dsimp only at this
      simp only [List.zipWith_cons_cons, this]
      congr 1; ring

/-- **C219**: one number for the means is the same mean everywhere -/
theorem plotBandsScalar_spec (x : List K) (mean : K) (errors : List K) (nbands : Int) (alphas : List K) :
    plotBandsScalar x mean errors nbands alphas = plotBands (List.replicate x.length mean) errors nbands alphas := by
  unfold plotBandsScalar
  rw [List.map_const']

example : (plotBands [1, 2] [(1 : ℚ), 2] 2 [1 / 2, 1 / 10, 0]).map (fun l => l.map (fun b => (b.lower, b.upper, b.alpha))) =
    some [([-1, -2], [3, 6], 1 / 10), ([0, 0], [2, 4], 1 / 2)] := by decide +kernel

end bands

/-! ## Plotters -/

/-- **C219**: files go below the output directory if only a name is given; a path is used as it is -/
theorem exportDir_spec (base d : Str) (hb : Path.Plain base) (hd : d ≠ []) :
    exportDir base (some d) = some (if '/' ∈ d then d else base ++ '/' :: d) := by
  unfold exportDir
  dsimp only
  rw [if_neg hd]
  by_cases h : '/' ∈ d
  · rw [if_pos h, if_pos h]
  · rw [if_neg h, if_neg h, Path.join_plain hb (Path.not_abs_of_no_slash h)]

example : exportDir c!"/c/batch" (some c!"outputs") = some c!"/c/batch/outputs" ∧ exportDir c!"/c/batch" (some c!"/tmp/x") = some c!"/tmp/x" := by decide +kernel

/-- **C219**: a chain directory that is given is the one that is read; without one it is the root of the grid, or, when plot data are used, the directory of
plot data given or that of the grid -/
theorem plotterDir_spec (use : Bool) (rootdir : Str) (pd cd : Option Str) :
    (∀ d, cd = some d → d ≠ [] → plotterDir use rootdir pd cd = some d) ∧
    (cd = none → use = false → plotterDir use rootdir pd cd = some rootdir) ∧
    (cd = none → use = true → pd = none → plotterDir use rootdir pd cd = some (Path.join rootdir c!"plot_data")) ∧
    (∀ d, cd = none → use = true → pd = some d → d ≠ [] → plotterDir use rootdir pd cd = some d) := by
  refine ⟨?_, ?_, ?_, ?_⟩
  · rintro d rfl hd
    unfold plotterDir orDir
    rw [if_pos (.inl (by simpa using hd))]
    simp only [Option.getD_some, if_neg hd]
  · rintro rfl rfl
    unfold plotterDir orDir
    rw [if_pos (.inr rfl)]; rfl
  · rintro rfl rfl rfl
    unfold plotterDir orDir
    rw [if_neg (by simp), if_pos (.inr rfl)]; rfl
  · rintro d rfl rfl rfl hd
    unfold plotterDir orDir
    rw [if_neg (by simp), if_pos (.inr rfl)]
    simp only [Option.getD_some, if_neg hd]

example : plotterDir true c!"main" none none = some c!"main/plot_data" ∧ plotterDir true c!"main" (some c!"pd") none = some c!"pd" ∧ plotterDir true c!"main" (some c!"pd") (some c!"cd") = some c!"cd" := by decide +kernel

section sizes
variable {K : Type} [Field K] [LinearOrder K] [IsStrictOrderedRing K]

/-- number of calls for subplots -/
def subplots : List (Call K) → Nat
  | [] => 0
  | .subplot _ :: l => subplots l + 1
  | .single _ :: l => subplots l

/-- **C219**: the sizes after any calls: the bar of colours has grown by two for each call for subplots -/
theorem run_colorbar (l : List (Call K)) (s : Sizes K) : (run s l).colorbar = s.colorbar + 2 * subplots l := by
  induction l generalizing s with
  | nil => simp [run, subplots]
  | cons c l ih =>
    cases c with
    | subplot x =>
      rw [run, ih]
      simp only [subplotPlotter, setSubplot, subplots]
      push_cast; ring
    | single w =>
      rw [run, ih]
      simp only [singlePlotter, setSubplot, rcSizes, subplots]

theorem run_append (s : Sizes K) (a b : List (Call K)) : run s (a ++ b) = run (run s a) b := by
  induction a generalizing s with
  | nil => rfl
  | cons c a ih => cases c <;> exact ih _

/-- **C219**: a plotter for one plot has the sizes of the module's parameters whatever was asked for before, apart from the bar of colours -/
theorem single_sizes (l : List (Call K)) (s : Sizes K) (w : K) : run s (l ++ [.single w]) =
    { axes := 8, colorbar := s.colorbar + 2 * subplots l, legend := 8, label := 9, font := 8, subplot := w, ratio := none, width := some w } := by
  rw [run_append, ← run_colorbar]
  rfl

/-- **C219**: after calls for subplots alone the numbers at the axes have grown by two for each call and the legend is one larger than the labels -/
theorem subplots_sizes (sizes : List K) (s : Sizes K) : (run s (sizes.map Call.subplot)).axes = s.axes + 2 * sizes.length ∧
    (run s (sizes.map Call.subplot)).label = s.label ∧ (sizes ≠ [] → (run s (sizes.map Call.subplot)).legend = s.label + 1) ∧
    (∀ h : sizes ≠ [], (run s (sizes.map Call.subplot)).subplot = sizes.getLast h) := by
  induction sizes generalizing s with
  | nil => exact ⟨by simp [run], rfl, fun h => absurd rfl h, fun h => absurd rfl h⟩
  | cons x l ih =>
    obtain ⟨h1, h2, h3, h4⟩ := ih (subplotPlotter x s)
    rw [List.map_cons, run]
    refine ⟨?_, ?_, fun _ => ?_, fun _ => ?_⟩
    · rw [h1]; simp only [subplotPlotter, setSubplot, List.length_cons]; push_cast; ring
    · rw [h2]; rfl
    · cases l with
      | nil => rfl
      | cons y l => rw [h3 (by simp)]; rfl
    · cases l with
      | nil => rfl
      | cons y l => rw [h4 (by simp)]; exact (List.getLast_cons (by simp)).symm

/-- **C219**: the width of the figure in inches: one column, one and a half, two columns, or the number of millimetres; the sizes of letters are those
asked for -/
theorem plotterWidth_spec (size : K) (a : RcArgs K) (s : Sizes K) : ∃ s', plotterWidth size none [] a s = .ok s' ∧
    s'.width = some ((if size = 1 then 88 else if size = 2 then 120 else if size = 3 then 180 else size) * inchMm) ∧ s'.subplot = 2 ∧
    (∀ x, a.axes = some x → x ≠ 0 → s'.axes = x) ∧ (∀ x, a.label = some x → x ≠ 0 → s'.label = x) ∧ (∀ x, a.legend = some x → x ≠ 0 → s'.legend = x) ∧
    (a.axes = none → s'.axes = 8) ∧ (a.label = none → s'.label = 9) ∧ (a.legend = none → s'.legend = 8) ∧ s'.colorbar = s.colorbar := by
  refine ⟨rcSizes a (setSubplot 2 { s with width := some (if size = 1 then 88 * inchMm else if size = 2 then 120 * inchMm else if size = 3 then 180 * inchMm else size * inchMm) }),
    by unfold plotterWidth; rw [if_neg (by simp)]; rfl, ?_, rfl, ?_, ?_, ?_, ?_, ?_, ?_, rfl⟩
  · simp only [rcSizes, setSubplot]
    by_cases h1 : size = 1
    · simp [h1]
    · by_cases h2 : size = 2
      · simp [h2]
      · by_cases h3 : size = 3
        · simp [h3]
        · simp [h1, h2, h3]
  all_goals first
    | (intro x hx h0; simp only [rcSizes, orSize, hx, if_neg h0])
    | (intro hx; simp only [rcSizes, orSize, hx])

end sizes

/-! ## Likelihoods -/

/-- **C219**: a file that exists under its name is used with its parameters as given; otherwise both are those of the installation, and a file that is not
there either is reported -/
theorem getLikelihood_plik (code : Str) (exist : Str → Bool) (root file params : Str) (hf : file ≠ []) :
    (exist file = true → getLikelihood code exist root file params false = .plik file params) ∧
    (exist file = false → exist (installed code file) = true → getLikelihood code exist root file params false = .plik (installed code file) (installed code params)) ∧
    (∀ u, exist file = false → exist (installed code file) = false → getLikelihood code exist root file params u = .notFound (installed code file)) := by
  refine ⟨?_, ?_, ?_⟩
  · intro h
    unfold getLikelihood
    simp [hf, h]
  · intro h h2
    unfold getLikelihood
    simp [hf, h, h2]
  · intro u h h2
    unfold getLikelihood
    simp [hf, h, h2]

example : getLikelihood c!"/c/python" (fun s => s == c!"/c/python/../data/clik/x.clik") c!"/g/base" c!"%DATASETDIR%clik/x.clik" c!"%DATASETDIR%clik/x.paramnames" true =
    .plikBoth c!"/c/python/../data/clik/x.clik" c!"/c/python/../data/clik/x.paramnames" c!"/c/python/../data/clik/x_bin1.clik" := by decide +kernel

/-! ## Tables -/

/-- the columns that a cell covers -/
def span (cell : Str) : Nat :=
  if startsWith c!"\\multispan" cell then (intStr ((cell.drop 10).takeWhile (·.isDigit))).getD 0 else 1

/-- the columns that a row of cells covers -/
def width (row : Str) : Nat := ((splitChar '&' row).map span).sum

/-- the columns that a preamble has -/
def templates (s : Str) : Nat := s.count '#'

theorem splitChar_any (ch : Char) : ∀ (a b : Str), splitChar ch (a ++ ch :: b) = splitChar ch a ++ splitChar ch b
  | [], b => by simp [splitChar]
  | c :: a, b => by
    rw [List.cons_append]
    by_cases h : c == ch
    · conv => lhs; rw [splitChar, if_pos h]
      conv => rhs; rw [splitChar, if_pos h]
      rw [splitChar_any ch a b]; rfl
    · conv => lhs; rw [splitChar, if_neg h]
      conv => rhs; rw [splitChar, if_neg h]
      rw [splitChar_any ch a b]
      have hne : splitChar ch a ≠ [] := by
        cases a with
        | nil => simp [splitChar]
        | cons d a =>
          rw [splitChar]
          split
          · simp
          · split <;> simp
      cases hs : splitChar ch a with
      | nil => exact absurd hs hne
      | cons x xs => rfl

theorem splitChar_no {ch : Char} : ∀ {s : Str}, ch ∉ s → splitChar ch s = [s]
  | [], _ => rfl
  | c :: s, h => by
    rw [splitChar, if_neg (by intro hc; apply h; rw [beq_iff_eq] at hc; simp [hc]), splitChar_no (fun h' => h (by simp [h']))]

theorem width_amp (a b : Str) : width (a ++ '&' :: b) = width a + width b := by
  unfold width
  rw [splitChar_any, List.map_append, List.sum_append]

/-- the columns of a piece of a row, also at its end -/
def Has (c : Str) (w : Nat) : Prop := width c = w ∧ width (c ++ c!"\\cr") = w

theorem Has.amp {a b : Str} {v w : Nat} (ha : Has a v) (hb : Has b w) : Has (a ++ '&' :: b) (v + w) := by
  refine ⟨by rw [width_amp, ha.1, hb.1], ?_⟩
  rw [List.append_assoc, List.cons_append, width_amp, ha.1, hb.2]

theorem Has.cells {w : Nat} : ∀ (l : List Str), l ≠ [] → (∀ c ∈ l, Has c w) → Has (join c!"&" l) (w * l.length)
  | [], h, _ => absurd rfl h
  | [c], _, h => by simpa [Verif.Py.join] using h c (by simp)
  | c :: d :: l, _, h => by
    have := (h c (by simp)).amp (Has.cells (d :: l) (by simp) (fun x hx => h x (List.mem_cons_of_mem _ hx)))
    rw [Verif.Py.join]
    have e : c ++ c!"&" ++ Verif.Py.join c!"&" (d :: l) = c ++ '&' :: Verif.Py.join c!"&" (d :: l) := by rw [List.append_assoc]; rfl
    rw [e]
    have e2 : w + w * (d :: l).length = w * (c :: d :: l).length := by simp only [List.length_cons]; ring
    rw [← e2]; exact this

theorem Has.cells_sum : ∀ (l : List (Str × Nat)), l ≠ [] → (∀ c ∈ l, Has c.1 c.2) → Has (join c!"&" (l.map (·.1))) (l.map (·.2)).sum
  | [], h, _ => absurd rfl h
  | [c], _, h => by simpa [Verif.Py.join] using h c (by simp)
  | c :: d :: l, _, h => by
    have := (h c (by simp)).amp (Has.cells_sum (d :: l) (by simp) (fun x hx => h x (List.mem_cons_of_mem _ hx)))
    rw [List.map_cons, List.map_cons, Verif.Py.join]
    have e : c.1 ++ c!"&" ++ Verif.Py.join c!"&" (d.1 :: l.map (·.1)) = c.1 ++ '&' :: Verif.Py.join c!"&" ((d :: l).map (·.1)) := by rw [List.append_assoc]; rfl
    rw [e]
    exact this

/-- a text of one column: no ampersand, and it does not begin with a command for more columns -/
structure Cell (s : Str) : Prop where
  amp : '&' ∉ s
  one : startsWith c!"\\multispan" s = false
  last : startsWith c!"\\multispan" (s ++ c!"\\cr") = false

theorem Cell.has {s : Str} (h : Cell s) : Has s 1 := by
  constructor
  · unfold width
    rw [splitChar_no h.amp]
    rw [List.map_singleton, List.sum_singleton]
    unfold span
    rw [h.one]; rfl
  · unfold width
    rw [splitChar_no (by
      intro hm
      rcases List.mem_append.mp hm with hm | hm
      · exact h.amp hm
      · revert hm; decide)]
    rw [List.map_singleton, List.sum_singleton]
    unfold span
    rw [h.last]; rfl

theorem has_multi (n : Nat) (rest : Str) (h : '&' ∉ rest) (hd : ∀ c t, rest = c :: t → c.isDigit = false) (hr : rest ≠ []) : Has (c!"\\multispan" ++ strNat n ++ rest) n := by
  have key : ∀ rest : Str, '&' ∉ rest → (∀ c t, rest = c :: t → c.isDigit = false) → rest ≠ [] → width (c!"\\multispan" ++ strNat n ++ rest) = n := by
    intro rest h hd hr
    unfold width
    rw [splitChar_no (by
      intro hm
      rcases List.mem_append.mp hm with hm | hm
      · rcases List.mem_append.mp hm with hm | hm
        · revert hm; decide
        · have := strNat_isDigit hm; revert this; decide
      · exact h hm)]
    obtain ⟨c, t, rfl⟩ := List.exists_cons_of_ne_nil hr
    have h1 : startsWith c!"\\multispan" (c!"\\multispan" ++ strNat n ++ c :: t) = true := startsWith_iff.mpr ⟨strNat n ++ c :: t, by rw [List.append_assoc]⟩
    have h2 : (c!"\\multispan" ++ strNat n ++ c :: t).drop 10 = strNat n ++ c :: t := by rw [List.append_assoc]; rfl
    rw [List.map_singleton, List.sum_singleton]
    unfold span
    rw [if_pos h1, h2, Path.takeWhile_append_stop (fun x hx => strNat_isDigit hx) (hd c t rfl), intStr_strNat]
    rfl
  refine ⟨key rest h hd hr, ?_⟩
  rw [List.append_assoc]
  apply key
  · intro hm
    rcases List.mem_append.mp hm with hm | hm
    · exact h hm
    · revert hm; decide
  · intro c t e
    obtain ⟨c', t', rfl⟩ := List.exists_cons_of_ne_nil hr
    injection e with e1 _
    subst e1
    exact hd c' t' rfl
  · intro e
    exact hr (List.append_eq_nil_iff.mp e).1

theorem texEscape_amp {t : Str} (h : '&' ∉ t) : '&' ∉ texEscape t := by
  unfold texEscape replaceChar
  intro hm
  obtain ⟨c, hc, hm⟩ := List.mem_flatMap.mp hm
  split at hm
  · revert hm; decide
  · rw [List.mem_singleton] at hm; exact h (hm ▸ hc)

theorem has_titleSub (n : Nat) (t : Str) (h : '&' ∉ t) : Has (titleSub n t) n := by
  have e : titleSub n t = c!"\\multispan" ++ strNat n ++ (c!"\\hfil " ++ texEscape t ++ c!"\\hfil") := by
    unfold titleSub; simp only [List.append_assoc]
  rw [e]
  apply has_multi
  · intro hm
    rcases List.mem_append.mp hm with hm | hm
    · rcases List.mem_append.mp hm with hm | hm
      · revert hm; decide
      · exact texEscape_amp h hm
    · revert hm; decide
  · intro c x hx
    rw [List.append_assoc] at hx
    injection hx with h1 _
    subst h1; decide
  · intro hx
    rw [List.append_assoc] at hx
    cases hx

theorem times_zero (s : Str) : times s 0 = [] := rfl
theorem times_succ (s : Str) (n : Nat) : times s (n + 1) = s ++ times s n := by
  unfold times; rw [List.replicate_succ, List.flatten_cons]

theorem count_times (ch : Char) (s : Str) (n : Nat) : (times s n).count ch = n * s.count ch := by
  induction n with
  | zero => simp [times_zero]
  | succ n ih => rw [times_succ, List.count_append, ih]; ring

theorem wide_one : wideCols 1 = c!"\\hfil$#$\\hfil\\tabskip=0.5em&\n" := by decide +kernel
theorem wide_succ (n : Nat) : wideCols (n + 2) = c!"\\hfil$#$\\hfil\\tabskip=0.5em&\n" ++ c!"\\hfil$#$\\hfil\\tabskip=1.7em&\n" ++ wideCols (n + 1) := by
  conv_lhs => unfold wideCols
  rw [if_neg (Nat.succ_ne_zero n)]

theorem count_wide {ch : Char} {v w : Nat} (hv : (c!"\\hfil$#$\\hfil\\tabskip=0.5em&\n").count ch = v) (hw : (c!"\\hfil$#$\\hfil\\tabskip=1.7em&\n").count ch = w) :
    ∀ n, (wideCols (n + 1)).count ch = (n + 1) * v + n * w
  | 0 => by
    rw [wide_one, hv]; ring
  | n + 1 => by
    rw [wide_succ, List.count_append, List.count_append, count_wide hv hw n, hv, hw]; ring

/-- **C219**: the preamble has a column for the names and one for each value of each result -/
theorem startTable_templates (cpr nres : Nat) (h : 0 < cpr * nres) : templates (startTable cpr nres) = 1 + cpr * nres ∧ (startTable cpr nres).count '&' = cpr * nres := by
  have o1 : tableOpen.count '#' = 0 := by decide +kernel
  have o2 : tableOpen.count '&' = 0 := by decide +kernel
  have a1 : (c!"\n").count '#' = 0 := by decide
  have a2 : (c!"\n").count '&' = 0 := by decide
  have b1 : (c!"\\hbox to 0.9in{$#$\\leaderfil}\\tabskip=1.5em&").count '#' = 1 := by decide +kernel
  have b2 : (c!"\\hbox to 0.9in{$#$\\leaderfil}\\tabskip=1.5em&").count '&' = 1 := by decide +kernel
  have c1 : (c!"\\hfil$#$\\hfil\\tabskip=0pt\\cr").count '#' = 1 := by decide +kernel
  have c2 : (c!"\\hfil$#$\\hfil\\tabskip=0pt\\cr").count '&' = 0 := by decide +kernel
  have d1 : (c!"$#$\\hfil&").count '#' = 1 := by decide
  have d2 : (c!"$#$\\hfil&").count '&' = 1 := by decide
  have e1 : (c!"\\hfil$#$\\hfil\\tabskip=0.5em&\n").count '#' = 1 := by decide +kernel
  have e2 : (c!"\\hfil$#$\\hfil\\tabskip=0.5em&\n").count '&' = 1 := by decide +kernel
  have f1 : (c!"\\hfil$#$\\hfil\\tabskip=1.7em&\n").count '#' = 1 := by decide +kernel
  have f2 : (c!"\\hfil$#$\\hfil\\tabskip=1.7em&\n").count '&' = 1 := by decide +kernel
  unfold templates startTable
  by_cases hw : nres > 3 ∧ cpr = 2
  · obtain ⟨h3, rfl⟩ := hw
    obtain ⟨n, rfl⟩ : ∃ n, nres = n + 1 := ⟨nres - 1, by omega⟩
    rw [if_pos ⟨h3, rfl⟩]
    simp only [List.count_append, count_wide e1 f1, count_wide e2 f2, o1, o2, a1, a2, b1, b2, c1, c2]
    constructor <;> omega
  · rw [if_neg hw]
    simp only [List.count_append, count_times, o1, o2, a1, a2, b1, b2, c1, c2, d1, d2]
    generalize cpr * nres = m at h ⊢
    constructor <;> omega

/-- **C219**: the row of titles covers the columns of the preamble -/
theorem titleRow_width (cpr : Nat) (titles : List Str) (ht : ∀ t ∈ titles, '&' ∉ t) : width (titleRow 1 cpr titles) = 1 + cpr * titles.length := by
  unfold titleRow
  rw [List.replicate_one, List.flatten_singleton]
  have := Has.cells_sum ((titleSub 1 [], 1) :: titles.map (fun t => (titleSub cpr t, cpr))) (by simp) (by
    intro c hc
    rcases List.mem_cons.mp hc with rfl | hc
    · exact has_titleSub 1 [] (by simp)
    · obtain ⟨t, h, rfl⟩ := List.mem_map.mp hc
      exact has_titleSub cpr t (ht t h))
  simp only [List.map_cons, List.map_map, List.sum_cons] at this
  have e1 : ((fun x : Str × Nat => x.1) ∘ fun t => (titleSub cpr t, cpr)) = titleSub cpr := rfl
  have e2 : ∀ l : List Str, (l.map ((fun x : Str × Nat => x.2) ∘ fun t => (titleSub cpr t, cpr))).sum = cpr * l.length := by
    intro l
    induction l with
    | nil => rfl
    | cons t ts ih =>
      rw [List.map_cons, List.sum_cons, ih, List.length_cons]
      simp only [Function.comp]; ring
  rw [e1, e2] at this
  exact this.2

/-- **C219**: the rules below the titles cover the same columns, and there are none for results with one column -/
theorem belowTitle_width (cpr nres : Nat) : (cpr ≤ 1 → belowTitle cpr nres = c!"\\noalign{\\vskip -3pt}") ∧
    (1 < cpr → ∃ rule, belowTitle cpr nres = c!"\\noalign{\\vskip -3pt}\n" ++ rule ∧ width rule = 1 + cpr * nres) := by
  constructor
  · intro h
    unfold belowTitle
    rw [if_neg (by omega), List.append_nil]
  · intro h
    refine ⟨c!"\\omit" ++ times (c!"&\\multispan" ++ strNat cpr ++ c!"\\hrulefill") nres ++ c!"\\cr", ?_, ?_⟩
    · unfold belowTitle
      rw [if_pos h]
      simp only [List.append_assoc]
      rfl
    · have hc : Cell c!"\\omit" := ⟨by decide, by decide, by decide⟩
      have key : ∀ n (s : Str) (w : Nat), Has s w → Has (s ++ times (c!"&\\multispan" ++ strNat cpr ++ c!"\\hrulefill") n) (w + cpr * n) := by
        intro n
        induction n with
        | zero => intro s w hs; rw [times_zero, List.append_nil]; exact hs
        | succ n ih =>
          intro s w hs
          have hm := has_multi cpr c!"\\hrulefill" (by decide) (by intro c t e; injection e with e _; subst e; decide) (by decide)
          have := ih _ _ (hs.amp hm)
          have e : s ++ times (c!"&\\multispan" ++ strNat cpr ++ c!"\\hrulefill") (n + 1) =
              s ++ '&' :: (c!"\\multispan" ++ strNat cpr ++ c!"\\hrulefill") ++ times (c!"&\\multispan" ++ strNat cpr ++ c!"\\hrulefill") n := by
            rw [times_succ, ← List.append_assoc s]; rfl
          rw [e, show w + cpr * (n + 1) = w + cpr + cpr * n by ring]
          exact this
      exact (key nres c!"\\omit" 1 hc.has).2

/-- **C219**: the header has a cell for each column -/
theorem headerRow_width (labels : List Str) (hl : ∀ l ∈ labels, '&' ∉ l) : width (headerRow 1 labels) = 1 + labels.length := by
  unfold headerRow
  rw [List.replicate_one, List.flatten_singleton]
  have := Has.cells (w := 1) ((c!"Parameter" :: labels).map (fun s => c!"\\omit\\hfil " ++ s ++ c!"\\hfil")) (by simp) (by
    intro c hc
    obtain ⟨t, ht, rfl⟩ := List.mem_map.mp hc
    have hta : '&' ∉ t := by
      rcases List.mem_cons.mp ht with rfl | ht
      · decide
      · exact hl t ht
    apply Cell.has
    refine ⟨?_, ?_, ?_⟩
    · intro hm
      rcases List.mem_append.mp hm with hm | hm
      · rcases List.mem_append.mp hm with hm | hm
        · revert hm; decide
        · exact hta hm
      · revert hm; decide
    · rw [List.append_assoc]; rfl
    · rw [List.append_assoc, List.append_assoc]; rfl)
  rw [this.2]
  simp; omega

example : width (headerRow 1 [c!"Best fit", c!"68\\% limits"]) = 3 := by decide +kernel

/-- values of a result that fill its columns: as many as it has, or none at all for one column -/
def Filled (cpr : Nat) (r : Option (List Str)) : Prop := (∃ l, r = some l ∧ l.length = cpr ∧ (cpr = 1 ∨ cpr = 2) ∧ ∀ v ∈ l, Cell v) ∨ (r = none ∧ cpr = 1)

theorem has_result {cpr : Nat} {r : Option (List Str)} (h : Filled cpr r) : Has (resultTex r cpr) cpr := by
  rcases h with ⟨l, rfl, hl, h12, hc⟩ | ⟨rfl, rfl⟩
  · match l, hl, hc with
    | [], hl, _ => simp at hl; omega
    | [v], hl, hc =>
      rw [← hl]
      exact (hc v (by simp)).has
    | [v, b], hl, hc =>
      rw [← hl]
      have := (hc b (by simp)).has.amp (hc v (by simp)).has
      have e : resultTex (some [v, b]) [v, b].length = b ++ '&' :: v := by
        unfold resultTex textAsColumn
        simp only [if_true, Bool.false_eq_true, if_false, List.append_assoc]; rfl
      rw [e]; exact this
    | _ :: _ :: _ :: _, hl, _ => simp at hl; omega
  · exact (⟨by decide, by decide, by decide⟩ : Cell []).has

theorem has_param {cpr : Nat} {label : Str} {results : List (Option (List Str))} (hl : Cell label) (hr : results ≠ []) (h : ∀ r ∈ results, Filled cpr r) :
    Has (paramTex cpr label results) (1 + cpr * results.length) := by
  have := hl.has.amp (Has.cells (results.map (fun r => resultTex r cpr)) (by simpa using hr) (by
    intro c hc
    obtain ⟨r, hr, rfl⟩ := List.mem_map.mp hc
    exact has_result (h r hr)))
  rw [List.length_map] at this
  have e : paramTex cpr label results = label ++ '&' :: join c!"&" (results.map (fun r => resultTex r cpr)) := by
    unfold paramTex textAsColumn
    rw [if_pos rfl, List.append_assoc]; rfl
  rw [e]; exact this

/-- **C219**: in a table with one column of parameters, every row of a parameter has a cell for each column of the preamble -/
theorem row_width (cpr : Nat) (label : Str) (results : List (Option (List Str))) (hl : Cell label) (hr : results ≠ []) (h : ∀ r ∈ results, Filled cpr r) :
    width (fullRow 1 cpr [(label, results)]) = 1 + cpr * results.length ∧ width (fullRow 1 cpr [(label, results)]) = templates (startTable cpr results.length) := by
  have h1 : width (fullRow 1 cpr [(label, results)]) = 1 + cpr * results.length := by
    have e : fullRow 1 cpr [(label, results)] = paramTex cpr label results ++ c!"\\cr" := by
      unfold fullRow
      rw [if_pos (show 1 = [(label, results)].length from rfl), List.append_nil]; rfl
    rw [e]
    exact (has_param hl hr h).2
  refine ⟨h1, ?_⟩
  rw [h1, (startTable_templates cpr results.length _).1]
  obtain ⟨r, hr'⟩ := List.exists_mem_of_ne_nil _ hr
  have hc : 0 < cpr := by
    rcases h r hr' with ⟨l, _, _, h12, _⟩ | ⟨_, rfl⟩
    · rcases h12 with rfl | rfl <;> omega
    · omega
  exact Nat.mul_pos hc (List.length_pos_of_ne_nil hr)

example : width (fullRow 1 2 [(c!"H_0", [some [c!"67\\pm 1", c!"67.3"], some [c!"68\\pm 2", c!"68.1"]])]) = 5 := by decide +kernel

example : fullRow 1 2 [(c!"H_0", [some [c!"67\\pm 1", c!"67.3"], some [c!"68\\pm 2", c!"68.1"]])] = c!"H_0&67.3&67\\pm 1&68.1&68\\pm 2\\cr" := by decide +kernel
example : belowTitle 2 2 = c!"\\noalign{\\vskip -3pt}\n\\omit&\\multispan2\\hrulefill&\\multispan2\\hrulefill\\cr" := by decide +kernel

/-! ## What does not hold -/

/-- the full statement: the dollars of a label come in pairs -/
def LabelsClosed : Prop := ∀ p ∈ datalabel ++ shortlabel, p.2.count '$' % 2 = 0

/-- **C220 fails**: the label of the TE data with low-l temperature has one dollar (planckStyle.py:57): LaTeX reads the rest of the text as a formula -/
theorem label_fails : ¬ LabelsClosed := by
  intro h
  have := h (c!"plikHM_TE_lowl_lowE", c!"\\textit{Planck} TE+$lowT,P") (List.mem_append_left _ (by decide +kernel))
  revert this
  decide +kernel

/-- all labels but this one -/
theorem labels_partial : ∀ p ∈ datalabel ++ shortlabel, p.1 ≠ c!"plikHM_TE_lowl_lowE" → p.2.count '$' % 2 = 0 := by decide +kernel

example : (c!"plikHM_TT_lowl_lowE", c!"\\textit{Planck} TT$+$lowE") ∈ datalabel ∧ (c!"\\textit{Planck} TT$+$lowE").count '$' = 2 := by decide +kernel

/-- the full statement: a directory of plot data that is given is used -/
def PlotDataUsed : Prop := ∀ (use : Bool) (rootdir d : Str), d ≠ [] → plotterDir use rootdir (some d) none = some d

/-- **C220 fails**: the argument `plot_data` has no effect unless plot data are used by default, which they are not (getdist/__init__.py:65): the plotter for it is replaced
by one for the grid (planckStyle.py:259-260) -/
theorem plot_data_fails : ¬ PlotDataUsed := by
  intro h
  have := h false c!"/grid" c!"/mydata" (by decide)
  revert this
  decide +kernel

/-- the full statement: the same call gives the same sizes -/
def SameSizes : Prop := ∀ (s : Sizes ℚ) (x : ℚ), run s [.subplot x, .subplot x] = run s [.subplot x]

/-- **C220 fails**: every call of `getSubplotPlotter` adds two points to the sizes of letters in the settings of the module (planckStyle.py:266-267), so that the second
plot of a script has larger letters than the first -/
theorem sizes_fails : ¬ SameSizes := by
  intro h
  have := congrArg Sizes.axes (h ⟨11, 11, 12, 14, 12, 2, none, none⟩ 2)
  simp only [run, subplotPlotter, setSubplot] at this
  norm_num at this

/-- the full statement: the size of subplots can be given -/
def SubplotSizeGiven : Prop := ∀ (x : ℚ) (s : Sizes ℚ), ∃ s', plotterWidth 1 (some x) [] ⟨none, none, none⟩ s = .ok s' ∧ s'.subplot = x

/-- **C220 fails**: `getPlotterWidth` looks for the argument `subplot_size` but also passes it to `rcSizes`, which does not know it (planckStyle.py:283-284): TypeError -/
theorem subplot_size_fails : ¬ SubplotSizeGiven := by
  intro h
  obtain ⟨s', h1, _⟩ := h 3 ⟨11, 11, 12, 14, 12, 2, none, none⟩
  unfold plotterWidth at h1
  rw [if_pos (.inl rfl)] at h1
  cases h1

/-- the full statement: the preamble has the columns of the rows for any number of columns of parameters -/
def ColumnsFit : Prop := ∀ ncol cpr nres : Nat, 0 < ncol → 0 < cpr → ∀ titles : List Str, titles.length = nres → (∀ t ∈ titles, '&' ∉ t) → titles ≠ [] →
  width (titleRow ncol cpr titles) = templates (startTable cpr nres)

/-- **C220 fails**: the preamble does not depend on the number of columns of parameters (planckStyle.py:362-373): with two, the rows have more cells than it has columns, and
TeX stops -/
theorem ncol_fails : ¬ ColumnsFit := by
  intro h
  have := h 2 1 1 (by decide) (by decide) [c!"A"] rfl (by decide) (by decide)
  rw [(startTable_templates 1 1 (by decide)).1] at this
  have e : width (titleRow 2 1 [c!"A"]) = 4 := by decide +kernel
  rw [e] at this
  exact absurd this (by decide)

/-- the full statement: whether only TT data are used is decided by the name of the chain -/
def ByName : Prop := ∀ (code : Str) (exist : Str → Bool) (dir name : Str), '/' ∉ name →
  getLikelihood code exist (dir ++ '/' :: name) [] [] false = .camspec (contains c!"_TT_" name)

/-- **C220 fails**: the text `_TT_` is looked for in the whole path (planckStyle.py:239): in a directory with it, the likelihood of every chain is that of TT alone -/
theorem byName_fails : ¬ ByName := by
  intro h
  have := h [] (fun _ => false) c!"/my_TT_grid" c!"base_CamSpecHM_TTTEEE" (by decide)
  revert this
  decide +kernel

/-- the full statement: as many bands as asked for -/
def BandsAskedFor : Prop := ∀ (means errors alphas : List ℚ) (n : Nat), n ≤ alphas.length → ∃ bs, plotBands means errors n alphas = some bs ∧ bs.length = n

/-- **C220 fails**: one band is drawn when none is asked for, and three for any larger number (planckStyle.py:151-153) -/
theorem bands_fails : ¬ BandsAskedFor := by
  intro h
  obtain ⟨bs, h1, h2⟩ := h [1] [1] [1 / 2] 0 (by decide)
  have : plotBands ([1] : List ℚ) [1] ((0 : Nat) : Int) [1 / 2] = some [band [1] [1] 1 (1 / 2)] := rfl
  rw [this] at h1
  injection h1 with h1
  rw [← h1] at h2
  exact absurd h2 (by decide)

end Verif.PlanckStyle
