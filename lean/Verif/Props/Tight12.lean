import Verif.Props.GridSetup
import Verif.Props.SubmitJob

/-!
# More on what single definitions do, IV

Found by changing definitions: these changes broke no theorem before.
-/

namespace Verif.GridSetup
open Verif.Py Verif.Batch

/-- the first occurrence of a text is where the string is cut -/
theorem cut_first {sub a b : Str} (h : ∀ a' b', a ++ sub ++ b = a' ++ sub ++ b' → a.length ≤ a'.length) : cut sub (a ++ sub ++ b) = some (a, b) := by
  cases hc : cut sub (a ++ sub ++ b) with
  | none =>
    exfalso
    have h1 := (cut_spec sub (a ++ sub ++ b)).2 hc
    have h2 : contains sub (a ++ sub ++ b) = true := contains_iff.mpr ⟨a, b, rfl⟩
    rw [h1] at h2; cases h2
  | some r =>
    obtain ⟨h1, h2⟩ := (cut_spec sub (a ++ sub ++ b)).1 r.1 r.2 hc
    have l1 := h2 a b rfl
    have l2 := h r.1 r.2 h1
    have hl : a.length = r.1.length := by omega
    rw [List.append_assoc, List.append_assoc] at h1
    obtain ⟨e1, e2⟩ := List.append_inj h1 hl
    have e3 := List.append_cancel_left e2
    rw [e1, e3]

/-- **C208** A pattern with two ends: what lies from the first `a` to the last `b` after it is replaced. -/
theorem subBetween_spec (a b rep x m y : Str) (hx : ∀ x' t, x ++ a ++ (m ++ b ++ y) = x' ++ a ++ t → x.length ≤ x'.length)
    (hy : ∀ m' y', m ++ b ++ y = m' ++ b ++ y' → y.length ≤ y'.length) : subBetween a b rep (x ++ a ++ (m ++ b ++ y)) = x ++ rep ++ y := by
  unfold subBetween
  rw [cut_first hx]
  dsimp only
  have e : (m ++ b ++ y).reverse = y.reverse ++ b.reverse ++ m.reverse := by simp
  rw [e, cut_first]
  · simp
  · intro a' b' hab
    have := congrArg List.reverse hab
    simp only [List.reverse_append, List.reverse_reverse] at this
    have := hy b'.reverse a'.reverse (by simpa using this)
    simpa using this

example : subBetween c!"_v" c!"_highL" c!"-" c!"base_v97_highL_x_highL_y" = c!"base-_y" := by decide

/-- **C208** `covRenamer` on the names of runs with a version and high multipoles -/
theorem renamer_version (x m y : Str) (hx : ∀ x' t, x ++ c!"_v" ++ (m ++ c!"_highL" ++ y) = x' ++ c!"_v" ++ t → x.length ≤ x'.length)
    (hy : ∀ m' y', m ++ c!"_highL" ++ y = m' ++ c!"_highL" ++ y' → y.length ≤ y'.length)
    (hn : contains c!"_CamSpec" (x ++ c!"_planck_lowl_lowLike_highL" ++ y) = false) :
    covRenamer (x ++ c!"_v" ++ (m ++ c!"_highL" ++ y)) = [x ++ c!"_planck_lowl_lowLike_highL" ++ y] := by
  have e1 := subBetween_spec c!"_v" c!"_highL" c!"_planck_lowl_lowLike_highL" x m y hx hy
  have e2 (t : Str) : subToEnd c!"_CamSpec" t (x ++ c!"_planck_lowl_lowLike_highL" ++ y) = x ++ c!"_planck_lowl_lowLike_highL" ++ y := by
    unfold subToEnd
    cases hc : cut c!"_CamSpec" (x ++ c!"_planck_lowl_lowLike_highL" ++ y) with
    | none => rfl
    | some r =>
      exfalso
      have := ((cut_spec _ _).1 r.1 r.2 hc).1
      have := contains_iff.mpr ⟨r.1, r.2, this⟩
      rw [hn] at this; cases this
  unfold covRenamer
  dsimp only
  rw [e1, e2, e2, ite_self, if_neg]
  intro e
  rw [List.append_assoc, List.append_assoc] at e
  have e' := List.append_cancel_left e
  have := congrArg (fun l : Str => l[1]?) e'
  change some 'p' = some 'v' at this
  exact absurd this (by decide)

example : covRenamer c!"base_omegak_v61N_highL_BAO" = [c!"base_omegak_planck_lowl_lowLike_highL_BAO"] := by decide

/-- **C208** `covRenamer` on the names of the CamSpec runs with an equation of state that changes: a matrix with BAO is used. -/
theorem renamer_wa (a b : Str) (h : contains c!"_v" (a ++ c!"_CamSpec" ++ b) = false) (hw : contains c!"wa_" (a ++ c!"_CamSpec" ++ b) = true)
    (hf : ∀ a' b', a ++ c!"_CamSpec" ++ b = a' ++ c!"_CamSpec" ++ b' → a.length ≤ a'.length) :
    covRenamer (a ++ c!"_CamSpec" ++ b) = [a ++ c!"_planck_lowl_lowLike_BAO"] := by
  have e1 : subBetween c!"_v" c!"_highL" c!"_planck_lowl_lowLike_highL" (a ++ c!"_CamSpec" ++ b) = a ++ c!"_CamSpec" ++ b := by
    unfold subBetween
    cases hc : cut c!"_v" (a ++ c!"_CamSpec" ++ b) with
    | none => rfl
    | some r =>
      exfalso
      have := ((cut_spec c!"_v" (a ++ c!"_CamSpec" ++ b)).1 r.1 r.2 hc).1
      have := contains_iff.mpr ⟨r.1, r.2, this⟩
      rw [h] at this; cases this
  have e2 : subToEnd c!"_CamSpec" c!"_planck_lowl_lowLike_BAO" (a ++ c!"_CamSpec" ++ b) = a ++ c!"_planck_lowl_lowLike_BAO" := by
    unfold subToEnd
    rw [cut_first hf]
  unfold covRenamer
  dsimp only
  rw [if_pos hw, e1, e2, if_neg]
  intro e
  rw [List.append_assoc] at e
  have e' := List.append_cancel_left e
  have := congrArg (fun l : Str => l[1]?) e'
  change some 'p' = some 'C' at this
  exact absurd this (by decide)

example : covRenamer c!"base_w_wa_CamSpecHM_TT" = [c!"base_w_wa_planck_lowl_lowLike_BAO"] := by decide

/-- **C208** With the default settings only the matrix of the run itself, or that of its name in normal order, is used. -/
theorem default_search (ex : Str → Bool) (base : Str) (j : Info) (f : Str) (h : (search ex base {} j).1 = some f) :
    f = inDir (Path.join base c!"planck_covmats") j.name ∨ f = inDir (Path.join base c!"planck_covmats") (normed j none) := by
  have e : firstCov ex base {} j = inDir (Path.join base c!"planck_covmats") j.name ∨ firstCov ex base {} j = inDir (Path.join base c!"planck_covmats") (normed j none) := by
    unfold firstCov orNamed orMapped
    dsimp only
    split
    · exact Or.inl rfl
    · right
      simp only [ite_self]
  unfold search at h
  dsimp only at h
  split at h
  · cases h
    exact e
  · exact absurd h (by simp [tries])

example : (search (fun f => f == c!"/code/planck_covmats/base_plik_BAO.covmat") c!"/code/" {} (mkItem c!"/grid/" [] (mkData [c!"plik", c!"BAO"] none) c!"base")).1 =
    some c!"/code/planck_covmats/base_plik_BAO.covmat" := by decide

/-- **C210** Which options a script has: those asked for, and no others. -/
theorem options_asked (o : Opts) :
    (c!"batchPath" ∈ attrs o [] ↔ o.noBatchPath = false) ∧ (c!"converge" ∈ attrs o [] ↔ o.converge = true) ∧
    (c!"notexist" ∈ attrs o [] ↔ o.notExist = true) ∧ (c!"notall" ∈ attrs o [] ↔ o.notall = true) ∧
    ∀ x ∈ [c!"plot_data", c!"paramNameFile", c!"param_list", c!"size_inch", c!"nx", c!"outputs"], (x ∈ attrs o [] ↔ o.plots = true) := by
  rcases o with ⟨a, b, c, d, e, f, g⟩
  revert a b c d e f g
  decide +kernel

/-- **C210** The options of a script that asks for nothing special. -/
theorem options_default : attrs {} [] = c!"batchPath" :: [c!"noimportance", c!"importance", c!"importancetag", c!"name", c!"param", c!"paramtag", c!"data", c!"datatag",
    c!"musthave_data", c!"skip_data", c!"skip_param", c!"group", c!"skip_group"] := by decide

example : c!"converge" ∈ attrs { converge := true } [] ∧ c!"converge" ∉ attrs { plots := true } [] := by decide

end Verif.GridSetup

namespace Verif.SubmitJob
open Verif.Py Verif.JobQueue

/-- **C212** What a template has for the number of runs, the limit of time and the program, with the default settings. -/
theorem default_values (t : Str) (res r : Res) (a : Args) (cwd : Str) (ps : List Str) :
    (build { template := t, res := res } r a cwd ps).1.get? c!"ONERUN" = some (if ps.length = 1 ∨ a.sequential = true then c!"1" else c!"0") ∧
    (build { template := t, res := res } r a cwd ps).1.get? c!"WALLTIME" = some c!"24:00:00" ∧
    (build { template := t, res := res } r a cwd ps).1.get? c!"PROGRAM" = some c!"./cosmomc" ∧
    (build { template := t, res := res } r a cwd ps).1.get? c!"MEM_MB" = some c!"63900" := by
  refine ⟨?_, ?_, ?_, ?_⟩ <;> rw [build_value _ _ _ _ _ _ (by decide)]
  · change some _ = some _
    congr 1
    by_cases h1 : ps.length = 1 <;> by_cases h2 : a.sequential = true <;> simp [h1, h2]
  · rfl
  · rfl
  · change some (intStr 63900) = some c!"63900"
    decide +kernel

example : ((build { template := [], res := ⟨4, 2, 2, 2, 1⟩ } ⟨4, 2, 2, 2, 1⟩ { name := c!"x", files := none } c!"/code" [c!"g/a", c!"g/b"]).1.get? c!"ONERUN") = some c!"0" := by decide +kernel

/-- **C212** With the default settings the script is given to `qsub`. -/
theorem default_queue (qsub : Str → Str → Option Str) (t : Str) (res r : Res) (a : Args) (cwd : Str) (w : World) (files : List Str) (hd : a.dryrun = false) (hs : a.noSub = false)
    (hf : a.files = some files) (hr : adjust res (files.map stripIni).length a.sequential = .ok r) (hw : w.sent = []) :
    ∃ script, (submit qsub { template := t, res := res } cwd w a).1.sent = [(c!"qsub ./scripts/" ++ a.name ++ c!"_subscript", script)] := by
  rw [List.length_map] at hr
  refine ⟨(build { template := t, res := res } r a cwd (files.map stripIni)).2, ?_⟩
  rw [submit_spec qsub { template := t, res := res } cwd w a files hd hf r hr]
  have hq (v : Dict Str Str) : replacePlaceholders c!"qsub" v = c!"qsub" := by
    unfold replacePlaceholders
    change v.foldl _ c!"qsub" = _
    induction v with
    | nil => rfl
    | cons e v ih =>
      rw [List.foldl_cons, replaceStr_none]
      · exact ih
      · rw [Bool.eq_false_iff]
        intro hc
        obtain ⟨x, y, hxy⟩ := contains_iff.mp hc
        have : '#' ∈ c!"qsub" := by rw [hxy]; simp [hole]
        exact absurd this (by decide)
  simp only [hs, Bool.false_eq_true, if_false, hq, hw, List.nil_append]
  split
  · rfl
  · rw [answered_sent]; rfl

example : (submit (fun _ _ => none) { template := c!"t", res := ⟨4, 2, 2, 2, 1⟩ } c!"/code" {} { name := c!"x", files := some [c!"g/a.ini"] }).1.sent =
    [(c!"qsub ./scripts/x_subscript", c!"t")] := by decide +kernel

end Verif.SubmitJob
