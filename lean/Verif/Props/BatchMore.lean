import Verif.Props.BatchTags
import Verif.Props.BatchItems
import Verif.Props.BatchArgs
import Verif.Props.ChainGrid

/-!
# More on data sets, importance runs and folder grids (C32–C36, C65, C66)
-/

namespace Verif.Batch
open Verif.Py Verif.IniFile Verif.JobQueue

/-! ## Settings of a data set -/

theorem updItems_files (path : Str) : ∀ (l : List Str) (ini : Ini),
    updItems path ini (l.map PItem.file) = .ok { ini with defaults := ini.defaults ++ l.map (path ++ ·) }
  | [], ini => by simp [updItems]
  | s :: l, ini => by
    rw [List.map_cons, updItems, updItem]
    simp only []
    rw [updItems_files path l]; simp

/-- **C37**: a data set given by names only reads one ini file per name, in order, and sets no option -/
theorem mkData_default (path : Str) (names : List Str) (ini : Ini) :
    updItems path ini (mkData names none).params =
      .ok { ini with defaults := ini.defaults ++ names.map (fun n => path ++ (n ++ c!".ini")) } := by
  have : (mkData names none).params = (names.map (· ++ c!".ini")).map PItem.file := by
    unfold mkData; rw [List.map_map]; rfl
  rw [this, updItems_files, List.map_map]; rfl

example : updItems c!"batch/" ⟨[], []⟩ (mkData [c!"plik", c!"lowl"] none).params =
    .ok ⟨[], [c!"batch/plik.ini", c!"batch/lowl.ini"]⟩ := by rw [mkData_default]; rfl

/-- **C37**: file names given for a data set get the extension unless they have it -/
theorem mkData_given (path : Str) (names files : List Str) (ini : Ini) :
    updItems path ini (mkData names (some (files.map .file))).params =
      .ok { ini with defaults := ini.defaults ++ files.map (fun f => path ++ (if contains c!".ini" f then f else f ++ c!".ini")) } := by
  have : (mkData names (some (files.map .file))).params =
      (files.map (fun f => if contains c!".ini" f then f else f ++ c!".ini")).map PItem.file := by
    simp only [mkData, standardizeParams, List.map_map]; rfl
  rw [this, updItems_files, List.map_map]; rfl

example : updItems c!"b/" ⟨[], []⟩ (mkData [c!"x"] (some [.file c!"p", .file c!"q.ini"])).params =
    .ok ⟨[], [c!"b/p.ini", c!"b/q.ini"]⟩ := by
  rw [show [PItem.file c!"p", .file c!"q.ini"] = [c!"p", c!"q.ini"].map .file from rfl, mkData_given]; rfl

/-! ## Tags of extended data sets -/

theorem good_bool {ns : List Str} : (∀ n ∈ ns, Good n) → contains c!"_post_" (join us ns) = false := not_contains_join

/-- **C33**: extending twice leaves one mark: the names, the mark, and all names added -/
theorem extend_twice (ns as bs : List Str) (p : Option (List PItem)) (pa pb : List PItem) (h : ∀ n ∈ ns, Good n) :
    ((mkData ns p).extend as pa).tag = join us ns ++ c!"_post_" ++ join us as ∧
    (((mkData ns p).extend as pa).extend bs pb).tag = join us ns ++ c!"_post_" ++ join us as ++ us ++ join us bs ∧
    (((mkData ns p).extend as pa).extend bs pb).names = ns ++ as ++ bs := by
  have h1 : ((mkData ns p).extend as pa).tag = join us ns ++ c!"_post_" ++ join us as := by
    show join us ns ++ (if contains c!"_post_" (join us ns) then us else c!"_post_") ++ join us as = _
    rw [good_bool h]; rfl
  refine ⟨h1, ?_, rfl⟩
  show ((mkData ns p).extend as pa).tag ++ (if contains c!"_post_" ((mkData ns p).extend as pa).tag then us else c!"_post_") ++ _ = _
  rw [h1, if_pos (contains_iff.mpr ⟨join us ns, join us as, rfl⟩)]

example : (((mkData [c!"a", c!"b"] none).extend [c!"c"] []).extend [c!"d"] []).tag = c!"a_b_post_c_d" := by decide +kernel

/-- **C35**: an importance run is selected by the data names it adds, not by those of the full run -/
theorem importance_selects (i : Info) (r : ImpRun) (l : List Str) :
    jobItemWanted { importance := some l } (impInfo i r) = true ↔ l = [] ∨ Meets l r.names := by
  rw [jobItemWanted_iff]
  unfold ImpOk
  rw [if_pos (show (impInfo i r).isImp = true from rfl), given_none, given_some, true_and]
  rfl

example : let i := mkItem c!"/g/" [] (mkData [c!"a"] none) c!"base"
    let r : ImpRun := ⟨[c!"b"], [], fun _ => true⟩
    jobItemWanted { importance := some [c!"b"] } (impInfo i r) = true ∧
      jobItemWanted { importance := some [c!"a"] } (impInfo i r) = false := by decide +kernel

/-- **C35**: an importance run belongs to the group of its full run -/
theorem importance_group (a : Args) (i : Info) (r : ImpRun) : groupMatches a (impInfo i r) = true ↔ GroupOk a i := by
  rw [groupMatches_iff]; exact Iff.rfl

example : groupMatches { group := some [c!"g"] }
    (impInfo { mkItem c!"/g/" [] (mkData [c!"a"] none) c!"base" with group := some c!"g" } ⟨[c!"b"], [], fun _ => true⟩) = true := by
  decide +kernel

/-! ## Replacing names -/

/-- the name that stands for `n` after replacing; nothing when the replacement is empty -/
def Repl (dic : Dict Str Str) (n : Str) : Option Str :=
  match Dict.get? dic n with
  | some v => if v = [] then none else some v
  | none => some n

/-- **C33**: replaced names keep their places; a name replaced by the empty string goes away -/
theorem namesReplacing_spec (d : DS) (dic : Dict Str Str) : d.namesReplacing (some dic) = d.names.filterMap (Repl dic) := by
  unfold DS.namesReplacing
  simp only []
  induction d.names with
  | nil => rfl
  | cons n l ih =>
    rw [List.flatMap_cons, ih, List.filterMap_cons]
    unfold replaceName Repl
    cases Dict.get? dic n with
    | none => rfl
    | some v => by_cases hv : v = [] <;> simp [hv]

example : (mkData [c!"a", c!"b", c!"c"] none).namesReplacing (some [(c!"a", c!"x"), (c!"b", [])]) = [c!"x", c!"c"] := by decide +kernel

/-- **C33**: the tag with `x` replaced by `y` lists the same names with `y` for `x`, or without `x` when `y` is empty -/
theorem tagReplacing_spec (d : DS) (x y : Str) (hx : ∃ n ∈ d.names, n ≠ x) (h : ∀ n ∈ d.names, '_' ∉ n) (hy : '_' ∉ y) :
    splitChar '_' (d.tagReplacing x y) =
      if y = [] then d.names.filter (fun n => decide (n ≠ x)) else d.names.map (fun n => if n = x then y else n) := by
  have key : d.names.flatMap (fun n => if n = x then (if y ≠ [] then [y] else []) else [n]) =
      if y = [] then d.names.filter (fun n => decide (n ≠ x)) else d.names.map (fun n => if n = x then y else n) := by
    clear hx h
    by_cases hy : y = []
    · rw [if_pos hy]
      induction d.names with
      | nil => rfl
      | cons n l ih => by_cases hn : n = x <;> simp_all
    · rw [if_neg hy]
      induction d.names with
      | nil => rfl
      | cons n l ih => by_cases hn : n = x <;> simp_all
  unfold DS.tagReplacing
  rw [key]
  obtain ⟨n0, hn0, hne⟩ := hx
  apply splitChar_join
  · split
    · intro e
      have : n0 ∈ d.names.filter (fun n => decide (n ≠ x)) := by simp [hn0, hne]
      rw [e] at this; cases this
    · intro e
      have := List.map_eq_nil_iff.mp e
      rw [this] at hn0; cases hn0
  · intro n hn
    split at hn
    · exact h n (List.mem_filter.mp hn).1
    · obtain ⟨m, hm, rfl⟩ := List.mem_map.mp hn
      split
      · exact hy
      · exact h m hm

example : (mkData [c!"a", c!"b"] none).tagReplacing c!"a" c!"z" = c!"z_b" ∧
    (mkData [c!"a", c!"b"] none).tagReplacing c!"a" [] = c!"b" := by decide +kernel

/-! ## Filters -/

/-- **C34**: importance filters are applied to every full run and to every importance run it had -/
theorem applyFilters_spec (fs : List ImpRun) (l : List Job) :
    (applyFilters (some fs) l).map Job.children = l.map (fun j =>
      j.children.map (fun c => Job.node c.info c.uid (c.children ++
        (fs.filter (fun r => r.applies c.info)).map (fun r => Job.node (impInfo c.info r) 0 []))) ++
      (fs.filter (fun r => r.applies j.info)).map (fun r => Job.node (impInfo j.info r) 0 [])) := by
  unfold applyFilters
  simp only []
  rw [List.map_map]
  apply List.map_congr_left
  intro j _
  rw [Function.comp_apply, makeImportance_spec]
  show j.children.map (fun c => makeImportance c fs) ++ _ = _
  congr 1
  apply List.map_congr_left
  intro c _
  exact makeImportance_spec fs c

example : ((applyFilters (some [⟨[c!"f"], [], fun _ => true⟩])
    [makeImportance (.node (mkItem c!"/g/" [] (mkData [c!"a"] none) c!"base") 0 []) [⟨[c!"b"], [], fun _ => true⟩]]).flatMap imps).map
      (fun j => j.info.name) = [c!"base_a_post_b", c!"base_a_post_f", c!"base_a_post_b_f"] := by decide +kernel

/-- **C34**: reading an existing grid keeps, in order, exactly the runs whose chains exist -/
theorem existingOnly_spec (ex : Info → Bool) (l : List Job) : (existingOnly ex l).Sublist l ∧
    (∀ j, j ∈ existingOnly ex l ↔ j ∈ l ∧ ex j.info = true) ∧ ((∀ j ∈ l, ex j.info = true) → existingOnly ex l = l) :=
  ⟨List.filter_sublist, fun _ => List.mem_filter, fun h => List.filter_eq_self.mpr h⟩

example : (existingOnly (fun i => i.name == c!"base_a") [.node (mkItem c!"/g/" [] (mkData [c!"a"] none) c!"base") 0 [],
    .node (mkItem c!"/g/" [] (mkData [c!"b"] none) c!"base") 1 []]).map Job.uid = [0] := by decide +kernel

end Verif.Batch

namespace Verif.ChainGrid
open Verif.Py Verif.Batch Verif.IniFile Verif.JobQueue

/-! ## Root names -/

/-- **C66**: the root of a path is its last component; a folder keeps its slash -/
theorem fileRootToRoot_spec (dir r : Str) (h : '/' ∉ r) :
    fileRootToRoot (dir ++ '/' :: r ++ ['/']) = r ++ ['/'] ∧ (r ≠ [] → fileRootToRoot (dir ++ '/' :: r) = r) := by
  unfold fileRootToRoot
  constructor
  · have h1 : endsWith ['/'] (dir ++ '/' :: r ++ ['/']) = true := by
      rw [endsWith, List.isSuffixOf_iff_suffix]
      exact ⟨_, rfl⟩
    rw [if_pos h1, List.dropLast_concat, Path.basename_join h]
  · intro hr
    have h1 : ¬ endsWith ['/'] (dir ++ '/' :: r) = true := by
      intro hc
      simp only [endsWith, List.isSuffixOf_iff_suffix] at hc
      obtain ⟨t, ht⟩ := hc
      have e := congrArg List.getLast? ht
      rw [List.getLast?_append, show (['/'] : Str).getLast? = some '/' from rfl, Option.some_or,
        List.getLast?_append_of_ne_nil _ (by simp)] at e
      obtain ⟨c, hc⟩ : ∃ c, r.getLast? = some c := by
        cases hh : r.getLast? with
        | none => exact absurd (List.getLast?_eq_none_iff.mp hh) hr
        | some c => exact ⟨c, rfl⟩
      rw [List.getLast?_cons, hc] at e
      cases e
      exact h (List.mem_of_getLast? hc)
    rw [if_neg h1, Path.basename_join h]

example : fileRootToRoot c!"/g/base/chain/" = c!"chain/" ∧ fileRootToRoot c!"/g/base/chain" = c!"chain" := by decide +kernel

theorem double_none {l : List Str} (h : ∀ n ∈ l, n ≠ [] ∧ '_' ∉ n) : contains c!"__" (join us l) = false := by
  rw [Bool.eq_false_iff]
  intro hc
  obtain ⟨a, b, e⟩ := contains_iff.mp hc
  cases l with
  | nil => revert hc; decide
  | cons n l =>
    have h1 := splitChar_join (l := n :: l) (by simp) (fun m hm => (h m hm).2)
    rw [e, show a ++ c!"__" ++ b = a ++ '_' :: ([] ++ '_' :: b) by simp, splitChar_append_gen, splitChar_append (by simp)] at h1
    exact (h [] (h1 ▸ by simp)).1 rfl

/-- **C66**: chains whose names list the same parts in another order, or with the `_post` mark, have the same normalised name; the
normalised name lists the parts in order -/
theorem normedName_spec {ns : List Str} {t : Str} (h : ∀ n ∈ ns, n ≠ [] ∧ Good n) (hn : ns ≠ []) (ht : TagOf ns t) :
    normedName t = join us (sorted ns) := by
  have hd : contains c!"__" t = false := by
    rcases ht with rfl | ⟨l, m, hl, hm, rfl, rfl⟩
    · exact double_none (fun n hn => ⟨(h n hn).1, (h n hn).2.1⟩)
    · rw [show join us l ++ c!"_post_" ++ join us m = join us (l ++ (c!"post" :: m)) by
        rw [join_append hl (by simp)]
        obtain ⟨b, m, rfl⟩ := List.exists_cons_of_ne_nil hm
        rw [join_cons2]; simp [us]]
      refine double_none (fun n hn => ?_)
      rcases List.mem_append.mp hn with hn | hn
      · exact ⟨(h n (by simp [hn])).1, (h n (by simp [hn])).2.1⟩
      · rcases List.mem_cons.mp hn with rfl | hn
        · exact ⟨by decide, by decide⟩
        · exact ⟨(h n (by simp [hn])).1, (h n (by simp [hn])).2.1⟩
  unfold normedName
  rw [replaceStr_none hd]
  exact normalizeDataTag_eq (fun n hn => (h n hn).2) hn ht

theorem normedName_perm {ns ms : List Str} {t u : Str} (h : ∀ n ∈ ns, n ≠ [] ∧ Good n) (hn : ns ≠ []) (hp : ns.Perm ms)
    (ht : TagOf ns t) (hu : TagOf ms u) : normedName t = normedName u := by
  rw [normedName_spec h hn ht, normedName_spec (fun n hm => h n (hp.mem_iff.mpr hm)) (fun e => hn (by rw [e] at hp; exact hp.eq_nil)) hu,
    sorted_eq_of_perm hp]

example : normedName c!"base_plik_BAO_post_lens" = normedName c!"base_lens_BAO_plik" ∧ normedName c!"a__b" = c!"a_b" := by decide +kernel

/-- **C66**: the chains listed for a folder are those of the grid with that folder's tag, by their names, in order -/
theorem rootsForDir_spec (l : List (Str × Item)) (paramtag : Str) :
    rootsForDir (l.map (fun e => (e.1, Ent.one e.2))) paramtag =
      ((l.map Prod.snd).filter (fun x => decide (x.paramtag = paramtag))).map Item.name := by
  unfold rootsForDir
  induction l with
  | nil => rfl
  | cons e l ih =>
    rw [List.map_cons, List.filterMap_cons, ih]
    by_cases h : e.2.paramtag = paramtag <;> simp [h]

example : rootsForDir [(c!"r", .one ⟨c!"/g/a/r", c!"a", c!"r"⟩), (c!"s", .one ⟨c!"/g/b/s", c!"b", c!"s"⟩)] c!"a" = [c!"r"] := by decide +kernel

end Verif.ChainGrid
