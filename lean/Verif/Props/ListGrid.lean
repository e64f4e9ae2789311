import Verif.Model.ListGrid
import Verif.Props.BatchArgs

/-!
# Listing of a grid, jobs of single files (C263, C264)
-/

namespace Verif.ListGrid
open Verif.Py Verif.Batch Verif.IniFile

theorem keys_addTag : ∀ (L : List Job) (d : Dict Str (List Job)), Dict.WF d → Dict.WF (L.foldl addTag d) ∧
    ∀ t, t ∈ Dict.keys (L.foldl addTag d) ↔ t ∈ Dict.keys d ∨ ∃ j ∈ L, j.info.paramtag = t
  | [], d, h => ⟨h, by simp⟩
  | j :: L, d, h => by
    obtain ⟨h1, h2⟩ := keys_addTag L (addTag d j) (Dict.WF_set _ _ h)
    refine ⟨h1, ?_⟩
    intro t
    rw [List.foldl_cons, h2]
    unfold addTag
    rw [Dict.mem_keys_set]
    constructor
    · rintro ((h | h) | ⟨k, hk, e⟩)
      · exact .inr ⟨j, by simp, h.symm⟩
      · exact .inl h
      · exact .inr ⟨k, List.mem_cons_of_mem _ hk, e⟩
    · rintro (h | ⟨k, hk, e⟩)
      · exact .inl (.inr h)
      · rcases List.mem_cons.mp hk with rfl | hk
        · exact .inl (.inl e.symm)
        · exact .inr ⟨k, hk, e⟩

theorem group_perm {α κ : Type} [DecidableEq κ] (tag : α → κ) : ∀ (keys : List κ) (l : List α), keys.Nodup → (∀ x ∈ l, tag x ∈ keys) →
    (keys.flatMap (fun t => l.filter (fun x => decide (tag x = t)))).Perm l
  | [], l, _, h => by
    cases l with
    | nil => exact .refl _
    | cons x l => exact absurd (h x (by simp)) (by simp)
  | t :: ks, l, hn, h => by
    rw [List.nodup_cons] at hn
    have ih := group_perm tag ks (l.filter (fun x => !decide (tag x = t))) hn.2 (by
      intro x hx
      rw [List.mem_filter] at hx
      rcases List.mem_cons.mp (h x hx.1) with e | e
      · rw [e] at hx; simp at hx
      · exact e)
    have e : ks.flatMap (fun s => (l.filter (fun x => !decide (tag x = t))).filter (fun x => decide (tag x = s))) =
        ks.flatMap (fun s => l.filter (fun x => decide (tag x = s))) := by
      rw [List.flatMap_def, List.flatMap_def]
      congr 1
      apply List.map_congr_left
      intro s hs
      rw [List.filter_filter]
      apply List.filter_congr
      intro x _
      by_cases hx : tag x = s
      · have : s ≠ t := fun e => hn.1 (e ▸ hs)
        simp [hx, this]
      · simp [hx]
    rw [List.flatMap_cons, ← e]
    exact (List.Perm.append_left _ ih).trans (List.filter_append_perm _ l)

/-- **C263**: runs are listed by the tags of their parameters, each tag once, in alphabetical order; those of a tag in the order of the grid -/
theorem sortedTags_spec (ce : Info → Bool) (skip : List Str) (l : List Job) (a : Args) (e : Bool) :
    ((sortedTags ce skip l a e).map (·.1)).Pairwise (fun s t => strLe s t = true) ∧ ((sortedTags ce skip l a e).map (·.1)).Nodup ∧
    (∀ t js, (t, js) ∈ sortedTags ce skip l a e → js = (filtered ce skip l a e).filter (fun j => decide (j.info.paramtag = t)) ∧ js ≠ []) ∧
    ((sortedTags ce skip l a e).flatMap (·.2)).Perm (filtered ce skip l a e) := by
  have hb : ∀ j, j ∈ filtered ce skip l a e ↔ j ∈ (filtered ce skip l a false).filter (fun j => !e || ce j.info) := by
    intro j
    unfold filtered
    rw [List.mem_filter, List.mem_filter, List.mem_filter]
    cases e <;> simp [and_assoc]
    tauto
  obtain ⟨hw, hk⟩ := keys_addTag ((filtered ce skip l a false).filter (fun j => !e || ce j.info)) [] Dict.WF_nil
  have hm : (sortedTags ce skip l a e).map (·.1) = sorted (Dict.keys (paramtagDict ce skip l a e)) := by
    unfold sortedTags
    rw [List.map_map]
    exact List.map_id _
  have hnd : (sorted (Dict.keys (paramtagDict ce skip l a e))).Nodup := (sortStr_perm _).nodup_iff.mpr hw
  refine ⟨?_, ?_, ?_, ?_⟩
  · rw [hm]; exact sortStr_sorted _
  · rw [hm]; exact hnd
  · intro t js h
    unfold sortedTags at h
    obtain ⟨t', ht, he⟩ := List.mem_map.mp h
    rw [paramtagDict_spec] at he
    injection he with e1 e2
    subst e1
    refine ⟨e2.symm, ?_⟩
    rw [← e2]
    have := (hk t').mp ((sortStr_perm _).mem_iff.mp ht)
    rcases this with h | ⟨j, hj, ej⟩
    · simp at h
    · intro hnil
      have : j ∈ (filtered ce skip l a e).filter (fun j => decide (j.info.paramtag = t')) := List.mem_filter.mpr ⟨(hb j).mpr hj, by simpa using ej⟩
      rw [hnil] at this
      simp at this
  · have e1 : (sortedTags ce skip l a e).flatMap (·.2) = (sorted (Dict.keys (paramtagDict ce skip l a e))).flatMap
        (fun t => (filtered ce skip l a e).filter (fun j => decide (j.info.paramtag = t))) := by
      unfold sortedTags
      rw [List.flatMap_map]
      congr 1
      funext t
      exact paramtagDict_spec ce skip l a e t
    rw [e1]
    apply group_perm _ _ _ hnd
    intro j hj
    exact (sortStr_perm _).mem_iff.mpr ((hk _).mpr (.inr ⟨j, (hb j).mp hj, rfl⟩))

/-- **C263**: every selected run is listed once, by its name, or by its normalised name, with its group -/
theorem listGrid_spec (ce : Info → Bool) (skip : List Str) (l : List Job) (a : Args) (o : Opts) :
    (listGrid ce skip l a o).Perm ((filtered ce skip l a o.exist).map (fun j => line o j.info)) ∧
    (∀ i, (line o i).1 = (if o.normed then i.normedName else i.name)) ∧ (∀ i g, i.group = some g → (line o i).2 = c!"(" ++ g ++ c!")") ∧
    (∀ i, i.group = none → (line o i).2 = c!"(None)") := by
  refine ⟨?_, fun i => rfl, fun i g h => by unfold line; rw [h], fun i h => by unfold line; rw [h]⟩
  unfold listGrid
  have := (sortedTags_spec ce skip l a o.exist).2.2.2.map (fun j => line o j.info)
  rwa [List.map_flatMap] at this

def run (n t : Str) (g : Option Str) : Job :=
  .node { base := c!"base", params := [], data := ⟨[], [], [], []⟩, paramtag := t, datatag := c!"d", name := n, batchPath := [], chainRoot := n, isImp := false, impTag := [],
          group := g, normedName := n, normedParams := [], normedData := c!"d" } 0 []

example : listGrid (fun _ => true) [] [run c!"base_w_d" c!"base_w" none, run c!"base_d" c!"base" (some c!"main"), run c!"base_w_e" c!"base_w" none] {} {} =
    [(c!"base_d", c!"(main)"), (c!"base_w_d", c!"(None)"), (c!"base_w_e", c!"(None)")] := by decide +kernel

/-- **C264 fails**: `--notexist` and `--converge` are accepted and have no effect: runs are listed also if their chains exist and whatever their
convergence (listGrid.py:6, 11) -/
theorem options_fails (ce : Info → Bool) (skip : List Str) (l : List Job) (a : Args) (o : Opts) (r : ℚ) :
    listGrid ce skip l a { o with notexist := true, converge := r } = listGrid ce skip l a o ∧
    (∀ j ∈ filtered ce skip l a true, line o j.info ∈ listGrid ce skip l a { o with notexist := true, exist := false }) := by
  refine ⟨rfl, ?_⟩
  intro j hj
  refine (listGrid_spec ce skip l a { o with notexist := true, exist := false }).1.mem_iff.mpr (List.mem_map.mpr ⟨j, ?_, rfl⟩)
  unfold filtered at hj ⊢
  rw [List.mem_filter] at hj ⊢
  refine ⟨hj.1, ?_⟩
  have := hj.2
  rw [Bool.and_eq_true] at this
  simp only [Bool.not_false, Bool.true_or, Bool.true_and]
  exact this.2

example : listGrid (fun _ => true) [] [run c!"base_d" c!"base" none] {} { notexist := true, converge := 1/100 } = [(c!"base_d", c!"(None)")] := by decide +kernel

/-! ## `runMPI.py` -/

/-- **C263**: the extension of a settings file is left out; the job has the name of the first -/
theorem mpiJob_spec (fs : List (Str × Str)) (h : ∀ f ∈ fs, contains c!".ini" (f.2 ++ c!".in") = false ∧ f.1 = f.2 ++ c!".ini") :
    (fs.map (·.1)).map iniRoot = fs.map (·.2) ∧
    (∀ f l, fs = f :: l → mpiJob (fs.map (·.1)) = some (Path.basename f.2, fs.map (·.2))) := by
  have h1 : ∀ f ∈ fs, iniRoot f.1 = f.2 := by
    intro f hf
    obtain ⟨hc, e⟩ := h f hf
    unfold iniRoot
    rw [e, replaceStr_append (t := c!".ini")]
    · have := replaceStr_match (pat := c!".ini") [] [] (by decide)
      rw [List.append_nil] at this
      rw [this]
      simp [replaceStr_nil]
    · intro a1 a2 e hne
      rw [Bool.eq_false_iff]
      intro hs
      obtain ⟨t, ht⟩ := Py.startsWith_iff.mp hs
      have hp : c!".ini" <+: a2 ++ c!".in" := by
        refine List.prefix_of_prefix_length_le (l₃ := a2 ++ c!".ini") ⟨t, ht.symm⟩ ⟨['i'], by rw [List.append_assoc]; rfl⟩ ?_
        have : 0 < a2.length := List.length_pos_iff.mpr hne
        rw [List.length_append]
        show 4 ≤ a2.length + 3
        omega
      obtain ⟨u, hu⟩ := hp
      have : contains c!".ini" (f.2 ++ c!".in") = true := contains_iff.mpr ⟨a1, u, by rw [e, List.append_assoc, List.append_assoc, hu]⟩
      rw [hc] at this
      cases this
  have h2 : (fs.map (·.1)).map iniRoot = fs.map (·.2) := by
    rw [List.map_map]
    exact List.map_congr_left h1
  refine ⟨h2, ?_⟩
  rintro f l rfl
  rw [List.map_cons] at h2 ⊢
  show some (Path.basename (iniRoot f.1), List.map iniRoot (f.1 :: List.map (fun x => x.1) l)) = _
  rw [h2, h1 f (by simp)]

example : mpiJob [c!"batch/test.ini", c!"batch/other.ini"] = some (c!"test", [c!"batch/test", c!"batch/other"]) := by decide +kernel

/-- **C264 fails**: `.ini` is removed wherever it occurs, so that a file in a directory such as `run.initial` is not found, and different files may be
the same job (runMPI.py:15) -/
theorem inner_ini_fails (a b : Str) (ha : contains c!".ini" (a ++ c!".in") = false) (hb : contains c!".ini" b = false) :
    iniRoot (a ++ c!".ini" ++ b) = a ++ b := by
  unfold iniRoot
  rw [List.append_assoc, replaceStr_append, replaceStr_match _ _ (by decide), replaceStr_none hb]
  · rfl
  · intro a1 a2 e hne
    rw [Bool.eq_false_iff]
    intro hs
    obtain ⟨t, ht⟩ := Py.startsWith_iff.mp hs
    have hp : c!".ini" <+: a2 ++ c!".in" := by
      refine List.prefix_of_prefix_length_le (l₃ := a2 ++ (c!".ini" ++ b)) ⟨t, ht.symm⟩ ⟨['i'] ++ b, by rw [List.append_assoc]; rfl⟩ ?_
      have : 0 < a2.length := List.length_pos_iff.mpr hne
      rw [List.length_append]
      show 4 ≤ a2.length + 3
      omega
    obtain ⟨u, hu⟩ := hp
    have : contains c!".ini" (a ++ c!".in") = true := contains_iff.mpr ⟨a1, u, by rw [e, List.append_assoc, List.append_assoc, hu]⟩
    rw [ha] at this
    cases this

example : iniRoot c!"run.initial/test" = c!"runtial/test" ∧ mpiJob [c!"run.initial/test.ini"] = some (c!"test", [c!"runtial/test"]) := by decide +kernel

/-- **C264**: with one `.ini`, at the end, the files are those that were given, so different files stay different (missing: other names) -/
theorem iniRoot_partial (a b : Str) (ha : contains c!".ini" (a ++ c!".in") = false) (hb : contains c!".ini" (b ++ c!".in") = false)
    (h : iniRoot (a ++ c!".ini") = iniRoot (b ++ c!".ini")) : a = b := by
  have h1 := (mpiJob_spec [(a ++ c!".ini", a)] (by intro f hf; simp only [List.mem_singleton] at hf; subst hf; exact ⟨ha, rfl⟩)).1
  have h2 := (mpiJob_spec [(b ++ c!".ini", b)] (by intro f hf; simp only [List.mem_singleton] at hf; subst hf; exact ⟨hb, rfl⟩)).1
  simp only [List.map_cons, List.map_nil, List.cons.injEq, and_true] at h1 h2
  rw [← h1, ← h2, h]

end Verif.ListGrid
