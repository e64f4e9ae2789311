import Verif.Props.BatchTags
import Verif.Props.ParamNames

/-!
# Selecting runs (C35) and the options of a run (C37)
-/

namespace Verif.Batch
open Verif.Py Verif.IniFile Verif.ParamNames

/-! ## C35 -/

/-- the name matches the shell pattern -/
def Match (pat s : Str) : Prop := ∃ ts, Tok pat ts ∧ TGlob ts s

theorem match_iff (pat s : Str) : fnmatchcase s pat = true ↔ Match pat s := by
  obtain ⟨ts, h1, h2, h3⟩ := fnmatchcase_full pat s
  rw [h3]
  constructor
  · intro h; exact ⟨ts, h1, h⟩
  · rintro ⟨us, h4, h5⟩; rw [h2 us h4] at h5; exact h5

/-- a filter that is given holds -/
def Given (o : Option (List Str)) (p : List Str → Prop) : Prop := ∀ l, o = some l → p l

/-- some element of the list is in the other list -/
def Meets (l m : List Str) : Prop := ∃ x ∈ l, x ∈ m

/-- the run satisfies the filters on its data: all the required data; if data tags are given, one of them is its tag (and the other
filters on data do not count), else it has one of the data names and none of the skipped ones -/
def DataOk (a : Args) (i : Info) : Prop :=
  Given a.musthaveData (fun l => ∀ x ∈ l, x ∈ i.data.names) ∧ Given a.datatag (fun l => i.datatag ∈ l) ∧
  (a.datatag = none → Given a.data (fun l => Meets l i.data.names) ∧ Given a.skipData (fun l => ¬ Meets l i.data.names))

/-- the same for the parameters -/
def ParamsOk (a : Args) (i : Info) : Prop :=
  Given a.paramtag (fun l => i.paramtag ∈ l) ∧
  (a.paramtag = none → Given a.param (fun l => Meets l i.params) ∧ Given a.skipParam (fun l => ¬ Meets l i.params))

def NameOk (a : Args) (i : Info) : Prop := Given a.name (fun l => ∃ pat ∈ l, Match pat i.name)

def GroupOk (a : Args) (i : Info) : Prop :=
  Given a.group (fun l => ∃ g ∈ l, i.group = some g) ∧ Given a.skipGroup (fun l => ¬ ∃ g ∈ l, i.group = some g)

/-- importance filters: full runs are wanted unless importance runs are asked for; importance runs have one of the tags and
one of the data names asked for, an empty list asks for all -/
def ImpOk (a : Args) (i : Info) : Prop :=
  if i.isImp then Given a.importancetag (fun l => l = [] ∨ i.impTag ∈ l) ∧ Given a.importance (fun l => l = [] ∨ Meets l i.data.imp)
  else a.importance = none

theorem given_some {l : List Str} {p : List Str → Prop} : Given (some l) p ↔ p l := by simp [Given]
theorem given_none {p : List Str → Prop} : Given none p ↔ True := by simp [Given]

theorem any_contains (l m : List Str) : (l.any fun x => m.contains x) = true ↔ Meets l m := by
  simp [Meets]

theorem inGroup_iff (g : Option Str) (l : List Str) : inGroup g l = true ↔ ∃ x ∈ l, g = some x := by
  cases g <;> simp [inGroup]

theorem groupMatches_iff (a : Args) (i : Info) : groupMatches a i = true ↔ GroupOk a i := by
  unfold groupMatches GroupOk
  rw [Bool.and_eq_true]
  refine and_congr ?_ ?_
  · cases a.group with
    | none => simp [given_none]
    | some l => rw [given_some]; exact inGroup_iff _ _
  · cases a.skipGroup with
    | none => simp [given_none]
    | some l => rw [given_some, ← inGroup_iff]; simp

theorem nameMatches_iff (a : Args) (i : Info) : nameMatches a i = true ↔ NameOk a i := by
  unfold nameMatches NameOk
  cases a.name with
  | none => simp [given_none]
  | some l =>
    rw [given_some, List.any_eq_true]
    exact exists_congr (fun p => and_congr_right (fun _ => match_iff p i.name))

theorem jobItemWanted_iff (a : Args) (i : Info) : jobItemWanted a i = true ↔ ImpOk a i := by
  unfold jobItemWanted ImpOk
  cases i.isImp with
  | false => simp
  | true =>
    simp only [Bool.not_true, Bool.false_and, Bool.false_or, Bool.true_and, if_true]
    unfold wantImportance
    rw [Bool.and_eq_true]
    refine and_congr ?_ ?_
    · cases a.importancetag with
      | none => simp [given_none]
      | some l => rw [given_some]; simp [Bool.or_eq_true]
    · cases a.importance with
      | none => simp [given_none]
      | some l =>
        rw [given_some]
        simp only [Bool.or_eq_true, any_contains]
        simp

theorem dataMatches_iff (a : Args) (i : Info) : dataMatches a i = true ↔ DataOk a i := by
  have hall : ∀ l, i.data.hasAll l = true ↔ ∀ x ∈ l, x ∈ i.data.names := by
    intro l; unfold DS.hasAll; simp
  have hany : ∀ l, i.data.hasName l = true ↔ Meets l i.data.names := fun l => any_contains _ _
  have hin : (match a.datatag with
    | none =>
      if (match a.skipData with | none => false | some l => i.data.hasName l) then false
      else match a.data with | none => true | some l => i.data.hasName l
    | some l => l.contains i.datatag) = true ↔ Given a.datatag (fun l => i.datatag ∈ l) ∧
    (a.datatag = none → Given a.data (fun l => Meets l i.data.names) ∧ Given a.skipData (fun l => ¬ Meets l i.data.names)) := by
    cases a.datatag with
    | some l => rw [given_some]; simp
    | none =>
      rw [given_none]
      simp only [true_and, forall_const]
      cases a.skipData with
      | none =>
        cases a.data with
        | none => simp [given_none]
        | some l => rw [given_some, given_none]; simp [hany]
      | some m =>
        rw [given_some]
        by_cases h : i.data.hasName m = true
        · simp only [h, if_true]
          rw [← hany m]
          simp [h]
        · simp only [h, Bool.false_eq_true, if_false]
          rw [← hany m]
          cases a.data with
          | none => simp [given_none, h]
          | some l => rw [given_some]; simp [hany, h]
  unfold dataMatches DataOk
  cases hm : a.musthaveData with
  | none =>
    rw [given_none]
    simp only [Bool.false_eq_true, if_false, true_and]
    exact hin
  | some m =>
    rw [given_some]
    by_cases h : i.data.hasAll m = true
    · simp only [h, Bool.not_true, Bool.false_eq_true, if_false]
      refine Iff.trans hin ?_
      exact (and_iff_right ((hall m).mp h)).symm
    · simp only [h, Bool.not_false, if_true]
      rw [← hall m]
      simp [h]

theorem paramsMatch_iff (a : Args) (i : Info) : paramsMatch a i = true ↔ ParamsOk a i := by
  have hskip : notSkipped a i = true ↔ Given a.skipParam (fun l => ¬ Meets l i.params) := by
    unfold notSkipped Info.hasParam
    cases a.skipParam with
    | none => simp [given_none]
    | some l =>
      rw [given_some, ← any_contains]
      cases l <;> simp
  unfold paramsMatch ParamsOk
  cases a.paramtag with
  | some l => rw [given_some]; simp
  | none =>
    rw [given_none]
    simp only [true_and, forall_const]
    cases a.param with
    | none => rw [given_none, true_and]; exact hskip
    | some l =>
      rw [given_some, ← any_contains]
      by_cases h : (l.any fun x => i.params.contains x) = true
      · simp only [h, if_true, true_and]; exact hskip
      · simp only [h, Bool.false_eq_true, if_false, false_and]

/-- **C35**: the runs selected are exactly the runs of the grid (with importance runs unless switched off) that satisfy the filters -/
theorem filtered_iff (ce : Info → Bool) (skip : List Str) (l : List Job) (a : Args) (chainExist : Bool) (j : Job) :
    j ∈ filtered ce skip l a chainExist ↔ j ∈ items skip (!a.noimportance) l ∧ (chainExist = true → ce j.info = true) ∧
      ImpOk a j.info ∧ NameOk a j.info ∧ ParamsOk a j.info ∧ DataOk a j.info ∧ GroupOk a j.info := by
  unfold filtered
  rw [List.mem_filter]
  refine and_congr_right (fun _ => ?_)
  rw [Bool.and_eq_true, Bool.and_eq_true, Bool.and_eq_true, Bool.and_eq_true, Bool.and_eq_true, jobItemWanted_iff, nameMatches_iff,
    paramsMatch_iff, dataMatches_iff, groupMatches_iff, and_assoc, and_assoc, and_assoc]
  refine and_congr_left (fun _ => ?_)
  cases chainExist <;> simp

/-- **C35**: the order of the grid is kept, and giving no filter selects everything -/
theorem filtered_order (ce : Info → Bool) (skip : List Str) (l : List Job) (a : Args) (chainExist : Bool) :
    (filtered ce skip l a chainExist).Sublist (items skip (!a.noimportance) l) ∧
    filtered ce skip l {} false = itemsImp skip l ∧ filtered ce skip l { noimportance := true } false = l := by
  refine ⟨List.filter_sublist, ?_, ?_⟩
  · have h1 : (filtered ce skip l {} false).Sublist (itemsImp skip l) := List.filter_sublist
    unfold filtered
    rw [List.filter_eq_self.mpr]
    · rfl
    · intro j _
      cases h : j.info.isImp <;>
        simp [jobItemWanted, nameMatches, paramsMatch, notSkipped, dataMatches, groupMatches, wantImportance, h]
  · unfold filtered
    rw [List.filter_eq_self.mpr]
    · rfl
    · intro j _
      cases h : j.info.isImp <;>
        simp [jobItemWanted, nameMatches, paramsMatch, notSkipped, dataMatches, groupMatches, wantImportance, h]

/-- the filters a user gives, each taken on its own -/
def Every (a : Args) (i : Info) : Prop :=
  ImpOk a i ∧ NameOk a i ∧ GroupOk a i ∧ Given a.musthaveData (fun l => ∀ x ∈ l, x ∈ i.data.names) ∧
  Given a.datatag (fun l => i.datatag ∈ l) ∧ Given a.data (fun l => Meets l i.data.names) ∧
  Given a.skipData (fun l => ¬ Meets l i.data.names) ∧ Given a.paramtag (fun l => i.paramtag ∈ l) ∧
  Given a.param (fun l => Meets l i.params) ∧ Given a.skipParam (fun l => ¬ Meets l i.params)

/-- **C35**: every filter given is satisfied by every run selected, and nothing else is asked, as long as data tags are not combined
with data names, nor parameter tags with parameters -/
theorem filtered_every_partial (ce : Info → Bool) (skip : List Str) (l : List Job) (a : Args) (j : Job)
    (hd : a.datatag = none ∨ a.data = none ∧ a.skipData = none) (hp : a.paramtag = none ∨ a.param = none ∧ a.skipParam = none) :
    j ∈ filtered ce skip l a false ↔ j ∈ items skip (!a.noimportance) l ∧ Every a j.info := by
  rw [filtered_iff]
  refine and_congr_right (fun _ => ?_)
  have h1 : DataOk a j.info ↔ Given a.musthaveData (fun l => ∀ x ∈ l, x ∈ j.info.data.names) ∧
      Given a.datatag (fun l => j.info.datatag ∈ l) ∧ Given a.data (fun l => Meets l j.info.data.names) ∧
      Given a.skipData (fun l => ¬ Meets l j.info.data.names) := by
    unfold DataOk
    rcases hd with h | ⟨h, h'⟩
    · simp [h]
    · simp [h, h', given_none]
  have h2 : ParamsOk a j.info ↔ Given a.paramtag (fun l => j.info.paramtag ∈ l) ∧ Given a.param (fun l => Meets l j.info.params) ∧
      Given a.skipParam (fun l => ¬ Meets l j.info.params) := by
    unfold ParamsOk
    rcases hp with h | ⟨h, h'⟩
    · simp [h]
    · simp [h, h', given_none]
  rw [h1, h2]
  unfold Every
  simp only [Bool.false_eq_true, false_implies, true_and]
  tauto

def exJob : Job := .node (mkItem c!"/g/" [c!"w"] (mkData [c!"plik", c!"BAO"] none) c!"base") 0 []

/-- a data tag switches off the filter on skipped data, a parameter tag that on skipped parameters -/
theorem filters_ignored_fails : ∃ a b : Args, a = { datatag := some [c!"plik_BAO"], skipData := some [c!"BAO"] } ∧
    b = { paramtag := some [c!"base_w"], skipParam := some [c!"w"] } ∧
    (exJob ∈ filtered (fun _ => true) [] [exJob] a false ∧ ¬ Every a exJob.info) ∧
    (exJob ∈ filtered (fun _ => true) [] [exJob] b false ∧ ¬ Every b exJob.info) := by
  have hm : ∀ a : Args, jobItemWanted a exJob.info = true → nameMatches a exJob.info = true → paramsMatch a exJob.info = true →
      dataMatches a exJob.info = true → groupMatches a exJob.info = true → a.noimportance = false →
      exJob ∈ filtered (fun _ => true) [] [exJob] a false := by
    intro a h1 h2 h3 h4 h5 h6
    rw [filtered_iff, ← jobItemWanted_iff, ← nameMatches_iff, ← paramsMatch_iff, ← dataMatches_iff, ← groupMatches_iff]
    refine ⟨?_, by simp, h1, h2, h3, h4, h5⟩
    rw [h6]
    simp [items, itemsImp]
  refine ⟨_, _, rfl, rfl, ⟨hm _ ?_ ?_ ?_ ?_ ?_ rfl, ?_⟩, ⟨hm _ ?_ ?_ ?_ ?_ ?_ rfl, ?_⟩⟩ <;> try decide +kernel
  · rintro ⟨-, -, -, -, -, -, h, -⟩
    exact h _ rfl ⟨c!"BAO", by decide, by decide +kernel⟩
  · rintro ⟨-, -, -, -, -, -, -, -, -, h⟩
    exact h _ rfl ⟨c!"w", by decide, by decide +kernel⟩

example : (filtered (fun _ => true) [] exGrid { name := some [c!"*_w_*"], data := some [c!"BAO"] } false).map (fun j => j.info.name) =
    [c!"base_w_plik_BAO", c!"base_w_plik_BAO_post_lens"] ∧
    (filtered (fun _ => true) [] exGrid { importance := some [] } false).map (fun j => j.info.name) = [c!"base_w_plik_BAO_post_lens"] ∧
    (filtered (fun _ => true) [] exGrid { skipParam := some [c!"w"] } false).map (fun j => j.info.name) = [] := by decide +kernel

/-! ### Grouping by parameters, comparing data -/

theorem addTag_get (L : List Job) : ∀ (d : Dict Str (List Job)) (t : Str),
    (Dict.get? (L.foldl addTag d) t).getD [] = (Dict.get? d t).getD [] ++ L.filter (fun j => decide (j.info.paramtag = t)) := by
  induction L with
  | nil => intro d t; simp
  | cons j L ih =>
    intro d t
    rw [List.foldl_cons, ih]
    unfold addTag
    rw [Dict.get?_set]
    by_cases h : j.info.paramtag = t
    · rw [if_pos h.symm, List.filter_cons_of_pos (by simpa using h), ← h]; simp
    · rw [if_neg (fun e => h e.symm), List.filter_cons_of_neg (by simpa using h)]

/-- **C35**: the runs listed under a parameter tag are the selected runs with that tag, in order -/
theorem paramtagDict_spec (ce : Info → Bool) (skip : List Str) (l : List Job) (a : Args) (chainExist : Bool) (t : Str) :
    (Dict.get? (paramtagDict ce skip l a chainExist) t).getD [] =
      (filtered ce skip l a chainExist).filter (fun j => decide (j.info.paramtag = t)) := by
  unfold paramtagDict
  rw [addTag_get]
  simp only [Dict.get?_nil, Option.getD_none, List.nil_append]
  congr 1
  unfold filtered
  rw [List.filter_filter]
  apply List.filter_congr
  intro j _
  cases chainExist <;> simp

/-- **C33/C35**: runs compared for a data tag are those with the tag itself or with the same data in any order -/
theorem filterForDataCompare_iff (l : List Job) (tags : List Str) (j : Job) : j ∈ filterForDataCompare l tags ↔
    j ∈ l ∧ ∃ t ∈ tags, j.info.datatag = t ∨ j.info.normedData = normalizeDataTag t := by
  unfold filterForDataCompare
  simp only [List.mem_flatMap, List.mem_filter, Bool.or_eq_true, decide_eq_true_eq]
  constructor
  · rintro ⟨t, ht, hj, h⟩; exact ⟨hj, t, ht, h⟩
  · rintro ⟨hj, t, ht, h⟩; exact ⟨t, ht, hj, h⟩

/-- **C33**: so, with well-formed names, a run is compared exactly when its data is that of one of the tags -/
theorem filterForDataCompare_data (l : List Job) (j : Job) (hj : Named j.info) (hne : j.info.data.names ≠ []) (ns : List Str) (t : Str)
    (hg : ∀ n ∈ ns, Good n) (hn : ns ≠ []) (ht : TagOf ns t) :
    j ∈ filterForDataCompare l [t] ↔ j ∈ l ∧ ns.Perm j.info.data.names := by
  have hgd : ∀ n ∈ j.info.data.names, Good n := fun n h => hj.good n (by simp [h])
  rw [filterForDataCompare_iff]
  refine and_congr_right (fun _ => ?_)
  simp only [List.mem_singleton, exists_eq_left]
  have hnd : j.info.normedData = normalizeDataTag j.info.datatag := by
    rw [normalizeDataTag_eq hgd hne hj.tag, hj.nd]; rfl
  constructor
  · intro h
    have h2 : normalizeDataTag j.info.datatag = normalizeDataTag t := by
      rcases h with h | h
      · rw [h]
      · rw [← hnd, h]
    rw [normalizeDataTag_eq hgd hne hj.tag, normalizeDataTag_eq hg hn ht] at h2
    refine (perm_of_sorted_eq (join_inj (sorted_ne_nil hne) (sorted_ne_nil hn) ?_ ?_ h2)).symm
    · intro n h; exact (hgd n ((sortStr_perm _).mem_iff.mp h)).1
    · intro n h; exact (hg n ((sortStr_perm _).mem_iff.mp h)).1
  · intro h
    right
    rw [hnd, normalizeDataTag_eq hgd hne hj.tag, normalizeDataTag_eq hg hn ht, sorted_eq_of_perm h]

/-! ## C37: options of a run -/

theorem get?_update {d : Dict Str Str} : ∀ {e : Dict Str Str}, e.WF → ∀ k, Dict.get? (Dict.update d e) k = (Dict.get? e k).or (Dict.get? d k) := by
  intro e
  induction e generalizing d with
  | nil => intro _ k; rfl
  | cons p e ih =>
    intro hw k
    obtain ⟨a, v⟩ := p
    have hw2 : a ∉ Dict.keys e ∧ (Dict.keys e).Nodup := List.nodup_cons.mp hw
    rw [show Dict.update d ((a, v) :: e) = Dict.update (Dict.set d a v) e from rfl, ih hw2.2, Dict.get?_set, Dict.get?_cons]
    by_cases h : a = k
    · subst h
      rw [if_pos rfl, if_pos rfl, Dict.get?_eq_none.mpr hw2.1]; rfl
    · rw [if_neg h, if_neg (fun e => h e.symm)]

/-- the value of an option from a list of sources, the last one that has it wins -/
def lookup : List (Dict Str Str) → Str → Option Str
  | [], _ => none
  | s :: ss, k => (lookup ss k).or (Dict.get? s k)

theorem lookup_append (a b : List (Dict Str Str)) (k : Str) : lookup (a ++ b) k = (lookup b k).or (lookup a k) := by
  induction a with
  | nil => simp [lookup]
  | cons s a ih => rw [List.cons_append, lookup, lookup, ih, Option.or_assoc]

mutual
/-- the dictionaries in a settings list -/
def dictsOf : PItem → List (Dict Str Str)
  | .dict d => [d]
  | .seq l => dictsL l
  | _ => []
def dictsL : List PItem → List (Dict Str Str)
  | [] => []
  | p :: ps => dictsOf p ++ dictsL ps
end

mutual
/-- the ini files in a settings list -/
def filesOf : PItem → List Str
  | .file s => [s]
  | .seq l => filesL l
  | _ => []
def filesL : List PItem → List Str
  | [] => []
  | p :: ps => filesOf p ++ filesL ps
end

mutual
/-- nothing but dictionaries, files and lists of them -/
def plain : PItem → Bool
  | .other => false
  | .seq l => plainL l
  | _ => true
def plainL : List PItem → Bool
  | [] => true
  | p :: ps => plain p && plainL ps
end

mutual
theorem updItem_spec (path : Str) : ∀ (p : PItem) (ini : Ini), updItem path ini p =
    if plain p then .ok ⟨(dictsOf p).foldl Dict.update ini.params, ini.defaults ++ (filesOf p).map (path ++ ·)⟩ else .error .exception
  | .dict d, ini => by simp [updItem, plain, dictsOf, filesOf]
  | .file s, ini => by simp [updItem, plain, dictsOf, filesOf]
  | .seq l, ini => by rw [updItem, plain, dictsOf, filesOf]; exact updItems_spec path l ini
  | .other, ini => by simp [updItem, plain]
/-- **C37**: a settings list puts its dictionaries over the options in order, and its files after the default files in order; anything
else is refused -/
theorem updItems_spec (path : Str) : ∀ (l : List PItem) (ini : Ini), updItems path ini l =
    if plainL l then .ok ⟨(dictsL l).foldl Dict.update ini.params, ini.defaults ++ (filesL l).map (path ++ ·)⟩ else .error .exception
  | [], ini => by simp [updItems, plainL, dictsL, filesL]
  | p :: ps, ini => by
    rw [updItems, updItem_spec path p ini, plainL, dictsL, filesL]
    cases hp : plain p with
    | false => rfl
    | true =>
      simp only [if_true, Bool.true_and]
      rw [updItems_spec path ps]
      simp [List.foldl_append]
end

theorem foldl_update {ss : List (Dict Str Str)} (h : ∀ s ∈ ss, s.WF) (d : Dict Str Str) (k : Str) :
    Dict.get? (ss.foldl Dict.update d) k = (lookup ss k).or (Dict.get? d k) := by
  induction ss generalizing d with
  | nil => rfl
  | cons s ss ih =>
    rw [List.foldl_cons, ih (fun s hs => h s (List.mem_cons_of_mem _ hs)), get?_update (h s List.mem_cons_self), lookup,
      Option.or_assoc]

/-- the options of one parameter: its range, the options that go with it, those of the group -/
def paramSources (g : GridOpts) (jobExtra : Option (Dict Str (Dict Str Str))) (p : Str) : List (Dict Str Str) :=
  [[(c!"param[" ++ p ++ c!"]", (Dict.get? g.params p).getD [])], (g.paramExtra.bind (Dict.get? · p)).getD [],
    (jobExtra.bind (Dict.get? · p)).getD []]

/-- **the order of the sources**, the strongest last -/
def sources (g : GridOpts) (j : Info) (jobExtra : Option (Dict Str (Dict Str Str))) (jobOpts : Option (Dict Str Str))
    (cov : Dict Str Str) : List (Dict Str Str) :=
  j.params.flatMap (paramSources g jobExtra) ++
    [g.extraOpts.getD [], jobOpts.getD [], [(c!"file_root", j.chainRoot)], cov, [(c!"start_at_bestfit", g.startAtBestfit)]] ++
    dictsL j.data.params ++ [[(c!"action", c!"0")]]

theorem updExtra_eq (x : Option (Dict Str (Dict Str Str))) (p : Str) (d : Dict Str Str) :
    updExtra x p d = Dict.update d ((x.bind (Dict.get? · p)).getD []) := by
  unfold updExtra
  cases x with
  | none => rfl
  | some e => simp only [Option.bind_some]; cases Dict.get? e p <;> rfl

theorem updOpt_eq (x : Option (Dict Str Str)) (d : Dict Str Str) : updOpt x d = Dict.update d (x.getD []) := by
  cases x <;> rfl

theorem paramOpts_spec (g : GridOpts) (jobExtra : Option (Dict Str (Dict Str Str))) : ∀ (ps : List Str) (d : Dict Str Str),
    paramOpts g jobExtra ps d = if ps.all (fun p => g.params.has p) then
      .ok ((ps.flatMap (paramSources g jobExtra)).foldl Dict.update d) else .error .keyError
  | [], d => rfl
  | p :: ps, d => by
    rw [paramOpts, List.all_cons]
    cases hp : Dict.get? g.params p with
    | none => simp [Dict.has, hp]
    | some v =>
      simp only []
      rw [paramOpts_spec g jobExtra ps, show Dict.has g.params p = true by simp [Dict.has, hp], Bool.true_and, List.flatMap_cons,
        List.foldl_append, updExtra_eq, updExtra_eq]
      unfold paramSources
      rw [hp]
      rfl

/-- **C37**: the run file can be made exactly when every parameter has a range and the data settings are plain; then every option has the
value of the strongest source that gives it, and the default files are: the override files, the files of the data sets in order, the
common files -/
theorem jobIni_spec (g : GridOpts) (j : Info) (jobExtra : Option (Dict Str (Dict Str Str))) (jobOpts : Option (Dict Str Str))
    (cov : Dict Str Str) (hw : ∀ s ∈ sources g j jobExtra jobOpts cov, s.WF) :
    (∀ ini, jobIni g j jobExtra jobOpts cov = .ok ini →
      (∀ k, Dict.get? ini.params k = lookup (sources g j jobExtra jobOpts cov) k) ∧
      ini.defaults = (g.overrideDefaults.getD [] ++ filesL j.data.params ++ g.defaults).map (g.commonPath ++ ·)) ∧
    ((∃ ini, jobIni g j jobExtra jobOpts cov = .ok ini) ↔ (∀ p ∈ j.params, p ∈ g.params.keys) ∧ plainL j.data.params = true) := by
  have hall : (j.params.all fun p => g.params.has p) = true ↔ ∀ p ∈ j.params, p ∈ g.params.keys := by
    rw [List.all_eq_true]
    exact forall_congr' (fun p => imp_congr_right (fun _ => Dict.has_iff))
  unfold jobIni
  rw [paramOpts_spec]
  by_cases hp : (j.params.all fun p => g.params.has p) = true
  · rw [if_pos hp]
    simp only []
    rw [updItems_spec]
    by_cases hq : plainL j.data.params = true
    · rw [if_pos hq]
      simp only []
      refine ⟨?_, ⟨fun _ => ⟨hall.mp hp, hq⟩, fun _ => ⟨_, rfl⟩⟩⟩
      intro ini e
      injection e with e
      subst e
      refine ⟨?_, ?_⟩
      · intro k
        rw [← Option.or_none (o := lookup _ k), ← Dict.get?_nil (ν := Str) k, ← foldl_update hw]
        unfold sources
        rw [List.foldl_append, List.foldl_append, List.foldl_append, updOpt_eq, updOpt_eq]
        rfl
      · simp only [List.nil_append]
        cases g.overrideDefaults <;> simp
    · rw [if_neg hq]
      refine ⟨by rintro ini ⟨⟩, ⟨?_, ?_⟩⟩
      · rintro ⟨ini, ⟨⟩⟩
      · rintro ⟨-, h⟩; exact absurd h hq
  · rw [if_neg hp]
    refine ⟨by rintro ini ⟨⟩, ⟨?_, ?_⟩⟩
    · rintro ⟨ini, ⟨⟩⟩
    · rintro ⟨h, -⟩; exact absurd (hall.mpr h) hp

theorem sources_names (g : GridOpts) (j : Info) (jobExtra : Option (Dict Str (Dict Str Str))) (jobOpts : Option (Dict Str Str))
    (cov : Dict Str Str) (k : Str) (h1 : k ≠ c!"action") (h2 : k ≠ c!"start_at_bestfit") (h3 : k ≠ c!"file_root")
    (h4 : Dict.get? cov k = none) :
    lookup (sources g j jobExtra jobOpts cov) k = (lookup (dictsL j.data.params) k).or
      ((Dict.get? (jobOpts.getD []) k).or ((Dict.get? (g.extraOpts.getD []) k).or
        (lookup (j.params.flatMap (paramSources g jobExtra)) k))) := by
  unfold sources
  rw [lookup_append, lookup_append, lookup_append]
  simp only [lookup, Dict.get?_cons, Dict.get?_nil, Option.none_or, h4]
  rw [if_neg (fun e => h1 e.symm), if_neg (fun e => h2 e.symm), if_neg (fun e => h3 e.symm)]
  simp only [Option.none_or, Option.or_assoc]

/-- **C37**: for an option that is not one of those every run sets, the data sets have precedence, then the options of the group, then the
common options, then those of the parameters — the value is the first of these that is there -/
theorem option_order (g : GridOpts) (j : Info) (jobExtra : Option (Dict Str (Dict Str Str))) (jobOpts : Option (Dict Str Str))
    (cov : Dict Str Str) (hw : ∀ s ∈ sources g j jobExtra jobOpts cov, s.WF) (ini : Ini)
    (hi : jobIni g j jobExtra jobOpts cov = .ok ini) (k v : Str) (h1 : k ≠ c!"action") (h2 : k ≠ c!"start_at_bestfit")
    (h3 : k ≠ c!"file_root") (h4 : Dict.get? cov k = none) :
    (lookup (dictsL j.data.params) k = some v → Dict.get? ini.params k = some v) ∧
    (lookup (dictsL j.data.params) k = none → Dict.get? (jobOpts.getD []) k = some v → Dict.get? ini.params k = some v) ∧
    (lookup (dictsL j.data.params) k = none → Dict.get? (jobOpts.getD []) k = none → Dict.get? (g.extraOpts.getD []) k = some v →
      Dict.get? ini.params k = some v) ∧
    (lookup (dictsL j.data.params) k = none → Dict.get? (jobOpts.getD []) k = none → Dict.get? (g.extraOpts.getD []) k = none →
      Dict.get? ini.params k = lookup (j.params.flatMap (paramSources g jobExtra)) k) := by
  have h := (jobIni_spec g j jobExtra jobOpts cov hw).1 ini hi
  rw [h.1 k, sources_names g j jobExtra jobOpts cov k h1 h2 h3 h4]
  refine ⟨fun e => by rw [e]; rfl, fun e e' => by rw [e, e']; rfl, fun e e' e'' => by rw [e, e', e'']; rfl,
    fun e e' e'' => by rw [e, e', e'']; rfl⟩

def exOpts : GridOpts where
  params := [(c!"w", c!"-1 -3 1")]
  paramExtra := some [(c!"w", [(c!"use_w", c!"T"), (c!"x", c!"p")])]
  extraOpts := some [(c!"x", c!"all"), (c!"y", c!"all")]
  startAtBestfit := c!"F"
  defaults := [c!"common.ini"]
  commonPath := c!"b/"

/-- the job's own options do not win over the options of a data set, and a data set can even move the chains elsewhere -/
theorem job_over_data_fails : ∃ (j : Info) (ini : Ini),
    j = mkItem c!"/g/" [c!"w"] (mkData [c!"d"] (some [.dict [(c!"x", c!"data"), (c!"file_root", c!"/elsewhere")], .file c!"d"])) c!"base" ∧
    jobIni exOpts j none (some [(c!"x", c!"job")]) [] = .ok ini ∧ Dict.get? ini.params c!"x" = some c!"data" ∧
    Dict.get? ini.params c!"file_root" = some c!"/elsewhere" :=
  ⟨_, ⟨_, _⟩, rfl, rfl, by decide +kernel, by decide +kernel⟩

example : ∃ ini, jobIni exOpts (mkItem c!"/g/" [c!"w"] (mkData [c!"d"] (some [.dict [(c!"z", c!"data")], .file c!"d"])) c!"base") none
    (some [(c!"x", c!"job")]) [] = .ok ini ∧ Dict.get? ini.params c!"x" = some c!"job" ∧ Dict.get? ini.params c!"y" = some c!"all" ∧
    Dict.get? ini.params c!"param[w]" = some c!"-1 -3 1" ∧ Dict.get? ini.params c!"z" = some c!"data" ∧
    ini.defaults = [c!"b/d.ini", c!"b/common.ini"] :=
  ⟨⟨_, _⟩, rfl, by decide +kernel, by decide +kernel, by decide +kernel, by decide +kernel, by decide +kernel⟩

/-- adding settings to a data set so as to override the existing ones puts the new default files first (where they win) but also the
new options first, where the old ones win -/
theorem add_override_fails : ∃ d : DS, d = (mkData [c!"d"] (some [.dict [(c!"x", c!"old")], .file c!"old"])).add (some c!"e")
    (some [.dict [(c!"x", c!"new")], .file c!"new"]) true ∧ filesL d.params = [c!"new.ini", c!"old.ini"] ∧
    lookup (dictsL d.params) c!"x" = some c!"old" ∧ d.tag = c!"d_e" :=
  ⟨_, rfl, by decide +kernel, by decide +kernel, by decide +kernel⟩

/-- **C37**: adding settings at the end: the new options win, the old default files win; the tag lists the added name -/
theorem add_end (d : DS) (n : Str) (ps : List PItem) (k : Str) :
    lookup (dictsL (d.add (some n) (some ps) false).params) k =
      (lookup (dictsL (standardizeParams ps)) k).or (lookup (dictsL d.params) k) ∧
    filesL (d.add (some n) (some ps) false).params = filesL d.params ++ filesL (standardizeParams ps) ∧
    (d.add (some n) (some ps) false).tag = join us (d.add (some n) (some ps) false).names := by
  have hd : ∀ a b : List PItem, dictsL (a ++ b) = dictsL a ++ dictsL b := by
    intro a b; induction a with
    | nil => rfl
    | cons p a ih => rw [List.cons_append, dictsL, dictsL, ih, List.append_assoc]
  have hf : ∀ a b : List PItem, filesL (a ++ b) = filesL a ++ filesL b := by
    intro a b; induction a with
    | nil => rfl
    | cons p a ih => rw [List.cons_append, filesL, filesL, ih, List.append_assoc]
  unfold DS.add
  simp only [Bool.false_eq_true, if_false]
  rw [hd, hf, lookup_append]
  exact ⟨rfl, rfl, trivial⟩

/-- every run samples (`action` 0), the minimising variant minimises; the other options it changes are fixed -/
theorem minimize_spec (j : Info) (d : Dict Str Str) (k : Str) :
    Dict.get? (setMinimize j d) k =
      if k = c!"sterile_mphys_max" ∧ c!"meffsterile" ∈ j.params then some c!"10000"
      else if k = c!"accuracy_level" ∧ c!"omegak" ∈ j.params then some c!"1.2"
      else if k = c!"lmin_store_all_cmb" then some c!"2500"
      else if k = c!"action" then some c!"2"
      else Dict.get? d k := by
  unfold setMinimize
  dsimp only
  have hc : ∀ s : Str, j.params.contains s = true ↔ s ∈ j.params := fun s => List.contains_iff_mem
  by_cases h1 : c!"meffsterile" ∈ j.params <;> by_cases h2 : c!"omegak" ∈ j.params <;>
    simp only [hc, h1, h2, if_true, if_false, and_true, and_false, Dict.get?_set]

/-- **C37**: the run file of an importance run: refused if the grid has a full run of the same name without the mark; otherwise its own
settings, then where to write, with its own default files before the common ones and the file of the parent last -/
theorem impIni_spec (g : GridOpts) (idefs : List Str) (l : List Job) (j imp : Info) (inis : List PItem) (hp : plainL inis = true) :
    (hasName l (replaceStr c!"_post" [] imp.name) = true → impIni g idefs l j imp inis false = .error .exception) ∧
    (hasName l (replaceStr c!"_post" [] imp.name) = false → ∃ ini, impIni g idefs l j imp inis false = .ok ini ∧
      Dict.get? ini.params c!"action" = some c!"1" ∧ Dict.get? ini.params c!"redo_outroot" = some imp.chainRoot ∧
      (∀ k, k ≠ c!"action" → k ≠ c!"redo_outroot" → (∀ s ∈ dictsL inis, s.WF) → Dict.get? ini.params k = lookup (dictsL inis) k) ∧
      ini.defaults = (filesL inis ++ idefs).map (g.commonPath ++ ·) ++ [j.iniFile []]) := by
  unfold impIni
  refine ⟨fun h => by rw [if_pos h], ?_⟩
  intro h
  rw [if_neg (by rw [h]; decide), updItems_spec, if_pos hp]
  refine ⟨_, rfl, ?_⟩
  simp only [Bool.false_eq_true, if_false]
  refine ⟨Dict.get?_set_self _ _ _, ?_, ?_, by simp⟩
  · rw [Dict.get?_set, if_neg (by decide), Dict.get?_set_self]
  · intro k h1 h2 hw
    rw [Dict.get?_set, if_neg h1, Dict.get?_set, if_neg h2, foldl_update hw]
    simp

example : ∃ ini, impIni exOpts [c!"imp.ini"] exGrid exJob.info
    (impInfo exJob.info ⟨[c!"lens"], [.file c!"lens.ini"], fun _ => true⟩) [.file c!"lens.ini"] false = .ok ini ∧
    ini.defaults = [c!"b/lens.ini", c!"b/imp.ini", c!"/g/iniFiles/base_w_plik_BAO.ini"] ∧
    Dict.get? ini.params c!"redo_outroot" = some c!"/g/base_w/plik_BAO/base_w_plik_BAO_post_lens" :=
  ⟨⟨_, _⟩, rfl, by decide +kernel, by decide +kernel⟩

end Verif.Batch
