import Verif.Model.PlotGrid
import Verif.Props.ParamNames
import Verif.Props.MergeRenames
import Verif.Props.PlotLayout
import Verif.Lemmas.Str
import Mathlib.Tactic.FieldSimp
import Mathlib.Tactic.Ring
import Mathlib.Algebra.Field.Rat

/-!
# Parameters, labels and colours of grids of plots
-/

namespace Verif.PlotGrid
open Verif.Py Verif.ParamNames

/-! ## Parameters -/

/-- a name without wildcards -/
def Plain (s : Str) : Prop := '?' ∉ s ∧ '*' ∉ s

/-- what a user may list: names that can be written and objects with plain names -/
def Listed : P → Prop
  | .str s => NameOK s
  | .info p => Plain p.name

theorem plain_of_listed {q : P} (h : Listed q) : Plain q.name := by
  cases q with
  | str s => exact ⟨fun hm => (h.2.1 _ hm).2.2 rfl, fun hm => (h.2.1 _ hm).2.1 rfl⟩
  | info p => exact h

theorem ofLine_name {s : Str} (h : NameOK s) : ofLine s = .ok { name := s } := by
  have h1 : splitWs1 s = [nameTag { name := s }] := by
    rw [splitWs1_one h.1 (fun c hc => (h.2.1 c hc).1)]
    simp [nameTag]
  exact setFromString_name (p := { name := s }) (q := {}) h rfl s [] h1

/-- the object made of an item of the list -/
def made : P → Info
  | .str s => { name := s }
  | .info p => p

theorem asInfo_made {q : P} (h : Listed q) : asInfo q = .ok (made q) := by
  cases q with
  | str s => exact ofLine_name h
  | info p => rfl

theorem mapM_asInfo {l : List P} (h : ∀ q ∈ l, Listed q) : l.mapM asInfo = .ok (l.map made) := by
  induction l with
  | nil => rfl
  | cons q l ih =>
    rw [List.mapM_cons, asInfo_made (h q (List.mem_cons_self ..)), ih (fun x hx => h x (List.mem_cons_of_mem _ hx))]
    rfl

/-- the parameter meant by an item: the first that shares a name with it, otherwise the given object -/
def Meant (ps : List Info) (r : Renames) (q : P) (i : Info) : Prop :=
  (∃ pre post, ps = pre ++ i :: post ∧ (∃ n, Means r q.name n ∧ KnownAs r i n) ∧ ∀ x ∈ pre, ¬ ∃ n, Means r q.name n ∧ KnownAs r x n) ∨
  ((∀ x ∈ ps, ¬ ∃ n, Means r q.name n ∧ KnownAs r x n) ∧ q = .info i)

theorem meant_of_getD (ps : List Info) (r : Renames) (q : P) (h : isStr q = true → (parWithName ps q.name r).isSome = true) :
    Meant ps r q ((parWithName ps q.name r).getD (made q)) := by
  cases hp : parWithName ps q.name r with
  | some p => exact Or.inl ((parWithName_first ps q.name r p).mp hp)
  | none =>
    refine Or.inr ⟨((parWithName_none ps q.name r).1).mp hp, ?_⟩
    cases q with
    | str s => rw [hp] at h; exact absurd (h rfl) (by decide)
    | info p => rfl

theorem expand_plain (ps : List Info) (r : Renames) {s : Str} (h : Plain s) : expandName ps r s = [parWithName ps s r] := by
  have : (s.contains '?' || s.contains '*') = false := by simp [h.1, h.2]
  simp only [expandName, this, Bool.false_eq_true, if_false]

theorem parsWithNames_flags (ps : List Info) (r : Renames) (l : List P) : parsWithNames ps (l.map P.name) (l.map isStr) r =
    parsLoop ps r (l.map (fun q => (q.name, isStr q))) := by
  unfold parsWithNames
  simp only [List.length_map, Nat.lt_irrefl, if_false]
  congr 1
  induction l with
  | nil => rfl
  | cons q l ih => simp [ih]

/-- **A list of names and objects gives one parameter for each item**, in order: the first one known under that name, or the object itself when the
root does not have it. -/
theorem param_array (pick : List Str → Str) (ps : List Info) (l : List P) (renames : Renames) (hne : l ≠ []) (hl : ∀ q ∈ l, Listed q)
    (hk : ∀ q ∈ l, isStr q = true → (parWithName ps q.name (useRenames pick l renames)).isSome = true) :
    ∃ res, getParamArray pick ps (.list l) renames = .ok res ∧ List.Forall₂ (Meant ps (useRenames pick l renames)) l res := by
  have hloop := parsLoop_spec ps (useRenames pick l renames) (l.map (fun q => (q.name, isStr q)))
  cases hp : parsLoop ps (useRenames pick l renames) (l.map (fun q => (q.name, isStr q))) with
  | error e =>
    rw [hp] at hloop
    obtain ⟨n, _, hmem, hnone⟩ := hloop
    obtain ⟨q, hq, he⟩ := List.mem_map.mp hmem
    obtain ⟨rfl, hs⟩ := Prod.mk.inj he
    rw [expand_plain _ _ (plain_of_listed (hl q hq)), List.mem_singleton] at hnone
    have := hk q hq hs
    rw [← hnone] at this
    exact absurd this (by decide)
  | ok res =>
    rw [hp] at hloop
    have hres : res = l.map (fun q => parWithName ps q.name (useRenames pick l renames)) := by
      rw [hloop.1, List.flatMap_map, List.map_eq_flatMap]
      refine List.flatMap_congr (fun q hq => ?_)
      exact expand_plain _ _ (plain_of_listed (hl q hq))
    refine ⟨l.map (fun q => (parWithName ps q.name (useRenames pick l renames)).getD (made q)), ?_, ?_⟩
    · simp only [getParamArray, if_neg hne, mapM_asInfo hl, parsWithNames_flags, hp, hres, liftN, bind, Except.bind]
      congr 1
      clear hp hloop hres hk hl hne
      generalize useRenames pick l renames = r
      induction l with
      | nil => rfl
      | cons q l ih => simp [orOld, ih]
    · rw [List.forall₂_map_right_iff, List.forall₂_same]
      exact fun q hq => meant_of_getD ps _ q (hk q hq)

example : getParamArray (fun l => l.headD []) [{ name := c!"a" }, { name := c!"b" }] (.list [.str c!"b", .info { name := c!"n" }]) [] = .ok [{ name := c!"b" }, { name := c!"n" }] := by decide

/-- an unknown name given as text is an error -/
theorem param_array_unknown (pick : List Str → Str) (ps : List Info) (l : List P) (renames : Renames) (hl : ∀ q ∈ l, Listed q) (s : Str)
    (hs : P.str s ∈ l) (hu : parWithName ps s (useRenames pick l renames) = none) : ∃ e, getParamArray pick ps (.list l) renames = .error e := by
  have hne : l ≠ [] := List.ne_nil_of_mem hs
  have hloop := parsLoop_spec ps (useRenames pick l renames) (l.map (fun q => (q.name, isStr q)))
  cases hp : parsLoop ps (useRenames pick l renames) (l.map (fun q => (q.name, isStr q))) with
  | error e =>
    refine ⟨.names e, ?_⟩
    simp only [getParamArray, if_neg hne, mapM_asInfo hl, parsWithNames_flags, hp, liftN, bind, Except.bind]
  | ok res =>
    rw [hp] at hloop
    have := hloop.2 (s, true) (List.mem_map.mpr ⟨.str s, hs, rfl⟩) rfl
    rw [expand_plain _ _ (show Plain (s, true).1 from plain_of_listed (hl _ hs)), hu] at this
    exact absurd (List.mem_singleton.mpr rfl) this

/-- one pattern as text gives all the parameters it matches; nothing gives all parameters -/
theorem param_array_pattern (pick : List Str → Str) (ps : List Info) (s : Str) (renames : Renames) (h : ¬ Plain s) :
    getParamArray pick ps (.str s) renames = .ok (ps.filter (fun p => fnmatchcase p.name s)) := by
  have hg : (s.contains '?' || s.contains '*') = true := by
    unfold Plain at h
    by_cases h1 : '?' ∈ s
    · simp [h1]
    · have h2 : '*' ∈ s := by
        by_contra h2
        exact h ⟨h1, h2⟩
      simp [h2]
  have hs : s ≠ [] := by rintro rfl; exact absurd hg (by decide)
  simp only [getParamArray, if_neg hs, parsWithNames, List.length_singleton, Nat.lt_irrefl, if_false, List.zip_cons_cons, List.zip_nil_right,
    parsLoop, hg, if_true, liftN, Except.map, allFound, getMatches, List.append_nil]
  rw [List.filterMap_map]
  simp

def parX : List Info := [{ name := c!"x0" }, { name := c!"x1" }, { name := c!"y" }]

example : getParamArray (fun l => l.headD []) parX (.list [.str c!"y", .info { name := c!"z" }, .info { name := c!"w", renames := [c!"x1"] }]) [] =
    .ok [{ name := c!"y" }, { name := c!"z" }, { name := c!"x1" }] := by decide

/-- the full statement: a pattern may be given in a list (the documentation of `triangle_plot`: "can also use glob patterns to match groups of
parameters") -/
def PatternInList : Prop := ∀ (ps : List Info) (s : Str), getParamArray (fun l => l.headD []) ps (.list [.str s]) [] =
  getParamArray (fun l => l.headD []) ps (.str s) []

/-- A pattern in a list of parameters only gives its first match: the list of matches is zipped with the list of items
(plots.py:1800-1801). -/
theorem pattern_list_fails : ¬ PatternInList := by
  intro h
  exact absurd (h parX c!"x*") (by decide)

/-- A pattern with `?` in a list is an error: a `ParamInfo` is made of the text first (plots.py:1799). -/
theorem pattern_question_fails : ¬ ∀ (ps : List Info) (s : Str), (∃ p ∈ ps, fnmatchcase p.name s = true) →
    ∃ res, getParamArray (fun l => l.headD []) ps (.list [.str s]) [] = .ok res := by
  intro h
  obtain ⟨res, hr⟩ := h parX c!"x?" (by decide)
  have : getParamArray (fun l => l.headD []) parX (.list [.str c!"x?"]) [] = .error (.names (.badName c!"x?")) := by decide
  rw [this] at hr
  exact absurd hr (by simp)

/-- `_check_param` of an object: the first parameter that shares a name with it, its own aliases and those of the table for its own name counted -/
theorem check_partial (ps : List Info) (p : Info) (renames : Renames) : ∃ o, checkParam ps (.info p) renames = .ok o ∧
    ∀ i, o = some i ↔ ∃ pre post, ps = pre ++ i :: post ∧ (∃ n, (n = p.name ∨ n ∈ p.renames ∨ n ∈ aliasesOf renames p.name) ∧
        (n = i.name ∨ n ∈ i.renames ∨ (i.name = p.name ∧ (n ∈ p.renames ∨ n ∈ aliasesOf renames p.name)))) ∧
      ∀ x ∈ pre, ¬ ∃ n, (n = p.name ∨ n ∈ p.renames ∨ n ∈ aliasesOf renames p.name) ∧
        (n = x.name ∨ n ∈ x.renames ∨ (x.name = p.name ∧ (n ∈ p.renames ∨ n ∈ aliasesOf renames p.name))) := by
  have key : ∃ r : Renames, checkParam ps (.info p) renames = .ok (parWithName ps p.name r) ∧ ∀ k, r.get? k = if p.name = k then
      some (aliasesOf renames p.name ++ p.renames) else none := by
    by_cases h : renames = []
    · refine ⟨[(p.name, p.renames)], ?_, fun k => ?_⟩
      · simp only [checkParam, if_pos h, parWithNameE]
        cases parWithName ps p.name [(p.name, p.renames)] <;> rfl
      · subst h
        rw [Dict.get?_cons]
        by_cases hk : p.name = k <;> simp [hk, aliasesOf, Dict.get?]
    · refine ⟨[(p.name, aliasesOf renames p.name ++ p.renames)], ?_, fun k => ?_⟩
      · simp only [checkParam, if_neg h, parWithNameE]
        cases parWithName ps p.name [(p.name, aliasesOf renames p.name ++ p.renames)] <;> rfl
      · rw [Dict.get?_cons]
        by_cases hk : p.name = k <;> simp [hk, Dict.get?]
  obtain ⟨r, hr, hget⟩ := key
  refine ⟨_, hr, fun i => ?_⟩
  rw [parWithName_first]
  have hm : ∀ n, Means r p.name n ↔ (n = p.name ∨ n ∈ p.renames ∨ n ∈ aliasesOf renames p.name) := by
    intro n
    unfold Means
    rw [hget, if_pos rfl]
    simp only [Option.some.injEq, exists_eq_left', List.mem_append]
    rw [or_comm (a := n ∈ aliasesOf renames p.name)]
  have hkn : ∀ (x : Info) n, KnownAs r x n ↔ (n = x.name ∨ n ∈ x.renames ∨ (x.name = p.name ∧ (n ∈ p.renames ∨ n ∈ aliasesOf renames p.name))) := by
    intro x n
    unfold KnownAs
    rw [hget]
    by_cases hk : p.name = x.name
    · rw [if_pos hk]
      simp only [Option.some.injEq, exists_eq_left', List.mem_append, hk, true_and]
      rw [or_comm (a := n ∈ aliasesOf renames x.name)]
    · simp [hk, Ne.symm hk]
  simp only [hm, hkn]

example : checkParam parX (.info { name := c!"w", renames := [c!"x1"] }) [] = .ok (some { name := c!"x1" }) := by decide

/-- The documentation of `_check_param`: "returns the original ParamInfo if ParamInfo was passed" when it is not found; none is returned
(plots.py:1825-1826), so `plots_2d` and `plots_1d` with `roots_per_param` fail with an AttributeError. -/
theorem check_original_fails : ¬ ∀ (ps : List Info) (p : Info), (∀ q ∈ ps, q.name ≠ p.name ∧ q.renames = []) → p.renames = [] →
    checkParam ps (.info p) [] = .ok (some p) := by
  intro h
  exact absurd (h [] { name := c!"a" } (by simp) rfl) (by decide)

/-- With `param_renames` a name finds a parameter through the table, an object of the same name does not: the table is replaced by its entry for
the name of the object (plots.py:1819-1820). -/
theorem check_renames_fails : ¬ ∀ (ps : List Info) (n : Str) (r : Renames) (p : Info), checkParam ps (.str n) r = .ok (some p) →
    checkParam ps (.info { name := n }) r = .ok (some p) := by
  intro h
  exact absurd (h [{ name := c!"b" }] c!"a" [(c!"b", [c!"a"])] { name := c!"b" } (by decide)) (by decide)

/-! ## Labels -/

/-- the number of roots that are there -/
def present (roots : List Root) : Nat := (roots.filter (fun r => decide (r ≠ .none))).length

theorem zipIdx_filter (l : List Root) : ∀ s, ((l.zipIdx s).filter (fun p => decide (p.1 ≠ .none))).length = (l.filter (fun r => decide (r ≠ .none))).length := by
  induction l with
  | nil => intro s; rfl
  | cons a l ih =>
    intro s
    rw [List.zipIdx_cons]
    by_cases h : a = .none
    · simpa [h] using ih (s + 1)
    · simpa [h] using ih (s + 1)

/-- **one label per root that is there**, if there is more than one root -/
theorem labels_count (usetex : Bool) (load : Str → Samples) (roots : List Root) :
    (legendLabels usetex load none roots).length = if roots.length < 2 then 0 else present roots := by
  unfold legendLabels
  dsimp only
  split_ifs
  · rfl
  · rw [List.length_map]
    exact zipIdx_filter roots 0

theorem orNumber_ne (t : Option Str) (i : Nat) : orNumber t i ≠ [] := by
  unfold orNumber
  split <;> simp

theorem escape_ne (usetex : Bool) {t : Str} (h : t ≠ []) : escapeLatex usetex t ≠ [] := by
  cases usetex with
  | false => exact h
  | true =>
    cases t with
    | nil => exact absurd rfl h
    | cons c cs =>
      change (if (c == '_') = true then _ else [c]) ++ replaceChar '_' c!"{\\textunderscore}" cs ≠ []
      split
      · exact List.cons_ne_nil _ _
      · exact List.cons_ne_nil _ _

/-- no text, or an empty one -/
def Empty (t : Option Str) : Prop := ∀ s, t = some s → s = []

theorem orNumber_some {t : Str} (h : t ≠ []) (i : Nat) : orNumber (some t) i = t := by
  cases t with
  | nil => exact absurd rfl h
  | cons c cs => rfl

/-- **the label of samples: their label**, else their name, else their number -/
theorem samples_label (usetex : Bool) (load : Str → Samples) (s : Samples) (i : Nat) :
    (∀ t, t ≠ [] → s.label = some t → displayName usetex load (.samples s) i = .text t) ∧
    (∀ t, t ≠ [] → Empty s.label → s.name = some t → displayName usetex load (.samples s) i = .text (escapeLatex usetex t)) ∧
    (Empty s.label → Empty s.name → displayName usetex load (.samples s) i = .text (c!"samples" ++ strNat i)) := by
  obtain ⟨l, n⟩ := s
  have hor : Empty l → ∀ y, orText l y = y := by
    intro h y
    cases l with
    | none => rfl
    | some t => rw [h t rfl]; rfl
  refine ⟨?_, ?_, ?_⟩
  · rintro t ht rfl
    refine congrArg Label.text ?_
    cases t with
    | nil => exact absurd rfl ht
    | cons c cs => rfl
  · rintro t ht hl rfl
    refine congrArg Label.text ?_
    rw [samplesName, Samples.getLabel, hor hl]
    exact orNumber_some (escape_ne usetex ht) i
  · intro hl hn
    refine congrArg Label.text ?_
    rw [samplesName, Samples.getLabel, hor hl]
    cases n with
    | none => rfl
    | some t =>
      rw [hn t rfl]
      cases usetex <;> rfl

example : displayName true (fun _ => {}) (.samples { label := some c!"Planck", name := some c!"my_chain" }) 2 = .text c!"Planck" ∧
    displayName true (fun _ => {}) (.samples { name := some c!"my_chain" }) 2 = .text c!"my{\\textunderscore}chain" ∧ displayName true (fun _ => {}) (.samples {}) 2 = .text c!"samples2" := by decide

example : legendLabels false (fun _ => {}) none [.samples { label := some c!"Planck" }, .none, .samples { name := some c!"my_chain" }, .samples {}] =
    [.text c!"Planck", .text c!"my_chain", .text c!"samples3"] := by decide

/-- samples without label and name have different labels -/
theorem anonymous_distinct (usetex : Bool) (load : Str → Samples) (i j : Nat) (h : displayName usetex load (.samples {}) i = displayName usetex load (.samples {}) j) :
    i = j := by
  have h2 : c!"samples" ++ strNat i = c!"samples" ++ strNat j := Label.text.inj h
  exact strNat_injective (List.append_cancel_left h2)

/-- no label is empty -/
theorem label_nonempty (usetex : Bool) (load : Str → Samples) (r : Root) (i : Nat) (hr : ∀ l, r ≠ .group l) :
    ∃ t, displayName usetex load r i = .text t ∧ (t = [] → r = .str []) := by
  cases r with
  | samples s => exact ⟨_, rfl, fun h => absurd h (orNumber_ne _ _)⟩
  | none => exact ⟨_, rfl, fun h => absurd h (by simp)⟩
  | group l => exact absurd rfl (hr l)
  | str s =>
    unfold displayName
    dsimp only
    by_cases h : (contains (samplesName usetex (load s) i) s && contains c!"/" s) = true
    · rw [if_pos h]
      refine ⟨_, rfl, fun he => ?_⟩
      by_contra hs
      exact escape_ne usetex (fun h0 => hs (congrArg Root.str h0)) he
    · rw [if_neg h]
      exact ⟨_, rfl, fun he => absurd he (orNumber_ne _ _)⟩

example : displayName false (fun _ => {}) .none 4 = .text c!"samples4" ∧ displayName false (fun s => { name := some s }) (.str c!"base") 4 = .text c!"base" := by decide

/-- the full statement: chains of the same name in different directories have different labels -/
def PathsTold (usetex : Bool) : Prop := ∀ (load : Str → Samples) (a b : Str) (i j : Nat), a ≠ b → contains c!"/" a = true → contains c!"/" b = true →
  (∀ s, load s = { name := some ((s.reverse.takeWhile (· ≠ '/')).reverse) }) → displayName usetex load (.str a) i ≠ displayName usetex load (.str b) j

/-- without LaTeX the labels are the root names given -/
theorem paths_partial (load : Str → Samples) (a b : Str) (i j : Nat) (h : a ≠ b) (ha : contains c!"/" a = true) (hb : contains c!"/" b = true)
    (hla : contains (samplesName false (load a) i) a = true) (hlb : contains (samplesName false (load b) j) b = true) :
    displayName false load (.str a) i = .text a ∧ displayName false load (.str a) i ≠ displayName false load (.str b) j := by
  have h1 : displayName false load (.str a) i = .text a := by
    simp only [displayName, hla, ha, Bool.and_self, if_true, escapeLatex, Bool.false_eq_true, if_false]
  have h2 : displayName false load (.str b) j = .text b := by
    simp only [displayName, hlb, hb, Bool.and_self, if_true, escapeLatex, Bool.false_eq_true, if_false]
  rw [h1, h2]
  exact ⟨rfl, fun e => h (Label.text.inj e)⟩

example : displayName false (fun _ => { name := some c!"base" }) (.str c!"g1/base") 0 = .text c!"g1/base" ∧ displayName false (fun _ => { name := some c!"base" }) (.str c!"g2/base") 1 = .text c!"g2/base" := by decide

/-- With LaTeX (`text.usetex`) two chains with the same name (with an underscore) in different directories get the same label: the label is escaped before it is looked for in the
root name (plots.py:2012-2013), so the directory is not shown. -/
theorem usetex_paths_fails : ¬ PathsTold true := by
  intro h
  refine h (fun s => { name := some ((s.reverse.takeWhile (· ≠ '/')).reverse) }) c!"a/c_1" c!"b/c_1" 0 1 (by decide) (by decide) (by decide) (fun _ => rfl) ?_
  decide

/-- With `roots_per_param` the default legend labels are lists of roots, one per parameter (plots.py:2107-2108: the labels are made of
`roots`, which is a list of lists). -/
theorem per_param_labels_fails : ¬ ∀ (load : Str → Samples) (roots : List (List Str)), ∀ l ∈ legendLabels false load none (roots.map .group), ∃ t, l = .text t := by
  intro h
  obtain ⟨t, ht⟩ := h (fun _ => {}) [[c!"a"], [c!"a", c!"b"]] (.list [c!"a"]) (by decide)
  exact absurd ht (by simp)

/-! ## Which plots -/

/-- with names as values of `param_renames`: kept exactly if the name or its new name is in the list -/
theorem listed_partial (wanted : List Str) (renames : Dict Str Ren) (p : Info) (hw : [] ∉ wanted) (hr : ∀ k l, renames.get? k ≠ some (.many l)) :
    listed wanted renames p = true ↔ p.name ∈ wanted ∨ ∃ s ∈ wanted, renames.get? p.name = some (.one s) := by
  unfold listed
  by_cases h0 : renames = []
  · subst h0; simp [Dict.get?]
  · cases hg : renames.get? p.name with
    | none => simp [renWanted, hw]
    | some v =>
      cases v with
      | one s => simp [renWanted, h0]
      | many l => exact absurd hg (hr _ l)

example : listed [c!"b"] [(c!"a", .one c!"b")] { name := c!"a" } = true ∧ listed [c!"b"] [(c!"a", .one c!"c")] { name := c!"a" } = false := by decide

/-- A parameter with a list of new names is left out even if one of them is wanted: the list itself is looked for among the names (plots.py:2083-2085). -/
theorem list_rename_fails : ¬ ∀ (wanted : List Str) (renames : Dict Str Ren) (p : Info) (l : List Str) (s : Str), renames.get? p.name = some (.many l) →
    s ∈ l → s ∈ wanted → listed wanted renames p = true := by
  intro h
  exact absurd (h [c!"b"] [(c!"a", .many [c!"b"])] { name := c!"a" } [c!"b"] c!"b" (by decide) (by decide) (by decide)) (by decide)

/-- **`plots_1d` shows every parameter once**, in order, each in its own place; the ticks are left out exactly in the columns after the first when the y
axis is shared. -/
theorem plots1d_spec (params : List Info) (hne : params ≠ []) (shareY : Option Bool) (probLabel : Bool) (nx : Option Nat) :
    ∃ cells, plots1d params shareY probLabel nx = .ok cells ∧ cells.map (·.param) = params ∧ (cells.map (·.place)).Nodup ∧
      ∀ c ∈ cells, c.noTicks = true ↔ (shareAndCols shareY probLabel params.length nx).1 = true ∧ c.place.1 ≠ 0 := by
  have hn : 0 < params.length := List.length_pos_of_ne_nil hne
  obtain ⟨c, r, h1, hc, h2, _, _⟩ := PlotLayout.grid_fits params.length hn (shareAndCols shareY probLabel params.length nx).2
  refine ⟨params.zipIdx.map (cell1 c (shareAndCols shareY probLabel params.length nx).1), by simp only [plots1d, h1], ?_, ?_, ?_⟩
  · rw [List.map_map]
    exact List.zipIdx_map_fst 0 params
  · rw [List.map_map]
    have : params.zipIdx.map ((fun x : Cell1 => x.place) ∘ cell1 c (shareAndCols shareY probLabel params.length nx).1) =
        (params.zipIdx.map Prod.snd).map (PlotLayout.place c) := by
      rw [List.map_map]; rfl
    rw [this, List.zipIdx_map_snd]
    exact List.Nodup.map (fun i j h => (PlotLayout.place_ok c r params.length hc h2).2 i j h) List.nodup_range'
  · intro x hx
    obtain ⟨q, _, rfl⟩ := List.mem_map.mp hx
    simp [cell1, PlotLayout.place, Nat.pos_iff_ne_zero]

example : (plots1d [{ name := c!"a" }, { name := c!"b" }, { name := c!"c" }] (some true) false (some 2)).map (fun l => l.map (fun c => (c.place, c.param.name, c.noTicks))) =
    .ok [((0, 0), c!"a", false), ((1, 0), c!"b", true), ((0, 1), c!"c", false)] := by decide

/-- the full statement: `share_y=False` is the same as not sharing by default -/
def NotShared : Prop := ∀ (params : List Info) (nx : Option Nat), plots1d params (some false) false nx = plots1d params none false nx

/-- With `share_y=False` fewer than six plots are put in one row (plots.py:2089-2090), with the default they are not. -/
theorem not_shared_fails : ¬ NotShared := by
  intro h
  exact absurd (h [{ name := c!"a" }, { name := c!"b" }, { name := c!"c" }, { name := c!"d" }] none) (by decide)

/-- the pairs of `plots_2d`: the x parameter with every other one, in order -/
theorem pairs_spec (pick : List Str → Str) (ps : List Info) (s : Str) (p : Info) (params2 : Params) (l : List Info) (h1 : parWithName ps s [] = some p)
    (h2 : getParamArray pick ps params2 [] = .ok l) :
    pairsFrom pick ps (.str s) params2 = .ok ((l.filter (fun q => decide (q.name ≠ p.name))).map (fun q => (p, q))) := by
  simp [pairsFrom, checkParam, parWithNameE, h1, h2, liftN, bind, Except.bind]

example : (pairsFrom (fun l => l.headD []) parX (.str c!"x1") .none).map (·.map (fun q => (q.1.name, q.2.name))) =
    .ok [(c!"x1", c!"x0"), (c!"x1", c!"y")] := by decide

/-- An x parameter given as an object that the first root does not have is an AttributeError instead of an error that says so (plots.py:2147, 2150). -/
theorem pairs_object_fails : ¬ ∀ (ps : List Info) (p : Info), pairsFrom (fun l => l.headD []) ps (.info p) .none ≠ .error .attribute := by
  intro h
  exact h parX { name := c!"w" } (by decide)

/-- without a maximum: one plot for every other parameter; at most `max_z` plots -/
theorem sets_partial (params : List Info) (maxZ : Option Nat) (x y : Info) :
    (∀ z, (x, y, z) ∈ setsZ params none x y ↔ z ∈ params ∧ z ≠ x ∧ z ≠ y) ∧ (setsZ params maxZ x y).Sublist (setsZ params none x y) ∧
    ∀ m, maxZ = some m → (setsZ params maxZ x y).length ≤ m := by
  refine ⟨fun z => ?_, ?_, ?_⟩
  · simp [setsZ]
  · unfold setsZ
    refine List.Sublist.map _ (List.Sublist.filter _ ?_)
    cases maxZ with
    | none => exact List.Sublist.refl _
    | some m => exact List.take_sublist m params
  · rintro m rfl
    unfold setsZ
    rw [List.length_map]
    exact le_trans (List.length_filter_le _ _) (by simp)

/-- `max_z` is applied before the x and y parameters are left out (plots.py:2992-2995): with `max_z=2` and the first two parameters as x and y there is no plot at all. -/
theorem max_z_fails : ¬ ∀ (params : List Info) (m : Nat) (x y : Info), (setsZ params (some m) x y).length = min m (setsZ params none x y).length := by
  intro h
  exact absurd (h parX 2 { name := c!"x0" } { name := c!"x1" }) (by decide)

/-- without limits the axes of `plot_3d` are labelled by the parameters of the first root -/
theorem axis_partial {α : Type} (given : Option α) (forPlots : List α) : axisParams given forPlots false = forPlots.head? := rfl

/-- With limits the axes of `plot_3d` are labelled by the parameters of the last root, and for one root with `params_for_plots` there are none (an error): the variable `params` is used
again in the loop (plots.py:2932, 2941). -/
theorem axis_labels_fails : ¬ ∀ (given : Option Nat) (forPlots : List Nat) (lims : Bool), (∀ p, given = some p → ∀ q ∈ forPlots, q = p) → forPlots ≠ [] →
    axisParams given forPlots lims = forPlots.head? := by
  intro h
  exact absurd (h none [1, 2] true (by simp) (by decide)) (by decide)

example : axisParams (some 7) [7, 7] true = some 7 ∧ axisParams (none : Option Nat) [1] true = none := by decide

/-! ## Size of the figure -/

section
set_option linter.unusedSectionVars false
variable {K : Type} [Field K] [DecidableEq K]

/-- the stretch in y that is used -/
def stretchY (s : Size K) (ystretch : K) : K := match s.ratio with
  | some r => if r = 0 then ystretch else ystretch * r
  | none => ystretch

/-- **The columns fill the width of the figure** and every subplot has the wanted shape: height * xstretch = width * ystretch. -/
theorem figure_shape (s : Size K) (col row : Nat) (xs ys : K) (hc : (col : K) ≠ 0) (hr : (row : K) ≠ 0) (hx : xs ≠ 0) {w h a : K}
    (he : figureSize s col row xs ys = (w, h, a)) : a * col = w ∧ (h / row) * xs = (w / col) * stretchY s ys ∧
    (∀ v, s.widthInch = some v → w = v) ∧ (s.widthInch = none → a = s.subplotInch * xs) := by
  obtain ⟨wi, si, ra⟩ := s
  cases wi with
  | none =>
    simp only [figureSize, Prod.mk.injEq] at he
    obtain ⟨rfl, rfl, rfl⟩ := he
    refine ⟨by ring, ?_, by simp, by simp⟩
    unfold stretchY
    field_simp
    cases ra with
    | none => rfl
    | some r => dsimp only; split_ifs <;> ring
  | some v =>
    simp only [figureSize, Prod.mk.injEq] at he
    obtain ⟨rfl, rfl, rfl⟩ := he
    refine ⟨by field_simp, ?_, by simp, by simp⟩
    unfold stretchY
    field_simp
    cases ra with
    | none => rfl
    | some r => dsimp only; split_ifs <;> ring

example : figureSize ({ widthInch := some 6, subplotInch := 2, ratio := some (1/2) } : Size ℚ) 3 2 1 1 = (6, 2, 2) := by decide +kernel

/-! ## Colours -/

theorem paler_iter (p : K) (c : List K) (k : Nat) : (paler p)^[k] c = c.map (fun x => 1 - (1 - x) * (1 - p) ^ k) := by
  induction k with
  | zero => simp
  | succ k ih =>
    rw [Function.iterate_succ_apply', ih, paler, List.map_map]
    refine List.map_congr_left (fun x _ => ?_)
    simp only [Function.comp]
    ring

theorem palerLoop_eq (p : K) : ∀ (n : Nat) (c : List K) (rest : List (List K)),
    palerLoop p n (c :: rest) = ((List.range n).map (fun k => (paler p)^[n - k] c)) ++ c :: rest := by
  intro n
  induction n with
  | zero => intro c rest; rfl
  | succ n ih =>
    intro c rest
    rw [palerLoop, List.headD_cons, ih, List.range_succ, List.map_append, List.append_assoc]
    refine congrArg₂ (· ++ ·) (List.map_congr_left (fun k hk => ?_)) ?_
    · have hk' : k < n := List.mem_range.mp hk
      rw [show n + 1 - k = (n - k) + 1 by omega, Function.iterate_succ_apply]
    · simp

/-- **the colours of the contours**: one for each level, the given colour innermost, each step outwards mixed with white by the factor -/
theorem palerColors_spec (setting : K) (color : List K) (n k : Nat) (hk : k < max 1 n) :
    (palerColors setting none color n).length = max 1 n ∧
    (palerColors setting none color n)[max 1 n - 1 - k]? = some (color.map (fun x => 1 - (1 - x) * (1 - setting) ^ k)) := by
  unfold palerColors
  dsimp only
  rw [palerLoop_eq]
  have hl : ((List.range (n - 1)).map (fun k => (paler setting)^[n - 1 - k] color)).length = n - 1 := by simp
  refine ⟨by rw [List.length_append, hl]; simp; omega, ?_⟩
  by_cases h0 : k = 0
  · subst h0
    rw [show max 1 n - 1 - 0 = n - 1 by omega, List.getElem?_append_right (by omega), hl]
    simp
  · rw [List.getElem?_append_left (by omega), List.getElem?_map, List.getElem?_range (by omega), Option.map_some]
    rw [show n - 1 - (max 1 n - 1 - k) = k by omega, paler_iter]

example : palerColors (1/2 : ℚ) none [0, 1] 3 = [[3/4, 1], [1/2, 1], [0, 1]] := by decide +kernel

/-- A factor of zero is not used: `pale_factor or setting` (plots.py:1004), so contours cannot be given all the same colour that way. -/
theorem zero_factor_fails : ¬ ∀ (s : ℚ) (c : List ℚ) (n : Nat), palerColors s (some 0) c n = List.replicate (max 1 n) c := by
  intro h
  exact absurd (h (1/2) [0] 2) (by decide +kernel)

end

/-- **The 1D line of a root has the colour of its innermost filled contour.** -/
theorem line_matches_contour (pale : Str → Nat → Str) (nLevels : Nat) (solid : List Color) (own : Option Color) (n plotno : Nat) (s : Str)
    (h : filledLine solid own n plotno = .ok s) : ∃ c, filledColor solid own n plotno = .ok c ∧ (contourColors pale nLevels c).getLast? = some s := by
  unfold filledLine at h
  cases hc : filledColor solid own n plotno with
  | error e => rw [hc] at h; simp at h
  | ok c =>
    rw [hc] at h
    refine ⟨c, rfl, ?_⟩
    cases c with
    | one t =>
      obtain rfl : t = s := Except.ok.inj h
      simp [contourColors]
    | many l =>
      simp only [lineColor] at h
      cases hl : l.getLast? with
      | none => rw [hl] at h; simp at h
      | some t =>
        rw [hl] at h
        obtain rfl : t = s := Except.ok.inj h
        exact hl

/-- the setting is used from the last root on: the last root has the first colour -/
theorem filledColor_last (solid : List Color) (n plotno : Nat) (h : plotno < n) (c : Color) :
    filledColor solid none n plotno = .ok c ↔ solid[n - 1 - plotno]? = some c := by
  unfold filledColor colorAt
  dsimp only
  rw [show n - plotno - 1 = n - 1 - plotno by omega]
  cases solid[n - 1 - plotno]? <;> simp

example : filledColor [.one c!"r", .one c!"b"] none 2 0 = .ok (.one c!"b") ∧ filledColor [.one c!"r", .one c!"b"] none 2 1 = .ok (.one c!"r") := by decide

example : filledLine [.one c!"r", .many [c!"pale", c!"b"]] none 2 0 = .ok c!"b" ∧ filledLine [.one c!"r"] none 2 0 = .error .index := by decide

/-! ## The roots of the 1D plots -/

theorem roots1d_spec {α β : Type} [DecidableEq α] : ∀ (l : List (α × β × Bool)) (a : List α) (b : List β), a.length = b.length →
    ∃ extra : List (α × β), roots1d (a, b) l = (a ++ extra.map Prod.fst, b ++ extra.map Prod.snd) ∧
      (∀ e ∈ extra, (e.1, e.2, true) ∈ l ∧ e.1 ∉ a) ∧ (extra.map Prod.fst).Nodup ∧
      ∀ x y, (x, y, true) ∈ l → x ∈ a ∨ x ∈ extra.map Prod.fst := by
  intro l
  induction l with
  | nil => intro a b _; exact ⟨[], by simp [roots1d], by simp, by simp, by simp⟩
  | cons q l ih =>
    intro a b hab
    obtain ⟨root, arg, sh⟩ := q
    by_cases h : (sh && !a.contains root) = true
    · have hs : sh = true ∧ root ∉ a := by simpa using h
      obtain ⟨extra, h1, h2, h3, h4⟩ := ih (a ++ [root]) (b ++ [arg]) (by simp [hab])
      refine ⟨(root, arg) :: extra, ?_, ?_, ?_, ?_⟩
      · rw [roots1d]
        dsimp only
        rw [if_pos h, h1]
        simp
      · intro e he
        rcases List.mem_cons.mp he with rfl | he
        · exact ⟨by simp [hs.1], hs.2⟩
        · have := h2 e he
          exact ⟨List.mem_cons_of_mem _ this.1, fun hm => this.2 (by simp [hm])⟩
      · rw [List.map_cons, List.nodup_cons]
        refine ⟨fun hm => ?_, h3⟩
        obtain ⟨e, he, hr⟩ := List.mem_map.mp hm
        exact (h2 e he).2 (by simp [hr])
      · intro x y hx
        rcases List.mem_cons.mp hx with he | he
        · obtain rfl : x = root := (Prod.mk.inj he).1
          right; simp
        · rcases h4 x y he with h5 | h5
          · rcases List.mem_append.mp h5 with h6 | h6
            · exact Or.inl h6
            · right; simp [List.mem_singleton.mp h6]
          · right; simp [h5]
    · obtain ⟨extra, h1, h2, h3, h4⟩ := ih a b hab
      refine ⟨extra, ?_, fun e he => ⟨List.mem_cons_of_mem _ (h2 e he).1, (h2 e he).2⟩, h3, ?_⟩
      · rw [roots1d]
        dsimp only
        rw [if_neg h, h1]
      · intro x y hx
        rcases List.mem_cons.mp hx with he | he
        · obtain ⟨rfl, _, rfl⟩ : x = root ∧ y = arg ∧ true = sh := by
            obtain ⟨h5, h6⟩ := Prod.mk.inj he
            exact ⟨h5, Prod.mk.inj h6⟩
          left
          simpa using h
        · exact h4 x y he

example : roots1d ([1, 2], ["a", "b"]) [(2, "c", true), (3, "d", true), (4, "e", false), (3, "f", true)] = ([1, 2, 3], ["a", "b", "d"]) := by decide

end Verif.PlotGrid
