import Verif.Props.Analyser
import Verif.Props.BatchArgs

/-!
# Which file and which settings the plotter uses for a chain name
-/

namespace Verif.Analyser
set_option linter.unusedSectionVars false
set_option linter.unusedSimpArgs false
open Verif.Py Verif.ParamNames

variable {S D G U : Type} [DecidableEq S]

/-! ## Specification -/

/-- the file root a location gives for a name -/
def locFile (root : Str) : Loc → Option Str
  | .grid resolve _ => (resolve root).map (·.1)
  | .dir find _ => find root

/-- the value a location's own settings give to a key: the job's before the grid's, or the directory's `getdist.ini` -/
def locValue (root : Str) (k : Str) : Loc → Option Str
  | .grid resolve options => ((((resolve root).map Prod.snd).getD [] : Settings).get? k).or (options.get? k)
  | .dir _ ini => (ini.getD []).get? k

/-- dictionaries have distinct keys -/
def LocWF (root : Str) : Loc → Prop
  | .grid resolve options => options.WF ∧ ∀ p, resolve root = some p → Dict.WF p.2
  | .dir _ ini => ∀ d, ini = some d → Dict.WF d

/-- a directory without a `getdist.ini` (or a grid, whose settings come with its jobs) -/
def NoIni : Loc → Prop
  | .grid _ _ => True
  | .dir _ ini => ini = none

/-! ## The file -/

/-- **The file comes from the first location that has the name**, in the order in which the locations were added. -/
theorem search_first (root : Str) : ∀ (dirs : List Loc) (s : Settings), (search root dirs s).1 = dirs.findSome? (locFile root)
  | [], s => rfl
  | .grid resolve options :: ls, s => by
    cases h : resolve root with
    | some p => simp [search, h, locFile, List.findSome?_cons]
    | none => simp [search, h, locFile, List.findSome?_cons, search_first root ls s]
  | .dir find ini :: ls, s => by
    cases h : find root with
    | some p => simp [search, h, locFile, List.findSome?_cons]
    | none => simp [search, h, locFile, List.findSome?_cons, search_first root ls]

example : (search c!"a" [.dir (fun _ => none) none, .dir (fun r => if r = c!"a" then some c!"/y/a" else none) none,
    .grid (fun _ => some (c!"/g/a", [])) []] []).1 = some c!"/y/a" := by decide

/-- a name that no location has is refused -/
theorem not_found (w : World S D G U) (st : St S D G U) (r : Str) (c : Settings) (hr : r.head? ≠ some '/') (hn : st.samples.get? r = none)
    (h : ∀ l ∈ st.dirs, locFile r l = none) : samplesForRoot w st (.name r) none true c = .error .notFound := by
  have h1 : ∀ s, (search r st.dirs s).1 = none := by
    intro s
    rw [search_first]
    exact List.findSome?_eq_none_iff.mpr h
  have h2 : request st r none c = none := by
    simp only [request, if_neg hr]
    have := h1 (if st.priority = true then c else [])
    revert this
    cases search r st.dirs (if st.priority = true then c else []) with
    | mk a b => intro h; simp only at h; subst h; rfl
  simp [samplesForRoot, hn, loadRoot, h2]

/-! ## The settings -/

theorem search_settings (root k : Str) : ∀ (pre : List Loc) (loc : Loc) (post : List Loc) (s : Settings), s.WF → (∀ l ∈ pre, locFile root l = none) →
    (∀ l ∈ pre, NoIni l) → LocWF root loc → (locFile root loc).isSome → (search root (pre ++ loc :: post) s).2.get? k = (locValue root k loc).or (s.get? k)
  | [], loc, post, s, hs, _, _, hw, hf => by
    cases loc with
    | grid resolve options =>
      cases h : resolve root with
      | none => simp [locFile, h] at hf
      | some p =>
        obtain ⟨f, d⟩ := p
        simp only [List.nil_append, search, h, locValue, Option.map_some, Option.getD_some]
        rw [Batch.get?_update (hw.2 _ h), Batch.get?_update hw.1, Option.or_assoc]
    | dir find ini =>
      cases h : find root with
      | none => simp [locFile, h] at hf
      | some f =>
        simp only [List.nil_append, search, h, locValue]
        cases ini with
        | none => simp [Dict.update]
        | some d => simp only [Option.getD_some]; rw [Batch.get?_update (hw d rfl)]
  | l :: pre, loc, post, s, hs, hn, hi, hw, hf => by
    have h1 := hn l (by simp)
    have h2 := hi l (by simp)
    have ih := search_settings root k pre loc post s hs (fun x hx => hn x (by simp [hx])) (fun x hx => hi x (by simp [hx])) hw hf
    cases l with
    | grid resolve options =>
      have : resolve root = none := by simpa [locFile] using h1
      simp only [List.cons_append, search, this]
      exact ih
    | dir find ini =>
      have h3 : find root = none := h1
      have h4 : ini = none := h2
      subst h4
      simp only [List.cons_append, search, h3, Option.getD_none, Dict.update, List.foldl_nil]
      exact ih

/-- the request made when the name is found in `loc`, after locations `pre` that do not have it -/
theorem request_found (st : St S D G U) (r : Str) (c : Settings) (hr : r.head? ≠ some '/') {pre post : List Loc} {loc : Loc}
    (hd : st.dirs = pre ++ loc :: post) (hn : ∀ l ∈ pre, locFile r l = none) {f : Str} (hf : locFile r loc = some f) :
    request st r none c = some (f, st.iniParams.update (if st.priority then (search r st.dirs c).2
      else ((search r st.dirs []).2.update st.iniParams).update c)) := by
  have h1 : ∀ s, (search r st.dirs s).1 = some f := by
    intro s
    rw [search_first, hd, List.findSome?_append, List.findSome?_eq_none_iff.mpr hn, List.findSome?_cons, hf]
    rfl
  simp only [request, if_neg hr]
  cases hp : st.priority with
  | true =>
    have := h1 c
    revert this
    simp only [if_true]
    cases search r st.dirs c with
    | mk a b => intro h; simp only at h; subst h; rfl
  | false =>
    have := h1 []
    revert this
    simp only [Bool.false_eq_true, if_false]
    cases search r st.dirs [] with
    | mk a b => intro h; simp only at h; subst h; rfl

theorem WF_update {κ ν : Type} [DecidableEq κ] {d : Dict κ ν} : ∀ {e : Dict κ ν}, d.WF → (d.update e).WF := by
  intro e
  induction e generalizing d with
  | nil => exact id
  | cons p e ih => intro h; exact ih (Dict.WF_set _ _ h)

theorem WF_search (root : Str) : ∀ (dirs : List Loc) (s : Settings), s.WF → (search root dirs s).2.WF
  | [], s, h => h
  | .grid resolve options :: ls, s, h => by
    cases hr : resolve root with
    | some p => simp only [search, hr]; exact WF_update (WF_update h)
    | none => simp only [search, hr]; exact WF_search root ls s h
  | .dir find ini :: ls, s, h => by
    cases hr : find root with
    | some p => simp only [search, hr]; exact WF_update h
    | none => simp only [search, hr]; exact WF_search root ls _ (WF_update h)

/-- **The settings used for a chain.**  For a name found in `loc`: with chain settings having priority, a key takes the value saved with
the chain, else the value given with the call, else the analysis setting; without, the value given with the call, else the analysis
setting, else the value saved with the chain.  Proved when the directories searched before carry no `getdist.ini`. -/
theorem settings_partial (st : St S D G U) (r k : Str) (c : Settings) (hr : r.head? ≠ some '/') (hc : c.WF) (hi : st.iniParams.WF)
    {pre post : List Loc} {loc : Loc} (hd : st.dirs = pre ++ loc :: post) (hn : ∀ l ∈ pre, locFile r l = none) (hni : ∀ l ∈ pre, NoIni l)
    (hw : LocWF r loc) {f : Str} (hf : locFile r loc = some f) :
    ∃ s, request st r none c = some (f, s) ∧ s.get? k = if st.priority then (locValue r k loc).or ((c.get? k).or (st.iniParams.get? k))
      else (c.get? k).or ((st.iniParams.get? k).or (locValue r k loc)) := by
  refine ⟨_, request_found st r c hr hd hn hf, ?_⟩
  cases hp : st.priority with
  | true =>
    simp only [if_true]
    rw [Batch.get?_update (WF_search r _ _ hc), hd, search_settings r k pre loc post c hc hn hni hw (by rw [hf]; rfl), Option.or_assoc]
  | false =>
    simp only [Bool.false_eq_true, if_false]
    rw [Batch.get?_update (WF_update (WF_update (WF_search r _ _ Dict.WF_nil))), Batch.get?_update hc, Batch.get?_update hi, hd,
      search_settings r k pre loc post [] Dict.WF_nil hn hni hw (by rw [hf]; rfl)]
    cases c.get? k <;> cases st.iniParams.get? k <;> cases locValue r k loc <;> rfl

/-- two directories, the first with its own `getdist.ini`; the chain `b` is in the second -/
def exDirs : List Loc :=
  [.dir (fun r => if r = c!"a" then some c!"/d1/a" else none) (some [(c!"ignore_rows", c!"0.5")]),
   .dir (fun r => if r = c!"b" then some c!"/d2/b" else none) none]

example : request { exState with dirs := exDirs, heap := [[(c!"ignore_rows", c!"0.3"), (c!"fine_bins", c!"64")]] } c!"a" none [(c!"fine_bins", c!"256")]
    = some (c!"/d1/a", [(c!"ignore_rows", c!"0.5"), (c!"fine_bins", c!"256")]) := by decide

/-- the full statement: the settings of a chain do not depend on directories that do not contain it -/
def OwnSettings : Prop :=
  ∀ (st : St ExS (List ℚ) Str Nat) (r : Str) (l : Loc), locFile r l = none → request { st with dirs := l :: st.dirs } r none [] = request st r none []

/-- The `getdist.ini` of every directory searched is applied, also when the chain is not found there (plots.py:514-519): chains of a
later directory are analysed with the settings of an earlier one. -/
theorem other_directory_fails : ¬ OwnSettings := by
  intro h
  have := h { exState with dirs := exDirs.drop 1 } c!"b" (.dir (fun r => if r = c!"a" then some c!"/d1/a" else none) (some [(c!"ignore_rows", c!"0.5")])) (by decide)
  revert this
  decide

/-! ## Resetting -/

theorem reset_ini (defaults : Settings) (st : St S D G U) (g : Given) (p : Bool) (hg : ∀ r, g = .ini r → r < st.heap.length)
    (hi : ∀ i, st.ini = some i → i < st.heap.length) :
    (reset defaults st g p).iniParams = match st.ini with
      | none => (match g with | .ini r => st.heap.getD r [] | .dict d => Dict.update defaults d | .none => defaults)
      | some _ => st.iniParams.update (match g with | .ini r => st.heap.getD r [] | .dict d => Dict.update defaults d | .none => defaults) := by
  cases hs : st.ini with
  | none => cases g <;> simp [reset, St.iniParams, hs]
  | some i =>
    have hl := hi i hs
    cases g with
    | ini r => simp [reset, St.iniParams, hs, hl]
    | dict d =>
      have : i < (st.heap ++ [Dict.update defaults d]).length := by simp; omega
      simp [reset, St.iniParams, hs, List.getElem?_append_left hl, this, List.getElem?_set_self this]
    | none =>
      have : i < (st.heap ++ [defaults]).length := by simp; omega
      simp [reset, St.iniParams, hs, List.getElem?_append_left hl, this, List.getElem?_set_self this]

/-- **Resetting** forgets all samples and densities, and every key of the new settings (of the default file, overridden by the given
values) takes its new value. -/
theorem reset_partial (defaults : Settings) (st : St S D G U) (d : Settings) (p : Bool) (hd : d.WF) (hw : defaults.WF)
    (hi : ∀ i, st.ini = some i → i < st.heap.length) :
    Fresh (reset defaults st (.dict d) p) ∧ (reset defaults st (.dict d) p).priority = p ∧
    ∀ k v, (d.get? k).or (defaults.get? k) = some v → (reset defaults st (.dict d) p).iniParams.get? k = some v := by
  refine ⟨⟨rfl, rfl, rfl, rfl⟩, rfl, ?_⟩
  intro k v hk
  rw [reset_ini defaults st (.dict d) p (by simp) hi]
  cases hs : st.ini with
  | none => simp only []; rw [Batch.get?_update hd, hk]
  | some i => simp only []; rw [Batch.get?_update (WF_update hw), Batch.get?_update hd, hk]; rfl

example : (reset [(c!"ignore_rows", c!"0.3")] exState (.dict [(c!"fine_bins", c!"64")])).iniParams = [(c!"ignore_rows", c!"0.3"), (c!"fine_bins", c!"64")] := by decide

/-- the full statement: after a reset the analysis settings are the new ones -/
def ResetAfresh : Prop :=
  ∀ (defaults : Settings) (st : St ExS (List ℚ) Str Nat) (d : Settings) (k : Str), d.WF → defaults.WF → (∀ i, st.ini = some i → i < st.heap.length) →
    (reset defaults st (.dict d)).iniParams.get? k = (d.get? k).or (defaults.get? k)

/-- `reset` updates the old settings instead of replacing them (plots.py:460-463): a key that is neither in the default file nor given
again (such as `no_plots` or `limits[x]`) keeps its old value. -/
theorem reset_keeps_fails : ¬ ResetAfresh := by
  intro h
  have := h [(c!"ignore_rows", c!"0.3")] (reset [(c!"ignore_rows", c!"0.3")] exState (.dict [(c!"limits[x]", c!"0 N")])) [] c!"limits[x]"
    Dict.WF_nil (Dict.WF_set (d := []) _ _ Dict.WF_nil) (by decide)
  revert this
  decide

/-- the full statement: a reset with new settings leaves the caller's `IniFile` as it was -/
def CallerKept : Prop :=
  ∀ (defaults : Settings) (st : St ExS (List ℚ) Str Nat) (mine : Nat) (d : Settings), mine < st.heap.length →
    (reset defaults (reset defaults st (.ini mine)) (.dict d)).heap.getD mine [] = st.heap.getD mine []

/-- The first `IniFile` given is used itself as the analyser's settings and is then updated in place by a later reset
(plots.py:453, 460-463): the caller's object changes. -/
theorem caller_ini_fails : ¬ CallerKept := by
  intro h
  have := h [] { exState with ini := none, heap := [[(c!"fine_bins", c!"64")]] } 0 [(c!"fine_bins", c!"256")] (by decide)
  revert this
  decide

/-! ## Labels -/

/-- without a file of labels, the label is that of the samples' own list, and nothing changes -/
theorem own_label_partial (w : World S D G U) (st st' : St S D G U) (root : Root S) (name label : Str)
    (h : latexLabel w st root name none = .ok (label, st')) :
    st'.names = st.names ∧ ∃ s p, cur st' root = some s ∧ parWithName (st.names s) name = some p ∧ label = p.label := by
  unfold latexLabel paramsForRoot at h
  cases hs : samplesForRoot w st root none true [] with
  | error e => rw [hs] at h; simp [bind, Except.bind] at h
  | ok p =>
    obtain ⟨s, st1⟩ := p
    have hn : st1.names = st.names := by
      unfold samplesForRoot at hs
      cases root with
      | other => simp at hs
      | obj t => simp only [Except.ok.injEq, Prod.mk.injEq] at hs; rw [hs.2]
      | name r =>
        cases hg : st.samples.get? r with
        | some t => simp only [hg, if_true, Except.ok.injEq, Prod.mk.injEq] at hs; rw [hs.2]
        | none => simp only [hg] at hs; rw [loadRoot_ok hs]
    rw [hs] at h
    simp only [bind, Except.bind] at h
    cases hp : parWithName (st1.names s) name with
    | none => simp [hp] at h
    | some q =>
      simp only [hp, Except.ok.injEq, Prod.mk.injEq] at h
      obtain ⟨rfl, rfl⟩ := h
      exact ⟨hn, s, q, (cached_ok hs).1, by rw [← hn]; exact hp, rfl⟩

example : value (latexLabel exWorld exState (.name c!"a") c!"x" none) = .ok c!"X" ∧
    value (samplesForRoot exWorld exState (.name c!"missing") none true []) = .error .notFound := by
  refine ⟨?_, ?_⟩ <;> decide +kernel

/-- the full statement: labels taken from a file for one call do not change the labels of later calls -/
def LabelsLocal : Prop :=
  ∀ (st : St ExS (List ℚ) Str Nat) (root : Root ExS) (name : Str) (labels : List Info) (old new : Str) (st1 st2 : St ExS (List ℚ) Str Nat),
    latexLabel exWorld st root name none = .ok (old, st1) → latexLabel exWorld st1 root name (some labels) = .ok (new, st2) →
    value (latexLabel exWorld st2 root name none) = .ok old

/-- `params_for_root` writes the labels of the file into the samples' own parameter list (plots.py:644-645): after one call of
`param_latex_label` with `label_params` the samples keep those labels. -/
theorem labels_stay_fails : ¬ LabelsLocal := by
  intro h
  have e1 : value (latexLabel exWorld exState (.obj (c!"/d/a", 0, [])) c!"x" none) = .ok c!"X" := by decide +kernel
  cases h1 : latexLabel exWorld exState (.obj (c!"/d/a", 0, [])) c!"x" none with
  | error e => rw [h1] at e1; simp [value, Except.map] at e1
  | ok p =>
    have e2 : value (do let q ← latexLabel exWorld exState (.obj (c!"/d/a", 0, [])) c!"x" none
                        latexLabel exWorld q.2 (.obj (c!"/d/a", 0, [])) c!"x" (some [{ name := c!"x", label := c!"Y" }])) = .ok c!"Y" := by decide +kernel
    have e3 : value (do let q ← latexLabel exWorld exState (.obj (c!"/d/a", 0, [])) c!"x" none
                        let q2 ← latexLabel exWorld q.2 (.obj (c!"/d/a", 0, [])) c!"x" (some [{ name := c!"x", label := c!"Y" }])
                        latexLabel exWorld q2.2 (.obj (c!"/d/a", 0, [])) c!"x" none) = .ok c!"Y" := by decide +kernel
    rw [h1] at e1 e2 e3
    simp only [bind, Except.bind] at e2 e3
    cases h2 : latexLabel exWorld p.2 (.obj (c!"/d/a", 0, [])) c!"x" (some [{ name := c!"x", label := c!"Y" }]) with
    | error e => rw [h2] at e2; simp [value, Except.map] at e2
    | ok q =>
      rw [h2] at e3
      simp only at e3
      have := h exState _ _ _ p.1 q.1 p.2 q.2 h1 h2
      rw [e3] at this
      have e1' : p.1 = c!"X" := by simpa [value, Except.map] using e1
      rw [e1'] at this
      revert this
      decide

end Verif.Analyser
