import Verif.Model.MakeTables
import Verif.Props.BatchArgs
import Verif.Props.BestFit

/-!
# C198, C199: tables of the results of a grid
-/

namespace Verif.MakeTables
open Verif.Py
open Verif.Batch (Info us Good)
open Verif.BestFit (Best Chi2)

/-! ### the item with some data -/

/-- what the tags of an item say about its data (proved for the items of a grid in C33) -/
structure Ok (j : Info) : Prop where
  nd : j.normedData = j.data.normedTag none
  good : ∀ n ∈ j.data.names, Good n
  ne : j.data.names ≠ []

/-- specification: the last item of a list with given data, in any order -/
def LastWith (l : List Info) (ns : List Str) : Option Info := (l.filter fun r => r.data.names.isPerm ns).getLast?

theorem byData_get (l : List Info) (t : Str) : (byData l).get? t = (l.filter fun j => decide (j.normedData = t)).getLast? := by
  unfold byData
  induction l using List.reverseRecOn with
  | nil => rfl
  | append_singleton l j ih =>
    rw [List.foldl_append, List.foldl_cons, List.foldl_nil, Dict.get?_set, List.filter_append]
    by_cases h : j.normedData = t
    · rw [if_pos h.symm, List.filter_cons_of_pos (by simpa using h)]
      simp
    · rw [if_neg (fun e => h e.symm), List.filter_cons_of_neg (by simpa using h), ih]
      simp

/-- the tag of data tells the data, whatever their order -/
theorem tag_iff (r : Info) (hr : Ok r) (ns : List Str) (hg : ∀ n ∈ ns, Good n) (hn : ns ≠ []) :
    r.normedData = join us (Batch.sorted ns) ↔ r.data.names.Perm ns := by
  rw [hr.nd]
  unfold Batch.DS.normedTag Batch.DS.namesReplacing
  constructor
  · intro h
    refine Batch.perm_of_sorted_eq (Batch.join_inj (Batch.sorted_ne_nil hr.ne) (Batch.sorted_ne_nil hn) ?_ ?_ h)
    · intro n h; exact (hr.good n ((IniFile.sortStr_perm _).mem_iff.mp h)).1
    · intro n h; exact (hg n ((IniFile.sortStr_perm _).mem_iff.mp h)).1
  · intro h
    rw [Batch.sorted_eq_of_perm h]

theorem byData_last (l : List Info) (hl : ∀ r ∈ l, Ok r) (ns : List Str) (hg : ∀ n ∈ ns, Good n) (hn : ns ≠ []) :
    (byData l).get? (join us (Batch.sorted ns)) = LastWith l ns := by
  rw [byData_get]
  unfold LastWith
  congr 1
  apply List.filter_congr
  intro r hr
  rw [Bool.eq_iff_iff, decide_eq_true_iff, List.isPerm_iff]
  exact tag_iff r (hl r hr) ns hg hn

/-! ### reference of the base model or of a parameter tag -/

/-- the groups have one set of parameters each, that of their tag -/
structure Grouped (items : List (Str × List Info)) : Prop where
  tag : ∀ p ∈ items, ∀ j ∈ p.2, j.paramtag = p.1
  same : ∀ p ∈ items, ∀ j ∈ p.2, ∀ k ∈ p.2, j.params = [] ↔ k.params = []

/-- specification: the items that can serve as reference: those of the base model, none, or those of the parameter tag asked for -/
def Candidates (a : Args) (items : List (Str × List Info)) : List Info :=
  (items.flatMap (·.2)).filter fun r => match a.deltaParamtag with
    | some t => decide (r.paramtag = t)
    | none => decide (a.noDelta = false ∧ r.params = [])

theorem candidates_eq (a : Args) (items : List (Str × List Info)) (h : Grouped items) :
    (items.flatMap fun p => p.2.filter (isBaseItem a (isBase p.2))) = Candidates a items := by
  unfold Candidates
  rw [List.filter_flatMap]
  refine List.flatMap_congr (fun p hp => List.filter_congr (fun j hj => ?_))
  unfold isBaseItem
  cases a.deltaParamtag with
  | some t => rfl
  | none =>
    have : isBase p.2 = decide (j.params = []) := by
      unfold isBase
      cases hp2 : p.2 with
      | nil => rw [hp2] at hj; cases hj
      | cons k l => exact decide_eq_decide.mpr (h.same p hp k (by rw [hp2]; simp) j hj)
    dsimp only
    rw [this, Bool.eq_iff_iff]
    cases a.noDelta <;> simp

theorem ignored_names (d : Batch.DS) (ig : List Str) : d.namesReplacing (some (ig.map fun x => (x, []))) = d.names.filter fun n => decide (n ∉ ig) := by
  unfold Batch.DS.namesReplacing
  have hg : ∀ n : Str, Dict.get? (ig.map fun x => (x, ([] : Str))) n = if n ∈ ig then some [] else none := by
    intro n
    induction ig with
    | nil => rfl
    | cons x l ih =>
      rw [List.map_cons, Dict.get?_cons, ih]
      by_cases e : n = x
      · simp [e]
      · have e' : ¬ x = n := fun h => e h.symm
        simp [e, e']
  dsimp only
  induction d.names with
  | nil => rfl
  | cons n l ih =>
    rw [List.flatMap_cons, ih]
    unfold Batch.replaceName
    rw [hg]
    by_cases e : n ∈ ig
    · rw [if_pos e, List.filter_cons_of_neg (by simpa using e)]; simp
    · rw [if_neg e, List.filter_cons_of_pos (by simpa using e)]; simp

/-- **C198** The reference of an item is the last one of the base model, or of the parameter tag asked for, that has the data of the item without those ignored. -/
theorem base_spec (a : Args) (items : List (Str × List Info)) (h : Grouped items) (hok : ∀ p ∈ items, ∀ j ∈ p.2, Ok j) (j : Info) (hj : Ok j)
    (hne : (j.data.names.filter fun n => decide (n ∉ a.ignore)) ≠ []) :
    (baseItems a items).get? (dataIndex a j) = LastWith (Candidates a items) (j.data.names.filter fun n => decide (n ∉ a.ignore)) := by
  have hd : dataIndex a j = join us (Batch.sorted (j.data.names.filter fun n => decide (n ∉ a.ignore))) := by
    unfold dataIndex
    by_cases h0 : a.ignore = []
    · rw [if_neg (not_not.mpr h0), hj.nd, h0]
      unfold Batch.DS.normedTag Batch.DS.namesReplacing
      simp
    · rw [if_pos h0]
      unfold Batch.DS.normedTag
      rw [ignored_names]
  unfold baseItems
  rw [candidates_eq a items h, hd]
  refine byData_last _ (fun r hr => ?_) _ (fun n hn => hj.good n (List.mem_of_mem_filter hn)) hne
  obtain ⟨p, hp, hr⟩ := List.mem_flatMap.mp (List.mem_of_mem_filter hr)
  exact hok p hp r hr

/-! ### references of the options -/

/-- **C198** When data are added, an item with some of them is compared with the last one of the same parameters that has its other data; other items have none. -/
theorem adding_spec (a : Args) (base : Dict Str Info) (these : List Info) (hok : ∀ r ∈ these, Ok r) (j : Info) (hj : j ∈ these) (add : List Str) (ha : a.adding = some add)
    (hr : a.replacing = none) (hne : (j.data.names.filter fun n => decide (n ∉ add)) ≠ []) :
    refs a base these j =
      let r := if ∃ n ∈ add, n ∈ j.data.names then LastWith these (j.data.names.filter fun n => decide (n ∉ add)) else none
      if r = none ∧ (a.changesOnly = true ∨ a.average = true) then none else some (r, r) := by
  have hf : (j.data.names.filter fun x => !add.contains x) = j.data.names.filter fun n => decide (n ∉ add) := by
    apply List.filter_congr
    intro n _
    rw [Bool.eq_iff_iff]
    simp
  have hw : (without add j).bind (fun t => (addingItems add these).get? t) =
      if ∃ n ∈ add, n ∈ j.data.names then LastWith these (j.data.names.filter fun n => decide (n ∉ add)) else none := by
    have hhas : j.data.hasName add = true ↔ ∃ n ∈ add, n ∈ j.data.names := by
      unfold Batch.DS.hasName
      simp
    unfold without
    by_cases h : ∃ n ∈ add, n ∈ j.data.names
    · rw [if_pos h, if_pos (hhas.mpr h), Option.bind_some, hf]
      unfold addingItems
      have hmem : join us (Batch.sorted (j.data.names.filter fun n => decide (n ∉ add))) ∈ these.filterMap (without add) := by
        refine List.mem_filterMap.mpr ⟨j, hj, ?_⟩
        unfold without
        rw [if_pos (hhas.mpr h), hf]
      rw [byData_get, List.filter_filter]
      unfold LastWith
      congr 1
      apply List.filter_congr
      intro r hr
      rw [Bool.eq_iff_iff, Bool.and_eq_true, decide_eq_true_iff, List.isPerm_iff, List.contains_iff_mem]
      rw [← tag_iff r (hok r hr) _ (fun n hn => (hok j hj).good n (List.mem_of_mem_filter hn)) hne]
      constructor
      · exact fun h => h.1
      · intro h; exact ⟨h, by rw [h]; exact hmem⟩
    · rw [if_neg h, if_neg (fun e => h (hhas.mp e))]
      rfl
  unfold refs
  rw [ha, hr]
  dsimp only
  rw [hw]
  generalize (if ∃ n ∈ add, n ∈ j.data.names then LastWith these (j.data.names.filter fun n => decide (n ∉ add)) else none) = r
  cases r <;> cases a.changesOnly <;> cases a.average <;> cases a.fromParamtag <;> simp

/-- **C198** When data are replaced by `x`, an item is compared with the last one of the same parameters that has `x` in place of the first of the data it has; items with
none of them have no reference. -/
theorem replacing_spec (a : Args) (base : Dict Str Info) (these : List Info) (hok : ∀ r ∈ these, Ok r) (j : Info) (hj : j ∈ these) (x : Str) (ys : List Str) (hx : Good x) (hx0 : x ≠ [])
    (ha : a.adding = none) (hr : a.replacing = some (x :: ys)) :
    refs a base these j =
      let r := (ys.find? fun y => decide (y ∈ j.data.names)).bind fun y => LastWith these (j.data.names.map fun n => if n = y then x else n)
      if r = none ∧ (a.changesOnly = true ∨ a.average = true) then none else some (r, r) := by
  have hw : replacedRef (replacingItems x these) x ys j =
      (ys.find? fun y => decide (y ∈ j.data.names)).bind fun y => LastWith these (j.data.names.map fun n => if n = y then x else n) := by
    unfold replacedRef
    have e : (fun y => j.data.names.contains y) = fun y => decide (y ∈ j.data.names) := by
      funext y; rw [Bool.eq_iff_iff]; simp
    rw [e]
    cases hy : ys.find? fun y => decide (y ∈ j.data.names) with
    | none => rfl
    | some y =>
      have hyj : y ∈ j.data.names := by simpa using List.find?_some hy
      have hns : (j.data.names.flatMap fun n => if n = y then (if x ≠ [] then [x] else []) else [n]) = j.data.names.map fun n => if n = y then x else n := by
        rw [List.map_eq_flatMap]
        refine List.flatMap_congr (fun n _ => ?_)
        by_cases h : n = y
        · rw [if_pos h, if_pos h, if_pos hx0]
        · rw [if_neg h, if_neg h]
      have hgood : ∀ n ∈ (j.data.names.map fun n => if n = y then x else n), Good n := by
        intro n hn
        obtain ⟨m, hm, rfl⟩ := List.mem_map.mp hn
        by_cases h : m = y
        · rw [if_pos h]; exact hx
        · rw [if_neg h]; exact (hok j hj).good m hm
      have hne : (j.data.names.map fun n => if n = y then x else n) ≠ [] := by
        intro h
        exact (hok j hj).ne (List.map_eq_nil_iff.mp h)
      rw [Option.bind_some]
      dsimp only
      unfold Batch.DS.tagReplacing
      rw [hns, Batch.normalizeDataTag_eq hgood hne (.inl rfl)]
      unfold replacingItems
      rw [byData_get, List.filter_filter]
      unfold LastWith
      congr 1
      apply List.filter_congr
      intro r hr
      rw [Bool.eq_iff_iff, Bool.and_eq_true, decide_eq_true_iff, List.isPerm_iff, List.contains_iff_mem, tag_iff r (hok r hr) _ hgood hne]
      constructor
      · exact fun h => h.1
      · intro h
        exact ⟨h, h.mem_iff.mpr (List.mem_map.mpr ⟨y, hyj, if_pos rfl⟩)⟩
  unfold refs
  rw [ha, hr]
  dsimp only
  rw [hw]
  generalize ((ys.find? fun y => decide (y ∈ j.data.names)).bind fun y => LastWith these (j.data.names.map fun n => if n = y then x else n)) = r
  cases r <;> cases a.changesOnly <;> cases a.average <;> cases a.fromParamtag <;> simp

/-- **C198** Without these options shifts are relative to the last item with the data asked for, or with the parameters asked for to the reference of the Δχ². -/
theorem plain_spec (a : Args) (base : Dict Str Info) (these : List Info) (j : Info) (ha : a.adding = none) (hr : a.replacing = none) :
    refs a base these j =
      let d := base.get? (dataIndex a j)
      let r := if a.fromParamtag.isSome then d else (a.fromDatatag.bind fun t => (these.filter fun r => decide (r.normedData = t ∨ r.datatag = t)).getLast?)
      if r = none ∧ a.average = true then none else some (d, r) := by
  have : fromData a these = a.fromDatatag.bind fun t => (these.filter fun r => decide (r.normedData = t ∨ r.datatag = t)).getLast? := by
    unfold fromData
    cases a.fromDatatag with
    | none => rfl
    | some t => simp only [Option.bind_some, Bool.decide_or]
  unfold refs
  rw [ha, hr]
  dsimp only
  rw [this]
  generalize (a.fromDatatag.bind fun t => (these.filter fun r => decide (r.normedData = t ∨ r.datatag = t)).getLast?) = r
  generalize base.get? (dataIndex a j) = d
  cases r <;> cases d <;> cases a.average <;> cases a.fromParamtag <;> simp

/-! ### one table -/

section
variable {K T : Type} [Field K]

/-- specification: the line of one likelihood, with the difference from the first of the same kind and name in the reference -/
def ChiLine (E : Env K T) (comp : Option (Best K)) (kind n : Str) (x : K) : Str :=
  c!"  " ++ texEscape n ++ c!": " ++ E.fmt x ++ c!" " ++
    match comp.bind fun b => (b.chiSquareds.find? fun p => decide (p.1 = kind ∧ p.2.name = .str n)) with
    | some p => c!"($\\Delta$ " ++ E.fmt (x - p.2.chisq) ++ c!") "
    | none => []

theorem chiLine_eq (E : Env K T) (comp : Option (Best K)) (kind n : Str) (v : Chi2 K) (hn : v.name = .str n) :
    chiLine E comp kind v = .ok (ChiLine E comp kind n v.chisq) := by
  unfold chiLine ChiLine
  rw [hn]
  cases comp with
  | none => rfl
  | some b =>
    simp only [Option.bind_some]
    unfold BestFit.chiSquareForKindName
    cases List.find? (fun p => decide (p.1 = kind ∧ p.2.name = .str n)) b.chiSquareds <;> rfl

/-- the text of a name -/
def nameText : BestFit.CName → Str
  | .str s => s
  | .list _ => []

theorem mapM_map {α β : Type} (f : α → Except Err β) (g : α → β) (l : List α) (h : ∀ x ∈ l, f x = .ok (g x)) : l.mapM f = .ok (l.map g) := by
  induction l with
  | nil => rfl
  | cons x l ih =>
    rw [List.mapM_cons, h x (by simp), ih (fun y hy => h y (by simp [hy]))]
    rfl

/-- **C198** Below a table come the caption and, kind by kind in order, one line for each likelihood of the best fit with its χ² and the difference from the reference. -/
theorem below_spec [LinearOrder K] [IsStrictOrderedRing K] [FloorRing K] (E : Env K T) (a : Args) (caption : List Str) (b : Best K) (comp : Option (Best K)) (hp : a.forpaper = false)
    (hn : ∀ p ∈ b.chiSquareds, ∃ n, p.2.name = .str n) :
    ∃ kinds : List Str, kinds.Nodup ∧ kinds.Pairwise (fun x y => IniFile.strLe x y = true) ∧ (∀ k, k ∈ kinds ↔ ∃ v, (k, v) ∈ b.chiSquareds) ∧
      below E a caption (some b) comp = .ok ([[], join c!"; " caption, [], c!"$\\chi^2_{\\rm eff}$:"] ++ kinds.flatMap fun k =>
        (k ++ c!" - ") :: (b.chiSquareds.filter fun p => decide (p.1 = k)).map fun p => ChiLine E comp k (nameText p.2.name) p.2.chisq) := by
  obtain ⟨h1, h2, h3⟩ := BestFit.sorted_spec b
  refine ⟨(BestFit.sortedChiSquareds b).map Prod.fst, h3, List.pairwise_map.mpr h2, ?_, ?_⟩
  · intro k
    constructor
    · intro hk
      obtain ⟨⟨k', l⟩, hm, rfl⟩ := List.mem_map.mp hk
      obtain ⟨hne, rfl⟩ := (h1 k' l).mp hm
      obtain ⟨v, hv⟩ := List.exists_mem_of_ne_nil _ hne
      obtain ⟨⟨k2, v2⟩, hm2, rfl⟩ := List.mem_map.mp hv
      obtain ⟨hm3, hk3⟩ := List.mem_filter.mp hm2
      have : k2 = k' := of_decide_eq_true hk3
      rw [this] at hm3
      exact ⟨v2, hm3⟩
    · rintro ⟨v, hv⟩
      refine List.mem_map.mpr ⟨(k, (b.chiSquareds.filter (fun p => decide (p.1 = k))).map Prod.snd), (h1 k _).mpr ⟨?_, rfl⟩, rfl⟩
      intro e
      have : v ∈ (b.chiSquareds.filter (fun p => decide (p.1 = k))).map Prod.snd := List.mem_map.mpr ⟨(k, v), List.mem_filter.mpr ⟨hv, by simp⟩, rfl⟩
      rw [e] at this
      cases this
  · have hk : ∀ p ∈ BestFit.sortedChiSquareds b, kindLines E comp p =
        .ok ((p.1 ++ c!" - ") :: (b.chiSquareds.filter fun q => decide (q.1 = p.1)).map fun q => ChiLine E comp p.1 (nameText q.2.name) q.2.chisq) := by
      rintro ⟨k, l⟩ hm
      obtain ⟨-, rfl⟩ := (h1 k l).mp hm
      unfold kindLines
      dsimp only
      rw [mapM_map (chiLine E comp k) (fun v => ChiLine E comp k (nameText v.name) v.chisq)]
      · rw [List.map_map]; rfl
      · intro v hv
        obtain ⟨⟨k2, v2⟩, hm2, rfl⟩ := List.mem_map.mp hv
        obtain ⟨n, hn⟩ := hn _ (List.mem_of_mem_filter hm2)
        rw [chiLine_eq E comp k n v2 hn, hn]
        rfl
    unfold below
    rw [hp, if_neg (by decide)]
    dsimp only
    rw [mapM_map _ _ _ hk]
    simp only [bind, Except.bind, pure, Except.pure, List.flatMap_def, List.map_map]
    rfl

/-- **C198** A table for an item whose results can be loaded has above these lines the statistics of the item, the shifts relative to the item for reference unless it is
the same, and the caption has the difference of χ² from the other item when both have a best fit. -/
theorem table_spec (E : Env K T) (a : Args) (limit n : Nat) (j : Info) (delta ref : Option Info) (res : Results K T) (m : T) (b : Best K) (h : E.load j = .ok res) (hm : res.marge = some m)
    (hb : res.best = some b) (hc : a.columns = .num n) (hbf : a.bestfitonly = false) (hav : a.average = false) (lines : List Str) (hl : paramResultTable E a limit j delta ref = .ok lines) :
    ∃ t rest, lines = t ++ rest ∧ E.table n limit m ((refUsed a ref j).bind fun r => (E.loadRef r).marge) = .ok t ∧
      ∃ more, below E a ((c!" Best-fit $\\chi^2_{\\rm eff} = " ++ E.fmt (b.logLike * 2) ++ c!"$") ::
        ((match (deltaUsed delta j).bind fun d => (E.loadRef d).best with
          | some r => [c!"$\\Delta \\chi^2_{\\rm eff} = " ++ E.fmt ((b.logLike - r.logLike) * 2) ++ c!"$"]
          | none => []) ++ more)) (some b) ((deltaUsed delta j).bind fun d => (E.loadRef d).best) = .ok rest := by
  have e : ((deltaUsed delta j).map E.loadRef).bind (·.best) = (deltaUsed delta j).bind fun d => (E.loadRef d).best := by
    cases deltaUsed delta j <;> rfl
  unfold paramResultTable tableOf at hl
  simp only [h, hm, hb, hc, hbf, hav, e, bind, Except.bind, pure, Except.pure, Cols.get, if_false, Bool.false_eq_true] at hl
  cases ht : E.table n limit m ((refUsed a ref j).bind fun r => (E.loadRef r).marge) with
  | error x => rw [show (Option.bind (refUsed a ref j) fun r => (E.loadRef r).marge) = ((refUsed a ref j).bind fun r => (E.loadRef r).marge) from rfl, ht] at hl; cases hl
  | ok t =>
    rw [ht] at hl
    dsimp only at hl
    split at hl
    · cases hl
    · rename_i rest hb2
      injection hl with hl
      refine ⟨t, rest, hl.symm, rfl, meanCaption E res.like (((deltaUsed delta j).map E.loadRef).bind (·.like)) ++ (match res.converge with | some r => [c!"$R-1 =" ++ r ++ c!"$"] | none => []), ?_⟩
      rw [← hb2]
      unfold bestCaption
      congr 1
      cases (deltaUsed delta j).bind fun d => (E.loadRef d).best <;> rfl

/-! ### the document -/

/-- a heading -/
def isSub (l : Str) : Bool := startsWith c!"\\subsection{" l

theorem filter_none (l : List Str) (h : ∀ x ∈ l, isSub x = false) : l.filter isSub = [] := List.filter_eq_nil_iff.mpr (fun x hx => by rw [h x hx]; decide)

/-- **C198** The headings of the document are those of the items with results that have not been left out, each once, by parameters and in the order of the grid. -/
theorem document_headings (E : Env K T) (a : Args) (items : List (Str × List Info)) (limit : Nat) (hp : a.forpaper = false) (hcmp : a.compare = none)
    (ht : ∀ j d r ls, paramResultTable E a limit j d r = .ok ls → ∀ x ∈ ls, isSub x = false) :
    (document E a items limit).filter isSub = items.flatMap fun p => ((p.2.filter fun j => (E.distExists j || a.bestfitonly) && E.good j).filterMap fun j =>
      (refs a (baseItems a items) (theseItems E a p.2) j).map fun r =>
        c!"\\subsection{ " ++ texEscape j.name ++ (if a.average then (match r.2 with | some q => c!"/" ++ texEscape q.name | none => []) else []) ++ c!"}") := by
  unfold document
  rw [List.filter_append, List.filter_append]
  have h1 : (opening a).filter isSub = [] := by
    unfold opening
    rw [hp]
    exact filter_none _ (fun x hx => by
      simp only [Bool.false_eq_true, if_false, List.mem_cons, List.not_mem_nil, or_false] at hx
      rcases hx with rfl | rfl | rfl | rfl | rfl | rfl | rfl <;> rfl)
  have h3 : (if a.forpaper then [] else [c!"\\end{document}"]).filter isSub = [] := by
    rw [hp]; rfl
  rw [h1, h3, List.nil_append, List.append_nil, List.filter_flatMap]
  refine List.flatMap_congr (fun p _ => ?_)
  unfold tagLines
  rw [hcmp]
  dsimp only
  have hs : isSub (section_ a p.2) = false := by
    unfold section_
    rw [hp]
    rfl
  rw [List.filter_cons_of_neg (by rw [hs]; decide), List.filter_flatMap, List.filterMap_eq_flatMap_toList]
  refine List.flatMap_congr (fun j _ => ?_)
  unfold itemLines
  cases refs a (baseItems a items) (theseItems E a p.2) j with
  | none => rfl
  | some r =>
    obtain ⟨delta, ref⟩ := r
    dsimp only
    rw [List.filter_append]
    have hh : (heading a j ref).filter isSub = heading a j ref := by
      unfold heading
      rw [hp]
      cases a.average <;> cases ref <;> rfl
    have hr : heading a j ref = ((some (delta, ref)).map fun r : Option Info × Option Info =>
        c!"\\subsection{ " ++ texEscape j.name ++ (if a.average then (match r.2 with | some q => c!"/" ++ texEscape q.name | none => []) else []) ++ c!"}").toList := by
      unfold heading
      rw [hp]
      cases a.average <;> cases ref <;> simp
    rw [hh, ← hr]
    cases hres : paramResultTable E a limit j delta ref with
    | error e => simp
    | ok ls =>
      dsimp only
      rw [filter_none _ (ht j delta ref ls hres), List.append_nil]

end

/-! ### files -/

theorem endsWith_iff {p s : Str} : endsWith p s = true ↔ p <:+ s := List.isSuffixOf_iff_suffix

theorem ends_tex (s : Str) : endsWith c!".tex" (s ++ c!".tex") = true := endsWith_iff.mpr ⟨s, rfl⟩

/-- **C198** The file has the extension tex, which is added when it is not given. -/
theorem outName_one (a : Args) (l : Nat) (h : a.allLimits = false) (s : Str) (hs : a.latex = s ∧ endsWith c!".tex" s = false ∨ a.latex = s ++ c!".tex") : outName a l = s ++ c!".tex" := by
  unfold outName
  rw [h]
  rcases hs with ⟨h1, h2⟩ | h1
  · simp only [Bool.false_eq_true, if_false, h1, h2]
  · simp only [Bool.false_eq_true, if_false, h1, ends_tex, if_true]

example : outName { latex := c!"tab" } 2 = c!"tab.tex" ∧ outName { latex := c!"tab.tex" } 2 = c!"tab.tex" := by decide

/-- **C198** With all limits there are three files with different names. -/
theorem outName_all (a : Args) (h : a.allLimits = true) :
    (limits a).map (outName a) = [c!"_limit1.tex", c!"_limit2.tex", c!"_limit3.tex"].map (a.latex ++ ·) := by
  have hd : ∀ n : Str, n = c!"1" ∨ n = c!"2" ∨ n = c!"3" → endsWith c!".tex" (a.latex ++ c!"_limit" ++ n) = false := by
    intro n hn
    rw [Bool.eq_false_iff]
    intro e
    obtain ⟨x, hx⟩ := endsWith_iff.mp e
    have := congrArg List.reverse hx
    rcases hn with rfl | rfl | rfl <;> simp only [List.reverse_append] at this <;> (injection this with this _; revert this; decide)
  unfold limits outName
  rw [h]
  simp only [if_true, List.map_cons, List.map_nil, hd (strNat 1) (.inl rfl), hd (strNat 2) (.inr (.inl rfl)), hd (strNat 3) (.inr (.inr rfl)), Bool.false_eq_true, if_false]
  simp only [List.append_assoc]
  rfl

example : (limits { latex := c!"tab", allLimits := true }).map (outName { latex := c!"tab", allLimits := true }) = [c!"tab_limit1.tex", c!"tab_limit2.tex", c!"tab_limit3.tex"] := by decide

/-- **C198** For a paper, or when no directory is given, all files are written where they should. -/
theorem outPaths_spec (a : Args) (cwd : Str) (ls : List Nat) (h : a.forpaper = true ∨ ∀ l ∈ ls, Path.dirname (outName a l) = []) :
    outPaths a cwd ls = ls.map fun l => Path.join cwd (outName a l) := by
  induction ls with
  | nil => rfl
  | cons l ls ih =>
    unfold outPaths
    dsimp only
    rw [if_pos (h.imp id (fun h => h l (by simp))), List.map_cons, ih (h.imp id (fun h x hx => h x (by simp [hx])))]

/-! ### examples -/

/-- an item of a grid -/
def it (params names : List Str) : Info := Batch.mkItem c!"/g/" params (Batch.mkData names none) c!"base"

/-- results that are names of items, tables of one line; numbers are whole -/
def exEnv : Env ℚ Str where
  load j := .ok ⟨some ⟨none, 5, [(c!"CMB", ⟨.str c!"plik_TT", none, 7⟩)], []⟩, some j.name, some (some 6), some c!"0.01"⟩
  loadRef j := ⟨some ⟨none, 4, [(c!"CMB", ⟨.str c!"plik_TT", none, 5⟩)], []⟩, some j.name, some (some 5), some c!"0.02"⟩
  distExists _ := true
  good _ := true
  fmt x := strNat x.num.natAbs
  table n _ m r := .ok [strNat n ++ c!":" ++ m ++ (match r with | some r => c!" / " ++ r | none => [])]
  tableBest _ _ _ := .ok [c!"best"]
  average _ _ j r := .ok [j.name ++ c!" and " ++ r.name]
  compare _ l _ := l

/-- two models with two sets of data -/
def exItems : List (Str × List Info) :=
  [(c!"base", [it [] [c!"plik"], it [] [c!"BAO", c!"plik"]]), (c!"base_mnu", [it [c!"mnu"] [c!"plik"], it [c!"mnu"] [c!"plik", c!"BAO"]])]

theorem it_ok (params names : List Str) (h : ∀ n ∈ names, Good n) (h0 : names ≠ []) : Ok (it params names) := ⟨rfl, h, h0⟩

example : Grouped exItems ∧ ∀ p ∈ exItems, ∀ j ∈ p.2, Ok j := by
  refine ⟨⟨?_, ?_⟩, ?_⟩ <;> simp only [exItems, List.forall_mem_cons, List.not_mem_nil, false_imp_iff, implies_true, and_true]
  · refine ⟨⟨?_, ?_⟩, ?_, ?_⟩ <;> decide +kernel
  · refine ⟨⟨⟨?_, ?_⟩, ?_, ?_⟩, ⟨?_, ?_⟩, ?_, ?_⟩ <;> decide +kernel
  · refine ⟨⟨it_ok _ _ ?_ ?_, it_ok _ _ ?_ ?_⟩, it_ok _ _ ?_ ?_, it_ok _ _ ?_ ?_⟩ <;> decide +kernel

/-- the reference of the second item with masses of neutrinos is that of the base model with the same data in another order -/
example : ((baseItems {} exItems).get? (dataIndex {} (it [c!"mnu"] [c!"plik", c!"BAO"]))).map (·.name) = some c!"base_BAO_plik" := by decide +kernel

example : ((refs { adding := some [c!"BAO"] } [] [it [] [c!"plik"], it [] [c!"BAO", c!"plik"]] (it [] [c!"BAO", c!"plik"])).map fun r => (r.1.map (·.name), r.2.map (·.name))) =
    some (some c!"base_plik", some c!"base_plik") := by decide +kernel

example : ((refs { replacing := some [c!"CamSpec", c!"plik"] } [] [it [] [c!"CamSpec", c!"BAO"], it [] [c!"BAO", c!"plik"]] (it [] [c!"BAO", c!"plik"])).map fun r =>
    (r.1.map (·.name), r.2.map (·.name))) = some (some c!"base_CamSpec_BAO", some c!"base_CamSpec_BAO") := by decide +kernel

example : ((refs { adding := some [c!"BAO"], changesOnly := true } [] [it [] [c!"plik"], it [] [c!"BAO", c!"plik"]] (it [] [c!"plik"])).isNone) = true := by decide +kernel

example : paramResultTable exEnv {} 2 (it [c!"mnu"] [c!"plik"]) (some (it [] [c!"plik"])) none = .ok [c!"3:base_mnu_plik", [],
    c!" Best-fit $\\chi^2_{\\rm eff} = 10$; $\\Delta \\chi^2_{\\rm eff} = 2$; $\\bar{\\chi}^2_{\\rm eff} = 12$; $\\Delta\\bar{\\chi}^2_{\\rm eff} = 2$; $R-1 =0.01$", [],
    c!"$\\chi^2_{\\rm eff}$:", c!"CMB - ", c!"  plik{\\textunderscore}TT: 7 ($\\Delta$ 2) "] := by decide +kernel

example : (document exEnv {} exItems 2).filter isSub = [c!"\\subsection{ base{\\textunderscore}plik}", c!"\\subsection{ base{\\textunderscore}BAO{\\textunderscore}plik}",
    c!"\\subsection{ base{\\textunderscore}mnu{\\textunderscore}plik}", c!"\\subsection{ base{\\textunderscore}mnu{\\textunderscore}plik{\\textunderscore}BAO}"] := by decide +kernel

example : outPaths { latex := c!"tab", allLimits := true } c!"/w" [1, 2, 3] = [c!"/w/tab_limit1.tex", c!"/w/tab_limit2.tex", c!"/w/tab_limit3.tex"] := by decide +kernel

/-! ### not so (C199) -/

/-- a number of columns given is used -/
def ColumnsUsed : Prop := ∀ (E : Env ℚ Str) (a : Args) (n limit : Nat) (items : List (Str × List Info)),
  document E { a with columns := .list [n] } items limit = document E { a with columns := .num n } items limit

/-- With `--columns` each table fails and is left out: because of `nargs=1` (makeTables.py:49) the value is a list, which types.py:311 divides by. -/
theorem columns_fails : ¬ ColumnsUsed := by
  intro h
  have := h exEnv {} 2 2 exItems
  revert this
  decide +kernel

/-- all limits are written to the directory given -/
def AllInDirectory : Prop := ∀ (a : Args) (cwd : Str), outPaths a cwd (limits a) = (limits a).map fun l => Path.join cwd (outName a l)

/-- With `--all_limits` and a file in a directory the second file is written to a directory of this name within the first, and so on: makeTables.py:330-331 changes into
the directory each time. -/
theorem all_limits_fails : ¬ AllInDirectory := by
  intro h
  have := h { latex := c!"out/tab", allLimits := true } c!"/w"
  revert this
  decide +kernel

/-- the paths then -/
example : outPaths { latex := c!"out/tab", allLimits := true } c!"/w" [1, 2, 3] = [c!"/w/out/tab_limit1.tex", c!"/w/out/out/tab_limit2.tex", c!"/w/out/out/out/tab_limit3.tex"] := by
  decide +kernel

/-- separate tables of all limits are kept -/
def SeparateKept : Prop := ∀ (E : Env ℚ Str) (a : Args) (items : List (Str × List Info)) (root : Info → Str) (p : Str × List Info) (l : Nat) (e : Str × List Str), a.separate = true →
  p ∈ items → l ∈ limits a → e ∈ separateTagFiles E a (baseItems a items) root l p.2 → (separateFiles E a items root).get? e.1 = some e.2

/-- With `--separate_tex` and `--all_limits` the tables of the three limits are written to the same file (makeTables.py:314): those of the last remain. -/
theorem separate_fails : ¬ SeparateKept := by
  intro h
  have := h { exEnv with table := fun _ l _ _ => .ok [strNat l] } { separate := true, allLimits := true } [(c!"base", [it [] [c!"a"]])] (fun j => j.name) (c!"base", [it [] [c!"a"]]) 1
    (c!"base_a.tex", [c!"1", [], c!" Best-fit $\\chi^2_{\\rm eff} = 10$; $\\bar{\\chi}^2_{\\rm eff} = 12$; $R-1 =0.01$", [], c!"$\\chi^2_{\\rm eff}$:", c!"CMB - ", c!"  plik{\\textunderscore}TT: 7 "])
    rfl (by simp) (by decide) (by decide +kernel)
  revert this
  decide +kernel

/-- the extension is after the limit -/
def ExtensionLast : Prop := ∀ (a : Args) (s : Str), a.allLimits = true → a.latex = s ++ c!".tex" → (limits a).map (outName a) =
  [c!"_limit1.tex", c!"_limit2.tex", c!"_limit3.tex"].map (s ++ ·)

/-- A file name with its extension gives names like `tab.tex_limit1.tex` (makeTables.py:211-213). -/
theorem extension_fails : ¬ ExtensionLast := by
  intro h
  have := h { latex := c!"tab.tex", allLimits := true } c!"tab" rfl rfl
  revert this
  decide +kernel

/-- best fits can be left out -/
def BestFitLeftOut : Prop := ∀ (E : Env ℚ Str) (a : Args) (limit : Nat) (j : Info) (d r : Option Info) (ls : List Str), a.nobestfit = true → paramResultTable E a limit j d r = .ok ls →
  c!"$\\chi^2_{\\rm eff}$:" ∉ ls

/-- `--nobestfit` leaves out only the column of the table: the best fit is loaded all the same (batchjob.py:435), and its χ² and those of the likelihoods are printed
(makeTables.py:105-111, 133-147). -/
theorem nobestfit_fails : ¬ BestFitLeftOut := by
  intro h
  have := h exEnv { nobestfit := true } 2 (it [] [c!"a"]) none none _ rfl rfl
  revert this
  decide +kernel

/-- with data ignored an item still has a reference when there is one with the same data -/
def IgnoredFound : Prop := ∀ (a : Args) (items : List (Str × List Info)) (j r : Info), Grouped items → (∀ p ∈ items, ∀ j ∈ p.2, Ok j) → Ok j → r ∈ Candidates a items →
  r.data.names.Perm j.data.names → ((baseItems a items).get? (dataIndex a j)).isSome

/-- Data ignored are left out of the tag looked up but not of the tags of the references (makeTables.py:185-192, 203): the item of the base model with the very same data
is not found. -/
theorem ignored_fails : ¬ IgnoredFound := by
  intro h
  have hr : it [] [c!"plik", c!"lens"] ∈ Candidates { ignore := [c!"lens"] } [(c!"base", [it [] [c!"plik", c!"lens"]])] := by
    simp only [Candidates, List.flatMap_cons, List.flatMap_nil, List.append_nil, List.mem_filter, List.mem_singleton, true_and]
    decide +kernel
  have hok : Ok (it [] [c!"plik", c!"lens"]) := it_ok _ _ (by decide +kernel) (by decide)
  have := h { ignore := [c!"lens"] } [(c!"base", [it [] [c!"plik", c!"lens"]])] (it [c!"mnu"] [c!"plik", c!"lens"]) (it [] [c!"plik", c!"lens"])
    ⟨by simp only [List.forall_mem_cons, List.not_mem_nil, false_imp_iff, implies_true, and_true]; decide +kernel,
      by simp only [List.forall_mem_cons, List.not_mem_nil, false_imp_iff, implies_true, and_true]⟩
    (by simp only [List.forall_mem_cons, List.not_mem_nil, false_imp_iff, implies_true, and_true]; exact hok) (it_ok _ _ (by decide +kernel) (by decide)) hr (List.Perm.refl _)
  revert this
  decide +kernel

/-- an item shown has a table when its results and those of the reference can be loaded and tables can be made -/
def ShownHasTable : Prop := ∀ (E : Env ℚ Str) (a : Args) (base : Dict Str Info) (these : List Info) (limit n : Nat) (j : Info) (d r : Option Info), a.columns = .num n →
  (∃ res, E.load j = .ok res) → (∀ m q, ∃ ls, E.table n limit m q = .ok ls) → (∀ x y, ∃ ls, E.average n limit x y = .ok ls) → (∀ b, ∃ ls, E.tableBest n limit b = .ok ls) →
  refs a base these j = some (d, r) → ∃ ls, paramResultTable E a limit j d r = .ok ls

/-- With `--systematic_average --changes_from_datatag` the item with the data asked for gets a heading and no table: it is its own reference, which makeTables.py:98-100
removes before line 127 uses it. -/
theorem average_fails : ¬ ShownHasTable := by
  intro h
  have h1 : refs { average := true, fromDatatag := some c!"plik" } [] [it [] [c!"plik"]] (it [] [c!"plik"]) = some (none, some (it [] [c!"plik"])) := by rfl
  obtain ⟨ls, hl⟩ := h exEnv { average := true, fromDatatag := some c!"plik" } [] [it [] [c!"plik"]] 2 3 (it [] [c!"plik"]) none _ rfl ⟨_, rfl⟩ (fun _ _ => ⟨_, rfl⟩) (fun _ _ => ⟨_, rfl⟩)
    (fun _ => ⟨_, rfl⟩) h1
  have : paramResultTable exEnv { average := true, fromDatatag := some c!"plik" } 2 (it [] [c!"plik"]) none (some (it [] [c!"plik"])) = .error .attr := by rfl
  rw [this] at hl
  cases hl

/-- A likelihood without a kind in the best fit has a list for its name (types.py:537-540), which has no `replace`: the whole table of the item is left out
(makeTables.py:143, 316-318). -/
theorem unkind_fails : ¬ ShownHasTable := by
  intro h
  have h1 : refs {} [] [it [] [c!"plik"]] (it [] [c!"plik"]) = some (none, none) := by rfl
  obtain ⟨ls, hl⟩ := h { exEnv with load := fun j => .ok ⟨some ⟨none, 5, [([], ⟨.list [c!"prior"], none, 7⟩)], []⟩, some j.name, none, none⟩ } {} [] [it [] [c!"plik"]] 2 3 (it [] [c!"plik"])
    none _ rfl ⟨_, rfl⟩ (fun _ _ => ⟨_, rfl⟩) (fun _ _ => ⟨_, rfl⟩) (fun _ => ⟨_, rfl⟩) h1
  have : paramResultTable { exEnv with load := fun j => .ok ⟨some ⟨none, 5, [([], ⟨.list [c!"prior"], none, 7⟩)], []⟩, some j.name, none, none⟩ } {} 2 (it [] [c!"plik"]) none none =
      .error .attr := by rfl
  rw [this] at hl
  cases hl

/-- references of added data are the same when data are also replaced -/
def AddingWithReplacing : Prop := ∀ (a : Args) (base : Dict Str Info) (these : List Info) (j : Info) (rep : List Str), a.adding.isSome → a.replacing = none →
  refs { a with replacing := some rep } base these j = refs a base these j

/-- With both options the references for added data are looked up among those for replaced data (makeTables.py:277 sets the same variable again), and are not found. -/
theorem both_fails : ¬ AddingWithReplacing := by
  intro h
  have := h { adding := some [c!"BAO"] } [] [it [] [c!"plik"], it [] [c!"BAO", c!"plik"]] (it [] [c!"BAO", c!"plik"]) [c!"CamSpec", c!"plik"] rfl rfl
  have h2 := congrArg (Option.map fun r => r.1.isSome) this
  revert h2
  decide +kernel

/-- the item with one of the data replaced is found, whatever the names of data -/
def ReplacedFound : Prop := ∀ (a : Args) (base : Dict Str Info) (these : List Info) (j r : Info) (x y : Str), a.replacing = some [x, y] → a.adding = none → r ∈ these → j ∈ these →
  x ≠ [] → y ∈ j.data.names → r.normedData = r.data.normedTag none → r.data.names = (j.data.names.map fun n => if n = y then x else n) → ∃ d, refs a base these j = some (some d, some d)

/-- When the name of other data has an underscore the item is not found: `normalizeDataTag` sorts the parts of names (makeTables.py:296, batchjob.py:523-524), the tags of
the items are made of sorted names. -/
theorem underscore_fails : ¬ ReplacedFound := by
  intro h
  obtain ⟨d, hd⟩ := h { replacing := some [c!"c", c!"p"] } [] [it [] [c!"a_z", c!"c"], it [] [c!"a_z", c!"p"]] (it [] [c!"a_z", c!"p"]) (it [] [c!"a_z", c!"c"]) c!"c" c!"p" rfl rfl
    (by simp) (by simp) (by decide) (by decide +kernel) rfl (by decide +kernel)
  have := congrArg (Option.map fun r => r.1.isSome) hd
  rw [show (Option.map (fun r : Option Info × Option Info => r.1.isSome) (some (some d, some d))) = some true from rfl] at this
  clear hd
  revert this
  decide +kernel +revert

/-- **C199 (partial)** What holds: a table is shown for each heading when averages are not asked for, the number of columns is not given and the likelihoods of best fits
have kinds. -/
theorem shown_partial {K T : Type} [Field K] [LinearOrder K] [IsStrictOrderedRing K] [FloorRing K] (E : Env K T) (a : Args) (limit n : Nat) (j : Info) (d r : Option Info) (res : Results K T)
    (hc : a.columns = .num n) (hav : a.average = false) (hl : E.load j = .ok res) (ht : ∀ m q, ∃ ls, E.table n limit m q = .ok ls) (htb : ∀ b, ∃ ls, E.tableBest n limit b = .ok ls)
    (hb : ∀ b, res.best = some b → ∀ p ∈ b.chiSquareds, ∃ x, p.2.name = .str x) : ∃ ls, paramResultTable E a limit j d r = .ok ls := by
  have hbelow : ∀ cap comp, ∃ ls, below E a cap res.best comp = .ok ls := by
    intro cap comp
    by_cases hp : a.forpaper = true
    · exact ⟨_, by unfold below; rw [if_pos hp]⟩
    · cases hbb : res.best with
      | none => exact ⟨_, by unfold below; rw [if_neg hp]⟩
      | some b =>
        obtain ⟨ks, -, -, -, h⟩ := below_spec E a cap b comp (by simpa using hp) (hb b hbb)
        exact ⟨_, h⟩
  have htable : ∃ ls, tableOf E a limit res j (refUsed a r j) = .ok ls := by
    unfold tableOf
    simp only [hc, hav, Cols.get, bind, Except.bind, pure, Except.pure, Bool.false_eq_true, if_false]
    cases a.bestfitonly with
    | true =>
      cases res.best with
      | none => exact ⟨_, rfl⟩
      | some b => exact htb b
    | false =>
      cases res.marge with
      | none => exact ⟨_, rfl⟩
      | some m => exact ht m _
  obtain ⟨t, ht2⟩ := htable
  unfold paramResultTable
  simp only [hl, ht2, bind, Except.bind, pure, Except.pure]
  generalize (bestCaption E res.best _ ++ _ : List Str) = cap
  obtain ⟨ls, h⟩ := hbelow cap (((deltaUsed d j).map E.loadRef).bind (·.best))
  rw [show below E a cap res.best (Option.bind (Option.map E.loadRef (deltaUsed d j)) fun x => x.best) = .ok ls from h]
  exact ⟨_, rfl⟩

end Verif.MakeTables
