import Verif.Model.GuiSelect
import Verif.Props.MergeRenames

/-!
# C235, C236: the lists of the graphical interface
-/

namespace Verif.GuiSelect
open Verif.Py Verif.ParamNames

/-! ## Roots -/

theorem checkFirst_some (name : Str) : ∀ (l rs : List Root), checkFirst name l = some rs → ∃ a r b, l = a ++ r :: b ∧ r.name = name ∧ rs = a ++ { r with checked := true } :: b
  | [], _, h => by cases h
  | r :: l, rs, h => by
    rw [checkFirst] at h
    split at h
    · rename_i hr
      injection h with h
      exact ⟨[], r, l, rfl, hr, h.symm⟩
    · cases hc : checkFirst name l with
      | none => rw [hc] at h; cases h
      | some r' =>
        rw [hc] at h
        injection h with h
        obtain ⟨a, x, b, h1, h2, h3⟩ := checkFirst_some name l r' hc
        exact ⟨r :: a, x, b, by rw [h1]; rfl, h2, by rw [← h, h3]; rfl⟩

theorem checkFirst_none (name : Str) : ∀ (l : List Root), checkFirst name l = none ↔ name ∉ l.map (·.name)
  | [] => by simp [checkFirst]
  | r :: l => by
    rw [checkFirst, List.map_cons, List.mem_cons, not_or]
    split
    · rename_i h; exact ⟨fun h' => (by cases h'), fun h' => absurd h.symm h'.1⟩
    · rename_i h
      rw [Option.map_eq_none_iff, checkFirst_none name l]
      exact ⟨fun h' => ⟨Ne.symm h, h'⟩, fun h' => h'.2⟩

/-- every listed root has a path, each once -/
def Inv (st : St) : Prop := (st.roots.map (·.name)).Nodup ∧ ∀ r ∈ st.roots, r.name ∈ st.paths.keys

/-- **C235**: a root that can be loaded is checked in the list, once; the others stay as they are -/
theorem newRoot_spec (loads : Bool) (name path : Str) (st : St) (h : Inv st) :
    Inv (newRoot loads name path st) ∧ (∀ r ∈ st.roots, r.name ≠ name → r ∈ (newRoot loads name path st).roots) ∧
    (∀ r ∈ (newRoot loads name path st).roots, r.name ≠ name → r ∈ st.roots) ∧
    ((loads = true ∨ name ∈ st.roots.map (·.name)) → name ∈ checkedNames (newRoot loads name path st).roots) ∧
    (name ∉ st.roots.map (·.name) → loads = true → (newRoot loads name path st).paths.get? name = some path) := by
  unfold newRoot
  cases hc : checkFirst name st.roots with
  | some rs =>
    obtain ⟨a, r, b, h1, h2, h3⟩ := checkFirst_some name _ _ hc
    dsimp only
    have hin : name ∈ st.roots.map (·.name) := by rw [h1]; simp [h2]
    refine ⟨⟨?_, ?_⟩, ?_, ?_, ?_, fun hn => absurd hin hn⟩
    · have := h.1; rw [h1] at this; rw [h3]; simpa using this
    · intro x hx
      rw [h3] at hx
      have h0 := h.2
      rw [h1] at h0
      rcases List.mem_append.mp hx with hx | hx
      · exact h0 x (List.mem_append_left _ hx)
      · rcases List.mem_cons.mp hx with rfl | hx
        · exact h0 r (List.mem_append_right _ (List.mem_cons_self ..))
        · exact h0 x (List.mem_append_right _ (List.mem_cons_of_mem _ hx))
    · intro x hx hne
      rw [h1] at hx; rw [h3]
      rcases List.mem_append.mp hx with hx | hx
      · exact List.mem_append_left _ hx
      · rcases List.mem_cons.mp hx with rfl | hx
        · exact absurd h2 hne
        · exact List.mem_append_right _ (List.mem_cons_of_mem _ hx)
    · intro x hx hne
      rw [h3] at hx; rw [h1]
      rcases List.mem_append.mp hx with hx | hx
      · exact List.mem_append_left _ hx
      · rcases List.mem_cons.mp hx with rfl | hx
        · exact absurd h2 hne
        · exact List.mem_append_right _ (List.mem_cons_of_mem _ hx)
    · intro _
      rw [h3]
      unfold checkedNames
      rw [List.filter_append, List.filter_cons, if_pos rfl]
      simp [h2]
  | none =>
    have hn := (checkFirst_none name st.roots).mp hc
    dsimp only
    cases loads with
    | false => exact ⟨h, fun r hr _ => hr, fun r hr _ => hr, fun h' => (by rcases h' with h' | h'; cases h'; exact absurd h' hn), fun _ h' => (by cases h')⟩
    | true =>
      rw [if_pos rfl]
      refine ⟨⟨?_, ?_⟩, fun r hr _ => List.mem_append_left _ hr, ?_, ?_, ?_⟩
      · rw [List.map_append, List.nodup_append]
        refine ⟨h.1, by simp, ?_⟩
        intro a ha b hb
        simp only [List.map_cons, List.map_nil, List.mem_singleton] at hb
        subst hb
        rintro rfl
        exact hn ha
      · intro r hr
        show r.name ∈ Dict.keys (Dict.set _ _ _)
        rw [Dict.mem_keys_set]
        rcases List.mem_append.mp hr with hr | hr
        · exact Or.inr (h.2 r hr)
        · rw [List.mem_singleton.mp hr]; exact Or.inl rfl
      · intro r hr hne
        rcases List.mem_append.mp hr with hr | hr
        · exact hr
        · rw [List.mem_singleton.mp hr] at hne; exact absurd rfl hne
      · intro _
        unfold checkedNames
        rw [List.filter_append, List.map_append]
        exact List.mem_append_right _ (by simp)
      · intro _ _
        exact Dict.get?_set_self ..

example : newRoot true c!"b" c!"/p/b" ⟨[⟨c!"a", false, false⟩], [(c!"a", c!"/p/a")]⟩ = ⟨[⟨c!"a", false, false⟩, ⟨c!"b", true, false⟩], [(c!"a", c!"/p/a"), (c!"b", c!"/p/b")]⟩ ∧
    newRoot true c!"a" c!"/q/a" ⟨[⟨c!"a", false, false⟩], [(c!"a", c!"/p/a")]⟩ = ⟨[⟨c!"a", true, false⟩], [(c!"a", c!"/p/a")]⟩ := by decide

theorem removeFrom_skip (n : Nat) : ∀ (pre l : List Root), n ≤ l.length → (∀ r ∈ l, r.selected = false) → removeFrom false n pre.length (pre ++ l) = pre ++ l := by
  induction n with
  | zero => intro pre l _ _; rfl
  | succ n ih =>
    intro pre l hl hs
    cases l with
    | nil => simp at hl
    | cons r l =>
      rw [removeFrom, List.getElem?_append_right (Nat.le_refl _), Nat.sub_self]
      show removeFrom false n (pre.length + 1) (if false || r.selected then _ else _) = _
      rw [hs r (List.mem_cons_self ..), Bool.or_self, if_neg (by decide)]
      have := ih (pre ++ [r]) l (by simpa using hl) (fun x hx => hs x (List.mem_cons_of_mem _ hx))
      rw [List.length_append, List.length_singleton, List.append_assoc] at this
      exact this

theorem removeFrom_short (n : Nat) : ∀ (pre l : List Root), l.length < n → (∀ r ∈ l, r.selected = false) → removeFrom false n pre.length (pre ++ l) = pre ++ l := by
  induction n with
  | zero => intro pre l h _; simp at h
  | succ n ih =>
    intro pre l hl hs
    cases l with
    | nil =>
      have end_ : ∀ (n i : Nat) (l : List Root), l.length ≤ i → removeFrom false n i l = l := by
        intro n
        induction n with
        | zero => intro i l _; rfl
        | succ n ih => intro i l h; rw [removeFrom, List.getElem?_eq_none h]; exact ih _ _ (by omega)
      exact end_ _ _ _ (by simp)
    | cons r l =>
      rw [removeFrom, List.getElem?_append_right (Nat.le_refl _), Nat.sub_self]
      show removeFrom false n (pre.length + 1) (if false || r.selected then _ else _) = _
      rw [hs r (List.mem_cons_self ..), Bool.or_self, if_neg (by decide)]
      have := ih (pre ++ [r]) l (by simpa using hl) (fun x hx => hs x (List.mem_cons_of_mem _ hx))
      rw [List.length_append, List.length_singleton, List.append_assoc] at this
      exact this

/-- **C235**: the selected root is removed and no other; a single root is removed in any case -/
theorem removeRoot_spec (a b : List Root) (r : Root) (hr : r.selected = true) (ha : ∀ x ∈ a, x.selected = false) (hb : ∀ x ∈ b, x.selected = false) : removeRoot (a ++ r :: b) = a ++ b := by
  have step : ∀ (n : Nat) (pre mid b : List Root), n = (mid ++ r :: b).length → (∀ x ∈ mid, x.selected = false) → (∀ x ∈ b, x.selected = false) →
      removeFrom false n pre.length (pre ++ (mid ++ r :: b)) = pre ++ (mid ++ b) := by
    intro n
    induction n with
    | zero => intro pre mid b h _ _; simp at h
    | succ n ih =>
      intro pre mid b h hm hb
      cases mid with
      | nil =>
        rw [List.nil_append, removeFrom, List.getElem?_append_right (Nat.le_refl _), Nat.sub_self]
        show removeFrom false n (pre.length + 1) (if false || r.selected then _ else _) = _
        rw [hr, Bool.false_or, if_pos rfl]
        have : (pre ++ r :: b).eraseIdx pre.length = pre ++ b := by
          rw [List.eraseIdx_append_of_length_le (Nat.le_refl _), Nat.sub_self]; rfl
        rw [this, List.nil_append]
        cases b with
        | nil =>
          rw [List.append_nil]
          have hn : n = 0 := by simpa using h
          rw [hn]; rfl
        | cons x b =>
          have h2 := removeFrom_short n (pre ++ [x]) b (by simp at h; omega) (fun y hy => hb y (List.mem_cons_of_mem _ hy))
          rw [List.length_append, List.length_singleton, List.append_assoc] at h2
          exact h2
      | cons x mid =>
        rw [List.cons_append, removeFrom, List.getElem?_append_right (Nat.le_refl _), Nat.sub_self]
        show removeFrom false n (pre.length + 1) (if false || x.selected then _ else _) = _
        rw [hm x (List.mem_cons_self ..), Bool.or_self, if_neg (by decide)]
        have := ih (pre ++ [x]) mid b (by simpa using h) (fun y hy => hm y (List.mem_cons_of_mem _ hy)) hb
        rw [List.length_append, List.length_singleton, List.append_assoc, List.append_assoc] at this
        exact this
  unfold removeRoot
  by_cases h1 : (a ++ r :: b).length = 1
  · have h2 : a = [] ∧ b = [] := by
      rw [List.length_append, List.length_cons] at h1
      exact ⟨List.length_eq_zero_iff.mp (by omega), List.length_eq_zero_iff.mp (by omega)⟩
    rw [h2.1, h2.2]; rfl
  · rw [show ((a ++ r :: b).length == 1) = false from beq_eq_false_iff_ne.mpr h1]
    exact step _ [] a b rfl ha hb

theorem removeRoot_one (r : Root) : removeRoot [r] = [] := rfl

/-! ## Parameters -/

/-- names are as in files: distinct and without spaces -/
def GoodNames (ps : List Info) : Prop := (ps.map (·.name)).Nodup ∧ ∀ p ∈ ps, ' ' ∉ p.name

theorem takeWhile_tag (n : Str) (r : List Str) (h : ' ' ∉ n) : (tagOf (n, r)).takeWhile (· ≠ ' ') = n := by
  unfold tagOf
  have h1 : ∀ c ∈ n, decide (c ≠ ' ') = true := fun c hc => decide_eq_true (fun e => h (e ▸ hc))
  rw [List.takeWhile_append_of_pos h1]
  dsimp only
  split
  · simp
  · rw [List.append_assoc]
    show n ++ List.takeWhile _ (' ' :: _) = n
    rw [List.takeWhile_cons, if_neg (by decide), List.append_nil]

/-- **C235**: the texts in the lists are distinct and stand for the parameters, in their order -/
theorem tags_eq (ps : List Info) (h : GoodNames ps) : tags ps = ps.map (fun p => (tagOf (p.name, p.renames), p.name)) ∧ (tags ps).WF := by
  have key : ∀ (l : List (Str × List Str)) (d : Dict Str Str), (l.map (·.1)).Nodup → (∀ e ∈ l, ' ' ∉ e.1) → (∀ k ∈ d.keys, ∀ e ∈ l, k.takeWhile (· ≠ ' ') ≠ e.1) → d.WF →
      l.foldl (fun d e => d.set (tagOf e) e.1) d = d ++ l.map (fun e => (tagOf e, e.1)) ∧ (l.foldl (fun d e => d.set (tagOf e) e.1) d).WF := by
    intro l
    induction l with
    | nil => intro d _ _ _ hw; exact ⟨by simp, hw⟩
    | cons e l ih =>
      intro d hn hs hk hw
      rw [List.map_cons, List.nodup_cons] at hn
      have hnot : tagOf e ∉ d.keys := fun hc => hk _ hc e (List.mem_cons_self ..) (takeWhile_tag e.1 e.2 (hs e (List.mem_cons_self ..)))
      rw [List.foldl_cons]
      obtain ⟨i1, i2⟩ := ih (d.set (tagOf e) e.1) hn.2 (fun x hx => hs x (List.mem_cons_of_mem _ hx)) (by
        intro k hkk x hx
        rcases Dict.mem_keys_set.mp hkk with rfl | hkk
        · rw [takeWhile_tag e.1 e.2 (hs e (List.mem_cons_self ..))]
          intro e'
          exact hn.1 (e' ▸ List.mem_map.mpr ⟨x, hx, rfl⟩)
        · exact hk k hkk x (List.mem_cons_of_mem _ hx)) (Dict.WF_set _ _ hw)
      refine ⟨?_, i2⟩
      rw [i1, Dict.set_of_not_mem _ hnot]; simp
  unfold tags
  rw [getRenames_eq ps h.1]
  obtain ⟨h1, h2⟩ := key (ps.map (fun p => (p.name, p.renames))) [] (by rw [List.map_map]; exact h.1) (by
    intro e he
    obtain ⟨p, hp, rfl⟩ := List.mem_map.mp he
    exact h.2 p hp) (fun k hk => (by cases hk)) Dict.WF_nil
  refine ⟨?_, h2⟩
  rw [h1, List.nil_append, List.map_map]; rfl

theorem tagFor_eq (ps : List Info) (h : GoodNames ps) (p : Info) (hp : p ∈ ps) : tagFor (tags ps) p.name = some (tagOf (p.name, p.renames)) := by
  unfold tagFor
  rw [(tags_eq ps h).1, List.find?_map]
  have : ps.find? ((fun e : Str × Str => decide (e.2 = p.name)) ∘ fun p => (tagOf (p.name, p.renames), p.name)) = some p := by
    have hn := h.1
    clear h
    induction ps with
    | nil => cases hp
    | cons q ps ih =>
      rw [List.map_cons, List.nodup_cons] at hn
      rw [List.find?_cons]
      rcases List.mem_cons.mp hp with rfl | hp
      · simp
      · have : q.name ≠ p.name := fun e => hn.1 (e ▸ List.mem_map.mpr ⟨p, hp, rfl⟩)
        simp only [Function.comp, this, decide_false]
        exact ih hp hn.2
  rw [this]; rfl

theorem findNew_mem (ps : List Info) : ∀ (os : List Str) (n : Str), findNew ps os = some n → ∃ p ∈ ps, p.name = n ∧ ∃ o ∈ os, matchesName o [] p = true
  | [], _, h => by cases h
  | o :: os, n, h => by
    rw [findNew] at h
    cases hp : parWithName ps o with
    | some p =>
      rw [hp] at h
      injection h with h
      exact ⟨p, List.mem_of_find?_eq_some hp, h, o, List.mem_cons_self .., List.find?_some hp⟩
    | none =>
      rw [hp] at h
      obtain ⟨p, h1, h2, o', h3, h4⟩ := findNew_mem ps os n h
      exact ⟨p, h1, h2, o', List.mem_cons_of_mem _ h3, h4⟩

/-- **C235**: after an update those are selected, in the order of the list, that were found for the old ones -/
theorem selection_spec (ps : List Info) (h : GoodNames ps) (old : List (List Str)) :
    getParams (tags ps) (updateList ps old) = (ps.map (·.name)).filter (fun n => old.any (fun o => findNew ps o == some n)) := by
  unfold getParams updateList
  dsimp only
  have ht := (tags_eq ps h).1
  have hw := (tags_eq ps h).2
  have hon : ∀ p ∈ ps, ((old.filterMap (findNew ps)).filterMap (tagFor (tags ps))).contains (tagOf (p.name, p.renames)) = old.any (fun o => findNew ps o == some p.name) := by
    intro p hp
    rw [Bool.eq_iff_iff, List.contains_iff_mem, List.mem_filterMap, List.any_eq_true]
    constructor
    · rintro ⟨n, hn, hnt⟩
      obtain ⟨o, ho, hf⟩ := List.mem_filterMap.mp hn
      obtain ⟨q, hq, hqn, _⟩ := findNew_mem ps o n hf
      rw [← hqn, tagFor_eq ps h q hq] at hnt
      injection hnt with hnt
      have e := takeWhile_tag q.name q.renames (h.2 q hq)
      rw [hnt, takeWhile_tag p.name p.renames (h.2 p hp)] at e
      exact ⟨o, ho, by rw [hf, ← hqn, ← e]; simp⟩
    · rintro ⟨o, ho, hf⟩
      exact ⟨p.name, List.mem_filterMap.mpr ⟨o, ho, by simpa using hf⟩, tagFor_eq ps h p hp⟩
  have hkeys : (tags ps).keys = ps.map (fun p => tagOf (p.name, p.renames)) := by rw [ht]; unfold Dict.keys; rw [List.map_map]; rfl
  rw [hkeys, List.map_map, List.filter_map, List.map_map, List.filterMap_map, List.filter_map]
  have e1 : ps.filter ((fun x : Str × Bool => x.2) ∘ ((fun tag => (tag, ((old.filterMap (findNew ps)).filterMap (tagFor (tags ps))).contains tag)) ∘ fun p => tagOf (p.name, p.renames))) =
      ps.filter ((fun n => old.any (fun o => findNew ps o == some n)) ∘ fun p => p.name) := by
    apply List.filter_congr
    intro p hp
    exact hon p hp
  rw [e1, ← List.filterMap_eq_map]
  have cong : ∀ (l : List Info) (f g : Info → Option Str), (∀ p ∈ l, f p = g p) → l.filterMap f = l.filterMap g := by
    intro l f g
    induction l with
    | nil => intro _; rfl
    | cons a l ih => intro h; rw [List.filterMap_cons, List.filterMap_cons, h a (List.mem_cons_self ..), ih (fun p hp => h p (List.mem_cons_of_mem _ hp))]
  apply cong
  intro p hp
  have hp := (List.mem_filter.mp hp).1
  exact Dict.get?_of_mem hw (by rw [ht]; exact List.mem_map.mpr ⟨p, hp, rfl⟩)

/-- **C235**: a selected parameter that the new list knows under one of its names stays selected under its new name -/
theorem selection_followed (prev ps : List Info) (h : GoodNames ps) (sel : List Str) (n o : Str) (hn : n ∈ sel) (ho : o = n ∨ o ∈ aliasesOf (getRenames prev) n)
    (hk : ∃ p ∈ ps, p.name = o ∨ o ∈ p.renames) :
    ∃ p ∈ ps, p.name ∈ getParams (tags ps) (updateList ps (oldNames prev sel)) ∧ ∃ o', (o' = n ∨ o' ∈ aliasesOf (getRenames prev) n) ∧ (p.name = o' ∨ o' ∈ p.renames) := by
  have ex : ∀ os : List Str, o ∈ os → ∃ x, findNew ps os = some x := by
    intro os
    induction os with
    | nil => intro h; cases h
    | cons a os ih =>
      intro hm
      rw [findNew]
      cases hp : parWithName ps a with
      | some p => exact ⟨p.name, rfl⟩
      | none =>
        rcases List.mem_cons.mp hm with rfl | hm
        · obtain ⟨p, hp1, hp2⟩ := hk
          exact absurd ((matchesName_plain o p).mpr hp2) (by have := List.find?_eq_none.mp hp p hp1; exact this)
        · exact ih hm
  obtain ⟨x, hx⟩ := ex (n :: aliasesOf (getRenames prev) n) (by rcases ho with rfl | ho; exact List.mem_cons_self ..; exact List.mem_cons_of_mem _ ho)
  obtain ⟨p, h1, h2, o', h3, h4⟩ := findNew_mem ps _ x hx
  refine ⟨p, h1, ?_, o', List.mem_cons.mp h3, (matchesName_plain o' p).mp h4⟩
  rw [selection_spec ps h, List.mem_filter]
  refine ⟨List.mem_map.mpr ⟨p, h1, rfl⟩, ?_⟩
  rw [List.any_eq_true]
  exact ⟨_, List.mem_map.mpr ⟨n, hn, rfl⟩, by rw [hx, h2]; simp⟩

/-- no alias is the name of a later parameter -/
def Clean (ps : List Info) : Prop := ∀ p ∈ ps, parWithName ps p.name = some p

/-- **C236** in part: an update with the same parameters keeps the selection, if no rename is the name of a later parameter -/
theorem selection_same_partial (ps : List Info) (h : GoodNames ps) (hc : Clean ps) (sel : List Str) (hs : ∀ n ∈ sel, n ∈ ps.map (·.name)) :
    getParams (tags ps) (updateList ps (oldNames ps sel)) = (ps.map (·.name)).filter (fun n => sel.contains n) := by
  rw [selection_spec ps h]
  apply List.filter_congr
  intro n _
  unfold oldNames
  rw [List.any_map, Bool.eq_iff_iff, List.any_eq_true, List.contains_iff_mem]
  have fn : ∀ m ∈ sel, findNew ps (m :: aliasesOf (getRenames ps) m) = some m := by
    intro m hm
    obtain ⟨p, hp, rfl⟩ := List.mem_map.mp (hs m hm)
    rw [findNew, hc p hp]
  constructor
  · rintro ⟨m, hm, he⟩
    have := fn m hm
    simp only [Function.comp, this, beq_iff_eq, Option.some.injEq] at he
    exact he ▸ hm
  · intro hm
    exact ⟨n, hm, by simp only [Function.comp, fn n hm, beq_self_eq_true]⟩

/-- **C236** in part: and so the colour -/
theorem color_kept_partial (ps : List Info) (hc : Clean ps) (p : Info) (hp : p ∈ ps) : combo ps (ps.map (·.name)) p.name = some p.name := by
  unfold combo
  rw [hc p hp]
  dsimp only
  rw [if_pos (List.mem_map.mpr ⟨p, hp, rfl⟩)]

/-- **C235**: tables for another root have the parameters that it knows, under its own names -/
theorem tableParams_full (mine theirs : List Info) (full : List Str) (m : Str) : (∃ l, tableParams mine theirs [] full = .ok l ∧ (m ∈ l ↔ ∃ n ∈ full, ∃ p, parWithName theirs n (getRenames mine) = some p ∧ p.name = m)) := by
  refine ⟨_, rfl, ?_⟩
  rw [List.mem_filterMap]
  constructor
  · rintro ⟨n, hn, h⟩
    obtain ⟨p, hp, e⟩ := Option.map_eq_some_iff.mp h
    exact ⟨n, hn, p, hp, e⟩
  · rintro ⟨n, hn, p, hp, e⟩
    exact ⟨n, hn, by rw [hp, ← e]; rfl⟩

example : (tableParams [{ name := c!"x", renames := [c!"y"] }] [{ name := c!"y" }, { name := c!"z" }] [] [c!"x", c!"w"]).toOption = some [c!"y"] := by decide

/-- **C235**: if parameters are selected there is one column for each, or an error if one is not known -/
theorem tableParams_sel (mine theirs : List Info) (full : List Str) : ∀ (sel : List Str), sel ≠ [] →
    (∀ l, tableParams mine theirs sel full = .ok l → l.length = sel.length ∧ ∀ (i : Nat) (n : Str), sel[i]? = some n → ∃ p, parWithName theirs n (getRenames mine) = some p ∧ l[i]? = some p.name) ∧
    ((∀ n ∈ sel, (parWithName theirs n (getRenames mine)).isSome = true) → ∃ l, tableParams mine theirs sel full = .ok l) := by
  intro sel hne
  unfold tableParams
  rw [if_neg hne]
  clear hne
  induction sel with
  | nil => exact ⟨fun l h => (by cases h; exact ⟨rfl, fun i n h => (by simp at h)⟩), fun _ => ⟨[], rfl⟩⟩
  | cons a sel ih =>
    rw [List.foldr_cons]
    generalize (List.foldr _ _ sel : Except Err (List Str)) = acc at ih ⊢
    unfold parWithNameE
    cases hp : parWithName theirs a (getRenames mine) with
    | none =>
      dsimp only
      rw [if_pos rfl]
      exact ⟨fun l h => (by cases h), fun h => (by have := h a (List.mem_cons_self ..); rw [hp] at this; cases this)⟩
    | some p =>
      dsimp only
      cases acc with
      | error e =>
        refine ⟨fun l h => (by cases h), fun h => ?_⟩
        obtain ⟨l, hl⟩ := ih.2 (fun n hn => h n (List.mem_cons_of_mem _ hn))
        cases hl
      | ok l0 =>
        refine ⟨fun l h => ?_, fun _ => ⟨_, rfl⟩⟩
        injection h with h
        obtain ⟨h1, h2⟩ := ih.1 l0 rfl
        subst h
        refine ⟨by rw [List.length_cons, List.length_cons, h1], fun i n hi => ?_⟩
        cases i with
        | zero => injection hi with hi; subst hi; exact ⟨p, hp, rfl⟩
        | succ i => exact h2 i n hi

example : (tableParams [{ name := c!"x", renames := [c!"y"] }] [{ name := c!"y" }, { name := c!"z" }] [c!"z", c!"x"] []).toOption = some [c!"z", c!"y"] := by decide

/-! ## Directories -/

/-- **C235**: the current directory comes first; there are at most ten, none twice, all known -/
theorem saveDirs_spec (root : Option Str) (dirs : List Str) (h : dirs.Nodup) :
    (saveDirs root dirs).Nodup ∧ (saveDirs root dirs).length ≤ 10 ∧ (∀ r, root = some r → (saveDirs root dirs).head? = some r) ∧ (∀ d ∈ saveDirs root dirs, root = some d ∨ d ∈ dirs) ∧
    (dirs.length < 10 → ∀ d ∈ dirs, d ∈ saveDirs root dirs) := by
  unfold saveDirs
  cases root with
  | none =>
    dsimp only
    refine ⟨h.sublist (List.take_sublist ..), List.length_take_le .., fun r hr => (by cases hr), fun d hd => Or.inr (List.mem_of_mem_take hd), fun hl d hd => ?_⟩
    rw [List.take_of_length_le (by omega)]; exact hd
  | some r =>
    dsimp only
    refine ⟨?_, List.length_take_le .., fun r' hr => by rw [List.take_succ_cons, List.head?_cons, hr], ?_, ?_⟩
    · apply List.Nodup.sublist (List.take_sublist ..)
      rw [List.nodup_cons]
      exact ⟨by simp, h.sublist List.filter_sublist⟩
    · intro d hd
      rcases List.mem_cons.mp (List.mem_of_mem_take hd) with rfl | hd
      · exact Or.inl rfl
      · exact Or.inr ((List.mem_filter.mp hd).1)
    · intro hl d hd
      rw [List.take_of_length_le (by rw [List.length_cons]; have := List.length_filter_le (fun x => decide (x ≠ r)) dirs; omega), List.mem_cons, List.mem_filter]
      by_cases e : d = r
      · exact Or.inl e
      · exact Or.inr ⟨hd, by simp [e]⟩

/-! ## Examples -/

def exPs : List Info := [{ name := c!"a", renames := [c!"x", c!"y"] }, { name := c!"b" }]

example : tags exPs = [(c!"a (x, y)", c!"a"), (c!"b", c!"b")] := by decide

example : getParams (tags exPs) (updateList exPs (oldNames [{ name := c!"x" }] [c!"x"])) = [c!"a"] := by decide

example : GoodNames exPs ∧ Clean exPs := ⟨⟨by decide, by decide⟩, by unfold Clean; decide⟩

example : saveDirs (some c!"b") [c!"a", c!"b"] = [c!"b", c!"a"] := by decide

example : removeRoot [{ name := c!"a" }, { name := c!"b", selected := true }, { name := c!"c" }] = [{ name := c!"a" }, { name := c!"c" }] := by decide

/-! ## What fails -/

/-- an update with the same parameters keeps the parameter for the third axis -/
def ZKept : Prop := ∀ (ps : List Info), GoodNames ps → Clean ps → ∀ p ∈ ps, combo ps (tags ps).keys (tagOf (p.name, p.renames)) = some (tagOf (p.name, p.renames))

/-- **C236 fails**: the box for the third axis has texts with renames (mainwindow.py:1232), but after an update the name is looked for (1502-1507): a parameter with renames is replaced by the first
one of the list whenever a root is added or checked -/
theorem z_fails : ¬ ZKept := by
  intro h
  have := h [{ name := c!"b" }, { name := c!"a", renames := [c!"x"] }] ⟨by decide, by decide⟩ (by unfold Clean; decide) { name := c!"a", renames := [c!"x"] } (by decide)
  revert this
  decide

/-- an update with the same parameters keeps the selection -/
def SelectionSame : Prop := ∀ (ps : List Info), GoodNames ps → ∀ (sel : List Str), (∀ n ∈ sel, n ∈ ps.map (·.name)) → ∀ n ∈ sel, n ∈ getParams (tags ps) (updateList ps (oldNames ps sel))

/-- **C236 fails**: the first parameter that has the name or has it as a rename is selected (mainwindow.py:1212, paramnames.py:235-241), not the one that is called so -/
theorem alias_first_fails : ¬ SelectionSame := by
  intro h
  have := h [{ name := c!"a", renames := [c!"b"] }, { name := c!"b" }] ⟨by decide, by decide⟩ [c!"b"] (by decide) c!"b" (by decide)
  revert this
  decide

/-- a root is read from the directory that is open -/
def FromHere : Prop := ∀ (name path : Str) (st : St), Inv st → (newRoot true name path st).paths.get? name = some path

/-- **C236 fails**: roots are known by their names alone (mainwindow.py:1313-1318): for a root of another directory with the name of one in the list nothing is read, and the old one is plotted -/
theorem same_name_fails : ¬ FromHere := by
  intro h
  have := h c!"r" c!"new" ⟨[{ name := c!"r" }], [(c!"r", c!"old")]⟩ ⟨by decide, by decide⟩
  revert this
  decide

/-- a PCA is of the parameters that are selected, as tables are -/
def PcaParams : Prop := ∀ (mine theirs : List Info) (sel l : List Str), sel ≠ [] → tableParams mine theirs sel [] = .ok l → pcaParams theirs sel = .ok l

/-- **C236 fails**: for a PCA the names of the first root are taken as they are (mainwindow.py:784-790), and `PCA` drops what it does not know (mcsamples.py:642): with other names for the same parameters
in the chosen root there is a PCA of fewer -/
theorem pca_fails : ¬ PcaParams := by
  intro h
  have := h [{ name := c!"a", renames := [c!"x"] }, { name := c!"b" }, { name := c!"c" }] [{ name := c!"x" }, { name := c!"b" }, { name := c!"c" }] [c!"a", c!"b", c!"c"] [c!"x", c!"b", c!"c"]
    (by decide) rfl
  revert this
  decide

/-- **C236 fails**: if the chosen root has them as renames of its own there is a `KeyError` (mcsamples.py:644) -/
theorem pca_error_fails : ¬ ∀ (theirs : List Info) (sel : List Str), (∀ n ∈ sel, (parWithName theirs n).isSome = true) → ∃ l, pcaParams theirs sel = .ok l := by
  intro h
  obtain ⟨l, hl⟩ := h [{ name := c!"x", renames := [c!"a"] }] [c!"a"] (by decide)
  revert hl
  unfold pcaParams
  rw [show List.filter (fun n => (parWithName [{ name := c!"x", renames := [c!"a"] }] n).isSome) [c!"a"] = [c!"a"] by decide]
  intro hl
  cases hl

/-- the buttons of the dialog find what they read -/
def Buttons : Prop := ∀ b ∈ [c!"Copy latex", c!"Save latex"], ∀ a ∈ readBy b, a ∈ tableDialog

/-- **C236 fails**: "Save latex" reads `_last_export_dir` of the dialog, which only the main window has (mainwindow.py:2185-2186): an `AttributeError` each time -/
theorem save_latex_fails : ¬ Buttons := by
  unfold Buttons
  decide

end Verif.GuiSelect
