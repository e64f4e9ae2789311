import Verif.Model.PlotArgs
import Verif.Props.BatchArgs
import Mathlib.Tactic.Linarith
import Mathlib.Tactic.NormNum
import Mathlib.Data.Rat.Defs
import Mathlib.Algebra.Order.Field.Rat
import Mathlib.Algebra.Order.Field.Basic

/-!
# Line styles, plot arguments, legends, sizes
-/

namespace Verif.PlotArgs
set_option linter.unusedSimpArgs false
set_option linter.unusedSectionVars false
open Verif.Py

/-! ## Styles of lines -/

theorem get?_setDefault (a : Args) (k v j : Str) : (setDefault a k v).get? j = if j = k then some ((a.get? k).getD v) else a.get? j := by
  unfold setDefault
  cases h : a.get? k with
  | some w =>
    simp only [Dict.has, h, Option.isSome_some, if_true, Option.getD_some]
    by_cases e : j = k
    · subst e; simp [h]
    · simp [e]
  | none =>
    simp only [Dict.has, h, Option.isSome_none, Bool.false_eq_true, if_false, Option.getD_none]
    rw [Dict.get?_set]

theorem get?_fillDashes (c : Cfg) (a : Args) (j : Str) : (fillDashes c a).get? j =
    if j = c!"dashes" then (a.get? c!"dashes").or (c.dashes.get? ((a.get? c!"ls").getD [])) else a.get? j := by
  unfold fillDashes
  cases h : a.get? c!"dashes" with
  | some w =>
    simp only [Dict.has, h, Option.isSome_some, if_true, Option.some_or]
    by_cases e : j = c!"dashes"
    · rw [e, if_pos rfl, h]
    · rw [if_neg e]
  | none =>
    simp only [Dict.has, h, Option.isSome_none, Bool.false_eq_true, if_false, Option.none_or]
    cases hd : c.dashes.get? ((a.get? c!"ls").getD []) with
    | some d => simp only [Dict.get?_set]
    | none =>
      simp only
      by_cases e : j = c!"dashes"
      · rw [e, if_pos rfl, h]
      · rw [if_neg e]

/-- the value of an argument asked for: that of the call, else that of the plot arguments of the line -/
def asked (pa : PA) (n : Nat) (kwargs : Args) (k : Str) : Option Str := (kwargs.get? k).or ((argsAt pa n).get? k)

/-- what the style of a line should be -/
structure Styled (c : Cfg) (pa : PA) (n : Nat) (kwargs a : Args) : Prop where
  other : ∀ k, k ≠ c!"ls" → k ≠ c!"color" → k ≠ c!"lw" → k ≠ c!"dashes" → a.get? k = asked pa n kwargs k
  ls : ∃ v, a.get? c!"ls" = some v ∧ (asked pa n kwargs c!"ls" = some v ∨ asked pa n kwargs c!"ls" = none ∧ ∃ w, defaultLs c n = .ok (v, w)) ∧
    a.get? c!"dashes" = (asked pa n kwargs c!"dashes").or (c.dashes.get? v)
  color : ∃ v, a.get? c!"color" = some v ∧ (asked pa n kwargs c!"color" = some v ∨ asked pa n kwargs c!"color" = none ∧ ∃ w, defaultLs c n = .ok (w, v))
  lw : a.get? c!"lw" = some ((asked pa n kwargs c!"lw").getD c.lw)

theorem get?_plotArgs (pa : PA) (n : Nat) {kwargs : Args} (hk : kwargs.WF) (k : Str) :
    (getPlotArgs pa n kwargs).1.get? k = asked pa n kwargs k := by
  unfold getPlotArgs asked
  exact Batch.get?_update hk k

/-- **The style of a line**: arguments of the call, else the plot arguments of the settings, else the default style of this line, with the dashes of
the line style used and the default width. -/
theorem lineStyles_spec (c : Cfg) (pa : PA) (n : Nat) (kwargs : Args) (hk : kwargs.WF) {a : Args} {pa' : PA}
    (h : getLineStyles c pa n kwargs = .ok (a, pa')) : Styled c pa n kwargs a ∧ pa' = store pa n a := by
  have hg := get?_plotArgs pa n hk
  unfold getLineStyles at h
  dsimp only at h
  generalize (getPlotArgs pa n kwargs).1 = b at h hg
  have e1 : (c!"dashes" : Str) ≠ c!"lw" := by decide
  have e2 : (c!"ls" : Str) ≠ c!"lw" := by decide
  have e3 : (c!"ls" : Str) ≠ c!"dashes" := by decide
  have e4 : (c!"color" : Str) ≠ c!"lw" := by decide
  have e5 : (c!"color" : Str) ≠ c!"dashes" := by decide
  have e6 : (c!"color" : Str) ≠ c!"ls" := by decide
  have e7 : (c!"lw" : Str) ≠ c!"dashes" := by decide
  by_cases hh : (b.has c!"ls" && b.has c!"color") = true
  · rw [if_pos hh] at h
    simp only [Except.ok.injEq, Prod.mk.injEq] at h
    obtain ⟨rfl, rfl⟩ := h
    simp only [Bool.and_eq_true, Dict.has, Option.isSome_iff_exists] at hh
    obtain ⟨⟨l, hl⟩, col, hc⟩ := hh
    refine ⟨⟨?_, ⟨l, ?_, ?_, ?_⟩, ⟨col, ?_, ?_⟩, ?_⟩, rfl⟩
    · intro k h1 h2 h3 h4
      rw [get?_setDefault, if_neg h3, get?_fillDashes, if_neg h4, hg]
    · rw [get?_setDefault, if_neg e2, get?_fillDashes, if_neg e3, hl]
    · left; rw [← hg, hl]
    · rw [get?_setDefault, if_neg e1, get?_fillDashes, if_pos rfl, ← hg, hl]; rfl
    · rw [get?_setDefault, if_neg e4, get?_fillDashes, if_neg e5, hc]
    · left; rw [← hg, hc]
    · rw [get?_setDefault, if_pos rfl, get?_fillDashes, if_neg e7, hg]
  · rw [if_neg hh] at h
    cases hd : defaultLs c n with
    | error e => rw [hd] at h; simp at h
    | ok p =>
      obtain ⟨dl, dc⟩ := p
      rw [hd] at h
      simp only [Except.ok.injEq, Prod.mk.injEq] at h
      obtain ⟨rfl, rfl⟩ := h
      have base : ∀ k, k ≠ c!"lw" → k ≠ c!"color" → (setDefault (setDefault (fillDashes c (setDefault b c!"ls" dl)) c!"color" dc) c!"lw" c.lw).get? k =
          (fillDashes c (setDefault b c!"ls" dl)).get? k := by
        intro k h1 h2
        rw [get?_setDefault, if_neg h1, get?_setDefault, if_neg h2]
      have hls : (setDefault b c!"ls" dl).get? c!"ls" = some ((b.get? c!"ls").getD dl) := by rw [get?_setDefault, if_pos rfl]
      refine ⟨⟨?_, ⟨(b.get? c!"ls").getD dl, ?_, ?_, ?_⟩, ⟨(b.get? c!"color").getD dc, ?_, ?_⟩, ?_⟩, rfl⟩
      · intro k h1 h2 h3 h4
        rw [base k h3 h2, get?_fillDashes, if_neg h4, get?_setDefault, if_neg h1, hg]
      · rw [base _ e2 (Ne.symm e6), get?_fillDashes, if_neg e3, hls]
      · rw [← hg]
        cases hb : b.get? c!"ls" with
        | some v => left; rfl
        | none => right; exact ⟨rfl, dc, hd⟩
      · rw [base _ e1 (Ne.symm e5), get?_fillDashes, if_pos rfl, hls, get?_setDefault, if_neg (Ne.symm e3), ← hg]; rfl
      · rw [get?_setDefault, if_neg e4, get?_setDefault, if_pos rfl, get?_fillDashes, if_neg e5, get?_setDefault, if_neg e6]
      · rw [← hg]
        cases hb : b.get? c!"color" with
        | some v => left; rfl
        | none => right; exact ⟨rfl, dl, hd⟩
      · rw [get?_setDefault, if_pos rfl, get?_setDefault, if_neg (Ne.symm e4), get?_fillDashes, if_neg e7, get?_setDefault, if_neg (Ne.symm e2), hg]

/-- an example of settings -/
def exCfg : Cfg where
  styles := [.str c!"-k", .str c!"--r", .pair c!":" c!"b", .str c!"g"]
  isColor s := s == c!"g"
  dashes := [(c!"--", c!"(3, 2)")]
  lw := c!"1"

def style (r : Except Err (Args × PA)) : Except Err Args := r.map (·.1)

example : style (getLineStyles exCfg .unset 1 [(c!"alpha", c!"0.5")]) =
      .ok [(c!"alpha", c!"0.5"), (c!"ls", c!"--"), (c!"dashes", c!"(3, 2)"), (c!"color", c!"r"), (c!"lw", c!"1")] ∧
    style (getLineStyles exCfg (.many [none, some [(c!"color", c!"m")]]) 1 [(c!"ls", c!":")]) = .ok [(c!"color", c!"m"), (c!"ls", c!":"), (c!"lw", c!"1")] := by
  decide

/-- **A string of the default styles** is split into line style and colour. -/
theorem defaultLs_split (c : Cfg) (n : Nat) (ls color : Str) (h : c.styles[n]? = some (.str (ls ++ color))) (hc : c.isColor (ls ++ color) = false)
    (h1 : ∀ x ∈ ls, x = '-' ∨ x = '.' ∨ x = ':') (h2 : ∀ x, color.head? = some x → x ≠ '-' ∧ x ≠ '.' ∧ x ≠ ':') : defaultLs c n = .ok (ls, color) := by
  have h1' : ∀ x ∈ ls, styleChar x = true := by
    intro x hx
    rcases h1 x hx with rfl | rfl | rfl <;> rfl
  have h2' : color.takeWhile styleChar = [] ∧ color.dropWhile styleChar = color := by
    cases color with
    | nil => exact ⟨rfl, rfl⟩
    | cons x xs =>
      have := h2 x rfl
      have e : styleChar x = false := by simp [styleChar, this.1, this.2.1, this.2.2]
      simp [List.takeWhile_cons, List.dropWhile_cons, e]
  unfold defaultLs
  rw [h]
  simp only [hc, Bool.false_eq_true, if_false, Except.ok.injEq, Prod.mk.injEq]
  rw [List.takeWhile_append_of_pos h1', List.dropWhile_append_of_pos h1', h2'.1, h2'.2]
  simp

theorem defaultLs_ok (c : Cfg) (n : Nat) : (∃ r, defaultLs c n = .ok r) ↔ n < c.styles.length := by
  unfold defaultLs
  by_cases h : n < c.styles.length
  · rw [List.getElem?_eq_getElem h]
    simp only [h, iff_true]
    cases c.styles[n] with
    | str s =>
      simp only
      split <;> exact ⟨_, rfl⟩
    | pair a b => exact ⟨_, rfl⟩
    | rgb r => exact ⟨_, rfl⟩
  · rw [List.getElem?_eq_none (by omega)]
    simp [h]

example : defaultLs exCfg 1 = .ok (c!"--", c!"r") ∧ defaultLs exCfg 3 = .ok (c!"-", c!"g") ∧ defaultLs exCfg 4 = .error .index := by decide

/-- **Without plot arguments in the settings, lines do not depend on what was drawn before.** -/
theorem unset_kept (c : Cfg) (calls : List (Nat × Args)) : afterLines c .unset calls = .unset := by
  unfold afterLines
  induction calls with
  | nil => rfl
  | cons k l ih =>
    rw [List.foldl_cons]
    have : afterLine c .unset k = PA.unset := by
      unfold afterLine getLineStyles
      dsimp only
      by_cases hh : (Dict.has (getPlotArgs PA.unset k.1 k.2).1 c!"ls" && Dict.has (getPlotArgs PA.unset k.1 k.2).1 c!"color") = true
      · rw [if_pos hh]; rfl
      · rw [if_neg hh]
        cases defaultLs c k.1 with
        | error e => rfl
        | ok p => rfl
    rw [this]
    exact ih

/-- **With one dictionary for each line, the other lines are not affected.** -/
theorem other_line_kept (c : Cfg) (l : List (Option Args)) (m n : Nat) (hmn : m ≠ n) (kwargs : Args) {a : Args} {pa' : PA}
    (h : getLineStyles c (.many l) m kwargs = .ok (a, pa')) : argsAt pa' n = argsAt (.many l) n := by
  have hs : ∀ a, argsAt (store (.many l) m a) n = argsAt (.many l) n := by
    intro a
    have hd : store (.many l) m a = .many (l.set m (some a)) ∨ store (.many l) m a = .many l := by
      simp only [store]
      cases l[m]? with
      | none => right; rfl
      | some o => cases o with
        | none => right; rfl
        | some b => left; rfl
    rcases hd with e | e
    · rw [e]
      simp only [argsAt, List.getElem?_set_ne hmn]
    · rw [e]
  have : pa' = store (.many l) m a := by
    unfold getLineStyles at h
    dsimp only at h
    split at h
    · simp only [Except.ok.injEq, Prod.mk.injEq] at h; rw [← h.2, ← h.1]
    · split at h
      · simp at h
      · simp only [Except.ok.injEq, Prod.mk.injEq] at h; rw [← h.2, ← h.1]
  rw [this]
  exact hs a

example : (getLineStyles ⟨[.str c!"-k", .str c!"-r"], fun _ => true, [], c!"1"⟩ (.many [some [(c!"lw", c!"3")], some [(c!"alpha", c!"0.5")]]) 0 []).toOption.map (fun r => argsAt r.2 1) =
    some [(c!"alpha", c!"0.5")] := by decide

/-- the full statement: the style of a line depends only on the settings made by the user and the arguments of the call -/
def StylesIndependent : Prop :=
  ∀ (c : Cfg) (pa : PA) (calls : List (Nat × Args)) (n : Nat) (kwargs : Args), style (getLineStyles c (afterLines c pa calls) n kwargs) = style (getLineStyles c pa n kwargs)

/-- the statement for settings without plot arguments -/
theorem independent_partial (c : Cfg) (calls : List (Nat × Args)) (n : Nat) (kwargs : Args) :
    getLineStyles c (afterLines c .unset calls) n kwargs = getLineStyles c .unset n kwargs := by
  rw [unset_kept]

/-- With one dictionary of plot arguments, the defaults of the first line are written into it (plots.py:773, 786, 830-839): all later lines have
the colour and style of the first. -/
theorem one_dict_fails : ¬ StylesIndependent := by
  intro h
  have := h exCfg (.one [(c!"alpha", c!"0.5")]) [(0, [])] 1 []
  revert this
  decide

/-- the statement for one dictionary per line -/
def ManyIndependent : Prop :=
  ∀ (c : Cfg) (l : List (Option Args)) (calls : List (Nat × Args)) (n : Nat) (kwargs : Args),
    style (getLineStyles c (afterLines c (.many l) calls) n kwargs) = style (getLineStyles c (.many l) n kwargs)

/-- Arguments of one call are kept in the plot arguments of the settings (plots.py:775, 786) and apply to later plots, e.g. a colour given once, or
the dashes of an earlier line style. -/
theorem kwargs_stay_fails : ¬ ManyIndependent := by
  intro h
  have := h exCfg [some [(c!"alpha", c!"0.5")]] [(0, [(c!"ls", c!"--")])] 0 [(c!"ls", c!"-")]
  revert this
  decide

/-- what is drawn in the last example: a solid line with the dashes of the earlier line -/
example : style (getLineStyles exCfg (afterLines exCfg (.many [some [(c!"alpha", c!"0.5")]]) [(0, [(c!"ls", c!"--")])]) 0 [(c!"ls", c!"-")]) =
    .ok [(c!"alpha", c!"0.5"), (c!"ls", c!"-"), (c!"dashes", c!"(3, 2)"), (c!"color", c!"k"), (c!"lw", c!"1")] := by decide

/-! ## Arguments of several roots -/

theorem get?_over1 (vals : List (Option Str)) (i : Nat) (k : Str) (c : Args) (j : Str) :
    (over1 vals i k c).get? j = if j = k then ((vals[i]?).getD none).or (c.get? j) else c.get? j := by
  unfold over1
  cases h : (vals[i]?).getD none with
  | none => simp
  | some v =>
    simp only [Option.some_or]
    rw [Dict.get?_set]

/-- **The arguments of a root**: a colour, style, transparency or width given for the root wins, all else is from its own arguments. -/
theorem overlay_spec (o : Over) (i : Nat) (c : Args) (k : Str) : (overlay o i c).get? k =
    (if k = c!"color" then (o.colors[i]?).getD none else if k = c!"ls" then (o.ls[i]?).getD none else if k = c!"alpha" then (o.alphas[i]?).getD none
      else if k = c!"lw" then (o.lws[i]?).getD none else none).or (c.get? k) := by
  unfold overlay
  rw [get?_over1, get?_over1, get?_over1, get?_over1]
  by_cases h1 : k = c!"color"
  · subst h1; simp
  · by_cases h2 : k = c!"ls"
    · subst h2; simp
    · by_cases h3 : k = c!"alpha"
      · subst h3; simp
      · by_cases h4 : k = c!"lw"
        · subst h4; simp
        · simp only [h1, h2, h3, h4, if_false, Option.none_or]

example : overlay { colors := [none, some c!"red"], lws := [some c!"1", some c!"2"] } 1 [(c!"color", c!"blue"), (c!"ls", c!"--")] = [(c!"color", c!"red"), (c!"ls", c!"--"), (c!"lw", c!"2")] := by decide

/-- the arguments given for root `i` -/
def Given.own : Given → Nat → Args
  | .none, _ => []
  | .one d, _ => d
  | .list l, i => l.getD i []
  | .tuple l, i => l.getD i []

theorem overlayAll_getElem? (o : Over) (l : List Args) (i : Nat) : (overlayAll o l)[i]? = (l[i]?).map (overlay o i) := by
  unfold overlayAll
  rw [List.getElem?_map, List.getElem?_zipIdx]
  cases l[i]? <;> simp

/-- **Each root has arguments**: those given for it, with the lists of colours, styles and widths laid over; with too few given, the rest are empty. -/
theorem makeLineArgs_spec (n : Nat) (g : Given) (o : Over) {r : List Args} {g' : Given} (h : makeLineArgs n g o = .ok (r, g')) :
    n ≤ r.length ∧ ∀ i, i < n → r[i]? = some (overlay o i (g.own i)) := by
  have len : ∀ l : List Args, (overlayAll o l).length = l.length := by intro l; simp [overlayAll]
  cases g with
  | none =>
    simp only [makeLineArgs, Except.ok.injEq, Prod.mk.injEq] at h
    obtain ⟨rfl, _⟩ := h
    refine ⟨by rw [len]; simp, fun i hi => ?_⟩
    rw [overlayAll_getElem?, List.getElem?_replicate, if_pos hi]; rfl
  | one d =>
    simp only [makeLineArgs, Except.ok.injEq, Prod.mk.injEq] at h
    obtain ⟨rfl, _⟩ := h
    refine ⟨by rw [len]; simp, fun i hi => ?_⟩
    rw [overlayAll_getElem?, List.getElem?_replicate, if_pos hi]; rfl
  | list l =>
    simp only [makeLineArgs, Except.ok.injEq, Prod.mk.injEq] at h
    obtain ⟨rfl, _⟩ := h
    refine ⟨by rw [len]; simp [padded]; omega, fun i hi => ?_⟩
    rw [overlayAll_getElem?]
    show Option.map (overlay o i) ((padded n l)[i]?) = some (overlay o i (l.getD i []))
    unfold padded
    by_cases hl : i < l.length
    · rw [List.getElem?_append_left hl, List.getElem?_eq_getElem hl, List.getD_eq_getElem?_getD, List.getElem?_eq_getElem hl]; rfl
    · rw [List.getElem?_append_right (by omega), List.getElem?_replicate, if_pos (by omega), List.getD_eq_getElem?_getD, List.getElem?_eq_none (by omega)]
      rfl
  | tuple l =>
    simp only [makeLineArgs] at h
    split at h
    · rename_i hn
      simp only [Except.ok.injEq, Prod.mk.injEq] at h
      obtain ⟨rfl, _⟩ := h
      refine ⟨by simp [hn.2], fun i hi => ?_⟩
      omega
    · simp at h

example : (makeLineArgs 2 (.list [[(c!"ls", c!"--")]]) { colors := [none, some c!"red"] }).map (·.1) = .ok [[(c!"ls", c!"--")], [(c!"color", c!"red")]] := by decide

example : (makeLineArgs 3 (.list [[(c!"alpha", c!"0.5")], [(c!"color", c!"m")]]) { colors := [none, some c!"r"], lws := [some c!"2", some c!"2", some c!"2"] }).map (·.1)
    = .ok [[(c!"alpha", c!"0.5"), (c!"lw", c!"2")], [(c!"color", c!"r"), (c!"lw", c!"2")], [(c!"lw", c!"2")]] := by decide

/-- the full statement: what the caller gave is not changed -/
def CallerKept : Prop := ∀ (n : Nat) (g : Given) (o : Over) (r : List Args) (g' : Given), makeLineArgs n g o = .ok (r, g') → g' = g

/-- nothing or a dictionary given is not changed -/
theorem caller_partial (n : Nat) (d : Args) (o : Over) (r : List Args) (g' : Given) :
    (makeLineArgs n .none o = .ok (r, g') → g' = .none) ∧ (makeLineArgs n (.one d) o = .ok (r, g') → g' = .one d) := by
  simp only [makeLineArgs, Except.ok.injEq, Prod.mk.injEq]
  exact ⟨fun h => h.2.symm, fun h => h.2.symm⟩

/-- A list of arguments is changed in place (plots.py:1369, 1385): it is lengthened, and the colours and styles of one call stay in it for the next. -/
theorem caller_list_fails : ¬ CallerKept := by
  intro h
  have := h 2 (.list [[]]) { colors := [some c!"r"] } [[(c!"color", c!"r")], []] (.list [[(c!"color", c!"r")], []]) (by decide)
  revert this
  decide

/-- the full statement: arguments of the roots can be given in a tuple as well as in a list -/
def TupleLikeList : Prop := ∀ (n : Nat) (l : List Args) (o : Over), (makeLineArgs n (.tuple l) o).map (·.1) = (makeLineArgs n (.list l) o).map (·.1)

/-- A tuple of arguments is assigned to (plots.py:1369, 1385) and fails. -/
theorem tuple_fails : ¬ TupleLikeList := by
  intro h
  have := h 1 [[]] {}
  revert this
  decide

/-! ### Filled contours -/

/-- **One value for all contours** holds for each contour that does not have its own. -/
theorem fills_bool (own : List (Option Fill)) (b : Bool) : fills own (.bool b) = own.map (fun v => v.getD (.bool b)) := by
  unfold fills listed
  rw [List.map_map]
  apply List.ext_getElem
  · simp
  · intro i h1 h2
    simp [isListed, orFalse]

theorem fills_none (own : List (Option Fill)) : fills own .none = own.map (fun v => v.getD (.bool false)) := by
  unfold fills listed
  rw [List.map_map]
  apply List.ext_getElem
  · simp
  · intro i h1 h2
    simp [isListed, orFalse]

/-- **A list with a value for each contour** is what is used. -/
theorem fills_list (own : List (Option Fill)) (l : List Bool) (h : own.length ≤ l.length) : fills own (.list (l.map some)) = (l.take own.length).map Fill.bool := by
  unfold fills listed
  rw [List.map_map]
  apply List.ext_getElem
  · simp; omega
  · intro i h1 h2
    simp only [List.length_map, List.length_zipIdx] at h1
    have hi : i < l.length := by omega
    simp [isListed, List.getElem?_eq_getElem hi]

example : fills [none, some (.bool false), none] (.list [some true, some true, some false]) = [.bool true, .bool true, .bool false] := by decide

/-- the full statement: a contour is filled only if some value says so -/
def FilledIfSaid : Prop :=
  ∀ (own : List (Option Fill)) (l : List (Option Bool)) (i : Nat) (v : Fill), (fills own (.list l))[i]? = some v → v.truthy = true →
    l[i]? = some (some true) ∨ (l[i]? = none ∧ own[i]? = some (some (.bool true)))

/-- With a list `filled` that has no value for a contour, the list itself becomes the value (plots.py:1403-1404), which counts as true: e.g. with
`filled=[False]` the second root is drawn filled. -/
theorem short_filled_fails : ¬ FilledIfSaid := by
  intro h
  have := h [none, none] [some false] 1 .whole (by decide) rfl
  simp at this

/-! ## Legends -/

section
variable {L : Type}

theorem pickAll_ok {α : Type} {l : List α} : ∀ {ix : List Nat} {r : List α}, pickAll l ix = .ok r → r.length = ix.length ∧ ∀ (k j : Nat), ix[k]? = some j → r[k]? = l[j]?
  | [], r, h => by
    simp only [pickAll, List.mapM_nil, pure, Except.pure, Except.ok.injEq] at h
    subst h
    simp
  | i :: ix, r, h => by
    simp only [pickAll, List.mapM_cons, bind, Except.bind] at h
    cases hi : l[i]? with
    | none => rw [hi] at h; simp at h
    | some a =>
      rw [hi] at h
      simp only at h
      cases hr : pickAll l ix with
      | error e => unfold pickAll at hr; rw [hr] at h; simp at h
      | ok r2 =>
        have ih := pickAll_ok hr
        unfold pickAll at hr
        rw [hr] at h
        simp only [pure, Except.pure, Except.ok.injEq] at h
        subst h
        refine ⟨by simp [ih.1], ?_⟩
        intro k j hk
        cases k with
        | zero => simp only [List.getElem?_cons_zero, Option.some.injEq] at hk ⊢; rw [← hk, hi]
        | succ k => simp only [List.getElem?_cons_succ] at hk ⊢; exact ih.2 k j hk

theorem pickAll_map {α : Type} (l : List α) : ∀ (ix : List Nat), (∀ i ∈ ix, i < l.length) → ∃ r, pickAll l ix = .ok r
  | [], _ => ⟨[], rfl⟩
  | i :: ix, h => by
    obtain ⟨r, hr⟩ := pickAll_map l ix (fun j hj => h j (by simp [hj]))
    refine ⟨l[i]'(h i (by simp)) :: r, ?_⟩
    unfold pickAll at hr ⊢
    rw [List.mapM_cons]
    simp only [List.getElem?_eq_getElem (h i (by simp)), bind, Except.bind, hr, pure, Except.pure]

/-- **Whatever the order, a label stays with its line.** -/
theorem entries_mem (lines : List L) (labels : List Str) (o : Order) {r : List (L × Str)} (h : entries lines labels o = .ok r) :
    ∀ e ∈ r, ∃ i : Nat, lines[i]? = some e.1 ∧ labels[i]? = some e.2 := by
  have main : ∀ (ix : List Nat) (a : List L) (b : List Str), pickAll lines ix = .ok a → pickAll labels ix = .ok b → ∀ e ∈ a.zip b, ∃ i : Nat, lines[i]? = some e.1 ∧ labels[i]? = some e.2 := by
    intro ix a b ha hb e he
    obtain ⟨k, hk⟩ := List.getElem?_of_mem he
    have h1 := pickAll_ok ha
    have h2 := pickAll_ok hb
    rw [List.getElem?_zip_eq_some] at hk
    have hlt : k < ix.length := by
      rw [← h1.1]
      by_contra hge
      rw [List.getElem?_eq_none (by omega)] at hk
      simp at hk
    have hx := List.getElem?_eq_getElem hlt
    exact ⟨ix[k], by rw [← h1.2 k _ hx]; exact hk.1, by rw [← h2.2 k _ hx]; exact hk.2⟩
  unfold entries ordered at h
  cases o with
  | none =>
    simp only [Except.map, Except.ok.injEq] at h
    subst h
    intro e he
    obtain ⟨k, hk⟩ := List.getElem?_of_mem he
    rw [List.getElem?_zip_eq_some] at hk
    exact ⟨k, hk⟩
  | reversed =>
    simp only [bind, Except.bind, Except.map] at h
    cases ha : pickAll lines (List.range lines.length).reverse with
    | error e => rw [ha] at h; simp at h
    | ok a =>
      cases hb : pickAll labels (List.range lines.length).reverse with
      | error e => rw [ha, hb] at h; simp at h
      | ok b =>
        rw [ha, hb] at h
        simp only [Except.ok.injEq] at h
        subst h
        exact main _ _ _ ha hb
  | list ix =>
    simp only [bind, Except.bind, Except.map] at h
    cases ha : pickAll lines ix with
    | error e => rw [ha] at h; simp at h
    | ok a =>
      cases hb : pickAll labels ix with
      | error e => rw [ha, hb] at h; simp at h
      | ok b =>
        rw [ha, hb] at h
        simp only [Except.ok.injEq] at h
        subst h
        exact main _ _ _ ha hb

/-- **In reverse order**, with as many labels as lines, all entries are shown from the last to the first. -/
theorem entries_reversed_partial (lines : List L) (labels : List Str) (h : lines.length = labels.length) :
    entries lines labels .reversed = .ok (lines.zip labels).reverse := by
  have pick : ∀ {α : Type} (l : List α), pickAll l (List.range l.length).reverse = .ok l.reverse := by
    intro α l
    obtain ⟨r, hr⟩ := pickAll_map l (List.range l.length).reverse (by simp)
    rw [hr]
    have h1 := pickAll_ok hr
    congr 1
    apply List.ext_getElem?
    intro k
    by_cases hk : k < l.length
    · rw [h1.2 k (l.length - 1 - k) (by rw [List.getElem?_reverse (by simpa using hk), List.length_range, List.getElem?_range (by omega)]), List.getElem?_reverse hk]
    · rw [List.getElem?_eq_none (by rw [h1.1, List.length_reverse, List.length_range]; omega), List.getElem?_eq_none (by simp; omega)]
  have p2 := pick labels
  rw [← h] at p2
  unfold entries ordered
  simp only [bind, Except.bind, pick lines, p2, Except.map, Except.ok.injEq]
  show List.zipWith Prod.mk _ _ = (List.zipWith Prod.mk _ _).reverse
  rw [List.reverse_zipWith h]

example : entries [1, 2, 3] [c!"a", c!"b", c!"c"] (.list [2, 0]) = .ok [(3, c!"c"), (1, c!"a")] ∧
    entries [1, 2] [c!"a", c!"b"] .reversed = .ok [(2, c!"b"), (1, c!"a")] := by decide

/-- the full statement: the reverse order shows the same entries -/
def ReverseShows : Prop := ∀ (lines : List Nat) (labels : List Str), ∃ r, entries lines labels .reversed = .ok r ∧ r.Perm (lines.zip labels)

/-- With fewer labels than contours, which is fine in the usual order, the reverse order asks for labels that are not there (plots.py:1901-1904). -/
theorem reverse_fails : ¬ ReverseShows := by
  intro h
  obtain ⟨r, hr, _⟩ := h [1, 2] [c!"a"]
  have : entries [1, 2] [c!"a"] .reversed = .error .index := by decide
  rw [this] at hr
  cases hr

/-- **Without offset, label `i` is for line `i`.** -/
theorem legend_lines_partial (added : Dict Nat L) (axLines : List L) (figure : Bool) (style : Nat → L) (n i : Nat) (hi : i < n) (l : L)
    (h : added.get? i = some l) : (legendLines added axLines figure style 0 n)[i]? = some l := by
  simp [legendLines, hi, legendLine, h]

/-- the full statement: with an offset, label `i` is for line `i + offset` -/
def OffsetUsed : Prop :=
  ∀ (added : Dict Nat Str) (offset n i : Nat) (l : Str), i < n → added.get? (i + offset) = some l → (legendLines added [] true (fun _ => []) offset n)[i]? = some l

/-- The offset of the labels is used only for lines that were not drawn (plots.py:1878-1886): with `line_offset=1` the first label still
goes to the first line. -/
theorem offset_fails : ¬ OffsetUsed := by
  intro h
  have := h [(0, c!"k"), (1, c!"r")] 1 1 0 c!"r" (by decide) (by decide)
  revert this
  decide

end

/-- **A legend above the figure hangs with its lower edge there, and the other way round.** -/
theorem outsideLoc_spec (loc2 : Str) (h : ' ' ∉ loc2) :
    outsideLoc (c!"upper " ++ loc2) = .ok (c!"lower " ++ loc2) ∧ outsideLoc (c!"lower " ++ loc2) = .ok (c!"upper " ++ loc2) ∧
    outsideLoc c!"best" = .ok c!"lower center" ∧ outsideLoc (c!"center " ++ loc2) = .error .valueError := by
  have hs : splitChar ' ' loc2 = [loc2] := by
    induction loc2 with
    | nil => rfl
    | cons c l ih =>
      have hc : (c == ' ') = false := by
        simp only [beq_eq_false_iff_ne]
        rintro rfl
        simp at h
      simp only [splitChar, hc, Bool.false_eq_true, if_false, ih (fun hm => h (by simp [hm]))]
  refine ⟨?_, ?_, by decide, ?_⟩
  · have e : splitChar ' ' (c!"upper " ++ loc2) = [c!"upper", loc2] := by simp [splitChar, hs]
    unfold outsideLoc
    rw [if_neg (by intro hh; rcases hh with hh | hh <;> simp at hh)]
    simp only [e]
    rfl
  · have e : splitChar ' ' (c!"lower " ++ loc2) = [c!"lower", loc2] := by simp [splitChar, hs]
    unfold outsideLoc
    rw [if_neg (by intro hh; rcases hh with hh | hh <;> simp at hh)]
    simp only [e]
    rfl
  · have e : splitChar ' ' (c!"center " ++ loc2) = [c!"center", loc2] := by simp [splitChar, hs]
    unfold outsideLoc
    rw [if_neg (by intro hh; rcases hh with hh | hh <;> simp at hh)]
    simp only [e]
    rfl

example : outsideLoc c!"upper right" = .ok c!"lower right" ∧ outsideLoc c!"center left" = .error .valueError := by decide

/-! ## Sizes -/

section
variable {K : Type} [Field K] [LinearOrder K] [IsStrictOrderedRing K]

/-- **Font sizes grow with the axes** up to the reference size, and are the size set from there on (settings as by default, size at least five). -/
theorem fontsize_partial (s : Scale K) (hs : s.scaling = true) (hd : s.direct = false) (hm : s.maxSize = some s.ref) (hr : 0 < s.ref) (hf : 0 ≤ s.factor)
    (var : K) (hv : 5 ≤ var) : (∀ ax, s.ref ≤ ax → scaledFontsize s ax var = var) ∧
    (∀ ax ax2, ax ≤ ax2 → scaledFontsize s ax var ≤ scaledFontsize s ax2 var) ∧ ∀ ax, 5 ≤ scaledFontsize s ax var ∧ scaledFontsize s ax var ≤ var := by
  have val : ∀ ax, scaledFontsize s ax var = if ax < s.ref then max 5 (var + s.factor * (ax - s.ref)) else var := by
    intro ax
    simp [scaledFontsize, hs, hd, hm, hr.ne']
  have le : ∀ ax, ax < s.ref → max 5 (var + s.factor * (ax - s.ref)) ≤ var := by
    intro ax h
    refine max_le hv ?_
    have : s.factor * (ax - s.ref) ≤ 0 := mul_nonpos_of_nonneg_of_nonpos hf (by linarith)
    linarith
  refine ⟨?_, ?_, ?_⟩
  · intro ax h
    rw [val, if_neg (not_lt.mpr h)]
  · intro ax ax2 h
    rw [val, val]
    by_cases h1 : ax < s.ref
    · by_cases h2 : ax2 < s.ref
      · rw [if_pos h1, if_pos h2]
        refine max_le_max le_rfl ?_
        have : s.factor * (ax - s.ref) ≤ s.factor * (ax2 - s.ref) := mul_le_mul_of_nonneg_left (by linarith) hf
        linarith
      · rw [if_pos h1, if_neg h2]; exact le ax h1
    · have h2 : ¬ ax2 < s.ref := by intro h2; exact h1 (lt_of_le_of_lt h h2)
      rw [if_neg h1, if_neg h2]
  · intro ax
    rw [val]
    by_cases h1 : ax < s.ref
    · rw [if_pos h1]; exact ⟨le_max_left _ _, le ax h1⟩
    · rw [if_neg h1]; exact ⟨hv, le_rfl⟩

/-- the default settings -/
def dflt : Scale ℚ := { scaling := true, ref := 7 / 2, maxSize := some (7 / 2), factor := 2, direct := false }

example : scaledFontsize dflt 2 14 = 11 ∧ scaledFontsize dflt 5 14 = 14 ∧ scaledFontsize dflt 0 11 = 5 := by decide +kernel

/-- the full statement: larger axes never have smaller fonts -/
def FontsGrow : Prop := ∀ (s : Scale ℚ), s.scaling = true → 0 < s.ref → 0 ≤ s.factor → ∀ ax ax2 var, ax ≤ ax2 → scaledFontsize s ax var ≤ scaledFontsize s ax2 var

/-- Beyond the maximum axis size the factor is always two, whatever `scaling_factor` is (plots.py:258): with a factor of three and a maximum above
the reference size, fonts become smaller there. -/
theorem factor_fails : ¬ FontsGrow := by
  intro h
  have := h { dflt with maxSize := some (11 / 2), factor := 3 } rfl (by decide +kernel) (by decide +kernel) 5 6 10 (by decide +kernel)
  revert this
  decide +kernel

/-- the full statement: fonts are only scaled down -/
def FontsScaledDown : Prop := ∀ (ax var : ℚ), 0 < var → scaledFontsize dflt ax var ≤ var

/-- Font sizes below five are set to five on small axes (plots.py:256), larger than asked for. -/
theorem small_font_fails : ¬ FontsScaledDown := by
  intro h
  have := h 2 4 (by decide +kernel)
  revert this
  decide +kernel

/-- **Line widths** are in proportion to the axes where they are not below the smallest width. -/
theorem linewidth_partial (s : Scale K) (hs : s.scaling = true) (ax lw d : K) (hl : lw ≠ 0) (h : 6 / 10 ≤ lw * ax / s.ref) :
    scaledLinewidth s ax lw d = lw * ax / s.ref := by
  simp only [scaledLinewidth, if_neg hl, hs, Bool.not_true, Bool.false_eq_true, if_false]
  exact max_eq_right h

/-- the full statement: at the reference size lines have the width set -/
def WidthAtReference : Prop := ∀ lw d : ℚ, scaledLinewidth dflt dflt.ref lw d = lw

/-- Widths below 0.6 are set to 0.6 (plots.py:264), so that the default width of mean likelihood lines, 0.5, is never used; and a width of zero is
replaced by the default (plots.py:261). -/
theorem thin_line_fails : ¬ WidthAtReference := by
  intro h
  have := h (1 / 2) 1
  revert this
  decide +kernel

end

end Verif.PlotArgs
