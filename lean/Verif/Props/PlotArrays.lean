import Verif.Model.PlotArrays
import Verif.Props.PlotLayout

/-!
# Properties of arrays of plots and the order of legends: C275, C276
-/

namespace Verif.PlotArrays
open Verif.Py Verif.PlotLayout

/-! ## Cells -/

theorem cells_at {α X : Type} (l : List α) (c r : Nat) (hc : 0 < c) (h : l.length ≤ c * r) (f : Nat → Bool) (x : Option X) :
    let cells := l.zipIdx.map (fun p => ({ place := place c p.2, what := p.1, proxy := f p.2, xlim := x } : Cell α X))
    cells.length = l.length ∧ (cells.map (·.place)).Nodup ∧
    ∀ (i : Nat) (e : α), l[i]? = some e → ∃ cell, cells[i]? = some cell ∧ cell.what = e ∧ cell.proxy = f i ∧ cell.xlim = x ∧
      cell.place.1 < c ∧ cell.place.2 < r ∧ cell.place.2 * c + cell.place.1 = i := by
  intro cells
  have hp := place_ok c r l.length hc h
  refine ⟨by simp [cells], ?_, ?_⟩
  · rw [List.nodup_iff_getElem?_ne_getElem?]
    intro i j hij hj
    simp only [cells, List.length_map, List.length_zipIdx] at hj
    simp only [cells, List.getElem?_map, List.getElem?_zipIdx, List.getElem?_eq_getElem hj, List.getElem?_eq_getElem (Nat.lt_trans hij hj),
      Option.map_some, Nat.zero_add]
    intro e
    have := hp.2 i j (Option.some.inj e)
    omega
  · intro i e he
    have hi : i < l.length := by by_contra hge; rw [List.getElem?_eq_none (by omega)] at he; simp at he
    refine ⟨{ place := place c i, what := e, proxy := f i, xlim := x }, ?_, rfl, rfl, rfl, (hp.1 i hi).1, (hp.1 i hi).2, ?_⟩
    · simp [cells, List.getElem?_zipIdx, he]
    · show i / c * c + i % c = i
      rw [Nat.mul_comm]; exact Nat.div_add_mod i c

/-- **Every triplet has its own subplot**: the subplots fill the grid row by row, each shows its own root and parameters and gets the limits
asked for, and only the first adds to the legend. -/
theorem triplets_spec {R P X : Type} (l : List (R × P × P)) (hl : l ≠ []) (nx : Option Nat) (xlim : Option X) :
    ∃ c r cells, triplets l nx xlim = .ok ((c, r), cells) ∧ (∀ k, nx = some (k + 1) → c = k + 1) ∧ cells.length = l.length ∧
      (cells.map (·.place)).Nodup ∧ ∀ (i : Nat) (e : R × P × P), l[i]? = some e → ∃ cell, cells[i]? = some cell ∧ cell.what = e ∧
        (cell.proxy = true ↔ i = 0) ∧ cell.xlim = xlim ∧ cell.place.1 < c ∧ cell.place.2 < r ∧ cell.place.2 * c + cell.place.1 = i := by
  obtain ⟨c, r, h, hc, hn, -, hk⟩ := grid_fits l.length (List.length_pos_of_ne_nil hl) nx
  have := cells_at l c r hc hn (fun i => i == 0) xlim
  refine ⟨c, r, _, by simp only [triplets, h]; rfl, hk, this.1, this.2.1, ?_⟩
  intro i e he
  obtain ⟨cell, h1, h2, h3, h4⟩ := this.2.2 i e he
  exact ⟨cell, h1, h2, by rw [h3]; simp, h4⟩

example : triplets (X := Nat × Nat) [("a", 0, 1), ("b", 1, 2), ("a", 2, 0)] (some 2) (some (3, 5)) =
    .ok ((2, 2), [⟨(0, 0), ("a", 0, 1), true, some (3, 5)⟩, ⟨(1, 0), ("b", 1, 2), false, some (3, 5)⟩, ⟨(0, 1), ("a", 2, 0), false, some (3, 5)⟩]) := by
  decide

/-- **Every set of three parameters has its own subplot**, in order, row by row. -/
theorem plots3d_spec {P X : Type} (sets : List (P × P × P)) (hs : sets ≠ []) (nx : Option Nat) :
    ∃ c r cells, plots3d (X := X) sets nx = .ok ((c, r), cells) ∧ (∀ k, nx = some (k + 1) → c = k + 1) ∧ cells.length = sets.length ∧
      (cells.map (·.place)).Nodup ∧ ∀ (i : Nat) (e : P × P × P), sets[i]? = some e → ∃ cell, cells[i]? = some cell ∧ cell.what = e ∧
        cell.proxy = true ∧ cell.xlim = none ∧ cell.place.1 < c ∧ cell.place.2 < r ∧ cell.place.2 * c + cell.place.1 = i := by
  obtain ⟨c, r, h, hc, hn, -, hk⟩ := grid_fits sets.length (List.length_pos_of_ne_nil hs) nx
  have := cells_at (X := X) sets c r hc hn (fun _ => true) none
  refine ⟨c, r, _, by simp only [plots3d, h]; rfl, hk, this.1, this.2.1, ?_⟩
  intro i e he
  obtain ⟨cell, h1, h2, h3, h4⟩ := this.2.2 i e he
  exact ⟨cell, h1, h2, h3, h4⟩

example : plots3d (X := Nat) [(0, 1, 2), (3, 4, 2)] (some 2) = .ok ((2, 1), [⟨(0, 0), (0, 1, 2), true, none⟩, ⟨(1, 0), (3, 4, 2), true, none⟩]) := by
  decide

/-! ## Proxies of `plots_3d` -/

/-- the proxies one subplot adds: the number of the root, or none -/
def own (drawn : List Bool) : List (Option Nat) := drawn.zipIdx.map (fun p => if p.1 then some p.2 else none)

theorem proxyPlot_true (added : List (Option Nat)) (drawn : List Bool) : proxyPlot true added drawn = added ++ own drawn := by
  have : ∀ (l : List (Bool × Nat)) (a : List (Option Nat)), l.foldl (fun a p => proxy a p.2 true p.1) a =
      a ++ l.map (fun p => if p.1 then some p.2 else none) := by
    intro l
    induction l with
    | nil => intro a; simp
    | cons p l ih =>
      intro a
      rw [List.foldl_cons, ih]
      obtain ⟨d, k⟩ := p
      cases d <;> simp [proxy]
  exact this _ _

/-- **The proxies of the subplots are one after the other** -/
theorem proxies3_spec (subs : List (List Bool)) : proxies3 subs = subs.flatMap own := by
  have : ∀ (subs : List (List Bool)) (a : List (Option Nat)), subs.foldl (proxyPlot true) a = a ++ subs.flatMap own := by
    intro subs
    induction subs with
    | nil => intro a; simp
    | cons d ds ih => intro a; rw [List.foldl_cons, ih, proxyPlot_true]; simp
  have h := this subs []
  rw [List.nil_append] at h
  exact h

example : proxies3 [[true, false], [true, true]] = [some 0, none, some 0, some 1] := by decide

/-- **Each label of `plots_3d` stands beside the line of its root** when the first subplot has all contours, whatever the other subplots. -/
theorem legend3_spec {T : Type} (labels : List T) (rest : List (List Bool)) :
    legend (proxies3 (List.replicate labels.length true :: rest)) labels .none =
      .ok (labels.zipIdx.map (fun p => (some p.2, p.1))) := by
  rw [proxies3_spec]
  show Except.ok _ = _
  congr 1
  apply List.ext_getElem?
  intro i
  by_cases hi : i < labels.length
  · rw [(List.getElem?_zip_eq_some (z := (some i, labels[i]))).mpr ⟨?_, by simp [hi]⟩]
    · simp [hi]
    · rw [List.flatMap_cons, List.getElem?_append_left (by simpa [own] using hi)]
      simp [own, hi]
  · rw [List.getElem?_eq_none (by simp; omega), List.getElem?_eq_none (by simp; omega)]

example : legend (proxies3 [[true, true], [false, true]]) ["a", "b"] .none = .ok [(some 0, "a"), (some 1, "b")] := by decide

/-! ## Order -/

theorem item_nat {α : Type} (l : List α) (i : Nat) (a : α) (h : l[i]? = some a) : item l i = .ok a := by
  have : ¬ ((i : Int) < 0) := by omega
  simp [item, this, h]

theorem mapM_item {α : Type} (l : List α) (d : α) : ∀ (o : List Nat), (∀ i ∈ o, i < l.length) →
    (o.map Int.ofNat).mapM (item l) = .ok (o.map (fun i => l.getD i d))
  | [], _ => rfl
  | i :: o, h => by
    have hi : i < l.length := h i (by simp)
    rw [List.map_cons, List.mapM_cons, show item l (Int.ofNat i) = .ok (l.getD i d) from item_nat l i _ (by simp [List.getD, hi]),
      mapM_item l d o (fun j hj => h j (by simp [hj]))]
    rfl

/-- **Any order of the lines keeps each label with its line**: the entries are the entries of the unordered legend in the order given. -/
theorem order_spec {L T : Type} (lines : List L) (labels : List T) (o : List Nat) (h : ∀ i ∈ o, i < lines.length ∧ i < labels.length) :
    ∃ entries, legend lines labels (.list (o.map Int.ofNat)) = .ok entries ∧ entries.map some = o.map (fun i => (lines.zip labels)[i]?) := by
  by_cases ho : o = []
  · subst ho; exact ⟨[], rfl, rfl⟩
  · obtain ⟨k, hk⟩ := List.exists_mem_of_ne_nil o ho
    have h1 := mapM_item lines (lines[k]'(h k hk).1) o (fun i hi => (h i hi).1)
    have h2 := mapM_item labels (labels[k]'(h k hk).2) o (fun i hi => (h i hi).2)
    refine ⟨_, by simp only [legend, orderOf]; simp only [bind, Except.bind, h1, h2]; rfl, ?_⟩
    rw [List.zip_map', List.map_map]
    apply List.map_congr_left
    intro i hi
    have := h i hi
    rw [Function.comp, (List.getElem?_zip_eq_some (z := (lines[i], labels[i]))).mpr ⟨by simp [this.1], by simp [this.2]⟩]
    simp [List.getD, this.1, this.2]

example : legend ["x", "y", "z"] [1, 2, 3] (.list [2, 0]) = .ok [("z", 3), ("x", 1)] := by decide

/-- **Minus one reverses the legend** when every line has a label. -/
theorem reverse_spec {L T : Type} (lines : List L) (labels : List T) (h : lines.length = labels.length) :
    legend lines labels (.int (-1)) = .ok (lines.zip labels).reverse := by
  obtain ⟨e, he, hs⟩ := order_spec lines labels (List.range lines.length).reverse (by
    intro i hi; simp at hi; omega)
  have : legend lines labels (.int (-1)) = legend lines labels (.list ((List.range lines.length).reverse.map Int.ofNat)) := rfl
  rw [this, he]
  congr 1
  apply List.map_injective_iff.mpr (Option.some_injective _)
  rw [hs, List.map_reverse, List.map_reverse]
  congr 1
  apply List.ext_getElem?
  intro i
  by_cases hi : i < lines.length
  · have h2 : i < labels.length := by omega
    simp [hi, h2]
  · rw [List.getElem?_eq_none (by simp; omega), List.getElem?_eq_none (by simp; omega)]

example : legend ["x", "y", "z"] [1, 2, 3] (.int (-1)) = .ok [("z", 3), ("y", 2), ("x", 1)] := by decide

/-- **A legend is drawn exactly when labels are wanted and given** -/
theorem finish_spec {L T : Type} (want : Bool) (lines : List L) (labels : Option (List T)) :
    finish want lines labels .none = .ok (match labels with
      | some (t :: ts) => if want then some (lines.zip (t :: ts)) else none
      | _ => none) := by
  rcases labels with _ | ⟨_ | ⟨t, ts⟩⟩
  · rfl
  · cases want <;> rfl
  · cases want <;> rfl

example : finish true ["x"] (some [7]) .none = .ok (some [("x", 7)]) ∧ finish true ["x"] (some ([] : List Nat)) .none = .ok none := by decide

/-- **Indices count from the end when negative**, and any other index out of range is an error. -/
theorem item_spec {α : Type} (l : List α) (i : Int) : item l i = match (if 0 ≤ i then l[i.toNat]? else l.reverse[(-i - 1).toNat]?) with
    | some a => .ok a
    | none => .error .index := by
  unfold item
  by_cases h : 0 ≤ i
  · have : ¬ i < 0 := by omega
    simp only [h, if_true, this, if_false]
    cases l[i.toNat]? <;> rfl
  · simp only [h, if_false]
    by_cases hk : i + l.length < 0
    · rw [if_pos hk, List.getElem?_eq_none (by simp; omega)]
    · rw [if_neg hk, List.getElem?_reverse (by omega)]
      have : l.length - 1 - (-i - 1).toNat = (i + l.length).toNat := by omega
      rw [this]
      cases l[(i + l.length).toNat]? <;> rfl

example : item ["x", "y", "z"] (-1) = .ok "z" ∧ item ["x", "y", "z"] (-4) = .error .index ∧ item ["x", "y", "z"] 1 = .ok "y" := by decide

/-- **The legend of `finish_plot` is that of `add_legend`**, in the order asked for. -/
theorem finish_order {L T : Type} (lines : List L) (t : T) (ts : List T) (order : Order) (e : List (L × T))
    (h : legend lines (t :: ts) order = .ok e) : finish true lines (some (t :: ts)) order = .ok (some e) := by
  simp [finish, h, Except.map]

example : finish true ["x", "y"] (some [1, 2]) (.int (-1)) = .ok (some [("y", 2), ("x", 1)]) := by decide

/-! ## What fails -/

/-- the full statement: any list of triplets can be plotted -/
def AnyTriplets : Prop := ∀ (l : List (Str × Str × Str)) (nx : Option Nat), ∃ r, triplets (X := Nat) l nx none = .ok r

/-- **C276 fails**: an empty list of triplets divides by zero (plots.py:2184, 1709-1710). -/
theorem no_triplets_fails : ¬ AnyTriplets := by
  intro h
  obtain ⟨r, h⟩ := h [] none
  have : triplets (X := Nat) ([] : List (Str × Str × Str)) none none = .error .zeroDivision := rfl
  rw [this] at h
  cases h

/-- the full statement: there is one line per contour root -/
def OneLineEach : Prop := ∀ (n : Nat) (subs : List (List Bool)), subs ≠ [] → (∀ d ∈ subs, d.length = n) → (proxies3 subs).length = n

/-- the number of lines after `plots_3d` -/
theorem proxies3_length (n : Nat) (subs : List (List Bool)) (h : ∀ d ∈ subs, d.length = n) : (proxies3 subs).length = subs.length * n := by
  rw [proxies3_spec]
  induction subs with
  | nil => simp
  | cons d ds ih =>
    rw [List.flatMap_cons, List.length_append, ih (fun e he => h e (by simp [he]))]
    have : (own d).length = n := by simp [own, h d (by simp)]
    rw [this, List.length_cons, Nat.succ_mul, Nat.add_comm]

/-- **C276 fails**: every subplot of `plots_3d` adds its own proxies (plots.py:2878-2879, 2971), for `k` subplots there are `k` lines for each root. -/
theorem repeated_lines_fails : ¬ OneLineEach := by
  intro h
  have := h 1 [[true], [true]] (by decide) (by decide)
  revert this
  decide

/-- the full statement: the legend of `plots_3d` can be reversed -/
def Reversible : Prop := ∀ (labels : List Str) (k : Nat), ∃ e,
  legend (proxies3 (List.replicate (k + 1) (List.replicate labels.length true))) labels (.int (-1)) = .ok e

/-- `Reversible` for a single subplot; missing: more subplots, see `reversed_legend_fails` -/
theorem reversible_partial (labels : List Str) :
    legend (proxies3 [List.replicate labels.length true]) labels (.int (-1)) = .ok (labels.zipIdx.map (fun p => (some p.2, p.1))).reverse := by
  have hl := proxies3_length labels.length [List.replicate labels.length true] (by simp)
  rw [reverse_spec _ _ (by simpa using hl)]
  have := legend3_spec labels []
  have e : legend (proxies3 [List.replicate labels.length true]) labels .none = .ok ((proxies3 [List.replicate labels.length true]).zip labels) := rfl
  rw [e] at this
  rw [Except.ok.inj this]

/-- **C276 fails**: after `plots_3d` with two subplots there are more lines than labels, and the order minus one runs over the lines: `add_legend`
fails with an index error (plots.py:1900-1903). -/
theorem reversed_legend_fails : ¬ Reversible := by
  intro h
  obtain ⟨e, h⟩ := h [c!"a"] 1
  have : legend (proxies3 (List.replicate 2 (List.replicate 1 true))) [c!"a"] (.int (-1)) = .error .index := by decide
  have h' : legend (proxies3 (List.replicate 2 (List.replicate 1 true))) [c!"a"] (.int (-1)) = .ok e := h
  rw [this] at h'
  cases h'

/-- the full statement: a contour root drawn in some subplot of `plots_3d` has a line beside its label -/
def Shown : Prop := ∀ (labels : List Str) (subs : List (List Bool)) (i : Nat), i < labels.length → (∀ d ∈ subs, d.length = labels.length) →
  (∃ d ∈ subs, d[i]? = some true) → ∃ e t, legend (proxies3 subs) labels .none = .ok e ∧ (some i, t) ∈ e

/-- `Shown` when the first subplot has all contours; missing: contours drawn only in later subplots, see `gap_kept_fails` -/
theorem shown_partial {T : Type} (labels : List T) (rest : List (List Bool)) (i : Nat) (hi : i < labels.length) :
    ∃ e, legend (proxies3 (List.replicate labels.length true :: rest)) labels .none = .ok e ∧ (some i, labels[i]) ∈ e := by
  refine ⟨_, legend3_spec labels rest, ?_⟩
  rw [List.mem_map]
  exact ⟨(labels[i], i), List.mk_mem_zipIdx_iff_getElem?.mpr (by simp [hi]), rfl⟩

/-- **C276 fails**: a contour missing from the first subplot of `plots_3d` leaves its label without a line although a later subplot draws the contour
(plots.py:1058-1061, 1072-1074): unlike in `plots_2d` the gap is never filled. -/
theorem gap_kept_fails : ¬ Shown := by
  intro h
  obtain ⟨e, t, h, hm⟩ := h [c!"a", c!"b"] [[true, false], [true, true]] 1 (by decide) (by decide) ⟨[true, true], by decide, rfl⟩
  have : legend (proxies3 [[true, false], [true, true]]) [c!"a", c!"b"] .none = .ok [(some 0, c!"a"), (none, c!"b")] := by decide
  rw [this] at h
  cases h
  simp at hm

end Verif.PlotArrays
