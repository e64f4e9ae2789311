import Verif.Model.PlotLayout
import Mathlib.Tactic.Linarith
import Mathlib.Tactic.Ring
import Mathlib.Data.Rat.Defs
import Mathlib.Data.List.Nodup
import Mathlib.Data.List.GetD
import Mathlib.Algebra.Order.Field.Rat

/-!
# The layout of figures: places of subplots, finding them, ranges of axes
-/

namespace Verif.PlotLayout
set_option linter.unusedSimpArgs false
set_option linter.unusedSectionVars false
open Verif.Py

/-! ## Columns and rows -/

/-- **The default number of columns** is `sqrt(nplot / 1.4)` rounded to the nearest integer: `|k - sqrt(n/1.4)| ≤ 1/2`, squared and
cleared of fractions. -/
theorem cols_spec (n : Nat) : (cols n = 0 ∨ 7 * (2 * cols n - 1) ^ 2 ≤ 20 * n) ∧ 20 * n < 7 * (2 * cols n + 1) ^ 2 := by
  unfold cols
  set P : Nat → Prop := fun k => k = 0 ∨ 7 * (2 * k - 1) ^ 2 ≤ 20 * n with hP
  refine ⟨Nat.findGreatest_spec (P := P) (Nat.zero_le _) (Or.inl rfl), ?_⟩
  by_cases h : Nat.findGreatest P (n + 1) = n + 1
  · rw [h]; nlinarith
  · have hlt : Nat.findGreatest P (n + 1) < n + 1 := lt_of_le_of_ne (Nat.findGreatest_le _) h
    have := Nat.findGreatest_is_greatest (P := P) (k := Nat.findGreatest P (n + 1) + 1) (Nat.lt_succ_self _) hlt
    simp only [hP, not_or, not_le] at this
    have h2 := this.2
    have e : 2 * (Nat.findGreatest P (n + 1) + 1) - 1 = 2 * Nat.findGreatest P (n + 1) + 1 := by omega
    rw [e] at h2
    exact h2

theorem cols_pos {n : Nat} (h : 0 < n) : 0 < cols n := by
  rcases Nat.eq_zero_or_pos (cols n) with h0 | h0
  · have := (cols_spec n).2
    rw [h0] at this
    omega
  · exact h0

example : cols 1 = 1 ∧ cols 3 = 1 ∧ cols 4 = 2 ∧ cols 12 = 3 := by decide

theorem orDefault_pos {o : Option Nat} {d : Nat} (h : 0 < d) : 0 < orDefault o d := by
  unfold orDefault
  split
  · omega
  · exact h

/-- **The default grid holds the plots**, and has no empty row. -/
theorem grid_fits (n : Nat) (hn : 0 < n) (nx : Option Nat) : ∃ c r, defaultColRow n nx none = .ok (c, r) ∧ 0 < c ∧ n ≤ c * r ∧ c * (r - 1) < n ∧
    (∀ k, nx = some (k + 1) → c = k + 1) := by
  have hc : 0 < orDefault nx (cols n) := orDefault_pos (cols_pos hn)
  refine ⟨orDefault nx (cols n), (n + orDefault nx (cols n) - 1) / orDefault nx (cols n), ?_, hc, ?_, ?_, ?_⟩
  · have : orDefault nx (cols n) ≠ 0 := by omega
    simp [defaultColRow, show orDefault none 0 = 0 from rfl, this]
  · generalize orDefault nx (cols n) = c at *
    have := Nat.lt_mul_div_succ (n + c - 1) hc
    rw [Nat.mul_add] at this
    omega
  · generalize orDefault nx (cols n) = c at *
    have := Nat.mul_div_le (n + c - 1) c
    rw [Nat.mul_sub]
    omega
  · intro k hk; subst hk; rfl

example : defaultColRow 7 none none = .ok (2, 4) ∧ defaultColRow 7 (some 4) none = .ok (4, 2) := by decide

/-- **Every plot has its own place in the grid.** -/
theorem place_ok (c r n : Nat) (hc : 0 < c) (h : n ≤ c * r) : (∀ i < n, (place c i).1 < c ∧ (place c i).2 < r) ∧
    ∀ i j, place c i = place c j → i = j := by
  refine ⟨?_, ?_⟩
  · intro i hi
    exact ⟨Nat.mod_lt _ hc, Nat.div_lt_of_lt_mul (lt_of_lt_of_le hi h)⟩
  · intro i j hij
    simp only [place, Prod.mk.injEq] at hij
    rw [← Nat.mod_add_div i c, ← Nat.mod_add_div j c, hij.1, hij.2]

example : place 3 7 = (1, 2) ∧ place 3 2 = (2, 0) := by decide

/-- the full statement: a figure is made for any number of plots -/
def AnyNumber : Prop := ∀ n, ∃ c r, defaultColRow n none none = .ok (c, r)

/-- With nothing to plot (an empty list of parameters, or all other parameters filtered out) the number of columns is zero and the
division by it fails (plots.py:1709-1710). -/
theorem no_plots_fails : ¬ AnyNumber := by
  intro h
  obtain ⟨c, r, h⟩ := h 0
  have : defaultColRow 0 none none = .error .zeroDivision := by decide
  rw [this] at h
  cases h

/-! ## Subplots by parameters -/

/-- the entry `(x, y, pars)` is inside the figure -/
def Inside (f : Fig) (e : Nat × Nat × List Str) : Prop := e.1 < f.col ∧ e.2.1 < f.row

/-- after making the subplots of `done` on an empty figure -/
structure Made (col row : Nat) (done : List (Nat × Nat × List Str)) (f : Fig) : Prop where
  col : f.col = col
  row : f.row = row
  axes : f.axes = done.map (fun e => ⟨some e.2.2, none⟩)
  table : ∀ x y i, f.table.get? (x, y) = some i ↔ ∃ p, done[i]? = some (x, y, p)

theorem subplot_new {col row : Nat} {done : List (Nat × Nat × List Str)} {f : Fig} (h : Made col row done f) (e : Nat × Nat × List Str)
    (hi : e.1 < col ∧ e.2.1 < row) (hnew : (e.1, e.2.1) ∉ done.map (fun e => (e.1, e.2.1))) :
    ∃ f', subplot f e.1 e.2.1 (some e.2.2) = .ok (done.length, f') ∧ Made col row (done ++ [e]) f' := by
  obtain ⟨x, y, p⟩ := e
  have hg : f.table.get? (x, y) = none := by
    cases hg : f.table.get? (x, y) with
    | none => rfl
    | some i =>
      obtain ⟨q, hq⟩ := (h.table x y i).mp hg
      exact absurd (List.mem_map.mpr ⟨_, List.mem_of_getElem? hq, rfl⟩) hnew
  have hlen : f.axes.length = done.length := by rw [h.axes, List.length_map]
  have hcr : ¬ (f.col ≤ x ∨ f.row ≤ y) := by rw [h.col, h.row]; simp only at hi; omega
  refine ⟨{ f with axes := (f.axes ++ [Ax.mk none none]).modify f.axes.length (fun a => { a with params := some p }),
                   table := f.table.set (x, y) f.axes.length, last := some f.axes.length }, ?_, h.col, h.row, ?_, ?_⟩
  · simp only [subplot, if_neg hcr, hg, hlen]
  · show (f.axes ++ [Ax.mk none none]).modify f.axes.length _ = _
    rw [show ∀ (l : List Ax) (a : Ax) (g : Ax → Ax), (l ++ [a]).modify l.length g = l ++ [g a] from ?_, h.axes]
    · simp
    · intro l a g
      induction l with
      | nil => rfl
      | cons b l ih => simp only [List.cons_append, List.length_cons, List.modify_succ_cons, ih]
  · intro a b i
    simp only
    rw [Dict.get?_set]
    by_cases hab : (a, b) = (x, y)
    · rw [if_pos hab]
      simp only [Prod.mk.injEq] at hab
      obtain ⟨rfl, rfl⟩ := hab
      constructor
      · intro hi
        simp only [Option.some.injEq] at hi
        subst hi
        exact ⟨p, by rw [hlen]; simp⟩
      · rintro ⟨q, hq⟩
        by_cases hlt : i < done.length
        · rw [List.getElem?_append_left hlt] at hq
          exact absurd (List.mem_map.mpr ⟨_, List.mem_of_getElem? hq, rfl⟩) hnew
        · by_cases he : i = done.length
          · rw [he, hlen]
          · rw [List.getElem?_eq_none (by simp; omega)] at hq
            simp at hq
    · rw [if_neg hab, h.table]
      constructor
      · rintro ⟨q, hq⟩
        refine ⟨q, ?_⟩
        rw [List.getElem?_append_left]
        · exact hq
        · by_contra hge
          rw [List.getElem?_eq_none (by omega)] at hq
          simp at hq
      · rintro ⟨q, hq⟩
        refine ⟨q, ?_⟩
        by_cases hlt : i < done.length
        · rwa [List.getElem?_append_left hlt] at hq
        · by_cases he : i = done.length
          · subst he
            simp only [List.getElem?_concat_length, Option.some.injEq, Prod.mk.injEq] at hq
            exact absurd (by rw [hq.1, hq.2.1]) hab
          · rw [List.getElem?_eq_none (by simp; omega)] at hq
            simp at hq

theorem subplots_made {col row : Nat} : ∀ (l done : List (Nat × Nat × List Str)) (f : Fig), Made col row done f → (∀ e ∈ l, e.1 < col ∧ e.2.1 < row) →
    ((done ++ l).map (fun e => (e.1, e.2.1))).Nodup → ∃ f', subplots f l = .ok f' ∧ Made col row (done ++ l) f'
  | [], done, f, h, _, _ => ⟨f, rfl, by simpa using h⟩
  | e :: l, done, f, h, hin, hnd => by
    have hnew : (e.1, e.2.1) ∉ done.map (fun e => (e.1, e.2.1)) := by
      rw [List.map_append, List.nodup_append] at hnd
      intro hm
      exact hnd.2.2 _ hm (e.1, e.2.1) (by simp) rfl
    obtain ⟨f1, h1, h2⟩ := subplot_new h e (hin e (by simp)) hnew
    obtain ⟨f2, h3, h4⟩ := subplots_made l (done ++ [e]) f1 h2 (fun x hx => hin x (by simp [hx])) (by simpa using hnd)
    refine ⟨f2, ?_, by simpa using h4⟩
    obtain ⟨x, y, p⟩ := e
    simp only [subplots]
    simp only at h1
    rw [h1]
    exact h3

theorem made_empty (col row : Nat) : Made col row [] { col := col, row := row } := by
  refine ⟨rfl, rfl, rfl, ?_⟩
  intro x y i
  simp

theorem mem_flatTable {f : Fig} {i : Nat} : i ∈ flatTable f ↔ ∃ x y, x < f.col ∧ y < f.row ∧ f.table.get? (x, y) = some i := by
  simp only [flatTable, List.mem_flatMap, List.mem_range, List.mem_filterMap]
  constructor
  · rintro ⟨y, hy, x, hx, h⟩; exact ⟨x, y, hx, hy, h⟩
  · rintro ⟨x, y, hx, hy, h⟩; exact ⟨y, hy, x, hx, h⟩

/-- **Subplots are found by their parameters.**  When subplots with distinct places and distinct parameters are made, asking for the axes
of the parameters of one of them gives that subplot. -/
theorem axes_found (col row : Nat) (l : List (Nat × Nat × List Str)) (hin : ∀ e ∈ l, e.1 < col ∧ e.2.1 < row)
    (hnd : (l.map (fun e => (e.1, e.2.1))).Nodup) (hp : (l.map (·.2.2)).Nodup) :
    ∃ f, subplots { col := col, row := row } l = .ok f ∧ f.axes.length = l.length ∧
      (∀ k e, l[k]? = some e → f.table.get? (e.1, e.2.1) = some k ∧ axesForParams f true e.2.2 = some k) ∧
      ∀ pars, pars ∉ l.map (·.2.2) → axesForParams f true pars = none := by
  obtain ⟨f, h1, h2⟩ := subplots_made l [] { col := col, row := row } (made_empty col row) hin (by simpa using hnd)
  rw [List.nil_append] at h2
  have hmatch : ∀ pars i, matchesAx f true pars i = true ↔ ∃ e, l[i]? = some e ∧ e.2.2 = pars := by
    intro pars i
    unfold matchesAx
    rw [h2.axes, List.getElem?_map]
    cases hi : l[i]? with
    | none => simp
    | some e => simp [sameParams]
  refine ⟨f, h1, by rw [h2.axes]; simp, ?_, ?_⟩
  · intro k e hk
    have ht : f.table.get? (e.1, e.2.1) = some k := (h2.table _ _ _).mpr ⟨e.2.2, hk⟩
    refine ⟨ht, ?_⟩
    unfold axesForParams
    have hmem : k ∈ flatTable f := mem_flatTable.mpr ⟨e.1, e.2.1, by rw [h2.col]; exact (hin e (List.mem_of_getElem? hk)).1,
      by rw [h2.row]; exact (hin e (List.mem_of_getElem? hk)).2, ht⟩
    cases hf : (flatTable f).find? (matchesAx f true e.2.2) with
    | none => exact absurd ((hmatch _ _).mpr ⟨e, hk, rfl⟩) (by simpa using List.find?_eq_none.mp hf k hmem)
    | some j =>
      obtain ⟨e2, h3, h4⟩ := (hmatch _ _).mp (List.find?_some hf)
      have h5 : (l.map (·.2.2))[j]? = (l.map (·.2.2))[k]? := by rw [List.getElem?_map, List.getElem?_map, h3, hk]; simp [h4]
      have hj : j < (l.map (·.2.2)).length := by
        rw [List.length_map]
        by_contra hge
        rw [List.getElem?_eq_none (by omega)] at h3
        simp at h3
      rw [(List.getElem?_inj hj hp).mp h5]
  · intro pars hpars
    refine List.find?_eq_none.mpr ?_
    intro i _ hm
    obtain ⟨e, h3, h4⟩ := (hmatch _ _).mp hm
    exact hpars (List.mem_map.mpr ⟨e, List.mem_of_getElem? h3, h4⟩)

/-- **Arrays of plots** (`plots_1d`, `plots_2d`, `plots_3d`): the k-th plot is at the k-th place, row by row, and is found by its parameters. -/
theorem numbered_found (c r : Nat) (sets : List (List Str)) (hc : 0 < c) (hn : sets.length ≤ c * r) (hp : sets.Nodup) :
    ∃ f, numbered { col := c, row := r } sets = .ok f ∧ ∀ k s, sets[k]? = some s → f.table.get? (k % c, k / c) = some k ∧ axesForParams f true s = some k := by
  have hpl := place_ok c r sets.length hc hn
  have hm1 : (sets.zipIdx.map (fun p => ((place c p.2).1, (place c p.2).2, p.1))).map (fun e => (e.1, e.2.1)) = (List.range sets.length).map (place c) := by
    rw [List.map_map]
    apply List.ext_getElem
    · simp
    · intro i h1 h2
      simp [place]
  have hm2 : (sets.zipIdx.map (fun p => ((place c p.2).1, (place c p.2).2, p.1))).map (·.2.2) = sets := by
    rw [List.map_map]
    apply List.ext_getElem
    · simp
    · intro i h1 h2
      simp
  obtain ⟨f, h1, _, h2, _⟩ := axes_found c r (sets.zipIdx.map (fun p => ((place c p.2).1, (place c p.2).2, p.1)))
    (by
      intro e he
      obtain ⟨p, hp, rfl⟩ := List.mem_map.mp he
      have := List.snd_lt_of_mem_zipIdx hp
      exact hpl.1 p.2 (by simpa using this))
    (by
      rw [hm1]
      exact List.Nodup.map (fun i j => hpl.2 i j) List.nodup_range)
    (by rw [hm2]; exact hp)
  refine ⟨f, h1, ?_⟩
  intro k s hk
  have := h2 k ((place c k).1, (place c k).2, s) (by rw [List.getElem?_map, List.getElem?_zipIdx, hk]; simp)
  exact this

example : (numbered { col := 2, row := 2 } [[c!"a"], [c!"b"], [c!"c"]]).toOption.bind (fun f => axesForParams f true [c!"c"]) = some 2 := by decide

/-! ### Triangles and rectangles -/

/-- **The subplots of a triangle plot** are those on and below the diagonal, each with its column's and its row's parameter. -/
theorem triangle_cells (ps : List Str) (x y : Nat) (p : List Str) : (x, y, p) ∈ triangle ps ↔
    x ≤ y ∧ ∃ a b, ps[x]? = some a ∧ ps[y]? = some b ∧ p = if x = y then [a] else [a, b] := by
  simp only [triangle, List.mem_flatMap, List.mem_append, List.mem_map, List.mem_range, List.mem_singleton]
  constructor
  · rintro ⟨q, hq, h⟩
    have hq1 : ps[q.2]? = some q.1 := List.mem_zipIdx_iff_getElem?.mp hq
    have hlt : q.2 < ps.length := by by_contra hge; rw [List.getElem?_eq_none (by omega)] at hq1; simp at hq1
    rcases h with ⟨d, hd, h⟩ | h
    · simp only [Prod.mk.injEq] at h
      obtain ⟨rfl, rfl, rfl⟩ := h
      have hi2 : ps.length - 1 - d < ps.length := by omega
      refine ⟨by omega, q.1, ps.getD (ps.length - 1 - d) [], hq1, ?_, ?_⟩
      · simp [List.getElem?_eq_getElem hi2, List.getD_eq_getElem?_getD]
      · rw [if_neg (by omega)]
    · simp only [Prod.mk.injEq] at h
      obtain ⟨rfl, rfl, rfl⟩ := h
      exact ⟨le_refl _, q.1, q.1, hq1, hq1, by simp⟩
  · rintro ⟨hxy, a, b, ha, hb, rfl⟩
    refine ⟨(a, x), List.mem_zipIdx_iff_getElem?.mpr ha, ?_⟩
    have hy : y < ps.length := by by_contra hge; rw [List.getElem?_eq_none (by omega)] at hb; simp at hb
    by_cases e : x = y
    · right; subst e; simp
    · left
      refine ⟨ps.length - 1 - y, by simp only; omega, ?_⟩
      have : ps.length - 1 - (ps.length - 1 - y) = y := by omega
      simp [this, e, hb]

theorem pairwise_flatMap_key {α β : Type} {κ : Type} (key : β → κ) (col : κ → Nat) (g : α × Nat → List β) : ∀ (l : List α) (s : Nat),
    (∀ p ∈ l.zipIdx s, ∀ b ∈ g p, col (key b) = p.2) → (∀ p ∈ l.zipIdx s, ((g p).map key).Nodup) → (((l.zipIdx s).flatMap g).map key).Nodup
  | [], s, _, _ => by simp
  | a :: l, s, h1, h2 => by
    rw [List.zipIdx_cons, List.flatMap_cons, List.map_append, List.nodup_append]
    refine ⟨h2 (a, s) (by simp), pairwise_flatMap_key key col g l (s + 1) (fun p hp => h1 p (by simp [hp])) (fun p hp => h2 p (by simp [hp])), ?_⟩
    intro k1 hk1 k2 hk2 e
    obtain ⟨b1, hb1, rfl⟩ := List.mem_map.mp hk1
    obtain ⟨b2, hb2, rfl⟩ := List.mem_map.mp hk2
    obtain ⟨p, hp, hb2⟩ := List.mem_flatMap.mp hb2
    have e1 := h1 (a, s) (by simp) b1 hb1
    have e2 := h1 p (by simp [hp]) b2 hb2
    rw [e, e2] at e1
    have := List.le_snd_of_mem_zipIdx hp
    simp only at e1
    omega

theorem triangle_places_nodup (ps : List Str) : ((triangle ps).map (fun e => (e.1, e.2.1))).Nodup := by
  unfold triangle
  refine pairwise_flatMap_key (fun e : Nat × Nat × List Str => (e.1, e.2.1)) (fun k => k.1) _ ps 0 ?_ ?_
  · intro p _ b hb
    simp only [List.mem_append, List.mem_map, List.mem_singleton] at hb
    rcases hb with ⟨d, _, rfl⟩ | rfl <;> rfl
  · intro p hp
    have hlt : p.2 < ps.length := by have := List.snd_lt_of_mem_zipIdx hp; omega
    rw [List.map_append, List.nodup_append]
    refine ⟨?_, by simp, ?_⟩
    · rw [List.map_map]
      refine List.Nodup.map_on ?_ List.nodup_range
      intro a ha b hb hab
      simp only [Function.comp, Prod.mk.injEq, List.mem_range] at hab ha hb
      omega
    · intro k1 hk1 k2 hk2 e
      simp only [List.map_map, List.mem_map, List.mem_range, Function.comp, List.map_cons, List.map_nil, List.mem_singleton] at hk1 hk2
      obtain ⟨d, hd, rfl⟩ := hk1
      subst hk2
      simp only [Prod.mk.injEq] at e
      omega

/-- the parameters of the subplots of a triangle are distinct -/
theorem triangle_params_nodup (ps : List Str) (hnd : ps.Nodup) : ((triangle ps).map (·.2.2)).Nodup := by
  have h := triangle_places_nodup ps
  refine List.Nodup.map_on ?_ h.of_map
  rintro ⟨x, y, p⟩ h1 ⟨x2, y2, p2⟩ h2 hp
  obtain ⟨_, a, b, ha, hb, hpe⟩ := (triangle_cells ps x y p).mp h1
  obtain ⟨_, a2, b2, ha2, hb2, hpe2⟩ := (triangle_cells ps x2 y2 p2).mp h2
  have lt : ∀ {i : Nat} {a : Str}, ps[i]? = some a → i < ps.length := by
    intro i a h
    by_contra hge
    rw [List.getElem?_eq_none (by omega)] at h
    simp at h
  have inj : ∀ {i j : Nat} {a : Str}, ps[i]? = some a → ps[j]? = some a → i = j :=
    fun h1 h2 => (List.getElem?_inj (lt h1) hnd).mp (h1.trans h2.symm)
  simp only at hp
  rw [hpe, hpe2] at hp
  by_cases e : x = y <;> by_cases e2 : x2 = y2 <;> simp only [e, e2, if_true, if_false, List.cons.injEq, and_true, reduceCtorEq, and_false] at hp
  · subst e; subst e2; subst hp
    have hx := inj ha ha2
    subst hx
    rw [hpe, hpe2]; simp
  · obtain ⟨h1, h2⟩ := hp
    subst h1; subst h2
    have hx := inj ha ha2
    have hy := inj hb hb2
    subst hx; subst hy
    rw [hpe, hpe2]

/-- **A triangle plot**: all subplots are made, and are found by their parameters: the 1D plot of a parameter by its name, the 2D plot of a pair
by the name of its column, then that of its row. -/
theorem triangle_found (ps : List Str) (hnd : ps.Nodup) : ∃ f, subplots { col := ps.length, row := ps.length } (triangle ps) = .ok f ∧
    (∀ (x y : Nat) a b, x < y → ps[x]? = some a → ps[y]? = some b → ∃ i, f.table.get? (x, y) = some i ∧ axesForParams f true [a, b] = some i) ∧
    (∀ x a, ps[x]? = some a → ∃ i, f.table.get? (x, x) = some i ∧ axesForParams f true [a] = some i) ∧
    (∀ (x y : Nat) a b, y < x → ps[x]? = some a → ps[y]? = some b → axesForParams f true [a, b] = none) := by
  have lt : ∀ {i : Nat} {a : Str}, ps[i]? = some a → i < ps.length := by
    intro i a h
    by_contra hge
    rw [List.getElem?_eq_none (by omega)] at h
    simp at h
  have inj : ∀ {i j : Nat} {a : Str}, ps[i]? = some a → ps[j]? = some a → i = j :=
    fun h1 h2 => (List.getElem?_inj (lt h1) hnd).mp (h1.trans h2.symm)
  obtain ⟨f, h1, _, h2, h3⟩ := axes_found ps.length ps.length (triangle ps)
    (by
      rintro ⟨x, y, p⟩ he
      obtain ⟨_, a, b, ha, hb, _⟩ := (triangle_cells ps x y p).mp he
      exact ⟨lt ha, lt hb⟩)
    (triangle_places_nodup ps) (triangle_params_nodup ps hnd)
  refine ⟨f, h1, ?_, ?_, ?_⟩
  · intro x y a b hxy ha hb
    have hm : (x, y, [a, b]) ∈ triangle ps := (triangle_cells ps _ _ _).mpr ⟨by omega, a, b, ha, hb, by rw [if_neg (by omega)]⟩
    obtain ⟨k, hk⟩ := List.getElem?_of_mem hm
    exact ⟨k, h2 k _ hk⟩
  · intro x a ha
    have hm : (x, x, [a]) ∈ triangle ps := (triangle_cells ps _ _ _).mpr ⟨le_refl _, a, a, ha, ha, by simp⟩
    obtain ⟨k, hk⟩ := List.getElem?_of_mem hm
    exact ⟨k, h2 k _ hk⟩
  · intro x y a b hxy ha hb
    refine h3 _ ?_
    intro hm
    obtain ⟨⟨x2, y2, p⟩, hm, hp⟩ := List.mem_map.mp hm
    obtain ⟨hle, a2, b2, ha2, hb2, hpe⟩ := (triangle_cells ps x2 y2 p).mp hm
    simp only at hp
    rw [hpe] at hp
    by_cases e : x2 = y2
    · simp [e] at hp
    · simp only [e, if_false, List.cons.injEq, and_true] at hp
      obtain ⟨rfl, rfl⟩ := hp
      have := inj ha ha2
      have := inj hb hb2
      omega

example : triangle [c!"a", c!"b", c!"c"] = [(0, 2, [c!"a", c!"c"]), (0, 1, [c!"a", c!"b"]), (0, 0, [c!"a"]), (1, 2, [c!"b", c!"c"]), (1, 1, [c!"b"]),
    (2, 2, [c!"c"])] := by decide

/-- **The upper triangle** is the mirror image: the places above the diagonal, with the parameters of column and row. -/
theorem upper_cells (ps : List Str) (x y : Nat) (p : List Str) : (x, y, p) ∈ upper ps ↔
    y < x ∧ ∃ a b, ps[x]? = some a ∧ ps[y]? = some b ∧ p = [a, b] := by
  simp only [upper, List.mem_flatMap, List.mem_map, List.mem_range]
  constructor
  · rintro ⟨q, hq, d, hd, h⟩
    have hq1 : ps.dropLast[q.2]? = some q.1 := List.mem_zipIdx_iff_getElem?.mp hq
    simp only [Prod.mk.injEq] at h
    obtain ⟨rfl, rfl, rfl⟩ := h
    have hi2 : ps.length - 1 - d < ps.length := by omega
    refine ⟨by omega, ps.getD (ps.length - 1 - d) [], q.1, ?_, ?_, rfl⟩
    · simp [List.getElem?_eq_getElem hi2, List.getD_eq_getElem?_getD]
    · rw [List.getElem?_dropLast] at hq1
      split at hq1
      · exact hq1
      · simp at hq1
  · rintro ⟨hxy, a, b, ha, hb, rfl⟩
    have hx : x < ps.length := by by_contra hge; rw [List.getElem?_eq_none (by omega)] at ha; simp at ha
    refine ⟨(b, y), List.mem_zipIdx_iff_getElem?.mpr ?_, ps.length - 1 - x, by simp only; omega, ?_⟩
    · rw [List.getElem?_dropLast, if_pos (by omega), hb]
    · have : ps.length - 1 - (ps.length - 1 - x) = x := by omega
      simp [this, ha]

example : upper [c!"a", c!"b", c!"c"] = [(2, 0, [c!"c", c!"a"]), (1, 0, [c!"b", c!"a"]), (2, 1, [c!"c", c!"b"])] := by decide

/-- **A rectangle plot** has every pair of an x and a y parameter, in its column and row. -/
theorem rectangle_cells (xs ys : List Str) (x y : Nat) (p : List Str) : (x, y, p) ∈ rectangle xs ys ↔
    ∃ a b, xs[x]? = some a ∧ ys[y]? = some b ∧ p = [a, b] := by
  simp only [rectangle, List.mem_flatMap, List.mem_map]
  constructor
  · rintro ⟨q, hq, r, hr, h⟩
    simp only [Prod.mk.injEq] at h
    obtain ⟨rfl, rfl, rfl⟩ := h
    exact ⟨q.1, r.1, List.mem_zipIdx_iff_getElem?.mp hq, List.mem_zipIdx_iff_getElem?.mp hr, rfl⟩
  · rintro ⟨a, b, ha, hb, rfl⟩
    exact ⟨(a, x), List.mem_zipIdx_iff_getElem?.mpr ha, (b, y), List.mem_zipIdx_iff_getElem?.mpr hb, rfl⟩

/-- **The subplots of a rectangle plot are found by their parameters.** -/
theorem rectangle_found (xs ys : List Str) (hx : xs.Nodup) (hy : ys.Nodup) : ∃ f, subplots { col := xs.length, row := ys.length } (rectangle xs ys) = .ok f ∧
    ∀ x y a b, xs[x]? = some a → ys[y]? = some b → ∃ i, f.table.get? (x, y) = some i ∧ axesForParams f true [a, b] = some i := by
  have lt : ∀ {l : List Str} {i : Nat} {a : Str}, l[i]? = some a → i < l.length := by
    intro l i a h
    by_contra hge
    rw [List.getElem?_eq_none (by omega)] at h
    simp at h
  have hnd : ((rectangle xs ys).map (fun e => (e.1, e.2.1))).Nodup := by
    unfold rectangle
    refine pairwise_flatMap_key (fun e : Nat × Nat × List Str => (e.1, e.2.1)) (fun k => k.1) _ xs 0 ?_ ?_
    · intro p _ b hb
      obtain ⟨q, _, rfl⟩ := List.mem_map.mp hb
      rfl
    · intro p _
      rw [List.map_map]
      refine List.Nodup.map_on ?_ ?_
      · intro a ha b hb hab
        simp only [Function.comp, Prod.mk.injEq] at hab
        have h1 := List.mem_zipIdx_iff_getElem?.mp ha
        have h2 := List.mem_zipIdx_iff_getElem?.mp hb
        rw [hab.2, h2] at h1
        exact Prod.ext (by simpa using h1.symm) hab.2
      · have h : (ys.zipIdx.map Prod.snd).Nodup := by
          rw [List.zipIdx_map_snd]; exact List.nodup_range'
        exact h.of_map
  obtain ⟨f, h1, _, h2, _⟩ := axes_found xs.length ys.length (rectangle xs ys)
    (by
      rintro ⟨x, y, p⟩ he
      obtain ⟨a, b, ha, hb, _⟩ := (rectangle_cells xs ys x y p).mp he
      exact ⟨lt ha, lt hb⟩) hnd
    (by
      refine List.Nodup.map_on ?_ hnd.of_map
      rintro ⟨x, y, p⟩ h1 ⟨x2, y2, p2⟩ h2 hp
      obtain ⟨a, b, ha, hb, hpe⟩ := (rectangle_cells xs ys x y p).mp h1
      obtain ⟨a2, b2, ha2, hb2, hpe2⟩ := (rectangle_cells xs ys x2 y2 p2).mp h2
      simp only at hp
      rw [hpe, hpe2] at hp
      simp only [List.cons.injEq, and_true] at hp
      obtain ⟨rfl, rfl⟩ := hp
      rw [(List.getElem?_inj (lt ha) hx).mp (ha.trans ha2.symm), (List.getElem?_inj (lt hb) hy).mp (hb.trans hb2.symm), hpe, hpe2])
  refine ⟨f, h1, ?_⟩
  intro x y a b ha hb
  obtain ⟨k, hk⟩ := List.getElem?_of_mem ((rectangle_cells xs ys x y [a, b]).mpr ⟨a, b, ha, hb, rfl⟩)
  exact ⟨k, h2 k _ hk⟩

example : (subplots { col := 2, row := 1 } (rectangle [c!"a", c!"b"] [c!"c"])).toOption.bind (fun f => axesForParams f true [c!"b", c!"c"]) = some 1 := by decide

/-- **The axes of a single 2D contour plot are found** by the two parameters. -/
theorem single_contours_partial (p1 p2 : Str) : ∃ i f, getAxes { col := 1, row := 1 } none (some [p1, p2]) = .ok (i, f) ∧
    axesForParams (noteContours f i p1 p2) true [p1, p2] = some i := by
  refine ⟨0, { col := 1, row := 1, axes := [⟨none, some [p1, p2]⟩], table := [((0, 0), 0)], last := some 0 }, rfl, ?_⟩
  have h1 : flatTable (noteContours { col := 1, row := 1, axes := [⟨none, some [p1, p2]⟩], table := [((0, 0), 0)], last := some 0 } 0 p1 p2) = [0] := rfl
  unfold axesForParams
  rw [h1]
  simp [matchesAx, noteContours, sameParams]

/-- the full statement: after a 1D plot on a single axes, the axes are found by the parameter -/
def SingleFound : Prop :=
  ∀ (par : Str) (i : Nat) (f : Fig), getAxes { col := 1, row := 1 } none (some [par]) = .ok (i, f) → axesForParams f true [par] = some i

/-- `get_axes` stores the parameters as `getdist_pars`, but `get_axes_for_params` looks at `getdist_params` (plots.py:2222-2223, 3257): the
axes of a plot made by `plot_1d` alone are not found. -/
theorem single_plot_fails : ¬ SingleFound := by
  intro h
  have e : getAxes { col := 1, row := 1 } none (some [c!"a"]) =
      .ok (0, { col := 1, row := 1, axes := [⟨none, some [c!"a"]⟩], table := [((0, 0), 0)], last := some 0 }) := by decide
  have := h _ _ _ e
  revert this
  decide

/-! ## Ranges -/

section
variable {K : Type} [LinearOrder K]

theorem joinMax_spec (x l : Option K) (v : K) : joinMax x l = some v ↔
    (x = some v ∨ l = some v) ∧ (∀ a, x = some a → a ≤ v) ∧ ∀ a, l = some a → a ≤ v := by
  cases x with
  | none =>
    cases l with
    | none => simp [joinMax]
    | some b =>
      simp only [joinMax, Option.some.injEq, reduceCtorEq, false_or, false_imp_iff, implies_true, true_and]
      constructor
      · rintro rfl; simp
      · rintro ⟨rfl, _⟩; rfl
  | some a =>
    cases l with
    | none =>
      simp only [joinMax, Option.some.injEq, reduceCtorEq, or_false, false_imp_iff, implies_true, and_true]
      constructor
      · rintro rfl; simp
      · rintro ⟨rfl, _⟩; rfl
    | some b =>
      simp only [joinMax, Option.some.injEq]
      constructor
      · rintro rfl
        exact ⟨(max_choice a b).imp Eq.symm Eq.symm, fun c hc => hc ▸ le_max_left _ _, fun c hc => hc ▸ le_max_right _ _⟩
      · rintro ⟨h1, h2, h3⟩
        rcases h1 with rfl | rfl
        · exact max_eq_left (h3 b rfl)
        · exact max_eq_right (h2 a rfl)

example : joinMax (some 1) (some 3) = some 3 ∧ joinMax (some 1) none = some 1 ∧ joinMax none (some 3) = some 3 := by decide

theorem joinMin_spec (x l : Option K) (v : K) : joinMin x l = some v ↔
    (x = some v ∨ l = some v) ∧ (∀ a, x = some a → v ≤ a) ∧ ∀ a, l = some a → v ≤ a := by
  cases x with
  | none =>
    cases l with
    | none => simp [joinMin]
    | some b =>
      simp only [joinMin, Option.some.injEq, reduceCtorEq, false_or, false_imp_iff, implies_true, true_and]
      constructor
      · rintro rfl; simp
      · rintro ⟨rfl, _⟩; rfl
  | some a =>
    cases l with
    | none =>
      simp only [joinMin, Option.some.injEq, reduceCtorEq, or_false, false_imp_iff, implies_true, and_true]
      constructor
      · rintro rfl; simp
      · rintro ⟨rfl, _⟩; rfl
    | some b =>
      simp only [joinMin, Option.some.injEq]
      constructor
      · rintro rfl
        exact ⟨(min_choice a b).imp Eq.symm Eq.symm, fun c hc => hc ▸ min_le_left _ _, fun c hc => hc ▸ min_le_right _ _⟩
      · rintro ⟨h1, h2, h3⟩
        rcases h1 with rfl | rfl
        · exact min_eq_left (h3 b rfl)
        · exact min_eq_right (h2 a rfl)

example : joinMin (some 1) (some 3) = some 1 ∧ joinMin (some 1) none = some 1 ∧ joinMin none (some 3) = some 3 := by decide

theorem joinMax_none {x l : Option K} : joinMax x l = none ↔ x = none ∧ l = none := by
  cases x <;> cases l <;> simp [joinMax]

theorem joinMin_none {x l : Option K} : joinMin x l = none ↔ x = none ∧ l = none := by
  cases x <;> cases l <;> simp [joinMin]

/-- `x` respects a range -/
def Within (r : Range K) (x : K) : Prop := (∀ a, r.1 = some a → a ≤ x) ∧ ∀ b, r.2 = some b → x ≤ b

/-- **Checking a range against the priors** cuts it to the values that the prior allows. -/
theorem checkRange_within (prior r : Range K) (x : K) : Within (checkRange prior r) x ↔ Within prior x ∧ Within r x := by
  obtain ⟨l, u⟩ := prior
  obtain ⟨a, b⟩ := r
  unfold Within checkRange
  cases l <;> cases u <;> cases a <;> cases b <;> simp [joinMax, joinMin] <;> tauto

example : checkRange (some 0, none) (some (-1), some 5) = ((some 0, some 5) : Range ℤ) := by decide

/-- **The common bounds of several roots** allow exactly the values allowed by the prior of every root. -/
theorem paramBounds_within (priors : List (Range K)) (x : K) : Within (paramBounds priors) x ↔ ∀ p ∈ priors, Within p x := by
  unfold paramBounds
  have : ∀ (l : List (Range K)) (r : Range K), Within (l.foldl (fun r p => checkRange p r) r) x ↔ Within r x ∧ ∀ p ∈ l, Within p x := by
    intro l
    induction l with
    | nil => intro r; simp
    | cons p l ih =>
      intro r
      rw [List.foldl_cons, ih, checkRange_within, List.forall_mem_cons]
      tauto
  rw [this]
  simp [Within]

example : paramBounds [((some 0 : Option ℚ), none), (some (-1), some 3), (none, some 2)] = (some 0, some 2) := by decide +kernel

/-- the hull of the ranges given -/
def IsHull (bs : List (K × K)) (r : K × K) : Prop :=
  (∃ b ∈ bs, b.1 = r.1) ∧ (∃ b ∈ bs, b.2 = r.2) ∧ ∀ b ∈ bs, r.1 ≤ b.1 ∧ b.2 ≤ r.2

theorem IsHull.unique {bs : List (K × K)} {r s : K × K} (hr : IsHull bs r) (hs : IsHull bs s) : r = s := by
  obtain ⟨⟨a, ha, ea⟩, ⟨b, hb, eb⟩, h⟩ := hr
  obtain ⟨⟨c, hc, ec⟩, ⟨d, hd, ed⟩, k⟩ := hs
  refine Prod.ext (le_antisymm ?_ ?_) (le_antisymm ?_ ?_)
  · rw [← ec]; exact (h c hc).1
  · rw [← ea]; exact (k a ha).1
  · rw [← eb]; exact (k b hb).2
  · rw [← ed]; exact (h d hd).2

theorem updateLimit_hull {bs : List (K × K)} {r b : K × K} (h : IsHull bs r) : ∃ s, updateLimit (some b) (some r) = some s ∧ IsHull (bs ++ [b]) s := by
  obtain ⟨⟨a, ha, ea⟩, ⟨c, hc, ec⟩, h⟩ := h
  refine ⟨(min r.1 b.1, max r.2 b.2), rfl, ?_, ?_, ?_⟩
  · rcases min_choice r.1 b.1 with e | e
    · exact ⟨a, by simp [ha], by rw [ea, e]⟩
    · exact ⟨b, by simp, by rw [e]⟩
  · rcases max_choice r.2 b.2 with e | e
    · exact ⟨c, by simp [hc], by rw [ec, e]⟩
    · exact ⟨b, by simp, by rw [e]⟩
  · intro d hd
    rcases List.mem_append.mp hd with hd | hd
    · exact ⟨(min_le_left _ _).trans (h d hd).1, (h d hd).2.trans (le_max_left _ _)⟩
    · simp only [List.mem_singleton] at hd
      subst hd
      exact ⟨min_le_right _ _, le_max_right _ _⟩

theorem hull_fold : ∀ (cs : List (Curve K)) (bs : List (K × K)) (r : Option (K × K)),
    (r = none → bs = []) → (∀ v, r = some v → IsHull bs v) →
    (cs.foldl (fun r c => updateLimit c.bounds r) r = none → bs ++ cs.filterMap (·.bounds) = []) ∧
    ∀ v, cs.foldl (fun r c => updateLimit c.bounds r) r = some v → IsHull (bs ++ cs.filterMap (·.bounds)) v
  | [], bs, r, h0, h1 => by rw [List.filterMap_nil, List.append_nil]; exact ⟨h0, h1⟩
  | c :: cs, bs, r, h0, h1 => by
    rw [List.foldl_cons]
    cases hb : c.bounds with
    | none =>
      rw [show updateLimit (none : Option (K × K)) r = r from by cases r <;> rfl, List.filterMap_cons, hb]
      exact hull_fold cs bs r h0 h1
    | some b =>
      rw [List.filterMap_cons, hb]
      simp only
      rw [show bs ++ b :: cs.filterMap (·.bounds) = (bs ++ [b]) ++ cs.filterMap (·.bounds) by simp]
      cases r with
      | none =>
        refine hull_fold cs (bs ++ [b]) _ (by simp [updateLimit]) ?_
        intro v hv
        rw [h0 rfl]
        simp only [updateLimit, Option.some.injEq] at hv
        subst hv
        exact ⟨⟨b, by simp, rfl⟩, ⟨b, by simp, rfl⟩, by simp⟩
      | some v =>
        obtain ⟨s, h2, h3⟩ := updateLimit_hull (b := b) (h1 v rfl)
        rw [h2]
        refine hull_fold cs (bs ++ [b]) _ (by simp) ?_
        intro w hw
        cases hw
        exact h3

/-- **The range of a 1D plot before the prior is applied** is the smallest that holds the ranges of all curves; there is none when no root has
the parameter. -/
theorem hull_spec (cs : List (Curve K)) : (hull cs = none ↔ cs.filterMap (·.bounds) = []) ∧
    ∀ v, hull cs = some v ↔ (cs.filterMap (·.bounds) ≠ [] ∧ IsHull (cs.filterMap (·.bounds)) v) := by
  have h := hull_fold cs [] none (fun _ => rfl) (by simp)
  simp only [List.nil_append] at h
  have hne : ∀ v, IsHull (cs.filterMap (·.bounds)) v → cs.filterMap (·.bounds) ≠ [] := by
    rintro v ⟨⟨b, hb, _⟩, _⟩ e
    rw [e] at hb
    simp at hb
  cases hh : hull cs with
  | none =>
    have e := h.1 hh
    refine ⟨by simp [e], ?_⟩
    intro v
    simp [e]
  | some w =>
    have hw := h.2 w hh
    refine ⟨by simp [hne w hw], ?_⟩
    intro v
    constructor
    · intro e; cases e; exact ⟨hne w hw, hw⟩
    · rintro ⟨_, hv⟩
      rw [hw.unique hv]

example : hull [⟨(none, none), some ((1 : ℤ), 4)⟩, ⟨(none, none), none⟩, ⟨(none, none), some (0, 2)⟩] = some (0, 4) := by decide

/-- **The range of a 1D plot**: all values that some curve's range and the prior of the first root plotted allow between the lowest and highest. -/
theorem plotRange_spec (cs : List (Curve K)) (c : Curve K) (hc : cs.find? (·.bounds.isSome) = some c) :
    ∃ r v, plotRange cs = .ok r ∧ hull cs = some v ∧ ∀ x, Within r x ↔ Within c.prior x ∧ v.1 ≤ x ∧ x ≤ v.2 := by
  have h1 : cs.filterMap (·.bounds) ≠ [] := by
    intro e
    have hm := List.mem_of_find?_eq_some hc
    have hs := List.find?_some hc
    rw [Option.isSome_iff_exists] at hs
    obtain ⟨b, hb⟩ := hs
    have : b ∈ cs.filterMap (·.bounds) := List.mem_filterMap.mpr ⟨c, hm, hb⟩
    rw [e] at this
    simp at this
  cases hh : hull cs with
  | none => exact absurd ((hull_spec cs).1.mp hh) h1
  | some v =>
    refine ⟨_, v, by simp only [plotRange, hc, hh]; rfl, rfl, ?_⟩
    intro x
    rw [checkRange_within]
    simp [Within]

example : plotRange [⟨(none, none), none⟩, ⟨(some 1, none), some ((0 : ℤ), 4)⟩, ⟨(none, none), some (0, 7)⟩] = .ok (some 1, some 7) := by decide

/-- the full statement: no curve is cut where its own prior allows values -/
def AllShown : Prop :=
  ∀ (cs : List (Curve ℚ)) (r : Range ℚ), plotRange cs = .ok r → ∀ c ∈ cs, ∀ b, c.bounds = some b → ∀ x, Within c.prior x → b.1 ≤ x → x ≤ b.2 → Within r x

/-- when all roots have the same prior, every curve is shown wherever its prior allows values -/
theorem shown_partial (cs : List (Curve K)) (p : Range K) (hp : ∀ c ∈ cs, c.prior = p) (r : Range K) (h : plotRange cs = .ok r)
    (c : Curve K) (hc : c ∈ cs) (b : K × K) (hb : c.bounds = some b) (x : K) (hx : Within c.prior x) (h1 : b.1 ≤ x) (h2 : x ≤ b.2) : Within r x := by
  cases hf : cs.find? (·.bounds.isSome) with
  | none =>
    have := List.find?_eq_none.mp hf c hc
    simp [hb] at this
  | some d =>
    obtain ⟨r2, v, h3, h4, h5⟩ := plotRange_spec cs d hf
    rw [h] at h3
    cases h3
    refine (h5 x).mpr ⟨?_, ?_⟩
    · rw [hp d (List.mem_of_find?_eq_some hf), ← hp c hc]; exact hx
    · have hv := (((hull_spec cs).2 v).mp h4).2.2.2 b (List.mem_filterMap.mpr ⟨c, hc, hb⟩)
      exact ⟨hv.1.trans h1, h2.trans hv.2⟩

example : plotRange [⟨(some 0, none), some ((-1 : ℤ), 4)⟩, ⟨(some 0, none), some (-2, 9)⟩] = .ok (some 0, some 9) := by decide

/-- Only the prior bounds of the first root plotted are applied to the range of the plot (plots.py:1598-1599, 1690-1691): the density of a second
root with wider bounds is cut off. -/
theorem other_prior_fails : ¬ AllShown := by
  intro h
  have := h [⟨(some 0, none), some (0, 1)⟩, ⟨(none, none), some (-1, 1)⟩] (some 0, some 1) (by decide +kernel) ⟨(none, none), some (-1, 1)⟩ (by simp) (-1, 1) rfl
    (-1) ⟨by simp, by simp⟩ (by simp) (by norm_num)
  have := this.1 0 rfl
  norm_num at this

/-! ### The limits of a rectangle plot -/

/-- the ranges of the subplots drawn, for one parameter -/
def rangesOf (name : Str) : List (Str × Str × Option ((K × K) × (K × K))) → List (K × K)
  | [] => []
  | (xp, yp, res) :: l => (match res with
    | none => []
    | some r => (if xp = name then [r.1] else []) ++ (if yp = name then [r.2] else [])) ++ rangesOf name l

/-- the stored limits are the hull of the ranges seen -/
def LimOk (lim : Dict Str (Option (K × K))) (seen : Str → List (K × K)) : Prop :=
  ∀ n, ((lim.get? n).getD none = none → seen n = []) ∧ ∀ v, (lim.get? n).getD none = some v → IsHull (seen n) v

theorem updateLimits_eq (r : (K × K) × (K × K)) (x y : Option (K × K)) :
    updateLimits (some r) x y = (updateLimit (some r.1) x, updateLimit (some r.2) y) := by
  cases x <;> cases y <;> rfl

theorem updateLimit_ok {bs : List (K × K)} {b : K × K} {cur : Option (K × K)} (h0 : cur = none → bs = []) (h1 : ∀ v, cur = some v → IsHull bs v) :
    ∃ s, updateLimit (some b) cur = some s ∧ IsHull (bs ++ [b]) s := by
  cases cur with
  | none =>
    rw [h0 rfl]
    exact ⟨b, rfl, ⟨b, by simp, rfl⟩, ⟨b, by simp, rfl⟩, by simp⟩
  | some r => exact updateLimit_hull (h1 r rfl)

theorem rectLimits_ok : ∀ (l : List (Str × Str × Option ((K × K) × (K × K)))) (lim : Dict Str (Option (K × K))) (seen : Str → List (K × K)),
    (∀ e ∈ l, e.1 ≠ e.2.1) → LimOk lim seen → LimOk (rectLimits lim l) (fun n => seen n ++ rangesOf n l)
  | [], lim, seen, _, h => by simpa [rectLimits, rangesOf] using h
  | (xp, yp, res) :: l, lim, seen, hne, h => by
    have hxy : xp ≠ yp := hne (xp, yp, res) (by simp)
    have hne' : ∀ e ∈ l, e.1 ≠ e.2.1 := fun e he => hne e (by simp [he])
    simp only [rectLimits]
    cases res with
    | none =>
      have := rectLimits_ok l ((lim.set xp ((lim.get? xp).getD none)).set yp ((lim.get? yp).getD none)) seen hne' (by
        intro n
        have e : (((lim.set xp ((lim.get? xp).getD none)).set yp ((lim.get? yp).getD none)).get? n).getD none = (lim.get? n).getD none := by
          rw [Dict.get?_set, Dict.get?_set]
          by_cases e1 : n = yp
          · subst e1; simp
          · by_cases e2 : n = xp
            · subst e2; simp [e1]
            · simp [e1, e2]
        rw [e]
        exact h n)
      simpa [updateLimits, rangesOf] using this
    | some r =>
      rw [updateLimits_eq]
      obtain ⟨s, hs1, hs2⟩ := updateLimit_ok (b := r.1) (h xp).1 (h xp).2
      obtain ⟨t, ht1, ht2⟩ := updateLimit_ok (b := r.2) (h yp).1 (h yp).2
      rw [hs1, ht1]
      have := rectLimits_ok l ((lim.set xp (some s)).set yp (some t)) (fun n => seen n ++ ((if xp = n then [r.1] else []) ++ (if yp = n then [r.2] else []))) hne' (by
        intro n
        rw [Dict.get?_set, Dict.get?_set]
        dsimp only
        by_cases e1 : n = yp
        · subst e1
          rw [if_pos rfl, if_neg hxy, if_pos rfl]
          simp only [Option.getD_some, reduceCtorEq, false_imp_iff, Option.some.injEq, true_and, List.nil_append]
          rintro v rfl
          exact ht2
        · by_cases e2 : n = xp
          · subst e2
            rw [if_neg e1, if_pos rfl, if_pos rfl, if_neg (Ne.symm e1)]
            simp only [Option.getD_some, reduceCtorEq, false_imp_iff, Option.some.injEq, true_and, List.append_nil]
            rintro v rfl
            exact hs2
          · rw [if_neg e1, if_neg e2, if_neg (Ne.symm e1), if_neg (Ne.symm e2)]
            simpa using h n)
      simpa [rangesOf] using this

/-- **The limits of a rectangle plot**: the axis of a parameter shows the smallest range that holds the ranges of all subplots of that parameter. -/
theorem rectLimits_spec (l : List (Str × Str × Option ((K × K) × (K × K)))) (hne : ∀ e ∈ l, e.1 ≠ e.2.1) (n : Str) (hn : rangesOf n l ≠ []) :
    ∃ v, (rectLimits [] l).get? n = some (some v) ∧ IsHull (rangesOf n l) v := by
  have h := rectLimits_ok l [] (fun _ => []) hne (by intro n; simp)
  simp only [List.nil_append] at h
  obtain ⟨h0, h1⟩ := h n
  cases hg : (rectLimits [] l).get? n with
  | none => rw [hg] at h0; exact absurd (h0 rfl) hn
  | some o =>
    cases o with
    | none => rw [hg] at h0; exact absurd (h0 rfl) hn
    | some v => exact ⟨v, rfl, h1 v (by rw [hg]; rfl)⟩

example : (rectLimits [] [(c!"a", c!"c", some (((0 : ℚ), 1), (5, 6))), (c!"a", c!"d", none), (c!"b", c!"c", some ((2, 3), (4, 5)))]).get? c!"c"
    = some (some (4, 6)) := by decide +kernel

end

/-! ## Legends -/

theorem proxy_own (added : List (Option Nat)) (plotno : Nat) (addProxy drawn : Bool) (hl : addProxy = true → added.length = plotno)
    (h : ∀ (i j : Nat), added[i]? = some (some j) → j = i) : ∀ (i j : Nat), (proxy added plotno addProxy drawn)[i]? = some (some j) → j = i := by
  intro i j hij
  unfold proxy at hij
  split at hij
  · split at hij
    · by_cases hlt : i < added.length
      · rw [List.getElem?_append_left hlt] at hij; exact h i j hij
      · rw [List.getElem?_append_right (by omega)] at hij
        cases hk : i - added.length with
        | zero => rw [hk] at hij; simp at hij
        | succ k => rw [hk] at hij; simp at hij
    · exact h i j hij
  · split at hij
    · rename_i ha
      by_cases hlt : i < added.length
      · rw [List.getElem?_append_left hlt] at hij; exact h i j hij
      · rw [List.getElem?_append_right (by omega)] at hij
        have hl := hl ha
        cases hk : i - added.length with
        | zero =>
          rw [hk] at hij
          simp only [List.getElem?_cons_zero, Option.some.injEq] at hij
          omega
        | succ k => rw [hk] at hij; simp at hij
    · split at hij
      · rw [List.getElem?_set] at hij
        split at hij
        · rename_i e
          subst e
          split at hij
          · simpa using hij.symm
          · simp at hij
        · exact h i j hij
      · exact h i j hij

theorem proxy_length (added : List (Option Nat)) (plotno : Nat) (addProxy drawn : Bool) :
    (proxy added plotno addProxy drawn).length = added.length + if addProxy then 1 else 0 := by
  cases drawn <;> cases addProxy
  · simp [proxy]
  · simp [proxy]
  · simp only [proxy]
    simp only [Bool.not_true, Bool.false_eq_true, if_false, Nat.add_zero]
    split <;> simp
  · simp [proxy]

theorem proxyPlot_own (addProxy : Bool) : ∀ (drawn : List Bool) (s : Nat) (added : List (Option Nat)), (addProxy = true → added.length = s) →
    (∀ (i j : Nat), added[i]? = some (some j) → j = i) →
    (∀ (i j : Nat), ((drawn.zipIdx s).foldl (fun a p => proxy a p.2 addProxy p.1) added)[i]? = some (some j) → j = i) ∧
    ((drawn.zipIdx s).foldl (fun a p => proxy a p.2 addProxy p.1) added).length = added.length + if addProxy then drawn.length else 0
  | [], s, added, _, h => by simpa using h
  | d :: ds, s, added, hl, h => by
    rw [List.zipIdx_cons, List.foldl_cons]
    have := proxyPlot_own addProxy ds (s + 1) (proxy added s addProxy d) (by
      intro ha
      rw [proxy_length, ha, hl ha]; rfl) (proxy_own added s addProxy d hl h)
    refine ⟨this.1, ?_⟩
    rw [this.2, proxy_length]
    cases addProxy
    · simp
    · simp only [if_true, List.length_cons]; omega

/-- **A legend entry, if present, is that of its own root**, and there is one place per root. -/
theorem proxies_own (first : List Bool) (rest : List (List Bool)) :
    (proxies (first :: rest)).length = first.length ∧ ∀ (i j : Nat), (proxies (first :: rest))[i]? = some (some j) → j = i := by
  have h0 := proxyPlot_own true first 0 [] (fun _ => rfl) (by simp)
  have : ∀ (rest : List (List Bool)) (added : List (Option Nat)), (∀ (i j : Nat), added[i]? = some (some j) → j = i) →
      (rest.foldl (proxyPlot false) added).length = added.length ∧ ∀ (i j : Nat), (rest.foldl (proxyPlot false) added)[i]? = some (some j) → j = i := by
    intro rest
    induction rest with
    | nil => intro added h; exact ⟨rfl, h⟩
    | cons d ds ih =>
      intro added h
      rw [List.foldl_cons]
      have h1 := proxyPlot_own false d 0 added (by simp) h
      have h2 := ih (proxyPlot false added d) h1.1
      refine ⟨h2.1.trans ?_, h2.2⟩
      have := h1.2
      simpa [proxyPlot] using this
  have h2 := this rest (proxyPlot true [] first) h0.1
  refine ⟨h2.1.trans ?_, h2.2⟩
  have := h0.2
  simpa [proxyPlot] using this

/-- once set, an entry stays -/
theorem proxy_mono (added : List (Option Nat)) (plotno : Nat) (addProxy drawn : Bool) {i j : Nat} (h : added[i]? = some (some j)) :
    (proxy added plotno addProxy drawn)[i]? = some (some j) := by
  have hlt : i < added.length := by by_contra hge; rw [List.getElem?_eq_none (by omega)] at h; simp at h
  unfold proxy
  split
  · split
    · rw [List.getElem?_append_left hlt]; exact h
    · exact h
  · split
    · rw [List.getElem?_append_left hlt]; exact h
    · split
      · rename_i hix
        rw [List.getElem?_set]
        split
        · rename_i e
          subst e
          exfalso
          have := List.findIdx?_eq_some_iff_getElem.mp (show added.findIdx? (· == none) = some plotno from hix)
          obtain ⟨h1, h2, _⟩ := this
          rw [List.getElem?_eq_getElem h1] at h
          simp at h2 h
          rw [h2] at h
          simp at h
        · exact h
      · exact h

/-- **When the first subplot shows all roots, each root has its legend entry.** -/
theorem proxies_partial (n : Nat) (rest : List (List Bool)) : proxies (List.replicate n true :: rest) = (List.range n).map some := by
  have h0 : ∀ (n s : Nat) (added : List (Option Nat)), ((List.replicate n true).zipIdx s).foldl (fun a p => proxy a p.2 true p.1) added =
      added ++ (List.range' s n).map some := by
    intro n
    induction n with
    | zero => intro s added; simp
    | succ n ih =>
      intro s added
      rw [List.replicate_succ, List.zipIdx_cons, List.foldl_cons, ih, List.range'_succ]
      simp [proxy]
  have h1 : proxyPlot true [] (List.replicate n true) = (List.range n).map some := by
    unfold proxyPlot
    rw [h0 n 0 [], List.range_eq_range']
    simp
  have hmono : ∀ (ds : List Bool) (s : Nat) (added : List (Option Nat)) (i j : Nat), added[i]? = some (some j) →
      ((ds.zipIdx s).foldl (fun a p => proxy a p.2 false p.1) added)[i]? = some (some j) := by
    intro ds
    induction ds with
    | nil => intro s added i j h; exact h
    | cons d ds ih => intro s added i j h; rw [List.zipIdx_cons, List.foldl_cons]; exact ih _ _ _ _ (proxy_mono _ _ _ _ h)
  have hm2 : ∀ (rest : List (List Bool)) (added : List (Option Nat)) (i j : Nat), added[i]? = some (some j) →
      (rest.foldl (proxyPlot false) added)[i]? = some (some j) := by
    intro rest
    induction rest with
    | nil => intro added i j h; exact h
    | cons d ds ih => intro added i j h; rw [List.foldl_cons]; exact ih _ _ _ (hmono d 0 added i j h)
  have hlen := (proxies_own (List.replicate n true) rest).1
  rw [List.length_replicate] at hlen
  apply List.ext_getElem?
  intro i
  by_cases hi : i < n
  · have : ((List.range n).map some)[i]? = some (some i) := by simp [hi]
    rw [this]
    show (rest.foldl (proxyPlot false) (proxyPlot true [] (List.replicate n true)))[i]? = _
    exact hm2 rest _ i i (by rw [h1]; exact this)
  · rw [List.getElem?_eq_none (by omega), List.getElem?_eq_none (by simp; omega)]

example : proxies [[true, false, true], [true, true, true]] = [some 0, some 1, some 2] := by decide

/-- the full statement: every root drawn in some subplot has its legend entry -/
def AllLabelled : Prop :=
  ∀ (first : List Bool) (rest : List (List Bool)) (i : Nat), (∀ d ∈ rest, d.length = first.length) → (∃ d ∈ first :: rest, d[i]? = some true) →
    (proxies (first :: rest))[i]? = some (some i)

/-- A missing legend entry is filled by a later subplot only if it is the first that is missing (plots.py:1073-1074): with two roots absent from the
first subplot, the second of them can stay without an entry although it is drawn. -/
theorem proxy_missing_fails : ¬ AllLabelled := by
  intro h
  have := h [true, false, false] [[true, false, true], [true, true, false]] 2 (by decide) ⟨[true, false, true], by simp, rfl⟩
  revert this
  decide

/-- the full statement: `rectangle_plot` can be finished with roots given per subplot -/
def RectFinished : Prop := ∀ (rootsGiven : Bool) (defaults : List Str), ∃ n, rectNcol rootsGiven none defaults 0 0 = .ok n

/-- with common roots, or with labels given, the legend has one column per label -/
theorem rectNcol_partial (rootsGiven : Bool) (labels : Option (List Str)) (defaults : List Str) (h : rootsGiven = true ∨ labels ≠ none) :
    rectNcol rootsGiven labels defaults 0 0 = .ok (labels.getD defaults).length := by
  cases labels with
  | some l => cases rootsGiven <;> simp [rectNcol]
  | none =>
    have : rootsGiven = true := by simpa using h
    subst this
    simp [rectNcol]

/-- With `yroots` or `plot_roots` and no labels, the number of legend columns is the length of `None` (plots.py:2656-2661): `rectangle_plot` fails after
drawing everything. -/
theorem rect_labels_fails : ¬ RectFinished := by
  intro h
  obtain ⟨n, h⟩ := h false []
  simp [rectNcol] at h

/-! ## Lists of arguments -/

/-- **Short argument lists are extended by their last element**, single values are used for all. -/
theorem pick_spec {α : Type} (v : List α) (i : Nat) (hv : v ≠ []) : pick v i = .ok (v.getD i (v.getLast hv)) := by
  unfold pick
  by_cases h : i < v.length
  · simp [h]
  · rw [if_neg h, List.getLast?_eq_some_getLast hv, List.getD_eq_getElem?_getD, List.getElem?_eq_none (by omega)]
    rfl

example : pick [3, 5] 1 = .ok 5 ∧ pick [3, 5] 6 = .ok 5 ∧ pick [3, 5] 0 = .ok 3 := by decide

example : (extendListZip 3 [.list [1, 2, 3], .one 7, .list [8, 9]]).toOption = some [[1, 7, 8], [2, 7, 9], [3, 7, 9]] := by decide

/-- **Markers**: by name in a dictionary, by position in a list; no marker beyond the list. -/
theorem getMarker_spec {K : Type} (d : Dict Str K) (l : List (Option K)) (i : Nat) (n : Str) :
    getMarker (.dict d) i n = d.get? n ∧ (l.length ≤ i → getMarker (.list l) i n = none) ∧ ∀ v, getMarker (.list l) i n = some v ↔ l[i]? = some (some v) := by
  refine ⟨rfl, ?_, ?_⟩
  · intro h
    simp [getMarker, h]
  · intro v
    unfold getMarker
    cases h : l[i]? with
    | none => simp [h]
    | some o => simp [h]

end Verif.PlotLayout
