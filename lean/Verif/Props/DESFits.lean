import Verif.Model.DESFits
import Verif.Props.DES

/-!
# C223, C224: the original files of DES and their text form
-/

namespace Verif.DESFits
open Verif.Py Verif.DES

/-! ## Default cuts -/

/-- the lower limit -/
def low (tp : Str) (a b : Nat) : Option ℚ := (Dict.get? defCuts (tp, a, b)).map (·.1)

/-- **C223**: the default cuts: limits for all pairs of source bins, of lens and source bins and each lens bin with itself, and for no others; those of
shear do not depend on the order of the bins; the upper limit is the same everywhere -/
theorem defCuts_spec : (∀ tp ∈ types, ∀ a < 8, ∀ b < 8, (Dict.get? defCuts (tp, a, b)).isSome = true ↔
      (tp = c!"xip" ∧ a < 4 ∧ b < 4) ∨ (tp = c!"xim" ∧ a < 4 ∧ b < 4) ∨ (tp = c!"gammat" ∧ a < 5 ∧ b < 4) ∨ (tp = c!"wtheta" ∧ a < 5 ∧ b = a)) ∧
    (∀ tp ∈ [c!"xip", c!"xim"], ∀ a < 4, ∀ b < 4, Dict.get? defCuts (tp, a, b) = Dict.get? defCuts (tp, b, a)) ∧
    (∀ e ∈ defCuts, 0 < e.2.1 ∧ e.2.1 < e.2.2 ∧ e.2.2 = 250) := by
  refine ⟨by decide +kernel, by decide +kernel, by decide +kernel⟩

example : (Dict.get? defCuts (c!"gammat", 4, 3)).isSome = true ∧ (Dict.get? defCuts (c!"gammat", 5, 3)).isSome = false ∧ (Dict.get? defCuts (c!"wtheta", 1, 2)).isSome = false := by decide +kernel

/-- **C223**: smaller angles are used for higher bins; xi minus is cut at larger angles than xi plus; the cut of galaxy-galaxy lensing is a property of the lenses -/
theorem defCuts_order : (∀ tp ∈ [c!"xip", c!"xim"], ∀ a < 4, ∀ b < 4, ∀ c < 4, b ≤ c → ∃ x ∈ low tp a b, ∃ y ∈ low tp a c, y ≤ x) ∧
    (∀ a < 4, ∀ b < 4, ∃ x ∈ low c!"xip" a b, ∃ y ∈ low c!"xim" a b, x < y) ∧
    (∀ a < 5, ∀ b < 4, low c!"gammat" a b = low c!"gammat" a 0) ∧
    (∀ a < 5, ∀ b < 5, a < b → (∃ x ∈ low c!"gammat" a 0, ∃ y ∈ low c!"gammat" b 0, y < x) ∧ ∃ x ∈ low c!"wtheta" a a, ∃ y ∈ low c!"wtheta" b b, y < x) := by
  refine ⟨by decide +kernel, by decide +kernel, by decide +kernel, by decide +kernel⟩

example : (low c!"xip" 0 0).isSome = true ∧ (low c!"wtheta" 0 0).isSome = true := by decide +kernel

section
set_option linter.unusedSectionVars false
variable {K : Type} [LinearOrder K]

/-! ## The text form -/

theorem mem_addPair {α : Type} [DecidableEq α] (ps : List α) (p q : α) : q ∈ addPair ps p ↔ q ∈ ps ∨ q = p := by
  unfold addPair
  split
  · rename_i h
    constructor
    · exact Or.inl
    · rintro (h' | rfl)
      · exact h'
      · exact h
  · simp

theorem mem_pairsOf (rows : List (FRow K)) (p : Nat × Nat) : p ∈ pairsOf rows ↔ ∃ r ∈ rows, p = (r.bin1, r.bin2) := by
  have gen : ∀ (rows : List (FRow K)) (ps : List (Nat × Nat)), p ∈ rows.foldl (fun ps r => addPair ps (r.bin1, r.bin2)) ps ↔ p ∈ ps ∨ ∃ r ∈ rows, p = (r.bin1, r.bin2) := by
    intro rows
    induction rows with
    | nil => intro ps; simp
    | cons r rows ih =>
      intro ps
      rw [List.foldl_cons, ih, mem_addPair]
      simp only [List.mem_cons, exists_eq_or_imp, or_assoc]
  unfold pairsOf
  rw [gen]; simp

theorem selLines_spec (cuts : Cuts K) (tp : Str) : ∀ (ps : List (Nat × Nat)) (l : List (Sel K)), selLines cuts tp ps = .ok l →
    l.map (fun s => (s.bin1, s.bin2)) = ps ∧ ∀ s ∈ l, s.tp = tp ∧ Dict.get? cuts (tp, s.bin1 - 1, s.bin2 - 1) = some (s.mn, s.mx)
  | [], l, h => by cases h; simp
  | p :: ps, l, h => by
    rw [selLines] at h
    cases hc : Dict.get? cuts (tp, p.1 - 1, p.2 - 1) with
    | none => rw [hc] at h; cases h
    | some lim =>
      rw [hc] at h
      dsimp only at h
      cases hs : selLines cuts tp ps with
      | error e => rw [hs] at h; cases h
      | ok l' =>
        rw [hs] at h
        cases h
        obtain ⟨h1, h2⟩ := selLines_spec cuts tp ps l' hs
        refine ⟨by rw [List.map_cons, h1], ?_⟩
        intro s hs'
        rcases List.mem_cons.mp hs' with rfl | hs'
        · exact ⟨rfl, hc⟩
        · exact h2 s hs'

/-- what the conversion writes -/
theorem convertTables_spec (cuts : Cuts K) : ∀ (tables : List (Str × List (FRow K))) (r : List (Sel K) × List (Str × List (Row K))), convertTables false cuts tables = .ok r →
    r.2 = tables.map (fun f => (f.1, f.2.map textRow)) ∧
    (∀ s ∈ r.1, ∃ f ∈ tables, s.tp = f.1 ∧ (∃ row ∈ f.2, s.bin1 = row.bin1 ∧ s.bin2 = row.bin2) ∧ Dict.get? cuts (s.tp, s.bin1 - 1, s.bin2 - 1) = some (s.mn, s.mx)) ∧
    (∀ f ∈ tables, ∀ row ∈ f.2, ∃ s ∈ r.1, s.tp = f.1 ∧ s.bin1 = row.bin1 ∧ s.bin2 = row.bin2)
  | [], r, h => by cases h; simp
  | f :: fs, r, h => by
    rw [convertTables] at h
    cases h1 : selLines cuts f.1 (pairsOf f.2) with
    | error e => rw [h1] at h; cases h
    | ok sel =>
      rw [h1] at h
      dsimp only [textRows] at h
      rw [if_neg (by decide)] at h
      dsimp only at h
      cases h2 : convertTables false cuts fs with
      | error e => rw [h2] at h; cases h
      | ok r' =>
        rw [h2] at h
        cases h
        obtain ⟨a, b, c⟩ := convertTables_spec cuts fs r' h2
        obtain ⟨d, e⟩ := selLines_spec cuts f.1 _ sel h1
        refine ⟨by rw [List.map_cons, a], ?_, ?_⟩
        · intro s hs
          rcases List.mem_append.mp hs with hs | hs
          · refine ⟨f, List.mem_cons_self .., (e s hs).1, ?_, by rw [(e s hs).1]; exact (e s hs).2⟩
            have : (s.bin1, s.bin2) ∈ pairsOf f.2 := by rw [← d]; exact List.mem_map.mpr ⟨s, hs, rfl⟩
            obtain ⟨row, hr, heq⟩ := (mem_pairsOf _ _).mp this
            injection heq with h1 h2
            exact ⟨row, hr, h1, h2⟩
          · obtain ⟨g, hg, rest⟩ := b s hs
            exact ⟨g, List.mem_cons_of_mem _ hg, rest⟩
        · intro g hg row hrow
          rcases List.mem_cons.mp hg with rfl | hg
          · have : (row.bin1, row.bin2) ∈ pairsOf g.2 := (mem_pairsOf _ _).mpr ⟨row, hrow, rfl⟩
            rw [← d] at this
            obtain ⟨s, hs, heq⟩ := List.mem_map.mp this
            injection heq with h1 h2
            exact ⟨s, List.mem_append.mpr (Or.inl hs), (e s hs).1, h1, h2⟩
          · obtain ⟨s, hs, rest⟩ := c g hg row hrow
            exact ⟨s, List.mem_append.mpr (Or.inr hs), rest⟩

example : (convertTables false [((c!"xip", 0, 1), ((2 : ℚ), 250))] [(c!"xip", [⟨1, 2, 1, 5, 3⟩, ⟨1, 2, 2, 6, 4⟩])]).toOption.map (fun r => (r.1.map fun s => (s.bin1, s.bin2, s.mn, s.mx), r.2.length)) =
    some ([(1, 2, 2, 250)], 1) := by decide +kernel

theorem rangesOf_ok (data used : List Str) : ∀ (sel : List (Sel K)) (d : Dict (Str × Nat × Nat) (K × K)),
    (∀ s ∈ sel, s.tp ∈ used ∧ s.tp ∈ data ∧ s.bin1 - 1 < 6 ∧ s.bin2 - 1 < 6) → ∃ d', sel.foldlM (rangeStep data used) d = .ok d'
  | [], d, _ => ⟨d, rfl⟩
  | s :: sel, d, h => by
    obtain ⟨h1, h2, h3, h4⟩ := h s (List.mem_cons_self ..)
    have e : rangeStep data used d s = .ok (Dict.set d (s.tp, s.bin1 - 1, s.bin2 - 1) (s.mn, s.mx)) := by
      unfold rangeStep
      rw [if_pos h1, if_pos h2, if_pos ⟨h3, h4⟩]
    obtain ⟨d', hd⟩ := rangesOf_ok data used sel (Dict.set d (s.tp, s.bin1 - 1, s.bin2 - 1) (s.mn, s.mx)) (fun x hx => h x (List.mem_cons_of_mem _ hx))
    refine ⟨d', ?_⟩
    rw [List.foldlM_cons, e]
    exact hd

/-- limits read from the text are those used for the conversion -/
theorem ranges_back (cuts : Cuts K) (tables : List (Str × List (FRow K))) (r : List (Sel K) × List (Str × List (Row K))) (h : convertTables false cuts tables = .ok r)
    (d : Dict (Str × Nat × Nat) (K × K)) (hd : rangesOf (r.2.map Prod.fst) (tables.map Prod.fst) r.1 = .ok d) (f : Str × List (FRow K)) (hf : f ∈ tables) (row : FRow K) (hr : row ∈ f.2) :
    ∃ lim, Dict.get? d (f.1, row.bin1 - 1, row.bin2 - 1) = some lim ∧ Dict.get? cuts (f.1, row.bin1 - 1, row.bin2 - 1) = some lim := by
  obtain ⟨_, b, c⟩ := convertTables_spec cuts tables r h
  rw [rangesOf_spec _ _ _ _ hd]
  cases hs : r.1.reverse.find? (fun s => decide (s.tp ∈ tables.map Prod.fst ∧ (s.tp, s.bin1 - 1, s.bin2 - 1) = (f.1, row.bin1 - 1, row.bin2 - 1))) with
  | none =>
    obtain ⟨s, hs', h1, h2, h3⟩ := c f hf row hr
    have := List.find?_eq_none.mp hs s (List.mem_reverse.mpr hs')
    exact absurd (decide_eq_true ⟨List.mem_map.mpr ⟨f, hf, h1.symm⟩, by rw [h1, h2, h3]⟩) this
  | some s =>
    have hm := List.mem_reverse.mp (List.mem_of_find?_eq_some hs)
    have hp : s.tp ∈ tables.map Prod.fst ∧ (s.tp, s.bin1 - 1, s.bin2 - 1) = (f.1, row.bin1 - 1, row.bin2 - 1) := by
      have := List.find?_some hs
      exact of_decide_eq_true this
    obtain ⟨_, _, _, _, hc⟩ := b s hm
    refine ⟨(s.mn, s.mx), rfl, ?_⟩
    rw [← hp.2]; exact hc

theorem rows_agree (cuts : Cuts K) (d : Dict (Str × Nat × Nat) (K × K)) (angles : List K) (i : Nat) (tp : Str) : ∀ (rows : List (FRow K)) (s : St K),
    (∀ row ∈ rows, (∃ lim, Dict.get? d (tp, row.bin1 - 1, row.bin2 - 1) = some lim ∧ Dict.get? cuts (tp, row.bin1 - 1, row.bin2 - 1) = some lim) ∧ angles[row.ang]? = some row.theta) →
    rowsLoop cuts i tp s rows = .ok ((rows.map textRow).foldl (DES.step d angles i tp) s)
  | [], s, _ => rfl
  | row :: rows, s, h => by
    obtain ⟨⟨lim, h1, h2⟩, h3⟩ := h row (List.mem_cons_self ..)
    have e : step cuts i tp s row = .ok (DES.step d angles i tp s (textRow row)) := by
      unfold step
      rw [h2]
      dsimp only
      have hsel : selected d angles tp (textRow row) = decide (lim.1 < row.theta ∧ row.theta < lim.2) := by
        unfold selected textRow
        dsimp only
        rw [h1, Nat.add_sub_cancel, h3]
      have hit : DES.itemOf i (textRow row) = itemOf i row := by
        unfold DES.itemOf itemOf textRow
        dsimp only
        rw [Nat.add_sub_cancel]
      have hpr : DES.addPair s.pairs (i, (textRow row).bin1 - 1, (textRow row).bin2 - 1) = addPair s.pairs (i, row.bin1 - 1, row.bin2 - 1) := by
        unfold DES.addPair addPair textRow
        dsimp only
        split <;> rfl
      unfold DES.step
      rw [hsel]
      by_cases hl : lim.1 < row.theta ∧ row.theta < lim.2
      · rw [if_pos hl, if_pos hl, decide_eq_true hl, if_pos rfl, if_pos rfl, hit, hpr]; rfl
      · rw [if_neg hl, if_neg hl, decide_eq_false hl, if_neg (by decide), if_neg (by decide), hit, hpr]; rfl
    rw [rowsLoop, e, List.map_cons, List.foldl_cons]
    exact rows_agree cuts d angles i tp rows _ (fun x hx => h x (List.mem_cons_of_mem _ hx))

theorem tables_agree (cuts : Cuts K) (d : Dict (Str × Nat × Nat) (K × K)) (angles : List K) : ∀ (tables : List (Str × List (FRow K))) (i : Nat) (s : St K),
    (∀ f ∈ tables, ∀ row ∈ f.2, (∃ lim, Dict.get? d (f.1, row.bin1 - 1, row.bin2 - 1) = some lim ∧ Dict.get? cuts (f.1, row.bin1 - 1, row.bin2 - 1) = some lim) ∧ angles[row.ang]? = some row.theta) →
    tablesLoop cuts i tables s = .ok (load d angles i (tables.map (fun f => (f.1, f.2.map textRow))) s)
  | [], _, _, _ => rfl
  | f :: fs, i, s, h => by
    rw [tablesLoop, rows_agree cuts d angles i f.1 f.2 s (h f (List.mem_cons_self ..)), List.map_cons, load]
    exact tables_agree cuts d angles fs (i + 1) _ (fun g hg => h g (List.mem_cons_of_mem _ hg))

/-- **C223**: reading the text that was made from an original file gives the same data, selection and order as reading the file, if the angles are the same in all tables -/
theorem convert_load (cuts : Cuts K) (tables : List (Str × List (FRow K))) (t : Text K) (h : convert false cuts tables = .ok t)
    (hb : ∀ f ∈ tables, ∀ row ∈ f.2, row.bin1 - 1 < 6 ∧ row.bin2 - 1 < 6) (ha : ∀ f ∈ tables, ∀ row ∈ f.2, t.angles[row.ang]? = some row.theta) :
    ∃ s, loadFits cuts tables = .ok s ∧ loadAll (tables.map Prod.fst) t.sel t.angles t.data = .ok s := by
  unfold convert at h
  cases h1 : thetas tables with
  | none => rw [h1] at h; cases h
  | some th =>
    rw [h1] at h
    dsimp only at h
    cases h2 : convertTables false cuts tables with
    | error e => rw [h2] at h; cases h
    | ok r =>
      rw [h2] at h
      cases h
      obtain ⟨a, b, c⟩ := convertTables_spec cuts tables r h2
      have hd : r.2.map Prod.fst = tables.map Prod.fst := by rw [a, List.map_map]; rfl
      obtain ⟨d, hr⟩ := rangesOf_ok (r.2.map Prod.fst) (tables.map Prod.fst) r.1 [] (by
        intro s hs
        obtain ⟨f, hf, htp, ⟨row, hrow, e1, e2⟩, _⟩ := b s hs
        have hm : s.tp ∈ tables.map Prod.fst := List.mem_map.mpr ⟨f, hf, htp.symm⟩
        have := hb f hf row hrow
        exact ⟨hm, by rw [hd]; exact hm, by rw [e1]; exact this.1, by rw [e2]; exact this.2⟩)
      refine ⟨load d th 0 r.2 ⟨[], [], [], [], []⟩, ?_, ?_⟩
      · unfold loadFits
        rw [tables_agree cuts d th tables 0 _ (fun f hf row hrow => ⟨ranges_back cuts tables r h2 d hr f hf row hrow, ha f hf row hrow⟩), a]
      · unfold loadAll rangesOf
        dsimp only
        rw [hr]

/-- **C223**: hence the data vectors and, with the same covariance, the values of chi squared agree -/
theorem convert_vector (cuts : Cuts K) (tables : List (Str × List (FRow K))) (t : Text K) (h : convert false cuts tables = .ok t)
    (hb : ∀ f ∈ tables, ∀ row ∈ f.2, row.bin1 - 1 < 6 ∧ row.bin2 - 1 < 6) (ha : ∀ f ∈ tables, ∀ row ∈ f.2, t.angles[row.ang]? = some row.theta) :
    ∃ s s', loadFits cuts tables = .ok s ∧ loadAll (tables.map Prod.fst) t.sel t.angles t.data = .ok s' ∧ s.usedIdx = s'.usedIdx ∧
      makeVector s.usedItems (Dict.get? s.arrays) = makeVector s'.usedItems (Dict.get? s'.arrays) := by
  obtain ⟨s, h1, h2⟩ := convert_load cuts tables t h hb ha
  exact ⟨s, s, h1, h2, rfl, rfl⟩

/-! ## Angles of the data used -/

theorem mapM_some {α β : Type} (f : α → Option β) : ∀ (l : List α) (r : List β), l.map f = r.map some → l.mapM f = some r
  | [], r, h => by
    have : r = [] := by simpa using h.symm
    subst this; rfl
  | a :: l, [], h => by simp at h
  | a :: l, b :: r, h => by
    simp only [List.map_cons, List.cons.injEq] at h
    rw [List.mapM_cons, h.1, mapM_some f l r h.2]; rfl

/-- **C223**: the angles of the data used are those of their rows, in order, and are all within the limits -/
theorem makeThetas_spec (d : Dict (Str × Nat × Nat) (K × K)) (angles : List K) (files : List (Str × List (Row K))) :
    ∃ th, makeThetas angles (load d angles 0 files ⟨[], [], [], [], []⟩).usedItems = some th ∧
      List.Forall₂ (fun x t => angles[x.2.2.tbin - 1]? = some t ∧ ∃ mn mx, Dict.get? d (x.2.1, x.2.2.bin1 - 1, x.2.2.bin2 - 1) = some (mn, mx) ∧ mn < t ∧ t < mx)
        ((allRows 0 files).filter fun x => selected d angles x.2.1 x.2.2) th := by
  have h := load_spec d angles files
  have key : ∀ rows : List (Nat × Str × Row K), (∀ x ∈ rows, selected d angles x.2.1 x.2.2 = true) →
      ∃ th, (rows.map fun x => DES.itemOf x.1 x.2.2).map (fun it => angles[it.2.2.2]?) = th.map some ∧
        List.Forall₂ (fun x t => angles[x.2.2.tbin - 1]? = some t ∧ ∃ mn mx, Dict.get? d (x.2.1, x.2.2.bin1 - 1, x.2.2.bin2 - 1) = some (mn, mx) ∧ mn < t ∧ t < mx) rows th := by
    intro rows
    induction rows with
    | nil => intro _; exact ⟨[], rfl, List.Forall₂.nil⟩
    | cons x rows ih =>
      intro hx
      obtain ⟨th, h1, h2⟩ := ih (fun y hy => hx y (List.mem_cons_of_mem _ hy))
      obtain ⟨mn, mx, t, e1, e2, e3, e4⟩ := (selected_iff d angles x.2.1 x.2.2).mp (hx x (List.mem_cons_self ..))
      refine ⟨t :: th, ?_, List.Forall₂.cons ⟨e2, mn, mx, e1, e3, e4⟩ h2⟩
      rw [List.map_cons, List.map_cons, List.map_cons, h1]
      congr 1
  obtain ⟨th, h1, h2⟩ := key _ (fun x hx => (List.mem_filter.mp hx).2)
  refine ⟨th, ?_, h2⟩
  unfold makeThetas
  apply mapM_some
  rw [h.items]
  exact h1

example : makeThetas [(1 : ℚ), 4, 8] (load [((c!"xip", 0, 0), (2, 9))] [1, 4, 8] 0 [(c!"xip", [⟨1, 1, 1, 10⟩, ⟨1, 1, 3, 30⟩, ⟨1, 1, 2, 20⟩])] ⟨[], [], [], [], []⟩).usedItems = some [8, 4] := by decide +kernel

end

/-! ## Examples -/

/-- two tables in the right order: the cut takes away the first angle -/
def exTables : List (Str × List (FRow ℚ)) :=
  [(c!"xip", [⟨1, 1, 0, 5, 2⟩, ⟨1, 1, 1, 4, 8⟩, ⟨2, 1, 0, 3, 2⟩, ⟨2, 1, 1, 2, 8⟩]), (c!"wtheta", [⟨1, 1, 0, 9, 2⟩, ⟨1, 1, 1, 7, 8⟩])]

def exCuts : Cuts ℚ := [((c!"xip", 0, 0), (3, 250)), ((c!"xip", 1, 0), (1, 250)), ((c!"wtheta", 0, 0), (3, 250))]

example : ((convert false exCuts exTables).toOption.map fun t => (t.angles, t.sel.length, t.data.map (fun f => f.2.map (·.tbin)))) =
    some ([2, 8], 3, [[1, 2, 1, 2], [1, 2]]) := by decide +kernel

example : ((loadFits exCuts exTables).toOption.map fun s => (s.usedIdx, s.usedItems)) =
    some ([1, 2, 3, 5], [(0, 0, 0, 1), (0, 1, 0, 0), (0, 1, 0, 1), (1, 0, 0, 1)]) := by decide +kernel

example : (match convert false exCuts exTables with
    | .ok t => (loadAll [c!"xip", c!"wtheta"] t.sel t.angles t.data).toOption.map fun s => (s.usedIdx, s.usedItems)
    | .error _ => none) = some ([1, 2, 3, 5], [(0, 0, 0, 1), (0, 1, 0, 0), (0, 1, 0, 1), (1, 0, 0, 1)]) := by decide +kernel

/-! ## What fails -/

/-- an original file can be converted -/
def Converts : Prop := ∀ (py3 : Bool) (cuts : Cuts ℚ) (tables : List (Str × List (FRow ℚ))), (∃ s, loadFits cuts tables = .ok s) → table tables c!"wtheta" ≠ [] →
  ∃ t, convert py3 cuts tables = .ok t

/-- **C224 fails**: `convert_txt` makes an array of `zip(...)` (DES.py:649), which with Python 3 is an array of one object without columns, so that `dat[:, 2]` is an IndexError
and no file can be converted -/
theorem python3_fails : ¬ Converts := by
  intro h
  obtain ⟨t, ht⟩ := h true exCuts exTables (by
    have : (loadFits exCuts exTables).toOption.isSome = true := by decide +kernel
    cases hl : loadFits exCuts exTables with
    | ok s => exact ⟨s, rfl⟩
    | error e => rw [hl] at this; cases this) (by decide +kernel)
  have : (convert true exCuts exTables).toOption.isSome = false := by decide +kernel
  rw [ht] at this
  cases this

/-- with the angles of all tables equal up to 0.2 percent, as is asserted, both forms select the same data -/
def FormsAgree : Prop := ∀ (cuts : Cuts ℚ) (tables : List (Str × List (FRow ℚ))) (t : Text ℚ) (s s' : St ℚ), convert false cuts tables = .ok t →
  (∀ f ∈ tables, ∀ row ∈ f.2, ∃ a, t.angles[row.ang]? = some a ∧ |a / row.theta - 1| < 2 / 1000) →
  loadFits cuts tables = .ok s → loadAll (tables.map Prod.fst) t.sel t.angles t.data = .ok s' → s.usedIdx = s'.usedIdx

/-- as `exTables`, with the second angle of the second table slightly smaller, and a cut between the two -/
def nearTables : List (Str × List (FRow ℚ)) :=
  [(c!"xip", [⟨1, 1, 0, 5, 2⟩, ⟨1, 1, 1, 4, 8⟩]), (c!"wtheta", [⟨1, 1, 0, 9, 2⟩, ⟨1, 1, 1, 7, 7999 / 1000⟩])]

def nearCuts : Cuts ℚ := [((c!"xip", 0, 0), (3, 250)), ((c!"wtheta", 0, 0), (15999 / 2000, 250))]

/-- **C224 fails**: the reader of original files cuts at the angle of each row (DES.py:211-212), the text keeps only those of the first table (635, 648), and angles that differ by
less than 0.2 percent pass as equal; a measurement with a cut in between is used in one form and not in the other -/
theorem forms_fails : ¬ FormsAgree := by
  intro h
  have e1 : convert false nearCuts nearTables = .ok ⟨[2, 8], [⟨c!"xip", 1, 1, 3, 250⟩, ⟨c!"wtheta", 1, 1, 15999 / 2000, 250⟩],
    [(c!"xip", [⟨1, 1, 1, 5⟩, ⟨1, 1, 2, 4⟩]), (c!"wtheta", [⟨1, 1, 1, 9⟩, ⟨1, 1, 2, 7⟩])]⟩ := by rfl
  have := h nearCuts nearTables _ _ _ e1 (by
    intro f hf row hrow
    have : ∀ f ∈ nearTables, ∀ row ∈ f.2, ∃ a, ([2, 8] : List ℚ)[row.ang]? = some a ∧ |a / row.theta - 1| < 2 / 1000 := by
      intro f hf
      rcases List.mem_cons.mp hf with rfl | hf
      · intro row hrow
        rcases List.mem_cons.mp hrow with rfl | hrow
        · exact ⟨2, rfl, by norm_num⟩
        · rw [List.mem_singleton] at hrow; subst hrow
          exact ⟨8, rfl, by norm_num⟩
      · rw [List.mem_singleton] at hf; subst hf
        intro row hrow
        rcases List.mem_cons.mp hrow with rfl | hrow
        · exact ⟨2, rfl, by norm_num⟩
        · rw [List.mem_singleton] at hrow; subst hrow
          exact ⟨8, rfl, by norm_num [abs_lt]⟩
    exact this f hf row hrow) (by rfl) (by rfl)
  revert this
  decide +kernel

/-- the ending of the name decides the form -/
def ByEnding : Prop := ∀ (name : Str) (p : Dict Str Str), endsWith c!".dataset" name = true → formatOf name p = .ok .dataset

/-- **C224 fails**: `.fits` is looked for anywhere in the path (DES.py:104): a data set in a directory named after the original file is read as one -/
theorem format_fails : ¬ ByEnding := by
  intro h
  have := h c!"/data/2pt_main.fits_converted/DES_1YR.dataset" [] (by decide +kernel)
  revert this; decide +kernel

/-- **C224**: for names in which `.fits` occurs only at the end, the ending decides -/
theorem format_partial (name : Str) (p : Dict Str Str) : (contains c!".fits" name = false → formatOf name p = .ok .dataset) ∧
    (contains c!".fits" name = true → (formatOf name p = .ok .fits ↔ p = []) ∧ formatOf name p ≠ .ok .dataset) := by
  constructor
  · intro h; unfold formatOf; rw [h]; rfl
  · intro h
    unfold formatOf
    rw [h, if_pos rfl]
    by_cases hp : p = []
    · rw [if_pos hp]; exact ⟨⟨fun _ => hp, fun _ => rfl⟩, by intro e; cases e⟩
    · rw [if_neg hp]; exact ⟨⟨fun e => (by cases e), fun e => absurd e hp⟩, by intro e; cases e⟩

example : formatOf c!"/data/2pt_main.fits" [] = .ok .fits := by decide +kernel

/-- the alignment model can be read whatever the form -/
def ModelKept : Prop := ∀ f : Format, c!"intrinsic_alignment_model" ∈ attributes f

/-- **C224 fails**: the reader of data sets stores it under a misspelt name (DES.py:121) -/
theorem alignment_fails : ¬ ModelKept := by
  intro h
  have := h .dataset
  revert this; decide +kernel

end Verif.DESFits
