import Verif.Model.Table
import Verif.Py.Path
import Mathlib.Data.List.Basic
import Mathlib.Tactic.Ring
import Mathlib.Tactic.Linarith

/-!
# Tables of results (C43, C71)
-/

namespace Verif.Table
open Verif.Py

/-! ## Layout -/

section rows
variable {α : Type}

/-- rows needed: the least number with room for all parameters -/
theorem numRow_spec {n ncol : Nat} (h : 0 < ncol) : n ≤ numRow n ncol * ncol ∧ ∀ k, n ≤ k * ncol → numRow n ncol ≤ k := by
  have e := Nat.div_add_mod n ncol
  have hm := Nat.mod_lt n h
  have hcomm : n / ncol * ncol = ncol * (n / ncol) := Nat.mul_comm _ _
  unfold numRow
  split
  · rename_i h0
    refine ⟨by rw [Nat.add_mul]; omega, fun k hk => ?_⟩
    by_contra hc
    have h1 : k ≤ n / ncol := by omega
    have h2 : k * ncol ≤ n / ncol * ncol := Nat.mul_le_mul_right _ h1
    omega
  · refine ⟨by omega, fun k hk => ?_⟩
    by_contra hc
    have h1 : k + 1 ≤ n / ncol := by omega
    have h2 : (k + 1) * ncol ≤ n / ncol * ncol := Nat.mul_le_mul_right _ h1
    rw [Nat.add_mul] at h2
    omega

/-- the entries of row `r` up to column `c` -/
def rowSpec (names : List α) (nr c r : Nat) : List α := (List.range c).filterMap (fun k => names[nr * k + r]?)

theorem appendAt_get (rows : List (List α)) (r : Nat) (x : α) (j : Nat) :
    (appendAt rows r x)[j]? = if r = j then rows[j]?.map (· ++ [x]) else rows[j]? := by
  unfold appendAt
  rw [List.getElem?_modify]
  split <;> simp_all

/-- the inner loop from position `a`, `m` steps -/
theorem addRange_get (names : List α) (base : Nat) : ∀ (m a : Nat) (rows : List (List α)), base ≤ a → ∀ j,
    ((List.range' a m).foldl (appendName names base) rows)[j]? =
      if a ≤ base + j ∧ base + j < a + m then rows[j]?.map (· ++ (names[base + j]?).toList) else rows[j]?
  | 0, a, rows, _, j => by rw [if_neg (by omega)]; rfl
  | m + 1, a, rows, ha, j => by
    rw [List.range'_succ, List.foldl_cons, addRange_get names base m (a + 1) _ (by omega) j]
    by_cases hj : a = base + j
    · subst hj
      rw [if_neg (by omega), if_pos (by omega)]
      unfold appendName
      cases hn : names[base + j]? with
      | none => simp
      | some x =>
        dsimp only
        rw [appendAt_get, if_pos (by omega)]
        rfl
    · have hne : (appendName names base rows a)[j]? = rows[j]? := by
        unfold appendName
        cases hn : names[a]? with
        | none => rfl
        | some x =>
          dsimp only
          rw [appendAt_get, if_neg (by omega)]
      rw [hne]
      by_cases h1 : a + 1 ≤ base + j ∧ base + j < a + 1 + m
      · rw [if_pos h1, if_pos (by omega)]
      · rw [if_neg h1, if_neg (by omega)]

theorem addColumn_get (names : List α) {nr : Nat} (rows : List (List α)) (hlen : rows.length ≤ nr) (col j : Nat) :
    (addColumn names nr rows col)[j]? = rows[j]?.map (· ++ (names[nr * col + j]?).toList) := by
  unfold addColumn
  rw [addRange_get names (nr * col) _ _ _ (le_refl _)]
  by_cases h : nr * col + j < names.length
  · by_cases hj : j < nr
    · rw [if_pos]
      rw [Nat.mul_add, Nat.mul_one]; omega
    · have e : rows[j]? = none := List.getElem?_eq_none (by omega)
      rw [e]; simp
  · have e : names[nr * col + j]? = none := List.getElem?_eq_none (by omega)
    rw [if_neg (by omega), e]
    simp

theorem addColumn_length (names : List α) (nr : Nat) (rows : List (List α)) (col : Nat) : (addColumn names nr rows col).length = rows.length := by
  unfold addColumn
  generalize List.range' (nr * col) _ = l
  induction l generalizing rows with
  | nil => rfl
  | cons i l ih =>
    rw [List.foldl_cons, ih]
    unfold appendName
    cases names[i]? with
    | none => rfl
    | some x => simp [appendAt]

theorem layout_get (names : List α) (nr : Nat) : ∀ (m c : Nat) (rows : List (List α)), rows.length ≤ nr → 0 < c →
    (∀ j < rows.length, rows[j]? = some (rowSpec names nr c j)) →
    ((List.range' c m).foldl (addColumn names nr) rows).length = rows.length ∧
    ∀ j < rows.length, ((List.range' c m).foldl (addColumn names nr) rows)[j]? = some (rowSpec names nr (c + m) j)
  | 0, c, rows, _, _, h => ⟨rfl, h⟩
  | m + 1, c, rows, hl, hc, h => by
    rw [List.range'_succ, List.foldl_cons]
    have hlen := addColumn_length names nr rows c
    obtain ⟨h1, h2⟩ := layout_get names nr m (c + 1) (addColumn names nr rows c) (by omega) (by omega) (by
      intro j hj
      rw [hlen] at hj
      rw [addColumn_get names rows hl, h j hj, Option.map_some]
      unfold rowSpec
      rw [List.range_succ, List.filterMap_append]
      cases hn : names[nr * c + j]? <;> simp [hn])
    refine ⟨by rw [h1, hlen], fun j hj => ?_⟩
    rw [h2 j (by omega)]
    congr 2; omega

/-- **C43**: row `r` of the table lists the parameters `r`, `r + R`, `r + 2 R`, ... (column by column), `R` being the least number of rows that
holds all of them -/
theorem layoutRows_spec (names : List α) {ncol : Nat} (h : 0 < ncol) :
    layoutRows names ncol = (List.range (numRow names.length ncol)).map (rowSpec names (numRow names.length ncol) ncol) := by
  set nr := numRow names.length ncol with hnr
  have hle : nr ≤ names.length := by
    refine (numRow_spec h).2 _ ?_
    exact Nat.le_mul_of_pos_right _ h
  have hbase : ((names.take nr).map (fun p => [p])).length = nr := by rw [List.length_map, List.length_take]; omega
  obtain ⟨h1, h2⟩ := layout_get names nr (ncol - 1) 1 ((names.take nr).map (fun p => [p])) (by omega) (by omega) (by
    intro j hj
    rw [hbase] at hj
    rw [List.getElem?_map, List.getElem?_take_of_lt hj]
    unfold rowSpec
    rw [List.range_one, List.filterMap_cons, Nat.mul_zero, Nat.zero_add, List.getElem?_eq_getElem (by omega)]
    rfl)
  unfold layoutRows
  rw [← hnr]
  apply List.ext_getElem?
  intro j
  by_cases hj : j < nr
  · rw [h2 j (by omega), List.getElem?_map, List.getElem?_range hj, Option.map_some, show 1 + (ncol - 1) = ncol by omega]
  · rw [List.getElem?_eq_none (by omega), List.getElem?_eq_none (by simp; omega)]

theorem columns_perm (names : List α) (nr : Nat) : ∀ c, names.length ≤ nr * c →
    (((List.range nr).map (rowSpec names nr c)).flatten).Perm names := by
  -- count columns instead of rows
  have key : ∀ c, (((List.range nr).map (rowSpec names nr c)).flatten).Perm (names.take (nr * c)) := by
    intro c
    induction c with
    | zero =>
      have : ((List.range nr).map (rowSpec names nr 0)).flatten = [] := by
        rw [List.flatten_eq_nil_iff]
        intro l hl
        obtain ⟨r, _, rfl⟩ := List.mem_map.mp hl
        rfl
      rw [this]; simp
    | succ c ih =>
      have hsplit : ∀ m ≤ nr, (((List.range m).map (rowSpec names nr (c + 1))).flatten).Perm
          (((List.range m).map (rowSpec names nr c)).flatten ++ (List.range m).filterMap (fun r => names[nr * c + r]?)) := by
        intro m
        induction m with
        | zero => intro _; simp
        | succ m ihm =>
          intro hm
          rw [List.range_succ, List.map_append, List.map_append, List.flatten_append, List.flatten_append, List.filterMap_append]
          have e : rowSpec names nr (c + 1) m = rowSpec names nr c m ++ [m].filterMap (fun r => names[nr * c + r]?) := by
            unfold rowSpec
            rw [List.range_succ, List.filterMap_append]
            cases hn : names[nr * c + m]? <;> simp [hn]
          simp only [List.map_cons, List.map_nil, List.flatten_cons, List.flatten_nil, List.append_nil]
          rw [e]
          have ih' := ihm (by omega)
          generalize ((List.range m).map (rowSpec names nr c)).flatten = A at *
          generalize (List.range m).filterMap (fun r => names[nr * c + r]?) = B at *
          generalize rowSpec names nr c m = C
          generalize [m].filterMap (fun r => names[nr * c + r]?) = D
          refine (ih'.append_right _).trans ?_
          have h2 : (A ++ (B ++ C) ++ D).Perm (A ++ (C ++ B) ++ D) := ((List.perm_append_comm).append_left A).append_right D
          simpa using h2
      have hlast : (List.range nr).filterMap (fun r => names[nr * c + r]?) = (names.drop (nr * c)).take nr := by
        have aux : ∀ (l : List α) m, (List.range m).filterMap (fun r => l[r]?) = l.take m := by
          intro l m
          induction m with
          | zero => simp
          | succ m ihm =>
            rw [List.range_succ, List.filterMap_append, ihm]
            cases hn : l[m]? with
            | none =>
              have := List.getElem?_eq_none_iff.mp hn
              rw [List.take_of_length_le this, List.take_of_length_le (by omega)]; simp [hn]
            | some x =>
              rw [List.take_add_one, hn]; simp [hn]
        rw [← aux (names.drop (nr * c)) nr]
        congr 1
        funext r
        rw [List.getElem?_drop]
      refine (hsplit nr (le_refl _)).trans ?_
      rw [hlast]
      refine (ih.append_right _).trans ?_
      rw [Nat.mul_add, Nat.mul_one, ← List.take_add]
  intro c hc
  have := key c
  rwa [List.take_of_length_le hc] at this

/-- **C43**: every parameter is in exactly one cell of the table; rows have at most `ncol` cells -/
theorem tableRows_spec {names : List α} {ncol : Nat} (h : 0 < ncol) (h0 : names ≠ []) :
    ∃ rows, tableRows names ncol = .ok rows ∧ rows.flatten.Perm names ∧ rows.length = numRow names.length ncol ∧
      (∀ r ∈ rows, r ≠ [] ∧ r.length ≤ ncol) ∧
      ∀ r c, r < rows.length → c < ncol → (rows[r]?.bind (fun row => row[c]?)) = names[numRow names.length ncol * c + r]? := by
  have hspec := layoutRows_spec names h
  set nr := numRow names.length ncol with hnr
  have hn0 : 0 < names.length := List.length_pos_of_ne_nil h0
  have hcov := (numRow_spec (n := names.length) h).1
  rw [← hnr] at hcov
  have hnr0 : 0 < nr := by
    rcases Nat.eq_zero_or_pos nr with hz | hz
    · rw [hz, Nat.zero_mul] at hcov; omega
    · exact hz
  have hle : nr ≤ names.length := by
    rw [hnr]; exact (numRow_spec h).2 _ (Nat.le_mul_of_pos_right _ h)
  have hlen : (layoutRows names ncol).length = nr := by rw [hspec]; simp
  have hne : layoutRows names ncol ≠ [] := by intro e; rw [e] at hlen; simp at hlen; omega
  have hT : tableRows names ncol = .ok (layoutRows names ncol) := by
    unfold tableRows
    rw [if_neg (by omega), List.getLast?_eq_getLast_of_ne_nil hne]
    dsimp only
    rw [List.dropLast_append_getLast hne]
  refine ⟨_, hT, ?_, hlen, ?_, ?_⟩
  · rw [hspec]; exact columns_perm names nr ncol hcov
  · intro r hr
    rw [hspec] at hr
    obtain ⟨j, hj, rfl⟩ := List.mem_map.mp hr
    have hj := List.mem_range.mp hj
    constructor
    · intro e
      have : (rowSpec names nr ncol j)[0]? = none := by rw [e]; rfl
      unfold rowSpec at e
      rw [List.filterMap_eq_nil_iff] at e
      have := e 0 (List.mem_range.mpr h)
      rw [Nat.mul_zero, Nat.zero_add, List.getElem?_eq_none_iff] at this
      omega
    · unfold rowSpec
      refine le_trans (List.length_filterMap_le _ _) ?_
      simp
  · intro r c hr hc
    rw [hlen] at hr
    rw [hspec, List.getElem?_map, List.getElem?_range hr, Option.map_some, Option.bind_some]
    -- no gaps: once a position is past the end all later ones are
    have gap : ∀ m, ∀ c < m, ((List.range m).filterMap (fun k => names[nr * k + r]?))[c]? = names[nr * c + r]? := by
      intro m
      induction m with
      | zero => intro c hc; omega
      | succ m ih =>
        intro c hc
        rw [List.range_succ, List.filterMap_append]
        have hfl : ((List.range m).filterMap (fun k => names[nr * k + r]?)).length ≤ m := by
          refine le_trans (List.length_filterMap_le _ _) ?_; simp
        by_cases hcm : c < m
        · cases hcur : names[nr * c + r]? with
          | some x =>
            have h1 := ih c hcm
            rw [hcur] at h1
            have hlt := (List.getElem?_eq_some_iff.mp h1).1
            rw [List.getElem?_append_left hlt, h1]
          | none =>
            have h1 := ih c hcm
            rw [hcur] at h1
            have hlast : names[nr * m + r]? = none := by
              rw [List.getElem?_eq_none_iff] at hcur ⊢
              have : nr * c ≤ nr * m := Nat.mul_le_mul_left _ (by omega)
              omega
            simp only [List.filterMap_cons, List.filterMap_nil, hlast, List.append_nil]
            exact h1
        · have hcm' : c = m := by omega
          subst hcm'
          cases hcur : names[nr * c + r]? with
          | none =>
            simp only [List.filterMap_cons, List.filterMap_nil, hcur, List.append_nil]
            exact List.getElem?_eq_none hfl
          | some x =>
            have hfull : ((List.range c).filterMap (fun k => names[nr * k + r]?)).length = c := by
              have hb := (List.getElem?_eq_some_iff.mp hcur).1
              by_contra hne
              have hlt : ((List.range c).filterMap (fun k => names[nr * k + r]?)).length < c := by omega
              have h1 := ih (((List.range c).filterMap (fun k => names[nr * k + r]?)).length) hlt
              rw [List.getElem?_eq_none (le_refl _)] at h1
              have h2 := List.getElem?_eq_none_iff.mp h1.symm
              have : nr * ((List.range c).filterMap (fun k => names[nr * k + r]?)).length ≤ nr * c := Nat.mul_le_mul_left _ (by omega)
              omega
            rw [List.getElem?_append_right (by omega), hfull]
            simp [hcur]
    exact gap ncol c hc

example : tableRows ([1, 2, 3, 4, 5] : List Nat) 2 = .ok [[1, 4], [2, 5], [3]] ∧ tableRows ([1, 2, 3, 4, 5] : List Nat) 4 = .ok [[1, 3, 5], [2, 4]] := by
  decide +kernel

/-- a table of no parameters, or with no columns, cannot be made -/
theorem tableRows_empty_fails (ncol : Nat) : tableRows ([] : List α) (ncol + 1) = .error .indexError ∧ ∀ names : List α, tableRows names 0 = .error .zeroDivision := by
  refine ⟨?_, fun names => rfl⟩
  have : layoutRows ([] : List α) (ncol + 1) = [] := by
    rw [layoutRows_spec _ (Nat.succ_pos _)]
    simp [numRow]
  unfold tableRows
  rw [if_neg (Nat.succ_ne_zero _), this]
  rfl

end rows

/-! ## Cells in a row -/

section cells
variable {α : Type}

/-- number of column separators in a text -/
def amps (s : Str) : Nat := s.count '&'

theorem amps_append (a b : Str) : amps (a ++ b) = amps a + amps b := List.count_append

theorem amps_spaces (n : Nat) : amps (List.replicate n ' ') = 0 := by
  unfold amps; rw [List.count_replicate]; simp

theorem amps_tex (s : Str) : amps (texEquation s) = amps s := by
  unfold texEquation
  split
  · show List.count '&' ('$' :: (s ++ ['$'])) = _
    rw [List.count_cons, List.count_append]; simp [amps]
  · rfl

/-- a cell has the separators of its text and the one after it -/
theorem amps_column (txt : Str) (latex separator bold : Bool) :
    amps (textAsColumn txt latex separator bold) = amps txt + (if separator then 1 else 0) := by
  unfold textAsColumn
  dsimp only
  generalize 28 - (txt.length + (if latex then 2 + (if bold then 11 else 0) else 0)) = n
  have h1 : amps (txt ++ List.replicate n ' ') = amps txt := by rw [amps_append, amps_spaces, Nat.add_zero]
  generalize txt ++ List.replicate n ' ' = res at h1
  have e1 : amps c!"{\\boldmath" = 0 := by decide
  have e2 : amps ['}'] = 0 := by decide
  have e3 : amps colSep = 1 := by decide
  cases latex <;> cases bold <;> cases separator <;>
    simp only [if_true, Bool.false_eq_true, if_false, amps_append, amps_tex, h1, e1, e2, e3, Nat.zero_add, Nat.add_zero]

theorem amps_join (l : List Str) : amps (join colSep l) = (l.map amps).sum + (l.length - 1) := by
  have hs : amps colSep = 1 := by decide
  induction l with
  | nil => rfl
  | cons a l ih =>
    cases l with
    | nil => simp [join]
    | cons b l =>
      rw [show join colSep (a :: b :: l) = a ++ colSep ++ join colSep (b :: l) from rfl, amps_append, amps_append, hs, ih]
      simp only [List.map_cons, List.sum_cons, List.length_cons]
      omega

theorem amps_times (s : Str) (n : Nat) : amps (times s n) = n * amps s := by
  unfold times
  induction n with
  | zero => simp [amps]
  | succ n ih => rw [List.replicate_succ, List.flatten_cons, amps_append, ih]; ring

theorem mapE_spec {β γ : Type} {f : β → Except TErr γ} {g : γ → Nat} {v : Nat} : ∀ {l : List β}, (∀ a ∈ l, ∃ b, f a = .ok b ∧ g b = v) →
    ∃ bs, mapE f l = .ok bs ∧ bs.length = l.length ∧ (bs.map g).sum = l.length * v
  | [], _ => ⟨[], rfl, rfl, by simp⟩
  | a :: l, h => by
    obtain ⟨b, hb, hv⟩ := h a List.mem_cons_self
    obtain ⟨bs, h1, h2, h3⟩ := mapE_spec (l := l) (fun x hx => h x (List.mem_cons_of_mem _ hx))
    refine ⟨b :: bs, ?_, by simp [h2], ?_⟩
    · unfold mapE; rw [hb]; simp only []; rw [h1]
    · rw [List.map_cons, List.sum_cons, hv, h3, List.length_cons]; ring

/-- what a statistics object shows: one column, or two with the best fit, and no separators inside of the texts -/
def Shows (k : Nat) (r : Result α) : Prop := ∃ labels values, r = .marge labels values ∧ labels.length = k ∧ (∀ s ∈ labels, amps s = 0) ∧
  ∀ p, ∃ l, values p = some l ∧ l.length = k ∧ ∀ s ∈ l, amps s = 0

/-- **C71**: all rows of a table, and the header, have the same number of cells when every result has a value for every parameter -/
theorem rows_aligned_partial {label : α → Str} {derived : α → Bool} {results : List (Result α)} {ncol k : Nat} (hk : k = 1 ∨ k = 2)
    (h0 : results ≠ []) (hr : ∀ r ∈ results, Shows k r) (hl : ∀ p, amps (label p) = 0) {row : List α} (hrow : row ≠ []) (hlen : row.length ≤ ncol) :
    (∃ s, fullTableRow label derived results ncol row = .ok s ∧ amps s + 1 = ncol * (1 + results.length * k)) ∧
    (∃ s, headerRow results ncol = .ok s ∧ amps s + 1 = ncol * (1 + results.length * k)) := by
  have hn0 : 0 < results.length := List.length_pos_of_ne_nil h0
  have hrl : 0 < row.length := List.length_pos_of_ne_nil hrow
  have hend : amps endOfRow = 0 := by decide
  have hres : ∀ p, ∀ r ∈ results, ∃ b, paramResultTex r p = .ok b ∧ amps b = k - 1 := by
    intro p r hrm
    obtain ⟨labels, values, rfl, hlk, _, hv⟩ := hr r hrm
    obtain ⟨l, hl1, hl2, hl3⟩ := hv p
    unfold paramResultTex Result.texValues
    simp only [hl1]
    rcases hk with rfl | rfl
    · obtain ⟨v, rfl⟩ := List.length_eq_one_iff.mp hl2
      refine ⟨_, rfl, ?_⟩
      rw [amps_column, hl3 v (by simp)]; simp
    · obtain ⟨v, b, rfl⟩ := List.length_eq_two.mp hl2
      refine ⟨_, rfl, ?_⟩
      rw [amps_append, amps_column, amps_column, hl3 v (by simp), hl3 b (by simp)]; simp
  have hcell : ∀ p ∈ row, ∃ b, cellText label derived results p = .ok b ∧ amps b = results.length * k := by
    intro p _
    obtain ⟨bs, h1, h2, h3⟩ := mapE_spec (f := fun r => paramResultTex r p) (g := amps) (hres p)
    refine ⟨textAsColumn (label p) true true (!derived p) ++ join colSep bs, ?_, ?_⟩
    · unfold cellText paramResultsTex; rw [h1]
    · rw [amps_append, amps_column, hl p, amps_join, h3, h2]
      obtain ⟨m, hm⟩ : ∃ m, results.length = m + 1 := ⟨results.length - 1, by omega⟩
      rcases hk with rfl | rfl <;> simp [hm] <;> ring
  have hcpp : colsPerParam results = .ok (results.length * k) := by
    cases hre : results with
    | nil => exact absurd hre h0
    | cons r rs =>
      obtain ⟨labels, values, hrr, hlk, _, _⟩ := hr r (by rw [hre]; simp)
      unfold colsPerParam
      rw [hrr]
      simp only [Result.labels, hlk]
  constructor
  · obtain ⟨cs, h1, h2, h3⟩ := mapE_spec (f := cellText label derived results) (g := amps) hcell
    refine ⟨_, by unfold fullTableRow; rw [h1, hcpp], ?_⟩
    rw [amps_append, hend, amps_append, amps_join, h3, h2]
    have hsep : amps colSep = 1 := by decide
    split
    · rename_i he
      rw [he]
      have : amps ([] : Str) = 0 := rfl
      rw [this, Nat.mul_add, Nat.mul_one]; omega
    · rw [amps_times, hsep, Nat.mul_one]
      obtain ⟨d, hd⟩ : ∃ d, ncol = row.length + d := ⟨ncol - row.length, by omega⟩
      rw [hd, show row.length + d - row.length = d by omega]
      have : (row.length + d) * (1 + results.length * k) = row.length + row.length * (results.length * k) + (1 + results.length * k) * d := by ring
      rw [this]; omega
  · have hlab : ∀ r ∈ results, ∃ b, (Result.labels r) = .ok b ∧ b.length = k := by
      intro r hrm
      obtain ⟨labels, values, rfl, hlk, _, _⟩ := hr r hrm
      exact ⟨labels, rfl, hlk⟩
    have hlab0 : ∀ r ∈ results, ∃ b, (Result.labels r) = .ok b ∧ (b.map amps).sum = 0 := by
      intro r hrm
      obtain ⟨labels, values, rfl, _, hl0, _⟩ := hr r hrm
      refine ⟨labels, rfl, ?_⟩
      clear * - hl0
      induction labels with
      | nil => rfl
      | cons a l ih => rw [List.map_cons, List.sum_cons, hl0 a (by simp), ih (fun s hs => hl0 s (by simp [hs]))]
    obtain ⟨ls, h1, h2, h3⟩ := mapE_spec (f := fun r : Result α => r.labels) (g := List.length) hlab
    obtain ⟨ls', h1', _, h3'⟩ := mapE_spec (f := fun r : Result α => r.labels) (g := fun b => (b.map amps).sum) hlab0
    rw [h1] at h1'
    cases h1'
    refine ⟨_, by unfold headerRow; rw [h1], ?_⟩
    rw [amps_append, hend, amps_join]
    set cols := (c!" Parameter") :: (ls.flatten.map (fun s => ' ' :: s)) with hcols
    have hcl : cols.length = 1 + results.length * k := by
      rw [hcols, List.length_cons, List.length_map, List.length_flatten, h3]; ring
    have hc0 : (cols.map amps).sum = 0 := by
      rw [hcols, List.map_cons, List.sum_cons, List.map_map]
      have e1 : amps c!" Parameter" = 0 := by decide
      have e2 : (amps ∘ fun s => ' ' :: s) = amps := by
        funext s
        show List.count '&' (' ' :: s) = _
        rw [List.count_cons]; simp [amps]
      rw [e1, e2, Nat.zero_add, List.map_flatten, List.sum_flatten]
      simpa [List.map_map, Function.comp_def] using h3'
    have hrep : ∀ n, ((List.replicate n cols).flatten).length = n * cols.length ∧ (((List.replicate n cols).flatten).map amps).sum = 0 := by
      intro n
      induction n with
      | zero => simp
      | succ n ih =>
        rw [List.replicate_succ, List.flatten_cons, List.length_append, ih.1, List.map_append, List.sum_append, ih.2, hc0]
        exact ⟨by ring, rfl⟩
    rw [(hrep ncol).1, (hrep ncol).2, hcl]
    have : 0 < ncol * (1 + results.length * k) := Nat.mul_pos (by omega) (by omega)
    omega

/-- results used in the examples: one column `68% limits`, the second with a best fit -/
def ex1 : Result Nat := .marge [c!"68"] (fun p => if p < 5 then some [c!"1.0"] else none)
def ex2 : Result Nat := .marge [c!"Best fit", c!"68"] (fun p => if p < 5 then some [c!"1.0", c!"1.1"] else none)

def sepsIn (r : Except TErr Str) : Option Nat := r.toOption.map amps

/-- a parameter without best fit and limits leaves its row a cell short -/
theorem missing_value_fails : sepsIn (headerRow [ex2] 1) = some 2 ∧
    sepsIn (fullTableRow (fun _ => c!"x") (fun _ => false) [ex2] 1 [1]) = some 2 ∧
    sepsIn (fullTableRow (fun _ => c!"x") (fun _ => false) [ex2] 1 [7]) = some 1 := by decide +kernel

/-- results with and without best fits: the shorter last row has the wrong number of cells -/
theorem mixed_results_fails : sepsIn (headerRow [ex1, ex2] 2) = some 7 ∧
    sepsIn (fullTableRow (fun _ => c!"x") (fun _ => false) [ex1, ex2] 2 [1, 2]) = some 7 ∧
    sepsIn (fullTableRow (fun _ => c!"x") (fun _ => false) [ex1, ex2] 2 [1]) = some 6 := by decide +kernel

/-- tables cannot be made from best fits, though documented -/
theorem bestFit_fails (label : α → Str) (derived : α → Bool) (v : α → Option (List Str)) (rs : List (Result α)) (ncol : Nat) (row : List α) :
    headerRow (.bestFit v :: rs) ncol = .error .typeError ∧ colsPerParam (.bestFit v :: rs) = .error .typeError ∧
    (row ≠ [] → fullTableRow label derived (.bestFit v :: rs) ncol row = .error .typeError) := by
  refine ⟨rfl, rfl, fun h => ?_⟩
  cases row with
  | nil => exact absurd rfl h
  | cons p row => rfl

/-- the option for another number formatter has no effect -/
theorem numFormatter_fails {F : Type} (f : Format F) (opt : Option F) : (setNumFormatter f opt).numberFormatter = f.numberFormatter := by
  unfold setNumFormatter; split <;> rfl

example : Shows 1 (.marge [c!"68"] (fun _ : Nat => some [c!"1.0"])) :=
  ⟨_, _, rfl, rfl, by decide, fun _ => ⟨_, rfl, rfl, by decide⟩⟩

end cells

end Verif.Table
