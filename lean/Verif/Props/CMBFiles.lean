import Verif.Model.CMBFiles
import Verif.Props.CMBlikes
import Mathlib.Algebra.Order.Field.Basic
import Mathlib.Data.List.Nodup
import Mathlib.Data.Rat.Defs
import Mathlib.Tactic.Linarith
import Mathlib.Tactic.Positivity

/-!
# Files of CMB likelihoods (C186, C187)
-/

set_option linter.unusedSectionVars false
set_option linter.unusedSimpArgs false

namespace Verif.CMBFiles
open Verif.Py
open Verif.CMBlikes (lastTopComment pairs mem_pairs clsGet theoryCl)

variable {K : Type}

/-! ## Loops -/

theorem mapM_ok {α β : Type} (f : α → Except Err β) (g : α → β) : ∀ (l : List α), (∀ a ∈ l, f a = .ok (g a)) → l.mapM f = .ok (l.map g)
  | [], _ => rfl
  | a :: l, h => by
    rw [List.mapM_cons, h a (by simp), mapM_ok f g l (fun b hb => h b (by simp [hb]))]
    rfl

theorem column_ok (rows : List (List K)) (ix : Nat) (z : K) (h2 : 2 ≤ rows.length) (h : ∀ r ∈ rows, ix < r.length) :
    column rows ix = .ok (rows.map (fun r => r.getD ix z)) := by
  unfold column
  rw [if_neg (by omega)]
  refine mapM_ok _ _ _ (fun r hr => ?_)
  unfold entry
  rw [List.getElem?_eq_getElem (h r hr), List.getD_eq_getElem?_getD, List.getElem?_eq_getElem (h r hr)]
  rfl

theorem foldlM_pairs (step : (Nat → Nat → Option (List K)) → Nat × Nat → Except Err (Nat → Nat → Option (List K))) (arr0 : Nat → Nat → Option (List K))
    (want : Nat × Nat → Option (List K)) : ∀ (ps : List (Nat × Nat)) (arr : Nat → Nat → Option (List K)), ps.Nodup →
    (∀ p ∈ ps, arr p.1 p.2 = arr0 p.1 p.2) →
    (∀ p ∈ ps, ∀ a, a p.1 p.2 = arr0 p.1 p.2 → step a p = .ok (fun i j => if i = p.1 ∧ j = p.2 then want p else a i j)) →
    ps.foldlM step arr = .ok (fun i j => if (i, j) ∈ ps then want (i, j) else arr i j)
  | [], arr, _, _, _ => by simp [pure, Except.pure]
  | p :: ps, arr, hnd, ha, hs => by
    rw [List.foldlM_cons, hs p (by simp) arr (ha p (by simp))]
    have hnd' := List.nodup_cons.mp hnd
    show ps.foldlM step _ = _
    rw [foldlM_pairs step arr0 want ps _ hnd'.2 ?_ (fun q hq => hs q (by simp [hq]))]
    · congr 1
      funext i j
      by_cases hm : (i, j) ∈ ps
      · rw [if_pos hm, if_pos (by simp [hm])]
      · rw [if_neg hm]
        by_cases he : i = p.1 ∧ j = p.2
        · have : (i, j) = p := Prod.ext he.1 he.2
          rw [if_pos he, if_pos (by simp [this]), this]
        · rw [if_neg he, if_neg]
          simp only [List.mem_cons, not_or]
          exact ⟨fun h => he ⟨congrArg Prod.fst h, congrArg Prod.snd h⟩, hm⟩
    · intro q hq
      rw [if_neg]
      · exact ha q (by simp [hq])
      · intro h
        exact hnd'.1 (by rwa [← Prod.ext h.1 h.2])

theorem foldlM_error {σ α : Type} (step : σ → α → Except Err σ) (p : α) (hp : ∀ s, ∃ e, step s p = .error e) : ∀ (l : List α) (s : σ), p ∈ l →
    ∃ e, l.foldlM step s = .error e
  | a :: l, s, h => by
    rw [List.foldlM_cons]
    cases hs : step s a with
    | error e => exact ⟨e, rfl⟩
    | ok s' =>
      rcases List.mem_cons.mp h with rfl | h
      · obtain ⟨e, he⟩ := hp s
        rw [he] at hs
        cases hs
      · exact foldlM_error step p hp l s' h

theorem pairs_nodup : ∀ n : Nat, (pairs n).Nodup := by
  intro n
  unfold pairs
  rw [List.nodup_flatMap]
  refine ⟨fun i _ => (List.nodup_range).map (fun a b h => congrArg Prod.snd h), ?_⟩
  refine (List.nodup_range (n := n)).imp ?_
  intro a b hab x hx hy
  obtain ⟨_, _, rfl⟩ := List.mem_map.mp hx
  obtain ⟨_, _, h⟩ := List.mem_map.mp hy
  exact hab (congrArg Prod.fst h).symm

/-! ## Columns by name -/

/-- the header of a file: the words of the last comment line before the numbers -/
def Header (f : File K) (hdr : List Str) : Prop := ∃ x, lastTopComment f.lines none = some x ∧ splitWs x = hdr

/-- `readTextCommentColumns` gives the columns with the names asked for, in this order -/
theorem columns_spec (f : File K) (hdr cols : List Str) (z : K) (hh : Header f hdr) (h2 : 2 ≤ f.rows.length) (hrect : ∀ r ∈ f.rows, r.length = hdr.length)
    (hc : ∀ c ∈ cols, c ∈ hdr) :
    ∃ v, readTextCommentColumns f cols = .ok v ∧ v.length = cols.length ∧
      ∀ (k : Nat) (c : Str), cols[k]? = some c → ∃ ix, hdr[ix]? = some c ∧ v[k]? = some (f.rows.map (fun r => r.getD ix z)) := by
  obtain ⟨x, hx, hs⟩ := hh
  refine ⟨(cols.map hdr.idxOf).map (fun ix => f.rows.map (fun r => r.getD ix z)), ?_, by simp, ?_⟩
  · unfold readTextCommentColumns
    rw [hx]
    dsimp only
    rw [hs, mapM_ok (indexOf hdr) hdr.idxOf cols (fun c hcm => by unfold indexOf; rw [if_pos (hc c hcm)])]
    show List.mapM (column f.rows) _ = _
    refine mapM_ok _ _ _ (fun ix hix => ?_)
    obtain ⟨c, hcm, rfl⟩ := List.mem_map.mp hix
    exact column_ok _ _ z h2 (fun r hr => by rw [hrect r hr]; exact List.idxOf_lt_length_of_mem (hc c hcm))
  · intro k c hk
    have hm : c ∈ hdr := hc c (List.mem_of_getElem? hk)
    refine ⟨hdr.idxOf c, ?_, by simp [hk]⟩
    rw [List.getElem?_eq_getElem (List.idxOf_lt_length_of_mem hm), List.getElem_idxOf]

/-- an unknown name is an error -/
theorem columns_unknown (f : File K) (hdr cols : List Str) (c : Str) (hh : Header f hdr) (hc : c ∈ cols) (hn : c ∉ hdr) :
    ∃ e, readTextCommentColumns f cols = .error e := by
  obtain ⟨x, hx, hs⟩ := hh
  unfold readTextCommentColumns
  rw [hx]
  dsimp only
  rw [hs]
  have : ∀ l : List Str, c ∈ l → ∃ e, l.mapM (indexOf hdr) = .error e := by
    intro l
    induction l with
    | nil => intro h; cases h
    | cons a l ih =>
      intro h
      rw [List.mapM_cons]
      cases ha : indexOf hdr a with
      | error e => exact ⟨e, rfl⟩
      | ok i =>
        rcases List.mem_cons.mp h with rfl | h
        · unfold indexOf at ha
          rw [if_neg hn] at ha
          cases ha
        · obtain ⟨e, he⟩ := ih h
          rw [he]
          exact ⟨e, rfl⟩
  obtain ⟨e, he⟩ := this cols hc
  rw [he]
  exact ⟨e, rfl⟩

example : readTextCommentColumns (⟨[c!"# made by hand", c!"# L TT EE", c!"2 3 4"], [[2, 3, 4], [3, 5, (6 : ℚ)]]⟩) [c!"EE", c!"L"] = .ok [[4, 6], [2, 3]] := by
  decide +kernel

/-! ## Spectra of a file -/

/-- a table of spectra: at least two rows, a column `L`, multipoles one after the other from `l0` -/
structure Table (int : K → Nat) (hdr : List Str) (rows : List (List K)) (l0 : Nat) : Prop where
  two : 2 ≤ rows.length
  rect : ∀ r ∈ rows, r.length = hdr.length
  hasL : c!"L" ∈ hdr
  ells : ∀ (k : Nat) (r : List K), rows[k]? = some r → ∃ x, r[hdr.idxOf c!"L"]? = some x ∧ int x = l0 + k

/-- the multipole of a row -/
def ell [Zero K] (int : K → Nat) (hdr : List Str) (r : List K) : Nat := int (r.getD (hdr.idxOf c!"L") 0)

/-- the only column with the spectrum of the fields `f`, `f2` is `ix` -/
def IsColumn (hdr : List Str) (f f2 : Str) (ix : Nat) : Prop :=
  (∃ c, hdr[ix]? = some c ∧ (c = f ++ f2 ∨ c = f2 ++ f)) ∧ ∀ k c, hdr[k]? = some c → c = f ++ f2 ∨ c = f2 ++ f → k = ix

theorem colIndex_of (hdr : List Str) (f f2 : Str) (ix : Nat) (h : IsColumn hdr f f2 ix) : colIndex hdr f f2 = some ix := by
  obtain ⟨⟨c, hc, hn⟩, hu⟩ := h
  have key : ∀ s, s ∈ hdr → (s = f ++ f2 ∨ s = f2 ++ f) → hdr.idxOf s = ix := by
    intro s hs hor
    refine hu _ s ?_ hor
    rw [List.getElem?_eq_getElem (List.idxOf_lt_length_of_mem hs), List.getElem_idxOf]
  unfold colIndex
  by_cases h1 : f ++ f2 ∈ hdr
  · rw [if_pos h1, key _ h1 (Or.inl rfl)]
  · rw [if_neg h1]
    have h2 : f2 ++ f ∈ hdr := by
      rcases hn with rfl | rfl
      · exact absurd (List.mem_of_getElem? hc) h1
      · exact List.mem_of_getElem? hc
    rw [if_pos h2, key _ h2 (Or.inr rfl)]

theorem colIndex_none (hdr : List Str) (f f2 : Str) (h1 : f ++ f2 ∉ hdr) (h2 : f2 ++ f ∉ hdr) : colIndex hdr f f2 = none := by
  unfold colIndex
  rw [if_neg h1, if_neg h2]

theorem colIndex_lt (hdr : List Str) (f f2 : Str) (ix : Nat) (h : colIndex hdr f f2 = some ix) : ix < hdr.length := by
  unfold colIndex at h
  split at h
  · rename_i hm
    cases h
    exact List.idxOf_lt_length_of_mem hm
  · split at h
    · rename_i hm
      cases h
      exact List.idxOf_lt_length_of_mem hm
    · cases h

/-- what is stored for one column of a table: the values at their multipoles, zero elsewhere, up to `top` -/
def stored [Zero K] (rows : List (List K)) (l0 top ix : Nat) : List K :=
  (List.range (top + 1)).map (fun L => if l0 ≤ L ∧ L < l0 + rows.length then (rows.getD (L - l0) []).getD ix 0 else 0)

theorem spectrum_ok [Zero K] (int : K → Nat) (hdr : List Str) (rows : List (List K)) (l0 top ix : Nat) (ht : Table int hdr rows l0) (hix : ix < hdr.length) :
    spectrum rows l0 (l0 + rows.length - 1) top ix = .ok (stored rows l0 top ix) := by
  unfold spectrum
  have h2 := ht.two
  rw [column_ok rows ix 0 h2 (fun r hr => by rw [ht.rect r hr]; exact hix)]
  show (assignSlice _ l0 _ _ >>= _) = _
  have hb : l0 + rows.length - 1 + 1 = l0 + rows.length := by omega
  rw [hb]
  have hn : min (l0 + rows.length) (List.replicate (max (top + 1) (l0 + rows.length)) (0 : K)).length - l0 = rows.length := by
    rw [List.length_replicate]
    omega
  unfold assignSlice
  rw [hn, if_pos (by simp)]
  show Except.ok _ = _
  congr 1
  apply List.ext_getElem?
  intro k
  unfold stored
  rw [List.getElem?_take, List.getElem?_map]
  by_cases hk : k < top + 1
  · rw [if_pos hk, List.getElem?_range hk]
    simp only [Option.map_some]
    rw [List.append_assoc, List.getElem?_append]
    have hl : (List.take l0 (List.replicate (max (top + 1) (l0 + rows.length)) (0 : K))).length = l0 := by
      rw [List.length_take, List.length_replicate]; omega
    rw [hl]
    split
    · rename_i hlt
      rw [List.getElem?_take, if_pos hlt, List.getElem?_replicate, if_pos (by omega), if_neg (by omega)]
    · rename_i hlt
      rw [List.getElem?_append, List.length_map]
      split
      · rename_i hlt2
        rw [if_pos (by omega), List.getElem?_map, List.getD_eq_getElem?_getD (l := rows), List.getElem?_eq_getElem hlt2]
        rfl
      · rename_i hlt2
        rw [if_neg (by omega), List.getElem?_drop, List.getElem?_replicate, if_pos (by omega)]
  · rw [if_neg hk, List.getElem?_eq_none (by simp; omega)]
    rfl

theorem stored_row [Zero K] (int : K → Nat) (hdr : List Str) (rows : List (List K)) (l0 top ix : Nat) (ht : Table int hdr rows l0) (hix : ix < hdr.length) :
    (stored rows l0 top ix).length = top + 1 ∧
    (∀ r ∈ rows, ell int hdr r ≤ top → (stored rows l0 top ix)[ell int hdr r]? = r[ix]?) ∧
    (∀ L ≤ top, (∀ r ∈ rows, ell int hdr r ≠ L) → (stored rows l0 top ix)[L]? = some 0) := by
  have hell : ∀ (k : Nat) (r : List K), rows[k]? = some r → ell int hdr r = l0 + k := by
    intro k r hk
    obtain ⟨x, hx, hi⟩ := ht.ells k r hk
    unfold ell
    rw [List.getD_eq_getElem?_getD, hx]
    exact hi
  refine ⟨by simp [stored], ?_, ?_⟩
  · intro r hr hle
    obtain ⟨k, hk⟩ := List.mem_iff_getElem?.mp hr
    have hkl : k < rows.length := (List.getElem?_eq_some_iff.mp hk).1
    rw [hell k r hk] at hle ⊢
    unfold stored
    rw [List.getElem?_map, List.getElem?_range (by omega)]
    simp only [Option.map_some]
    rw [if_pos (by omega), show l0 + k - l0 = k by omega, List.getD_eq_getElem?_getD (l := rows), hk]
    have : ix < r.length := by rw [ht.rect r hr]; exact hix
    simp only [Option.getD_some]
    rw [List.getD_eq_getElem?_getD, List.getElem?_eq_getElem this]
    rfl
  · intro L hL hno
    unfold stored
    rw [List.getElem?_map, List.getElem?_range (by omega)]
    simp only [Option.map_some]
    by_cases hc : l0 ≤ L ∧ L < l0 + rows.length
    · have hlt : L - l0 < rows.length := by omega
      have := hell (L - l0) _ (List.getElem?_eq_getElem hlt)
      exact absurd (by rw [this]; omega) (hno _ (List.getElem_mem hlt))
    · rw [if_neg hc]

/-- the value given to the pair `p` -/
def want [Zero K] (hdr : List Str) (rows : List (List K)) (l0 top : Nat) (addOnly : Bool) (names : List Str) (arr : Nat → Nat → Option (List K)) (p : Nat × Nat) :
    Option (List K) :=
  if addOnly && (arr p.1 p.2).isSome then arr p.1 p.2
  else match colIndex hdr (names.getD p.1 []) (names.getD p.2 []) with
    | none => arr p.1 p.2
    | some ix => some (stored rows l0 top ix)

theorem load_table [Zero K] (int : K → Nat) (s : Cls K) (f : File K) (cols : Option (List Str)) (addOnly : Bool) (hdr : List Str) (rows : List (List K)) (l0 : Nat)
    (hc : colsOf f cols = .ok (hdr, rows)) (ht : Table int hdr rows l0) :
    loadFromFile int s f cols addOnly = .ok ⟨s.names,
      fun i j => if (i, j) ∈ pairs s.names.length then
        want hdr rows l0 (if addOnly then s.lmax else l0 + rows.length - 1) addOnly s.names s.arr (i, j) else s.arr i j,
      if addOnly then s.lmin else l0, if addOnly then s.lmax else l0 + rows.length - 1⟩ := by
  have h2 := ht.two
  have hLlt : hdr.idxOf c!"L" < hdr.length := List.idxOf_lt_length_of_mem ht.hasL
  unfold loadFromFile
  rw [hc]
  simp only [bind, Except.bind]
  have hi : indexOf hdr c!"L" = .ok (hdr.idxOf c!"L") := by unfold indexOf; rw [if_pos ht.hasL]
  rw [hi]
  simp only []
  rw [column_ok rows _ 0 h2 (fun r hr => by rw [ht.rect r hr]; exact hLlt)]
  have hell : ∀ (k : Nat) (r : List K), rows[k]? = some r → int (r.getD (hdr.idxOf c!"L") 0) = l0 + k := by
    intro k r hk
    obtain ⟨x, hx, hi⟩ := ht.ells k r hk
    rw [List.getD_eq_getElem?_getD, hx]
    exact hi
  cases rows with
  | nil => simp at h2
  | cons r0 rs =>
    simp only [List.map_cons]
    have h0 := hell 0 r0 rfl
    have hlast : int ((rs.map (fun r => r.getD (hdr.idxOf c!"L") 0)).getLastD (r0.getD (hdr.idxOf c!"L") 0)) = l0 + (r0 :: rs).length - 1 := by
      have hne : rs ≠ [] := by rintro rfl; simp at h2
      have hl := hell rs.length (rs.getLast hne) (by
        rw [List.getElem?_cons, if_neg (by simp [hne]), List.getLast_eq_getElem hne, List.getElem?_eq_getElem])
      rw [List.getLastD_eq_getLast?, List.getLast?_map, List.getLast?_eq_some_getLast hne]
      simp only [Option.map_some, Option.getD_some]
      rw [hl]
      simp
    rw [h0, hlast]
    have hfold : ∀ top : Nat, ∀ a : Bool, (pairs s.names.length).foldlM (loadPair hdr (r0 :: rs) (l0 + 0) (l0 + (r0 :: rs).length - 1) top a s.names) s.arr =
        .ok (fun i j => if (i, j) ∈ pairs s.names.length then want hdr (r0 :: rs) l0 top a s.names s.arr (i, j) else s.arr i j) := by
      intro top a
      refine foldlM_pairs _ s.arr (want hdr (r0 :: rs) l0 top a s.names s.arr) _ _ (pairs_nodup _) (fun _ _ => rfl) ?_
      intro p _ arr ha
      have hself : arr = fun i j => if i = p.1 ∧ j = p.2 then s.arr p.1 p.2 else arr i j := by
        funext i j
        split
        · rename_i h
          rw [h.1, h.2, ha]
        · rfl
      unfold loadPair want
      rw [ha]
      by_cases hs : (a && (s.arr p.1 p.2).isSome) = true
      · rw [if_pos hs, if_pos hs, ← hself]
      · rw [if_neg hs, if_neg hs]
        cases hci : colIndex hdr (s.names.getD p.1 []) (s.names.getD p.2 []) with
        | none => simp only []; rw [← hself]
        | some ix =>
          simp only [Nat.add_zero]
          rw [spectrum_ok int hdr (r0 :: rs) l0 top ix ht (colIndex_lt _ _ _ _ hci)]
          rfl
    cases addOnly with
    | true =>
      simp only [if_true]
      rw [hfold s.lmax true]
      rfl
    | false =>
      simp only [Bool.false_eq_true, if_false]
      rw [hfold (l0 + (r0 :: rs).length - 1) false]
      rfl

/-- the spectrum of fields `i`, `j` of `s'` is the column `ix` of the table: each value at its multipole, and zero at the multipoles without a row -/
def FromColumn [Zero K] (int : K → Nat) (hdr : List Str) (rows : List (List K)) (ix top : Nat) (l : List K) : Prop :=
  l.length = top + 1 ∧ (∀ r ∈ rows, ell int hdr r ≤ top → l[ell int hdr r]? = r[ix]?) ∧ ∀ L ≤ top, (∀ r ∈ rows, ell int hdr r ≠ L) → l[L]? = some 0

/-- reading a table of spectra: the range of multipoles is the one of the file, and each pair of fields named by a column has the values of this column -/
theorem load_spec [Zero K] (int : K → Nat) (s : Cls K) (f : File K) (cols : Option (List Str)) (hdr : List Str) (rows : List (List K)) (l0 : Nat)
    (hc : colsOf f cols = .ok (hdr, rows)) (ht : Table int hdr rows l0) :
    ∃ s', loadFromFile int s f cols false = .ok s' ∧ s'.names = s.names ∧ s'.lmin = l0 ∧ s'.lmax + 1 = l0 + rows.length ∧
      (∀ i j ix, j ≤ i → i < s.names.length → IsColumn hdr (s.names.getD i []) (s.names.getD j []) ix →
        ∃ l, s'.arr i j = some l ∧ FromColumn int hdr rows ix s'.lmax l) ∧
      (∀ i j, s.names.getD i [] ++ s.names.getD j [] ∉ hdr → s.names.getD j [] ++ s.names.getD i [] ∉ hdr → s'.arr i j = s.arr i j) := by
  refine ⟨_, load_table int s f cols false hdr rows l0 hc ht, rfl, rfl, ?_, ?_, ?_⟩
  · have := ht.two
    simp
    omega
  · intro i j ix hj hi hcol
    have hci := colIndex_of _ _ _ _ hcol
    refine ⟨_, ?_, stored_row int hdr rows l0 _ ix ht (colIndex_lt _ _ _ _ hci)⟩
    show (if (i, j) ∈ _ then _ else _) = _
    rw [if_pos ((mem_pairs _ _).mpr ⟨hj, hi⟩)]
    unfold want
    rw [hci]
    rfl
  · intro i j h1 h2
    show (if (i, j) ∈ _ then _ else _) = _
    split
    · unfold want
      rw [colIndex_none _ _ _ h1 h2]
      simp
    · rfl

/-- adding the spectra of another table: what is there is kept, the rest is read up to the multipole already known -/
theorem add_spec [Zero K] (int : K → Nat) (s : Cls K) (f : File K) (cols : Option (List Str)) (hdr : List Str) (rows : List (List K)) (l0 : Nat)
    (hc : colsOf f cols = .ok (hdr, rows)) (ht : Table int hdr rows l0) :
    ∃ s', loadFromFile int s f cols true = .ok s' ∧ s'.names = s.names ∧ s'.lmin = s.lmin ∧ s'.lmax = s.lmax ∧
      (∀ i j l, s.arr i j = some l → s'.arr i j = some l) ∧
      (∀ i j ix, j ≤ i → i < s.names.length → s.arr i j = none → IsColumn hdr (s.names.getD i []) (s.names.getD j []) ix →
        ∃ l, s'.arr i j = some l ∧ FromColumn int hdr rows ix s.lmax l) := by
  refine ⟨_, load_table int s f cols true hdr rows l0 hc ht, rfl, rfl, rfl, ?_, ?_⟩
  · intro i j l hl
    show (if (i, j) ∈ _ then _ else _) = _
    split
    · unfold want
      rw [if_pos (by simp [hl])]
      exact hl
    · exact hl
  · intro i j ix hj hi hn hcol
    have hci := colIndex_of _ _ _ _ hcol
    refine ⟨_, ?_, stored_row int hdr rows l0 _ ix ht (colIndex_lt _ _ _ _ hci)⟩
    show (if (i, j) ∈ _ then _ else _) = _
    rw [if_pos ((mem_pairs _ _).mpr ⟨hj, hi⟩)]
    unfold want
    rw [if_neg (by simp [hn]), hci]
    rfl

/-- the theory of the likelihood between `lo` and `hi` is what the table has there -/
theorem theory_from_file [Zero K] (int : K → Nat) (s : Cls K) (f : File K) (cols : Option (List Str)) (hdr : List Str) (rows : List (List K)) (l0 : Nat)
    (hc : colsOf f cols = .ok (hdr, rows)) (ht : Table int hdr rows l0) (i j ix lo hi : Nat) (hi' : i < s.names.length) (hj' : j < s.names.length)
    (hcol : IsColumn hdr (s.names.getD i []) (s.names.getD j []) ix) (hle : lo ≤ hi) (htop : hi < l0 + rows.length) :
    ∃ s' l, loadFromFile int s f cols false = .ok s' ∧ theoryCl lo hi (clsGet s'.arr (i, j)) = .ok l ∧ l.length = hi + 1 - lo ∧
      ∀ r ∈ rows, lo ≤ ell int hdr r → ell int hdr r ≤ hi → l[ell int hdr r - lo]? = r[ix]? := by
  obtain ⟨s', hs, _, _, hmax, hpair, _⟩ := load_spec int s f cols hdr rows l0 hc ht
  have hsymm : IsColumn hdr (s.names.getD j []) (s.names.getD i []) ix := by
    obtain ⟨⟨c, h1, h2⟩, h3⟩ := hcol
    exact ⟨⟨c, h1, h2.symm⟩, fun k c hk h => h3 k c hk h.symm⟩
  have : ∃ l, clsGet s'.arr (i, j) = some l ∧ FromColumn int hdr rows ix s'.lmax l := by
    unfold clsGet
    by_cases h : j > i
    · simp only [if_pos h]
      exact hpair j i ix (by omega) hj' hsymm
    · simp only [if_neg h]
      exact hpair i j ix (by omega) hi' hcol
  obtain ⟨l, hl, hlen, hrow, _⟩ := this
  have hlen2 : ((l.take (hi + 1)).drop lo).length = hi + 1 - lo := by
    rw [List.length_drop, List.length_take]
    omega
  refine ⟨s', (l.take (hi + 1)).drop lo, hs, ?_, hlen2, ?_⟩
  · rw [hl]
    unfold theoryCl CMBlikes.assignAll
    simp only []
    rw [if_pos hlen2]
  · intro r hr h1 h2
    rw [List.getElem?_drop, List.getElem?_take, if_pos (by omega), show lo + (ell int hdr r - lo) = ell int hdr r by omega]
    exact hrow r hr (by omega)

/-- a table of which the number of rows is not that of the multipoles between the first and the last is refused, if it has a wanted spectrum -/
theorem load_gap [Zero K] (int : K → Nat) (s : Cls K) (f : File K) (cols : Option (List Str)) (hdr : List Str) (rows : List (List K)) (first last : List K)
    (hc : colsOf f cols = .ok (hdr, rows)) (hf : rows.head? = some first) (hl : rows.getLast? = some last)
    (hgap : ell int hdr first + rows.length ≠ ell int hdr last + 1) (i j : Nat) (hj : j ≤ i) (hi : i < s.names.length)
    (hcol : ∃ ix, IsColumn hdr (s.names.getD i []) (s.names.getD j []) ix) :
    ∃ e, loadFromFile int s f cols false = .error e := by
  obtain ⟨ix, hcol⟩ := hcol
  have hci := colIndex_of _ _ _ _ hcol
  unfold loadFromFile
  rw [hc]
  simp only [bind, Except.bind]
  cases hi1 : indexOf hdr c!"L" with
  | error e => exact ⟨e, rfl⟩
  | ok Lix =>
    have hLix : Lix = hdr.idxOf c!"L" := by
      unfold indexOf at hi1
      split at hi1
      · cases hi1; rfl
      · cases hi1
    simp only []
    cases hcl : column rows Lix with
    | error e => exact ⟨e, rfl⟩
    | ok L =>
      have h2 : 2 ≤ rows.length := by
        unfold column at hcl
        split at hcl
        · cases hcl
        · omega
      have hrect : ∀ r ∈ rows, Lix < r.length := by
        unfold column at hcl
        rw [if_neg (by omega)] at hcl
        have : ∀ (l : List (List K)) (v : List K), l.mapM (entry Lix) = .ok v → ∀ r ∈ l, Lix < r.length := by
          intro l
          induction l with
          | nil => intro v _ r hr; cases hr
          | cons a l ih =>
            intro v hv r hr
            rw [List.mapM_cons] at hv
            cases ha : entry Lix a with
            | error e => rw [ha] at hv; cases hv
            | ok y =>
              rw [ha] at hv
              cases hm : l.mapM (entry Lix) with
              | error e => rw [hm] at hv; cases hv
              | ok w =>
                rcases List.mem_cons.mp hr with rfl | hr
                · unfold entry at ha
                  split at ha
                  · rename_i hh
                    exact (List.getElem?_eq_some_iff.mp hh).1
                  · cases ha
                · exact ih w hm r hr
        exact this rows L hcl
      rw [column_ok rows Lix 0 h2 hrect] at hcl
      cases hcl
      cases rows with
      | nil => cases hf
      | cons r0 rs =>
        have hf' : r0 = first := by simpa using hf
        simp only [List.map_cons]
        have hlast : (rs.map (fun r => r.getD Lix 0)).getLastD (r0.getD Lix 0) = last.getD Lix 0 := by
          cases rs with
          | nil => simp at h2
          | cons r1 rs =>
            rw [List.getLast?_cons_cons] at hl
            rw [List.getLastD_eq_getLast?, List.getLast?_map, hl]
            rfl
        rw [hlast]
        have hfirst : r0.getD Lix 0 = first.getD Lix 0 := by rw [hf']
        rw [hfirst]
        obtain ⟨e, he⟩ := foldlM_error (loadPair hdr (r0 :: rs) (int (first.getD Lix 0)) (int (last.getD Lix 0)) (int (last.getD Lix 0)) false s.names) (i, j) (by
          intro a
          unfold loadPair
          simp only [Bool.false_and, Bool.false_eq_true, if_false]
          rw [hci]
          simp only []
          have : ∃ e, spectrum (r0 :: rs) (int (first.getD Lix 0)) (int (last.getD Lix 0)) (int (last.getD Lix 0)) ix = .error e := by
            unfold spectrum
            cases hcc : column (r0 :: rs) ix with
            | error e => exact ⟨e, rfl⟩
            | ok v =>
              have hv : v.length = (r0 :: rs).length := by
                unfold column at hcc
                rw [if_neg (by omega)] at hcc
                have : ∀ (l : List (List K)) (v : List K), l.mapM (entry ix) = .ok v → v.length = l.length := by
                  intro l
                  induction l with
                  | nil => intro v hv; cases hv; rfl
                  | cons a l ih =>
                    intro v hv
                    rw [List.mapM_cons] at hv
                    cases ha : entry ix a with
                    | error e => rw [ha] at hv; cases hv
                    | ok y =>
                      rw [ha] at hv
                      cases hm : l.mapM (entry ix) with
                      | error e => rw [hm] at hv; cases hv
                      | ok w =>
                        rw [hm] at hv
                        cases hv
                        simp [ih w hm]
                exact this _ _ hcc
              refine ⟨.shape, ?_⟩
              show (assignSlice _ _ _ v >>= _) = _
              unfold assignSlice
              rw [hLix] at *
              have hg : int (first.getD (hdr.idxOf c!"L") 0) + (r0 :: rs).length ≠ int (last.getD (hdr.idxOf c!"L") 0) + 1 := hgap
              rw [if_neg]
              · cases v with
                | nil => simp at hv
                | cons x v => cases v with
                  | nil => rw [← hv] at h2; simp at h2
                  | cons y v => rfl
              · rw [List.length_replicate, hv]
                have : (r0 :: rs).length ≥ 2 := h2
                omega
          obtain ⟨e, he⟩ := this
          exact ⟨e, by rw [he]; rfl⟩) (pairs s.names.length) s.arr ((mem_pairs _ _).mpr ⟨hj, hi⟩)
        simp only [Bool.false_eq_true, if_false]
        rw [he]
        exact ⟨e, rfl⟩

/-- the integer part of a fraction -/
def natOf (q : ℚ) : Nat := q.num.toNat / q.den

/-- a file of two spectra -/
def demo : File ℚ := ⟨[c!"# L TT ET", c!"2 10 1", c!"3 20 2", c!"4 30 3"], [[2, 10, 1], [3, 20, 2], [4, 30, 3]]⟩

example : (loadFromFile natOf (empty [c!"T", c!"E"]) demo none false).toOption.map (fun s => ([s.lmin, s.lmax], [s.arr 0 0, s.arr 1 0, s.arr 1 1])) =
    some ([2, 4], [some [0, 0, 10, 20, 30], some [0, 0, 1, 2, 3], none]) := by decide +kernel

/-- the full statement: whatever is read is at its multipole -/
def ByMultipole : Prop := ∀ (f : File ℚ) (hdr : List Str) (s' : Cls ℚ), readWithHeader f = .ok (hdr, f.rows) →
  loadFromFile natOf (empty [c!"T"]) f none false = .ok s' → ∀ r ∈ f.rows, ∀ l, s'.arr 0 0 = some l → l[ell natOf hdr r]? = r[hdr.idxOf c!"TT"]?

/-- the values are placed by the number of their row (lines 105-106): with rows out of order they are at other multipoles, without an error -/
theorem row_order_fails : ¬ ByMultipole := by
  intro h
  have := h ⟨[c!"#L TT", c!"2 10"], [[2, 10], [4, 30], [3, 20], [5, 40]]⟩ [c!"L", c!"TT"] _ rfl rfl [4, 30] (by decide +kernel) [0, 0, 10, 30, 20, 40] (by decide +kernel)
  exact absurd this (by decide +kernel)

/-- the full statement: adding the spectra of a file to an empty array gives the values of the file -/
def AddToEmpty : Prop := ∀ (f : File ℚ) (s' s2 : Cls ℚ), loadFromFile natOf (empty [c!"T"]) f none true = .ok s' →
  loadFromFile natOf (empty [c!"T"]) f none false = .ok s2 → s'.arr 0 0 = s2.arr 0 0

/-- `add_from_file` of an array without spectra cuts every spectrum after its first value (line 107 with `lmax` 0 of line 56) -/
theorem add_to_empty_fails : ¬ AddToEmpty := by
  intro h
  have := h ⟨[c!"#L TT", c!"2 10"], [[2, 10], [3, 30]]⟩ _ _ rfl rfl
  exact absurd this (by decide +kernel)

/-- the full statement: after reading a file all spectra go up to its last multipole -/
def SameRange : Prop := ∀ (f g : File ℚ) (s s' : Cls ℚ), loadFromFile natOf (empty [c!"T", c!"E"]) f none false = .ok s →
  loadFromFile natOf s g none false = .ok s' → ∀ i j l, s'.arr i j = some l → l.length = s'.lmax + 1

/-- a second `loadFromFile` keeps the spectra that its file does not have, with the length of the first file (lines 91-93) -/
theorem reload_fails : ¬ SameRange := by
  intro h
  have := h ⟨[c!"#L EE", c!"2 10"], [[2, 10], [3, 30], [4, 5]]⟩ ⟨[c!"#L TT", c!"2 10"], [[2, 10], [3, 30]]⟩ _ _ rfl rfl 1 1 [0, 0, 10, 30, 5] (by decide +kernel)
  exact absurd this (by decide +kernel)

/-- the full statement: a theory file that ends before the last multipole of the likelihood is refused -/
def ShortTheory : Prop := ∀ (lo hi : Nat) (l : List ℚ), l.length < hi + 1 → ∃ e, theoryCl lo hi (some l) = .error e

/-- when the theory ends at the first multipole of the likelihood, this one value is used for all multipoles (line 585) -/
theorem short_theory_fails : ¬ ShortTheory := by
  intro h
  obtain ⟨e, he⟩ := h 2 5 [0, 0, 7] (by decide)
  have : theoryCl 2 5 (some [0, 0, (7 : ℚ)]) = .ok [7, 7, 7, 7] := by decide +kernel
  rw [this] at he
  cases he

/-! ## Rescaling -/

theorem mem_four (p : Nat × Nat) : p ∈ fourPairs ↔ p.1 < 4 ∧ p.2 < 4 := by
  obtain ⟨a, b⟩ := p
  unfold fourPairs
  simp

theorem rescale_ok [Mul K] (s : Cls K) (c : K) (h : 4 ≤ s.names.length) :
    rescale s c = .ok { s with arr := fun i j => if i < 4 ∧ j < 4 then (s.arr i j).map (fun l => l.map (fun x => x * c)) else s.arr i j } := by
  unfold rescale
  rw [foldlM_pairs (scalePair s.names.length c) s.arr (fun p => (s.arr p.1 p.2).map (fun l => l.map (fun x => x * c))) fourPairs s.arr (by decide)
    (fun _ _ => rfl) ?_]
  · show Except.ok _ = _
    congr 2
    funext i j
    simp only [mem_four]
  · intro p hp a ha
    have hp' := (mem_four p).mp hp
    unfold scalePair
    rw [if_pos (by omega), ha]
    cases hs : s.arr p.1 p.2 with
    | some l => rfl
    | none =>
      simp only [Option.map_none]
      congr 1
      funext i j
      split
      · rename_i he
        rw [he.1, he.2, ha, hs]
      · rfl

/-- with the four standard fields every spectrum is multiplied by the factor -/
theorem rescale_spec [Mul K] (s : Cls K) (c : K) (h : s.names.length = 4) :
    ∃ s', rescale s c = .ok s' ∧ s'.names = s.names ∧ s'.lmin = s.lmin ∧ s'.lmax = s.lmax ∧
      ∀ i j, i < s.names.length → j < s.names.length → (s.arr i j = none → s'.arr i j = none) ∧
        ∀ l, s.arr i j = some l → ∃ l', s'.arr i j = some l' ∧ l'.length = l.length ∧ ∀ (k : Nat) (x : K), l[k]? = some x → l'[k]? = some (x * c) := by
  refine ⟨_, rescale_ok s c (by omega), rfl, rfl, rfl, ?_⟩
  intro i j hi hj
  simp only []
  rw [if_pos (by omega)]
  refine ⟨fun hn => by rw [hn]; rfl, fun l hl => ⟨l.map (fun x => x * c), by rw [hl]; rfl, by simp, ?_⟩⟩
  intro k x hk
  rw [List.getElem?_map, hk]
  rfl

/-- the full statement: any spectrum of any fields is multiplied -/
def RescaleAll : Prop := ∀ (s : Cls ℚ) (c : ℚ), ∃ s', rescale s c = .ok s' ∧ ∀ i j, i < s.names.length → j < s.names.length →
  s'.arr i j = (s.arr i j).map (fun l => l.map (fun x => x * c))

/-- with fewer than four fields a factor is an error (lines 73-75) -/
theorem rescale_few_fails [Mul K] (s : Cls K) (c : K) (h : s.names.length < 4) : ∃ e, rescale s c = .error e := by
  obtain ⟨e, he⟩ := foldlM_error (scalePair s.names.length c) (3, 3) (fun a => ⟨.shape, by unfold scalePair; rw [if_neg (by simp; omega)]⟩) fourPairs s.arr (by decide)
  exact ⟨e, by unfold rescale; rw [he]; rfl⟩

/-- with a fifth field its spectra are not multiplied -/
theorem rescale_more_fails [Mul K] (s : Cls K) (c : K) (h : 5 ≤ s.names.length) : ∃ s', rescale s c = .ok s' ∧ s'.arr 4 4 = s.arr 4 4 :=
  ⟨_, rescale_ok s c (by omega), rfl⟩

theorem rescale_fails : ¬ RescaleAll := by
  intro h
  obtain ⟨s', hs, _⟩ := h (empty [c!"T"]) 2
  obtain ⟨e, he⟩ := rescale_few_fails (empty [c!"T"]) (2 : ℚ) (by decide)
  rw [he] at hs
  cases hs

example : (rescale (⟨[c!"T", c!"E", c!"B", c!"P"], fun i j => if i = 1 ∧ j = 0 then some [1, 2] else none, 2, 3⟩ : Cls ℚ) 3).toOption.map
    (fun s => (s.arr 1 0, s.arr 0 0)) = some (some [3, 6], none) := by decide +kernel

/-! ## Windows -/

section windows
variable [Zero K] [DecidableEq K]

/-- the rows of a window file: a multipole and `n` weights, each multipole once -/
structure WindowFile (int : K → Nat) (n : Nat) (rows : List (List K)) : Prop where
  two : 2 ≤ rows.length
  width : ∀ r ∈ rows, r.length = n + 1
  once : (rows.map (fun r => int (r.headD 0))).Nodup

theorem windowRows (int : K → Nat) (n lmin lmax : Nat) : ∀ (rows : List (List K)) (w : Window K), (∀ r ∈ rows, r.length = n + 1) →
    (rows.map (fun r => int (r.headD 0))).Nodup →
    ∃ w', rows.foldlM (windowRow int n lmin lmax) w = .ok w' ∧
      (∀ r ∈ rows, lmin ≤ int (r.headD 0) → int (r.headD 0) ≤ lmax → ∀ i < n, w'.mat i (int (r.headD 0) - lmin) = r.getD (i + 1) 0) ∧
      (∀ i k, (∀ r ∈ rows, int (r.headD 0) ≠ lmin + k) → w'.mat i k = w.mat i k) ∧
      (w'.err = true ↔ w.err = true ∨ ∃ r ∈ rows, ¬ (lmin ≤ int (r.headD 0) ∧ int (r.headD 0) ≤ lmax) ∧ ∃ x ∈ r.tail, x ≠ 0)
  | [], w, _, _ => ⟨w, rfl, by simp, by simp, by simp⟩
  | r :: rows, w, hw, hnd => by
    have hlen := hw r (by simp)
    have hnd' := List.nodup_cons.mp (show (int (r.headD 0) :: rows.map (fun r => int (r.headD 0))).Nodup from hnd)
    cases r with
    | nil => simp at hlen
    | cons l ws =>
      have hwl : ws.length = n := by simpa using hlen
      rw [List.foldlM_cons]
      simp only [List.headD_cons, List.mem_map, not_exists, not_and] at hnd'
      by_cases hin : lmin ≤ int l ∧ int l ≤ lmax
      · have hstep : windowRow int n lmin lmax w (l :: ws) = .ok { w with mat := fun i k => if i < n ∧ k = int l - lmin then ws.getD i 0 else w.mat i k } := by
          unfold windowRow
          simp only []
          rw [if_pos hin]
          unfold weights
          rw [if_pos hwl]
          rfl
        rw [hstep]
        obtain ⟨w', h1, h2, h3, h4⟩ := windowRows int n lmin lmax rows { w with mat := fun i k => if i < n ∧ k = int l - lmin then ws.getD i 0 else w.mat i k }
          (fun q hq => hw q (by simp [hq])) hnd'.2
        refine ⟨w', h1, ?_, ?_, ?_⟩
        · intro q hq ha hb i hi
          rcases List.mem_cons.mp hq with rfl | hq
          · simp only [List.headD_cons]
            rw [h3 i (int l - lmin) (fun q hq he => hnd'.1 q hq (by omega))]
            simp [hi]
          · exact h2 q hq ha hb i hi
        · intro i k hk
          rw [h3 i k (fun q hq => hk q (by simp [hq]))]
          simp only []
          rw [if_neg]
          intro h
          exact hk (l :: ws) (by simp) (by simp only [List.headD_cons]; omega)
        · rw [h4]
          constructor
          · rintro (h | ⟨q, hq, h⟩)
            · exact Or.inl h
            · exact Or.inr ⟨q, by simp [hq], h⟩
          · rintro (h | ⟨q, hq, hn, h⟩)
            · exact Or.inl h
            · rcases List.mem_cons.mp hq with rfl | hq
              · exact absurd hin hn
              · exact Or.inr ⟨q, hq, hn, h⟩
      · have hstep : windowRow int n lmin lmax w (l :: ws) = .ok { w with err := w.err || ws.any (fun x => decide (x ≠ 0)) } := by
          unfold windowRow
          simp only []
          rw [if_neg hin]
        rw [hstep]
        obtain ⟨w', h1, h2, h3, h4⟩ := windowRows int n lmin lmax rows { w with err := w.err || ws.any (fun x => decide (x ≠ 0)) }
          (fun q hq => hw q (by simp [hq])) hnd'.2
        refine ⟨w', h1, ?_, ?_, ?_⟩
        · intro q hq ha hb i hi
          rcases List.mem_cons.mp hq with rfl | hq
          · exact absurd ⟨ha, hb⟩ hin
          · exact h2 q hq ha hb i hi
        · intro i k hk
          exact h3 i k (fun q hq => hk q (by simp [hq]))
        · rw [h4]
          simp only [Bool.or_eq_true, List.any_eq_true, decide_eq_true_eq]
          constructor
          · rintro ((h | ⟨x, hx, h0⟩) | ⟨q, hq, h⟩)
            · exact Or.inl h
            · exact Or.inr ⟨l :: ws, by simp, hin, x, hx, h0⟩
            · exact Or.inr ⟨q, by simp [hq], h⟩
          · rintro (h | ⟨q, hq, hn, x, hx, h0⟩)
            · exact Or.inl (Or.inl h)
            · rcases List.mem_cons.mp hq with rfl | hq
              · exact Or.inl (Or.inr ⟨x, hx, h0⟩)
              · exact Or.inr ⟨q, hq, hn, x, hx, h0⟩

/-- what a window file has to say about `mat`: its weights at its multipoles, zero at those without a row -/
def IsWindow (int : K → Nat) (n lmin lmax : Nat) (rows : List (List K)) (mat : Nat → Nat → K) : Prop :=
  (∀ r ∈ rows, lmin ≤ int (r.headD 0) → int (r.headD 0) ≤ lmax → ∀ i < n, mat i (int (r.headD 0) - lmin) = r.getD (i + 1) 0) ∧
  ∀ i k, (∀ r ∈ rows, int (r.headD 0) ≠ lmin + k) → mat i k = 0

/-- some weight outside the multipoles of the likelihood is lost -/
def Lost (int : K → Nat) (lmin lmax : Nat) (rows : List (List K)) : Prop :=
  ∃ r ∈ rows, ¬ (lmin ≤ int (r.headD 0) ∧ int (r.headD 0) ≤ lmax) ∧ ∃ x ∈ r.tail, x ≠ 0

theorem readWindow_spec (int : K → Nat) (n lmin lmax : Nat) (rows : List (List K)) (h : WindowFile int n rows) :
    ∃ w, readWindow int n lmin lmax rows = .ok w ∧ IsWindow int n lmin lmax rows w.mat ∧ (w.err = true ↔ Lost int lmin lmax rows) := by
  obtain ⟨w, h1, h2, h3, h4⟩ := windowRows int n lmin lmax rows ⟨fun _ _ => 0, false⟩ h.width h.once
  refine ⟨w, ?_, ⟨h2, h3⟩, by rw [h4]; simp [Lost]⟩
  unfold readWindow
  rw [if_neg (by have := h.two; omega)]
  exact h1

/-- reading the windows of the bins: bin `b` has the weights of the file with number `binMin + b + 1`, and there is a warning for it just when
some of its weights are lost -/
theorem windows_spec (int : K → Nat) (n lmin lmax binMin nbins : Nat) (files : Nat → List (List K)) (h : ∀ b < nbins, WindowFile int n (files (binMin + b + 1))) :
    ∃ W, readBinWindows int n n lmin lmax binMin nbins files = .ok W ∧
      ∀ b < nbins, IsWindow int n lmin lmax (files (binMin + b + 1)) (fun i k => W.mat i b k) ∧
        ((∃ x ∈ W.warnings, x.bin = b) ↔ Lost int lmin lmax (files (binMin + b + 1))) := by
  unfold readBinWindows
  rw [if_neg (by simp)]
  have key : ∀ m ≤ nbins, ∃ W, (List.range m).foldlM (readBin int n lmin lmax binMin files) ⟨fun _ _ _ => 0, []⟩ = .ok W ∧
      (∀ x ∈ W.warnings, x.bin < m) ∧
      ∀ b < m, IsWindow int n lmin lmax (files (binMin + b + 1)) (fun i k => W.mat i b k) ∧
        ((∃ x ∈ W.warnings, x.bin = b) ↔ Lost int lmin lmax (files (binMin + b + 1))) := by
    intro m
    induction m with
    | zero => intro _; exact ⟨_, rfl, by simp, by simp⟩
    | succ m ih =>
      intro hm
      obtain ⟨W, h1, h2, h3⟩ := ih (by omega)
      obtain ⟨w, hw, hiw, hl⟩ := readWindow_spec int n lmin lmax (files (binMin + m + 1)) (h m (by omega))
      rw [List.range_succ, List.foldlM_append, h1]
      refine ⟨⟨fun i b' k => if b' = m then w.mat i k else W.mat i b' k, if w.err then W.warnings ++ [⟨m, m + 1⟩] else W.warnings⟩, ?_, ?_, ?_⟩
      · show (readBin int n lmin lmax binMin files W m >>= _) = _
        unfold readBin
        rw [show m + 1 + binMin = binMin + m + 1 by omega, hw]
        rfl
      · intro x hx
        simp only [] at hx
        split at hx
        · rcases List.mem_append.mp hx with hx | hx
          · have := h2 x hx; omega
          · simp only [List.mem_singleton] at hx; rw [hx]; simp
        · have := h2 x hx; omega
      · intro b hb
        by_cases he : b = m
        · subst he
          refine ⟨by simpa using hiw, ?_⟩
          rw [← hl]
          simp only []
          cases hwe : w.err with
          | true => simp
          | false =>
            simp only [Bool.false_eq_true, if_false, iff_false]
            rintro ⟨x, hx, hxb⟩
            have := h2 x hx
            omega
        · obtain ⟨h4, h5⟩ := h3 b (by omega)
          refine ⟨by simpa [he] using h4, ?_⟩
          rw [← h5]
          simp only []
          split
          · constructor
            · rintro ⟨x, hx, hxb⟩
              rcases List.mem_append.mp hx with hx | hx
              · exact ⟨x, hx, hxb⟩
              · simp only [List.mem_singleton] at hx
                rw [hx] at hxb
                exact absurd hxb.symm he
            · rintro ⟨x, hx, hxb⟩
              exact ⟨x, List.mem_append_left _ hx, hxb⟩
          · rfl
  obtain ⟨W, h1, _, h3⟩ := key nbins (le_refl _)
  exact ⟨W, h1, h3⟩

/-- orders of different lengths are refused -/
theorem windows_orders (int : K → Nat) (nIn nOut lmin lmax binMin nbins : Nat) (files : Nat → List (List K)) (h : nIn ≠ nOut) :
    readBinWindows int nIn nOut lmin lmax binMin nbins files = .error .orderCount := by
  unfold readBinWindows
  rw [if_pos h]

end windows

example : (readBinWindows natOf 2 2 2 3 0 1 (fun _ => [[2, 5, 6], [3, 7, (8 : ℚ)], [4, 0, 1]])).toOption.map
    (fun W => ([W.mat 0 0 0, W.mat 1 0 0, W.mat 0 0 1, W.mat 1 0 1], W.warnings.length)) = some ([5, 6, 7, 8], 1) := by decide +kernel

/-- the full statement: a warning shows the file of which weights are lost -/
def WarningFile : Prop := ∀ (n lmin lmax binMin nbins : Nat) (files : Nat → List (List ℚ)) (W : Windows ℚ),
  readBinWindows natOf n n lmin lmax binMin nbins files = .ok W → ∀ x ∈ W.warnings, Lost natOf lmin lmax (files x.file)

/-- with `use_min` above 1 the warning shows another file (line 299: `b + 1` without `bin_min`) -/
theorem warning_file_fails : ¬ WarningFile := by
  intro h
  have := h 1 2 3 3 1 (fun k => if k = 4 then [[2, 1], [9, 1]] else [[2, 1], [3, 1]]) _ rfl ⟨0, 1⟩ (by decide +kernel)
  obtain ⟨r, hr, hn, _⟩ := this
  have : ∀ r ∈ ([[2, 1], [3, 1]] : List (List ℚ)), 2 ≤ natOf (r.headD 0) ∧ natOf (r.headD 0) ≤ 3 := by decide +kernel
  exact hn (this r (by simpa using hr))

/-- the full statement: a window file has a weight for each spectrum -/
def WindowWidth : Prop := ∀ (n lmin lmax : Nat) (rows : List (List ℚ)) (w : Window ℚ), readWindow natOf n lmin lmax rows = .ok w →
  ∀ r ∈ rows, r.length = n + 1

/-- a file with one column of weights is used for all spectra (line 296: numpy repeats a single value) -/
theorem window_width_fails : ¬ WindowWidth := by
  intro h
  have := h 3 2 3 [[2, 1], [3, 1]] _ rfl [2, 1] (by simp)
  simp at this

/-- the full statement: each multipole of a window has one row -/
def WindowOnce : Prop := ∀ (n lmin lmax : Nat) (rows : List (List ℚ)) (w : Window ℚ), readWindow natOf n lmin lmax rows = .ok w →
  (rows.map (fun r => natOf (r.headD 0))).Nodup

/-- a multipole given twice has the weights of its last row (line 296 sets, it does not add) -/
theorem window_twice_fails : ¬ WindowOnce := by
  intro h
  have := h 1 2 3 [[2, 1], [2, 5]] _ rfl
  exact absurd this (by decide +kernel)

/-- the files that are read are those with the numbers from `use_min` to `use_max` -/
theorem bins_read (nbins : Int) (useMin useMax : Option Int) (a b : Int) (ha : useMin.getD 1 = a) (hb : useMax.getD nbins = b) (hab : a ≤ b) (h1 : 1 ≤ a) :
    ∃ m u : Nat, binRange nbins useMin useMax = ((m : Int), b - 1, (u : Int)) ∧ (List.range u).map (fun k : Nat => k + 1 + m) = List.range' a.toNat (b - a + 1).toNat := by
  refine ⟨(a - 1).toNat, (b - a + 1).toNat, ?_, ?_⟩
  · unfold binRange
    rw [ha, hb]
    simp only []
    rw [Int.toNat_of_nonneg (by omega), Int.toNat_of_nonneg (by omega)]
    congr 2
    omega
  · apply List.ext_getElem?
    intro k
    rw [List.getElem?_map]
    by_cases hk : k < (b - a + 1).toNat
    · rw [List.getElem?_range hk, List.getElem?_range' hk]
      simp only [Option.map_some]
      congr 1
      omega
    · rw [List.getElem?_eq_none (by simp; omega), List.getElem?_eq_none (by simp; omega)]
      rfl

example : binRange 9 (some 3) none = (2, 8, 7) := by decide

/-! ## Writing -/

theorem at_error (n : Nat) (b : Nat) : (Limit.number n).at b = .error .type := rfl

/-- the full statement: windows that were read can be written -/
def WritesWindows : Prop := ∀ (froot stem : Str) (lmin lmax nbins : Nat) (d : Disk), ∃ d', writeWindows froot stem (.number lmin) (.number lmax) nbins d = .ok d'

/-- windows that were read can never be written: `lmin` and `lmax` are numbers, and line 134 takes their elements -/
theorem write_windows_fails (froot stem : Str) (lmin lmax nbins : Nat) (d : Disk) (h : 0 < nbins) :
    ∃ e, writeWindows froot stem (.number lmin) (.number lmax) nbins d = .error e := by
  unfold writeWindows
  refine foldlM_error _ 0 (fun s => ?_) _ _ (List.mem_range.mpr h)
  unfold writeBin
  split
  · exact ⟨_, rfl⟩
  · exact ⟨_, rfl⟩

theorem no_writesWindows : ¬ WritesWindows := by
  intro h
  obtain ⟨d, hd⟩ := h [] [] 2 3 1 ⟨[], []⟩
  obtain ⟨e, he⟩ := write_windows_fails [] [] 2 3 1 ⟨[], []⟩ (by decide)
  rw [he] at hd
  cases hd

example (d : Disk) : ∃ e, writeWindows c!"root" c!"window" (.number 2) (.number 30) 5 d = .error e := write_windows_fails _ _ 2 30 5 d (by decide)

/-- the directory that is made is not the one the files are opened in (line 132) -/
theorem write_directory_fails (froot stem : Str) (lmin lmax : Limit) (nbins : Nat) (d : Disk) (h : 0 < nbins) (hs : stem ≠ [])
    (hd : froot ++ stem ++ c!"_window" ∉ d.dirs) : ∃ e, writeWindows froot stem lmin lmax nbins d = .error e := by
  unfold writeWindows
  simp only []
  rw [if_neg hd]
  cases nbins with
  | zero => omega
  | succ n =>
    rw [List.range_succ_eq_map, List.foldlM_cons]
    have hne : froot ++ stem ++ c!"_window" ∉ d.dirs ++ [froot ++ c!"_window"] := by
      intro h
      rcases List.mem_append.mp h with h | h
      · exact hd h
      · rw [List.mem_singleton, List.append_assoc] at h
        have h2 := List.append_cancel_left h
        have := congrArg List.length h2
        rw [List.length_append] at this
        cases stem with
        | nil => exact hs rfl
        | cons a t => simp at this
    unfold writeBin
    simp only []
    rw [if_pos hne]
    exact ⟨_, rfl⟩

theorem dataLine_error (n : Nat) : dataLine n = .error .format := by
  unfold dataLine formats
  have : ∀ k s, conversions (k + 1) (c!"%I5 " ++ s) = .error .format := fun k s => rfl
  have hlen : ∃ k, (c!"%I5 " ++ times c!"%17.8e " n).length = k + 1 := ⟨3 + (times c!"%17.8e " n).length, by rw [List.length_append]; show 4 + _ = _; omega⟩
  obtain ⟨k, hk⟩ := hlen
  rw [hk, this]
  rfl

/-- the full statement: the table of foregrounds is written -/
def WritesData : Prop := ∀ (ncols lmin lmax : Nat), writeData ncols lmin lmax = .ok (lmax + 1 - lmin)

/-- `write_likelihood_data` never writes a line of numbers: `%I5` is not a format (line 640) -/
theorem write_data_fails (ncols lmin lmax : Nat) (h : lmin ≤ lmax) : ∃ e, writeData ncols lmin lmax = .error e := by
  unfold writeData
  refine foldlM_error _ 0 (fun s => ⟨.format, ?_⟩) _ _ (List.mem_range.mpr (by omega))
  rw [dataLine_error]
  rfl

theorem no_writesData : ¬ WritesData := by
  intro h
  obtain ⟨e, he⟩ := write_data_fails 1 2 3 (by decide)
  rw [h 1 2 3] at he
  cases he

example : ∃ e, writeData 3 2 30 = .error e := write_data_fails 3 2 30 (by decide)

/-- the formats of numbers themselves are fine: `%5u %17.8e` takes two numbers -/
example : formats c!"%5u %17.8e\n" 2 = .ok () := by decide +kernel
/-- while the line of a window has three places for two values -/
example : windowLine = .error .format := by decide +kernel

/-! ## Calibration -/

/-- which parameter calibrates: the one named beside nuisance parameters, else the first of the file given for it, else none -/
theorem calibration_spec (c : CalCfg) (p : Option Str) (h : calibrationParam c = .ok p) :
    (c.nuisance = true → c.calKey = false ∧ p = c.calName) ∧
    (c.nuisance = false → c.calFile = [] → p = none) ∧
    (c.nuisance = false → c.calFile ≠ [] → (∃ a b, c.calFile = a ++ c!".paramnames" ++ b) ∧ p = c.params.head? ∧ c.params ≠ []) := by
  unfold calibrationParam at h
  split at h
  · rename_i hn
    split at h
    · cases h
    · rename_i hk
      cases h
      exact ⟨fun _ => ⟨by simpa using hk, rfl⟩, by simp [hn], by simp [hn]⟩
  · rename_i hn
    have hn' : c.nuisance = false := by simpa using hn
    split at h
    · rename_i hf
      split at h
      · rename_i hi
        obtain ⟨a, b, hab⟩ := hi
        split at h
        · rename_i q ps hp
          cases h
          exact ⟨fun h => absurd h hn, fun _ h => absurd h hf, fun _ _ => ⟨⟨a, b, hab.symm⟩, by rw [hp]; rfl, by rw [hp]; simp⟩⟩
        · cases h
      · cases h
    · rename_i hf
      cases h
      exact ⟨fun h => absurd h hn, fun _ _ => rfl, fun _ h => absurd (by simpa using hf) h⟩

/-- the prior is zero at calibration one and never negative -/
theorem prior_nonneg [Field K] [LinearOrder K] [IsStrictOrderedRing K] (log : K → K) (prior : K) (calib : Option Str) (data : Dict Str K) (x : K)
    (h : priorTerm log prior calib data = .ok x) : 0 ≤ x ∧ (∀ p, calib = some p → data.get? p = some 1 → log 1 = 0 → x = 0) ∧ (¬ prior > 0 → x = 0) := by
  unfold priorTerm at h
  split at h
  · rename_i hp
    cases calib with
    | none => cases h
    | some p =>
      simp only [] at h
      cases hd : data.get? p with
      | none => rw [hd] at h; cases h
      | some c =>
        rw [hd] at h
        cases h
        refine ⟨mul_self_nonneg _, ?_, fun hn => absurd hp hn⟩
        intro q hq hg h1
        cases hq
        rw [hd] at hg
        cases hg
        rw [h1]
        simp
  · cases h
    exact ⟨le_refl _, fun _ _ _ _ => rfl, fun _ => rfl⟩

example : priorTerm (fun x : ℚ => x - 1) (1 / 2) (some c!"cal") [(c!"cal", 3)] = .ok 16 ∧ priorTerm (fun x : ℚ => x - 1) 0 (some c!"cal") [(c!"cal", 3)] = .ok 0 := by decide +kernel

/-- the full statement: leaving out the calibration is the same as calibration one -/
def CalibrationDefault : Prop := ∀ (p : Str) (prior : ℚ) (data : Dict Str ℚ), data.get? p = none →
  priorTerm (fun x => x - 1) prior (some p) data = priorTerm (fun x => x - 1) prior (some p) ((p, 1) :: data)

/-- without the parameter the spectra are not scaled (line 593), and with a prior the likelihood is a KeyError (line 715) -/
theorem calibration_default_fails : ¬ CalibrationDefault := by
  intro h
  have := h c!"calPlanck" 1 [] rfl
  exact absurd this (by decide +kernel)

theorem calibration_default_partial [Field K] [LinearOrder K] [IsStrictOrderedRing K] (log : K → K) (p : Str) (prior : K) (data : Dict Str K) (h : data.get? p = none) (hp : ¬ prior > 0) :
    calibrationOf (some p) data = calibrationOf (some p) ((p, (1 : K)) :: data) ∧ priorTerm log prior (some p) data = priorTerm log prior (some p) ((p, (1 : K)) :: data) := by
  unfold calibrationOf priorTerm
  simp only [h, Dict.get?_cons, if_pos, if_neg hp, mul_one, and_self]

example : calibrationOf (some c!"cal") [(c!"x", (3 : ℚ))] = 1 ∧ calibrationOf (some c!"cal") [(c!"cal", (3 : ℚ))] = 9 := by decide +kernel

example : calibrationParam ⟨false, true, none, c!"data/cal.paramnames", [c!"calPlanck", c!"other"], none⟩ = .ok (some c!"calPlanck") := by decide +kernel

/-! ## Plots -/

/-- `diag_sigma` of a square matrix: the root of each diagonal element -/
theorem diagSigma_spec (sqrt : K → K) (cov : List (List K)) (h : ∀ r ∈ cov, r.length = cov.length) :
    (diagSigma sqrt cov).length = cov.length ∧ ∀ (i : Nat) (r : List K) (x : K), cov[i]? = some r → r[i]? = some x → (diagSigma sqrt cov)[i]? = some (sqrt x) := by
  have hd : ∀ m ≤ cov.length, ((List.range m).filterMap (fun i => (cov[i]?).bind (fun r => r[i]?))).length = m ∧
      ∀ i < m, ((List.range m).filterMap (fun i => (cov[i]?).bind (fun r => r[i]?)))[i]? = (cov[i]?).bind (fun r => r[i]?) := by
    intro m
    induction m with
    | zero => intro _; simp
    | succ m ih =>
      intro hm
      obtain ⟨h1, h2⟩ := ih (by omega)
      have hmc : m < cov.length := by omega
      have hr : m < (cov[m]).length := by rw [h _ (List.getElem_mem hmc)]; exact hmc
      have hval : (cov[m]?).bind (fun r => r[m]?) = some (cov[m])[m] := by
        rw [List.getElem?_eq_getElem hmc]
        simp only [Option.bind_some]
        rw [List.getElem?_eq_getElem hr]
      rw [List.range_succ, List.filterMap_append]
      have hs : [m].filterMap (fun i => (cov[i]?).bind (fun r => r[i]?)) = [(cov[m])[m]] := by
        rw [List.filterMap_cons, hval]
        rfl
      rw [hs]
      refine ⟨by rw [List.length_append, h1]; rfl, ?_⟩
      intro i hi
      rw [List.getElem?_append, h1]
      split
      · exact h2 i (by assumption)
      · have : i = m := by omega
        subst this
        rw [hval, Nat.sub_self]
        rfl
  obtain ⟨h1, h2⟩ := hd cov.length (le_refl _)
  refine ⟨by unfold diagSigma; rw [List.length_map, h1], ?_⟩
  intro i r x hr hx
  unfold diagSigma
  rw [List.getElem?_map, h2 i (List.getElem?_eq_some_iff.mp hr).1, hr]
  simp only [Option.bind_some]
  rw [hx]
  rfl

/-- `get_full_bandpower_column` gives the column with this name -/
theorem bandColumn_spec (hdr : List Str) (rows : List (List K)) (name : Str) (z : K) (hn : name ∈ hdr) (h2 : 2 ≤ rows.length) (hrect : ∀ r ∈ rows, r.length = hdr.length) :
    ∃ ix, hdr[ix]? = some name ∧ bandColumn hdr rows name = .ok (rows.map (fun r => r.getD ix z)) := by
  have hlt := List.idxOf_lt_length_of_mem hn
  refine ⟨hdr.idxOf name, by rw [List.getElem?_eq_getElem hlt, List.getElem_idxOf], ?_⟩
  unfold bandColumn indexOf
  rw [if_pos hn]
  exact column_ok rows _ z h2 (fun r hr => by rw [hrect r hr]; exact hlt)

example : bandColumn [c!"L", c!"PP"] [[1, 5], [2, (6 : ℚ)]] c!"PP" = .ok [5, 6] := by decide +kernel

/-- the full statement: `plotAndChisq` draws the theory it is given -/
def DrawsTheory : Prop := ∀ (hdr : List Str) (rows : List (List ℚ)) (sigma : List ℚ) (c : Cls ℚ) (d : Drawn ℚ),
  plotCall hdr rows sigma [.cls c] = .ok d → d.curve = true

/-- the theory is never drawn: in the call of line 727 the spectra are the argument `column` -/
theorem draws_theory_fails : ¬ DrawsTheory := by
  intro h
  have := h [c!"L_av", c!"PP"] [[10, 1], [20, 2]] [1, 1] (empty []) _ rfl
  cases this

theorem never_draws (hdr : List Str) (rows : List (List K)) (sigma : List K) (c : Cls K) (d : Drawn K) (h : plotCall hdr rows sigma [.cls c] = .ok d) :
    d.curve = false := by
  unfold plotCall plot at h
  simp only [bind, Except.bind] at h
  split at h
  · cases h
  · split at h
    · cases h
    · split at h
      · cases h
      · cases h
        rfl

/-- the full statement: the points that are drawn are those of the column asked for -/
def DrawsColumn : Prop := ∀ (hdr : List Str) (rows : List (List ℚ)) (sigma : List ℚ) (name : Str) (v : List ℚ) (d : Drawn ℚ),
  bandColumn hdr rows name = .ok v → plotCall hdr rows sigma [.name name] = .ok d → d.points.map (fun p => p.2.1) = v

/-- the points are those of `PP` whatever column is asked for (line 560) -/
theorem draws_column_fails : ¬ DrawsColumn := by
  intro h
  have := h [c!"L_av", c!"PP", c!"TT"] [[10, 1, 5], [20, 2, 6]] [1, 1] c!"TT" [5, 6] _ rfl rfl
  exact absurd this (by decide +kernel)

/-- the full statement: data with a covariance of several spectra can be drawn -/
def DrawsSeveral : Prop := ∀ (rows : List (List ℚ)) (cov : List (List ℚ)), 2 ≤ rows.length → (∀ r ∈ rows, r.length = 3) → cov.length = 2 * rows.length →
  (∀ r ∈ cov, r.length = cov.length) → ∃ d, plotCall [c!"L_av", c!"PP", c!"PT"] rows (diagSigma id cov) [] = .ok d

/-- the errors are those of all spectra of the covariance, so their number is that of the points just for one spectrum (lines 553, 558) -/
theorem draws_several_fails : ¬ DrawsSeveral := by
  intro h
  obtain ⟨d, hd⟩ := h [[10, 1, 5], [20, 2, 6]] [[1, 0, 0, 0], [0, 1, 0, 0], [0, 0, 1, 0], [0, 0, 0, 1]] (by decide) (by decide) rfl (by decide)
  have : plotCall [c!"L_av", c!"PP", c!"PT"] ([[10, 1, 5], [20, 2, 6]] : List (List ℚ)) (diagSigma id [[1, 0, 0, 0], [0, 1, 0, 0], [0, 0, 1, 0], [0, 0, 0, 1]]) []
    = .error .shape := rfl
  rw [this] at hd
  cases hd

example : diagSigma (fun x : ℚ => x / 2) [[4, 1], [1, 6]] = [2, 3] := by decide +kernel

end Verif.CMBFiles
