import Verif.Model.CovMat
import Verif.Lemmas.Split
import Mathlib.Data.List.Dedup

/-!
# Covariance matrix files: merging (C24), round trip and rescaling (C25)
-/

set_option linter.unusedSectionVars false

namespace Verif.Cov
open Verif.Py

variable {K : Type} [Field K] [LinearOrder K] [IsStrictOrderedRing K] [FloorRing K]

/-! ## Specification -/

/-- a square matrix for distinct parameters -/
structure Square (names : List Str) (rows : List (List K)) : Prop where
  nodup : names.Nodup
  height : rows.length = names.length
  cols : ∀ r ∈ rows, r.length = names.length

def Good (c : CovMat K) : Prop := ∃ rows, c.matrix = some (.mat rows) ∧ Square c.names rows

/-- entry `i, j` of a table -/
def get (rows : List (List K)) (i j : Nat) : Option K := (rows[i]?).bind (·[j]?)

/-- the covariance of two named parameters -/
def entry (c : CovMat K) (p q : Str) : Option K :=
  match c.matrix with
  | some (.mat rows) => get rows (c.names.idxOf p) (c.names.idxOf q)
  | _ => none

def Symmetric (c : CovMat K) : Prop := ∀ p q, p ∈ c.names → q ∈ c.names → entry c p q = entry c q p

/-! ## Tables -/

theorem get_some {names : List Str} {rows : List (List K)} (h : Square names rows) {i j : Nat} (hi : i < names.length)
    (hj : j < names.length) : ∃ x, get rows i j = some x := by
  have h1 : i < rows.length := by rw [h.height]; exact hi
  have h2 : j < (rows[i]).length := by rw [h.cols _ (List.getElem_mem h1)]; exact hj
  exact ⟨rows[i][j], by simp [get, List.getElem?_eq_getElem h1, List.getElem?_eq_getElem h2]⟩

theorem get_lt {rows : List (List K)} {n i j : Nat} (hr : rows.length = n) (hc : ∀ r ∈ rows, r.length = n) {x : K}
    (h : get rows i j = some x) : i < n ∧ j < n := by
  unfold get at h
  cases hi : rows[i]? with
  | none => rw [hi] at h; cases h
  | some r =>
    rw [hi] at h
    obtain ⟨h1, h2⟩ := List.getElem?_eq_some_iff.mp hi
    obtain ⟨h3, _⟩ := List.getElem?_eq_some_iff.mp (show r[j]? = some x from h)
    exact ⟨hr ▸ h1, by rw [← hc r (by rw [← h2]; exact List.getElem_mem h1)]; exact h3⟩

theorem at?_mat (rows : List (List K)) (i j : Nat) :
    at? (some (.mat rows)) i j = match get rows i j with | some x => .ok x | none => .error .indexError := by
  unfold at? get
  dsimp only
  cases rows[i]? with
  | none => rfl
  | some r =>
    simp only [Option.bind_some]
    cases r[j]? <;> rfl

/-- tables of the same shape with the same entries are equal -/
theorem table_ext {a b : List (List K)} {n : Nat} (ha : a.length = n) (hb : b.length = n)
    (hac : ∀ r ∈ a, r.length = n) (hbc : ∀ r ∈ b, r.length = n)
    (h : ∀ i j, i < n → j < n → get a i j = get b i j) : a = b := by
  apply List.ext_getElem (by omega)
  intro i h1 h2
  apply List.ext_getElem (by rw [hac _ (List.getElem_mem h1), hbc _ (List.getElem_mem h2)])
  intro j h3 h4
  have hj : j < n := by rw [← hac _ (List.getElem_mem h1)]; exact h3
  have := h i j (by omega) hj
  simp only [get, List.getElem?_eq_getElem h1, List.getElem?_eq_getElem h2, Option.bind, List.getElem?_eq_getElem h3,
    List.getElem?_eq_getElem h4, Option.some.injEq] at this
  exact this

theorem get_scaleCol (rows : List (List K)) (k : Nat) (s : K) (i j : Nat) :
    get (scaleCol rows k s) i j = (get rows i j).map (fun x => if j = k then x * s else x) := by
  unfold get scaleCol
  rw [List.getElem?_map]
  cases rows[i]? with
  | none => rfl
  | some r =>
    simp only [Option.map_some, Option.bind_some]
    rw [List.getElem?_modify]
    by_cases h : k = j
    · subst h; cases r[k]? <;> simp
    · cases r[j]? <;> simp [h, Ne.symm h]

theorem get_scaleRow (rows : List (List K)) (k : Nat) (s : K) (i j : Nat) :
    get (scaleRow rows k s) i j = (get rows i j).map (fun x => if i = k then x * s else x) := by
  unfold get scaleRow
  rw [List.getElem?_modify]
  by_cases h : k = i
  · subst h
    cases rows[k]? with
    | none => rfl
    | some r => simp [List.getElem?_map]
  · cases rows[i]? with
    | none => rfl
    | some r =>
      simp only [if_neg h, if_neg (Ne.symm h)]
      cases hr : r[j]? <;> simp [hr]

theorem square_scaleCol {names : List Str} {rows : List (List K)} (h : Square names rows) (k : Nat) (s : K) :
    Square names (scaleCol rows k s) :=
  ⟨h.nodup, by simp [scaleCol, h.height], by
    intro r hr
    obtain ⟨r', hr', rfl⟩ := List.mem_map.mp hr
    rw [List.length_modify]; exact h.cols r' hr'⟩

theorem square_scaleRow {names : List Str} {rows : List (List K)} (h : Square names rows) (k : Nat) (s : K) :
    Square names (scaleRow rows k s) :=
  ⟨h.nodup, by simp [scaleRow, h.height], by
    intro r hr
    obtain ⟨i, hi, rfl⟩ := List.getElem_of_mem hr
    unfold scaleRow at hi ⊢
    rw [List.length_modify] at hi
    rw [List.getElem_modify]
    split
    · rw [List.length_map]; exact h.cols _ (List.getElem_mem hi)
    · exact h.cols _ (List.getElem_mem hi)⟩

/-! ## Rescaling -/

theorem rescale_eq {c : CovMat K} {rows : List (List K)} (hm : c.matrix = some (.mat rows)) (hs : Square c.names rows)
    {p : Str} (hp : p ∈ c.names) (s : K) :
    rescale c p s = .ok { c with matrix := some (.mat (scaleRow (scaleCol rows (c.names.idxOf p) s) (c.names.idxOf p) s)) } := by
  have hi : c.names.idxOf p < c.names.length := List.idxOf_lt_length_iff.mpr hp
  unfold rescale
  rw [if_pos hp, hm]
  dsimp only
  rw [if_pos]
  refine ⟨by rw [hs.height]; exact hi, List.all_eq_true.mpr ?_⟩
  intro r hr
  rw [hs.cols r hr]
  exact decide_eq_true hi

/-- **C25**: rescaling a parameter multiplies its row and its column (so its variance twice), and nothing else. -/
theorem rescale_spec {c : CovMat K} (h : Good c) {p : Str} (hp : p ∈ c.names) (s : K) :
    ∃ c', rescale c p s = .ok c' ∧ Good c' ∧ c'.names = c.names ∧ c'.size = c.size ∧
      ∀ q r, q ∈ c.names → r ∈ c.names →
        entry c' q r = (entry c q r).map (fun x => x * (if q = p then s else 1) * (if r = p then s else 1)) := by
  obtain ⟨rows, hm, hs⟩ := h
  refine ⟨_, rescale_eq hm hs hp s, ⟨_, rfl, square_scaleRow (square_scaleCol hs _ _) _ _⟩, rfl, rfl, ?_⟩
  intro q r hq hr
  unfold entry
  rw [hm]
  dsimp only
  rw [get_scaleRow, get_scaleCol, Option.map_map]
  congr 1
  funext x
  simp only [Function.comp]
  have e1 : (c.names.idxOf q = c.names.idxOf p) ↔ q = p := List.idxOf_inj hq
  have e2 : (c.names.idxOf r = c.names.idxOf p) ↔ r = p := List.idxOf_inj hr
  simp only [e1, e2]
  by_cases h1 : q = p <;> by_cases h2 : r = p <;> simp [h1, h2]

/-- **C25**: rescaling twice is rescaling by the product; by one is doing nothing. -/
theorem rescale_rescale {c : CovMat K} (h : Good c) {p : Str} (hp : p ∈ c.names) (s t : K) :
    (rescale c p s).bind (fun c' => rescale c' p t) = rescale c p (s * t) := by
  obtain ⟨rows, hm, hs⟩ := h
  rw [rescale_eq hm hs hp s, rescale_eq hm hs hp (s * t)]
  have hs' := square_scaleRow (square_scaleCol hs (c.names.idxOf p) s) (c.names.idxOf p) s
  show rescale _ p t = _
  rw [rescale_eq (c := { c with matrix := some (.mat (scaleRow (scaleCol rows (c.names.idxOf p) s) (c.names.idxOf p) s)) })
    rfl hs' hp t]
  dsimp only
  congr 4
  have q1 := square_scaleRow (square_scaleCol hs' (c.names.idxOf p) t) (c.names.idxOf p) t
  have q2 := square_scaleRow (square_scaleCol hs (c.names.idxOf p) (s * t)) (c.names.idxOf p) (s * t)
  apply table_ext q1.height q2.height q1.cols q2.cols
  intro i j _ _
  simp only [get_scaleRow, get_scaleCol, Option.map_map]
  congr 1
  funext x
  simp only [Function.comp]
  split <;> split <;> ring

theorem rescale_one {c : CovMat K} (h : Good c) (p : Str) : rescale c p 1 = .ok c := by
  obtain ⟨rows, hm, hs⟩ := h
  by_cases hp : p ∈ c.names
  · rw [rescale_eq hm hs hp]
    have q := square_scaleRow (square_scaleCol hs (c.names.idxOf p) 1) (c.names.idxOf p) 1
    have e : scaleRow (scaleCol rows (c.names.idxOf p) 1) (c.names.idxOf p) 1 = rows := by
      apply table_ext q.height hs.height q.cols hs.cols
      intro i j _ _
      simp [get_scaleRow, get_scaleCol]
    rw [e, ← hm]
  · unfold rescale; rw [if_neg hp]

/-- **C25**: a symmetric matrix stays symmetric. -/
theorem rescale_symmetric {c c' : CovMat K} (h : Good c) (hsym : Symmetric c) {p : Str} {s : K} (hr : rescale c p s = .ok c') :
    Symmetric c' := by
  by_cases hp : p ∈ c.names
  · obtain ⟨c2, h1, _, h3, _, h5⟩ := rescale_spec h hp s
    rw [h1] at hr
    cases hr
    intro q r hq hr
    rw [h3] at hq hr
    rw [h5 q r hq hr, h5 r q hr hq, hsym q r hq hr]
    congr 1
    funext x
    ring
  · unfold rescale at hr
    rw [if_neg hp] at hr
    cases hr
    exact hsym

/-- rescaling an unknown parameter changes nothing -/
theorem rescale_unknown (c : CovMat K) {p : Str} (hp : p ∉ c.names) (s : K) : rescale c p s = .ok c := by
  unfold rescale; rw [if_neg hp]

/-! ## Merging -/

theorem mergeNames_append : ∀ {n2 n1 : List Str}, n2.Nodup → mergeNames n1 n2 = n1 ++ n2.filter (· ∉ n1)
  | [], n1, _ => by simp [mergeNames]
  | p :: n2, n1, h => by
    obtain ⟨hp, hn⟩ := List.nodup_cons.mp h
    unfold mergeNames
    rw [List.foldl_cons]
    by_cases hm : p ∈ n1
    · rw [if_pos hm]
      have := mergeNames_append (n1 := n1) hn
      unfold mergeNames at this
      rw [this, List.filter_cons_of_neg (by simpa using hm)]
    · rw [if_neg hm]
      have := mergeNames_append (n1 := n1 ++ [p]) hn
      unfold mergeNames at this
      rw [this, List.filter_cons_of_pos (by simpa using hm), List.append_assoc, List.singleton_append]
      congr 2
      apply List.filter_congr
      intro x hx
      have : x ≠ p := by rintro rfl; exact hp hx
      simp [this]

theorem indexMap_get {params : List Str} (h : params.Nodup) {p : Str} (hp : p ∈ params) :
    (indexMap params).get? p = some (params.idxOf p) := by
  have key : ∀ (l : List Str) (d : Dict Str Nat) (k : Nat), l.Nodup →
      ((l.zipIdx k).foldl (fun d p => Dict.set d p.1 p.2) d).get? p =
        if p ∈ l then some (k + l.idxOf p) else d.get? p := by
    intro l
    induction l with
    | nil => intro d k _; simp
    | cons a l ih =>
      intro d k hn
      obtain ⟨ha, hn'⟩ := List.nodup_cons.mp hn
      rw [List.zipIdx_cons, List.foldl_cons, ih _ _ hn']
      by_cases h1 : p = a
      · subst h1
        rw [if_neg ha, if_pos List.mem_cons_self, Dict.get?_set, if_pos rfl]
        simp
      · have hne : ¬ a = p := fun e => h1 e.symm
        by_cases h2 : p ∈ l
        · rw [if_pos h2, if_pos (List.mem_cons_of_mem _ h2), List.idxOf_cons_ne _ hne]
          congr 1; omega
        · rw [if_neg h2, if_neg (by simp [h1, h2]), Dict.get?_set, if_neg h1]
  unfold indexMap
  rw [key params [] 0 h, if_pos hp, Nat.zero_add]

theorem at?_entry {c : CovMat K} (h : Good c) {p q : Str} (hp : p ∈ c.names) (hq : q ∈ c.names) :
    ∃ x, entry c p q = some x ∧
      at? c.matrix (((indexMap c.names).get? p).getD 0) (((indexMap c.names).get? q).getD 0) = .ok x := by
  obtain ⟨rows, hm, hs⟩ := h
  obtain ⟨x, hx⟩ := get_some hs (List.idxOf_lt_length_iff.mpr hp) (List.idxOf_lt_length_iff.mpr hq)
  refine ⟨x, by unfold entry; rw [hm]; exact hx, ?_⟩
  rw [indexMap_get hs.nodup hp, indexMap_get hs.nodup hq, hm, at?_mat]
  simp only [Option.getD_some, hx]

/-- the value of one entry of a merged matrix -/
def Expected (c1 c2 : CovMat K) (p q : Str) : Option K :=
  if p ∈ c1.names ∧ q ∈ c1.names then entry c1 p q
  else if p ∈ c2.names ∧ q ∈ c2.names then entry c2 p q
  else some 0

theorem mergeEntry_ok {c1 c2 : CovMat K} (h1 : Good c1) (h2 : Good c2) (p q : Str) :
    ∃ x, Expected c1 c2 p q = some x ∧ mergeEntry c1 c2 p q = .ok x := by
  unfold Expected mergeEntry
  split
  · rename_i h; exact at?_entry h1 h.1 h.2
  · split
    · rename_i h; exact at?_entry h2 h.1 h.2
    · exact ⟨0, rfl, rfl⟩

theorem mapM_ok {α β : Type} {f : α → Except CErr β} : ∀ {l : List α} {g : α → β}, (∀ a ∈ l, f a = .ok (g a)) → l.mapM f = .ok (l.map g)
  | [], _, _ => rfl
  | a :: l, g, h => by
    rw [List.mapM_cons, h a List.mem_cons_self, mapM_ok (fun b hb => h b (List.mem_cons_of_mem _ hb))]
    rfl

theorem merge_eq {c1 c2 : CovMat K} (h1 : Good c1) (h2 : Good c2) :
    merge c1 c2 = .ok { names := mergeNames c1.names c2.names, size := 0
                        matrix := some (.mat ((mergeNames c1.names c2.names).map (fun p =>
                          (mergeNames c1.names c2.names).map (fun q => (Expected c1 c2 p q).getD 0)))) } := by
  unfold merge
  dsimp only
  have e : ∀ p, (mergeNames c1.names c2.names).mapM (fun q => mergeEntry c1 c2 p q) =
      .ok ((mergeNames c1.names c2.names).map (fun q => (Expected c1 c2 p q).getD 0)) := by
    intro p
    apply mapM_ok
    intro q _
    obtain ⟨x, hx, hy⟩ := mergeEntry_ok h1 h2 p q
    rw [hx, hy]; rfl
  rw [mapM_ok (g := fun p => (mergeNames c1.names c2.names).map (fun q => (Expected c1 c2 p q).getD 0)) (fun p _ => e p)]
  rfl

/-- **C24**: merging two matrices lists the parameters of the first, then the new ones of the second; entries come from the
first where it has both parameters, else from the second, else they are zero. -/
theorem merge_spec {c1 c2 : CovMat K} (h1 : Good c1) (h2 : Good c2) :
    ∃ m, merge c1 c2 = .ok m ∧ Good m ∧ m.names = c1.names ++ c2.names.filter (· ∉ c1.names) ∧
      ∀ p q, p ∈ m.names → q ∈ m.names → entry m p q = Expected c1 c2 p q := by
  have hn2 : c2.names.Nodup := by obtain ⟨_, _, hs⟩ := h2; exact hs.nodup
  have hn1 : c1.names.Nodup := by obtain ⟨_, _, hs⟩ := h1; exact hs.nodup
  have hnames := mergeNames_append (n1 := c1.names) hn2
  have hnd : (mergeNames c1.names c2.names).Nodup := by
    rw [hnames]
    refine List.nodup_append'.mpr ⟨hn1, hn2.filter _, ?_⟩
    intro x hx hx2
    have := (List.mem_filter.mp hx2).2
    simp [hx] at this
  refine ⟨_, merge_eq h1 h2, ⟨_, rfl, hnd, by simp, ?_⟩, hnames, ?_⟩
  · intro r hr
    obtain ⟨p, _, rfl⟩ := List.mem_map.mp hr
    simp
  · intro p q hp hq
    dsimp only at hp hq
    unfold entry get
    dsimp only
    have hi := List.idxOf_lt_length_iff.mpr hp
    have hj := List.idxOf_lt_length_iff.mpr hq
    obtain ⟨x, hx, _⟩ := mergeEntry_ok h1 h2 p q
    rw [List.getElem?_map, List.getElem?_eq_getElem hi]
    simp only [Option.map_some, Option.bind_some, List.getElem?_map, List.getElem?_eq_getElem hj, List.getElem_idxOf, hx]
    rfl

/-- **C24**: merging symmetric matrices gives a symmetric matrix. -/
theorem merge_symmetric {c1 c2 m : CovMat K} (h1 : Good c1) (h2 : Good c2) (s1 : Symmetric c1) (s2 : Symmetric c2)
    (h : merge c1 c2 = .ok m) : Symmetric m := by
  obtain ⟨m', hm, _, _, he⟩ := merge_spec h1 h2
  rw [h] at hm
  cases hm
  intro p q hp hq
  rw [he p q hp hq, he q p hq hp]
  unfold Expected
  by_cases ha : p ∈ c1.names ∧ q ∈ c1.names
  · rw [if_pos ha, if_pos ha.symm, s1 p q ha.1 ha.2]
  · rw [if_neg ha, if_neg (show ¬ (q ∈ c1.names ∧ p ∈ c1.names) from fun x => ha x.symm)]
    by_cases hb : p ∈ c2.names ∧ q ∈ c2.names
    · rw [if_pos hb, if_pos hb.symm, s2 p q hb.1 hb.2]
    · rw [if_neg hb, if_neg (show ¬ (q ∈ c2.names ∧ p ∈ c2.names) from fun x => hb x.symm)]

/-! ### several files (covcomb.py) -/

theorem mergeAll_cons (c d : CovMat K) (l : List (CovMat K)) : mergeAll c (d :: l) = (merge c d).bind (fun m => mergeAll m l) := by
  unfold mergeAll; rw [List.foldlM_cons]; rfl

theorem mergeAll_append (c : CovMat K) : ∀ (a b : List (CovMat K)), mergeAll c (a ++ b) = (mergeAll c a).bind (fun m => mergeAll m b) := by
  intro a b; unfold mergeAll; rw [List.foldlM_append]; rfl

/-- **C24**: merging any list of files succeeds; every parameter is listed once and a parameter is listed exactly if some file
has it; entries of the first file are kept. -/
theorem mergeAll_spec : ∀ (l : List (CovMat K)) {c : CovMat K}, Good c → (∀ d ∈ l, Good d) →
    ∃ m, mergeAll c l = .ok m ∧ Good m ∧ (∀ p, p ∈ m.names ↔ p ∈ c.names ∨ ∃ d ∈ l, p ∈ d.names) ∧
      c.names <+: m.names ∧ ∀ p q, p ∈ c.names → q ∈ c.names → entry m p q = entry c p q
  | [], c, hc, _ => ⟨c, rfl, hc, by simp, List.prefix_refl _, fun _ _ _ _ => rfl⟩
  | d :: l, c, hc, hl => by
    obtain ⟨m1, h1, h2, h3, h4⟩ := merge_spec hc (hl d List.mem_cons_self)
    obtain ⟨m, g1, g2, g3, g4, g5⟩ := mergeAll_spec l h2 (fun e he => hl e (List.mem_cons_of_mem _ he))
    have hsub : ∀ p ∈ c.names, p ∈ m1.names := fun p hp => by rw [h3]; exact List.mem_append_left _ hp
    refine ⟨m, by rw [mergeAll_cons, h1]; exact g1, g2, ?_, ?_, ?_⟩
    · intro p
      rw [g3, h3]
      simp only [List.mem_append, List.mem_filter, List.mem_cons, exists_eq_or_imp]
      by_cases hp : p ∈ c.names <;> simp [hp]
    · exact List.IsPrefix.trans (by rw [h3]; exact List.prefix_append _ _) g4
    · intro p q hp hq
      rw [g5 p q (hsub p hp) (hsub q hq), h4 p q (hsub p hp) (hsub q hq)]
      unfold Expected
      rw [if_pos ⟨hp, hq⟩]

/-- **C24**: entries for a pair of parameters that are first both known after reading file `d`: from `d` if it has both,
zero otherwise. -/
theorem mergeAll_entry {c d m : CovMat K} {pre post : List (CovMat K)} (hc : Good c) (hpre : ∀ e ∈ pre, Good e)
    (hd : Good d) (hpost : ∀ e ∈ post, Good e) (hm : mergeAll c (pre ++ d :: post) = .ok m) {p q : Str}
    (hp : (∃ e ∈ c :: pre, p ∈ e.names) ∨ p ∈ d.names) (hq : (∃ e ∈ c :: pre, q ∈ e.names) ∨ q ∈ d.names)
    (hnew : ¬ ((∃ e ∈ c :: pre, p ∈ e.names) ∧ ∃ e ∈ c :: pre, q ∈ e.names)) :
    entry m p q = if p ∈ d.names ∧ q ∈ d.names then entry d p q else some 0 := by
  obtain ⟨m1, h1, h2, h3, _⟩ := mergeAll_spec pre hc hpre
  have h3' : ∀ p, p ∈ m1.names ↔ ∃ e ∈ c :: pre, p ∈ e.names := by
    intro p; rw [h3]; simp
  obtain ⟨m2, g1, g2, g3, g4⟩ := merge_spec h2 hd
  obtain ⟨m3, k1, _, _, _, k5⟩ := mergeAll_spec post g2 hpost
  have e : mergeAll c (pre ++ d :: post) = .ok m3 := by
    rw [mergeAll_append, h1]
    show mergeAll m1 (d :: post) = _
    rw [mergeAll_cons, g1]; exact k1
  rw [hm] at e
  cases e
  have mem : ∀ x, ((∃ e ∈ c :: pre, x ∈ e.names) ∨ x ∈ d.names) → x ∈ m2.names := by
    intro x hx
    rw [g3]
    by_cases h : x ∈ m1.names
    · exact List.mem_append_left _ h
    · refine List.mem_append_right _ (List.mem_filter.mpr ⟨?_, by simpa using h⟩)
      rcases hx with hx | hx
      · exact absurd ((h3' x).mpr hx) h
      · exact hx
  rw [k5 p q (mem p hp) (mem q hq), g4 p q (mem p hp) (mem q hq)]
  unfold Expected
  rw [if_neg]
  rintro ⟨a, b⟩
  exact hnew ⟨(h3' p).mp a, (h3' q).mp b⟩

/-! ## Correlation -/

theorem corr_loop {sqrt : K → K} {names : List Str} {rows : List (List K)} (h : Square names rows) :
    ∀ k, k ≤ names.length → ∃ m, (List.range k).foldlM (corrStep sqrt (some (.mat rows))) rows = .ok m ∧ Square names m ∧
      ∀ i j x di dj, get rows i j = some x → get rows i i = some di → get rows j j = some dj →
        get m i j = some (x * (if i < k then (sqrt di)⁻¹ else 1) * (if j < k then (sqrt dj)⁻¹ else 1))
  | 0, _ => ⟨rows, rfl, h, by intro i j x di dj hx _ _; simp [hx]⟩
  | k + 1, hk => by
    obtain ⟨m, h1, h2, h3⟩ := corr_loop (sqrt := sqrt) h k (by omega)
    obtain ⟨d, hd⟩ := get_some h (show k < names.length by omega) (show k < names.length by omega)
    refine ⟨scaleCol (scaleRow m k (sqrt d)⁻¹) k (sqrt d)⁻¹, ?_, square_scaleCol (square_scaleRow h2 _ _) _ _, ?_⟩
    · rw [List.range_succ, List.foldlM_append, h1]
      show (List.foldlM (corrStep sqrt (some (.mat rows))) m [k]) = _
      rw [List.foldlM_cons]
      unfold corrStep
      rw [at?_mat, hd]
      rfl
    · intro i j x di dj hx hi hj
      rw [get_scaleCol, get_scaleRow, h3 i j x di dj hx hi hj]
      simp only [Option.map_some]
      have ei : i = k → di = d := by rintro rfl; rw [hi] at hd; exact Option.some.inj hd
      have ej : j = k → dj = d := by rintro rfl; rw [hj] at hd; exact Option.some.inj hd
      congr 1
      by_cases a : i = k <;> by_cases b : j = k
      · have := ei a; have := ej b; subst a; subst b; subst di
        have : dj = d := ej rfl
        subst this
        simp
      · have := ei a; subst a; subst di
        have q : (j < i + 1) ↔ (j < i) := by omega
        simp only [b, if_false, q, lt_irrefl, lt_add_one, if_true]
        ring
      · have := ej b; subst b; subst dj
        have q : (i < j + 1) ↔ (i < j) := by omega
        simp only [a, if_false, q, lt_irrefl, lt_add_one, if_true]
        ring
      · have q : (i < k + 1) ↔ (i < k) := by omega
        have q2 : (j < k + 1) ↔ (j < k) := by omega
        simp only [a, b, if_false, q, q2]

/-- **C24, C25**: for a matrix whose size is recorded, the correlation matrix has entries
`C[p,q] / (sqrt C[p,p] * sqrt C[q,q])`. -/
theorem correlation_spec {sqrt : K → K} {c : CovMat K} (h : Good c) (hsz : c.size = c.names.length) :
    ∃ m, correlation sqrt c = .ok (.mat m) ∧ Square c.names m ∧
      ∀ p q x dp dq, p ∈ c.names → q ∈ c.names → entry c p q = some x → entry c p p = some dp → entry c q q = some dq →
        get m (c.names.idxOf p) (c.names.idxOf q) = some (x / (sqrt dp * sqrt dq)) := by
  obtain ⟨rows, hm, hs⟩ := h
  obtain ⟨m, h1, h2, h3⟩ := corr_loop (sqrt := sqrt) hs c.names.length (le_refl _)
  refine ⟨m, ?_, h2, ?_⟩
  · unfold correlation
    rw [hm, hsz]
    dsimp only
    rw [h1]
  · intro p q x dp dq hp hq hx hdp hdq
    unfold entry at hx hdp hdq
    rw [hm] at hx hdp hdq
    dsimp only at hx hdp hdq
    rw [h3 _ _ x dp dq hx hdp hdq, if_pos (List.idxOf_lt_length_iff.mpr hp), if_pos (List.idxOf_lt_length_iff.mpr hq)]
    congr 1
    rw [div_eq_mul_inv, mul_inv, mul_assoc]

/-- **C25**: the correlation matrix of positive variances has a unit diagonal. -/
theorem correlation_diagonal {sqrt : K → K} (hq : ∀ x, 0 ≤ x → sqrt x * sqrt x = x) {c : CovMat K} (h : Good c)
    (hsz : c.size = c.names.length) {p : Str} (hp : p ∈ c.names) {v : K} (hv : entry c p p = some v) (hpos : 0 < v)
    {m : List (List K)} (hm : correlation sqrt c = .ok (.mat m)) : get m (c.names.idxOf p) (c.names.idxOf p) = some 1 := by
  obtain ⟨m', h1, _, h3⟩ := correlation_spec (sqrt := sqrt) h hsz
  rw [hm] at h1
  cases h1
  rw [h3 p p v v v hp hp hv hv hv, hq v hpos.le, div_self hpos.ne']

/-! ## Files -/

theorem floatStr_fmt (p : Nat) (x : K) : floatStr (fmtE p x) = some (roundSig p x) := by
  have := floatStr_fmtE p 0 x
  unfold rjust at this
  simpa using this

theorem parseRow_fmt : ∀ (r : List K), parseRow (r.map (fmtE 7)) = some (r.map (roundSig 7))
  | [] => rfl
  | x :: r => by
    have := parseRow_fmt r
    unfold parseRow at this ⊢
    rw [List.map_cons, List.mapM_cons, floatStr_fmt, this]
    rfl

theorem mapM_parse : ∀ (rows : List (List K)),
    (rows.map (fun r => r.map (fmtE 7))).mapM parseRow = some (rows.map (fun r => r.map (roundSig 7)))
  | [] => rfl
  | r :: rows => by
    rw [List.map_cons, List.mapM_cons, parseRow_fmt, mapM_parse rows]
    rfl

theorem hash_not_num : numChar '#' = false := by decide

theorem uncomment_id {l : Str} (h : '#' ∉ l) : uncomment l = l := by
  unfold uncomment
  exact Path.takeWhile_all (fun c hc => by
    simp only [bne_iff_ne, ne_eq]
    rintro rfl; exact h hc)

theorem rowText_chars (r : List K) : ∀ c ∈ join [' '] (r.map (fun x => rjust 15 (fmtE 7 x))), numChar c = true ∨ c = ' ' := by
  have hf : ∀ x : K, ∀ c ∈ rjust 15 (fmtE 7 x), numChar c = true ∨ c = ' ' := by
    intro x c hc
    unfold rjust at hc
    rcases List.mem_append.mp hc with hc | hc
    · exact Or.inr (List.mem_replicate.mp hc).2
    · exact Or.inl (fmtE_chars 7 x c hc)
  induction r with
  | nil => simp [join]
  | cons x r ih =>
    cases r with
    | nil => simpa [join] using hf x
    | cons y r =>
      intro c hc
      rw [List.map_cons, List.map_cons, join_cons2] at hc
      rcases List.mem_append.mp hc with hc | hc
      · rcases List.mem_append.mp hc with hc | hc
        · exact hf x c hc
        · rw [List.mem_singleton] at hc; exact Or.inr hc
      · exact ih c hc

theorem rowText_oneLine (r : List K) : OneLine (join [' '] (r.map (fun x => rjust 15 (fmtE 7 x)))) := by
  constructor
  · intro h
    rcases rowText_chars r _ h with h | h
    · exact absurd h (by decide)
    · exact absurd h (by decide)
  · intro h
    rcases rowText_chars r _ h with h | h
    · exact absurd h (by decide)
    · exact absurd h (by decide)

theorem rowText_split (r : List K) :
    splitWs (uncomment (join [' '] (r.map (fun x => rjust 15 (fmtE 7 x))) ++ ['\n'])) = r.map (fmtE 7) := by
  rw [uncomment_id]
  · have : r.map (fun x => rjust 15 (fmtE 7 x)) = (r.map (fmtE 7)).map (rjust 15) := by simp
    rw [this]
    apply splitWs_join_rjust
    · intro t ht
      obtain ⟨x, _, rfl⟩ := List.mem_map.mp ht
      exact token_fmtE 7 x
    · exact blank_nl
  · intro h
    rcases List.mem_append.mp h with h | h
    · rcases rowText_chars r _ h with h | h
      · exact absurd h (by decide)
      · exact absurd h (by decide)
    · exact absurd h (by decide)

theorem loadtxt_rows {rows : List (List K)} (hne : ∀ r ∈ rows, r ≠ []) (hrect : rectangular (rows.map (fun r => r.map (roundSig 7))) = true) :
    loadtxt ((rows.map (fun r => join [' '] (r.map (fun x => rjust 15 (fmtE 7 x))))).map (· ++ ['\n'])) =
      .ok (squeeze (rows.map (fun r => r.map (roundSig 7)))) := by
  unfold loadtxt
  have e : ((rows.map (fun r => join [' '] (r.map (fun x => rjust 15 (fmtE 7 x))))).map (· ++ ['\n'])).map
      (fun l => splitWs (uncomment l)) = rows.map (fun r => r.map (fmtE 7)) := by
    rw [List.map_map, List.map_map]
    apply List.map_congr_left
    intro r _
    exact rowText_split r
  rw [e, List.filter_eq_self.mpr, mapM_parse]
  · dsimp only
    rw [if_pos hrect]
  · intro l hl
    obtain ⟨r, hr, rfl⟩ := List.mem_map.mp hl
    simpa using hne r hr

theorem header_oneLine {names : List Str} (h : ∀ n ∈ names, Token n) : OneLine ('#' :: ' ' :: join [' '] names) := by
  have : ∀ names : List Str, (∀ n ∈ names, Token n) → OneLine (join [' '] names) := by
    intro names
    induction names with
    | nil => intro _; simp [join, OneLine]
    | cons a l ih =>
      intro h
      cases l with
      | nil => exact token_oneLine (h a List.mem_cons_self)
      | cons b l =>
        rw [join_cons2]
        exact oneLine_append (oneLine_append (token_oneLine (h a List.mem_cons_self)) (oneLine_spaces 1))
          (ih (fun n hn => h n (List.mem_cons_of_mem _ hn)))
  exact oneLine_append (a := ['#', ' ']) (by decide) (this names h)

theorem lstrip_hash (s : Str) : lstrip ('#' :: s) = '#' :: s := lstrip_eq_self (by
  intro c hc; simp only [List.head?_cons, Option.some.injEq] at hc; subst hc; decide)

theorem header_parse {names : List Str} (h : ∀ n ∈ names, Token n) :
    startsWith ['#'] (strip ('#' :: ' ' :: join [' '] names ++ ['\n'])) = true ∧
      splitWs ((strip ('#' :: ' ' :: join [' '] names ++ ['\n'])).drop 1) = names := by
  rw [strip_append_ws _ '\n' (by decide)]
  unfold strip
  rw [lstrip_hash]
  by_cases hn : names = []
  · subst hn; decide
  · have hlast : ∀ c, ('#' :: ' ' :: join [' '] names).getLast? = some c → isWs c = false := by
      intro c hc
      have : ∀ names : List Str, names ≠ [] → (∀ n ∈ names, Token n) →
          ∃ c, (join [' '] names).getLast? = some c ∧ isWs c = false := by
        intro names
        induction names with
        | nil => intro h; exact absurd rfl h
        | cons a l ih =>
          intro _ h
          cases l with
          | nil =>
            have ha := h a List.mem_cons_self
            refine ⟨a.getLast ha.1, List.getLast?_eq_some_getLast ha.1, ha.2 _ (List.getLast_mem ha.1)⟩
          | cons b l =>
            obtain ⟨c, h1, h2⟩ := ih (by simp) (fun n hn => h n (List.mem_cons_of_mem _ hn))
            refine ⟨c, ?_, h2⟩
            rw [join_cons2, List.getLast?_append, h1]; rfl
      obtain ⟨d, h1, h2⟩ := this names hn h
      have : ('#' :: ' ' :: join [' '] names).getLast? = some d := by
        show (['#', ' '] ++ join [' '] names).getLast? = some d
        rw [List.getLast?_append, h1]; rfl
      rw [this] at hc
      cases hc
      exact h2
    rw [rstrip_eq_self hlast]
    refine ⟨by simp [startsWith], ?_⟩
    show splitWs ([' '] ++ join [' '] names) = names
    rw [splitWs_blank_append blank_space]
    have := splitWs_join (tail := []) h (by intro c hc; simp at hc)
    rwa [List.append_nil] at this

/-- the file of a matrix, read again -/
theorem load_saved {c : CovMat K} {rows : List (List K)} (hm : c.matrix = some (.mat rows)) (hs : Square c.names rows)
    (ht : ∀ n ∈ c.names, Token n) :
    ∃ text, saveText c = .ok text ∧
      loadText text = .ok { names := c.names, size := c.names.length, matrix := some (squeeze (rows.map (fun r => r.map (roundSig 7)))) } := by
  unfold saveText
  rw [hm]
  refine ⟨_, rfl, ?_⟩
  unfold loadText
  rw [fileIter_terminated]
  · obtain ⟨h1, h2⟩ := header_parse ht
    simp only [List.map_cons, List.headD_cons, List.tail_cons]
    rw [if_pos h1, h2, loadtxt_rows]
    · intro r hr hr0
      have := hs.cols r hr
      rw [hr0] at this
      have h3 := hs.height
      have : rows = [] := List.length_eq_zero_iff.mp (by rw [h3, ← this]; rfl)
      rw [this] at hr
      simp at hr
    · unfold rectangular
      split
      · rfl
      · rename_i r l he
        rw [List.all_eq_true]
        intro x hx
        have a1 : ∀ y ∈ rows.map (fun r => r.map (roundSig 7)), y.length = c.names.length := by
          intro y hy
          obtain ⟨r', hr', rfl⟩ := List.mem_map.mp hy
          rw [List.length_map]; exact hs.cols r' hr'
        rw [a1 r (by rw [he]; exact List.mem_cons_self), a1 x (by rw [he]; exact List.mem_cons_of_mem _ hx)]
        simp
  · intro l hl
    rcases List.mem_cons.mp hl with rfl | hl
    · exact header_oneLine ht
    · obtain ⟨r, _, rfl⟩ := List.mem_map.mp hl
      exact rowText_oneLine r

theorem squeeze_mat {rows : List (List K)} {n : Nat} (h2 : 2 ≤ n) (hr : rows.length = n) (hc : ∀ r ∈ rows, r.length = n) :
    squeeze rows = .mat rows := by
  unfold squeeze
  split
  · simp at hr; omega
  · simp at hr; omega
  · rw [if_neg]
    intro h
    rw [List.all_eq_true] at h
    cases rows with
    | nil => simp at hr; omega
    | cons r l =>
      have a := h r List.mem_cons_self
      have b := hc r List.mem_cons_self
      simp only [beq_iff_eq] at a
      omega

/-- **C25**: a matrix of at least two parameters whose names are single words is read back with the same names in the same
order, every entry rounded to eight significant digits. -/
theorem save_load {c : CovMat K} (h : Good c) (ht : ∀ n ∈ c.names, Token n) (h2 : 2 ≤ c.names.length) :
    ∃ text c', saveText c = .ok text ∧ loadText text = .ok c' ∧ Good c' ∧ c'.names = c.names ∧ c'.size = c.names.length ∧
      ∀ p q, p ∈ c.names → q ∈ c.names → entry c' p q = (entry c p q).map (roundSig 7) := by
  obtain ⟨rows, hm, hs⟩ := h
  obtain ⟨text, h1, h3⟩ := load_saved hm hs ht
  have hsq : Square c.names (rows.map (fun r => r.map (roundSig 7))) :=
    ⟨hs.nodup, by simp [hs.height], by
      intro r hr
      obtain ⟨r', hr', rfl⟩ := List.mem_map.mp hr
      rw [List.length_map]; exact hs.cols r' hr'⟩
  rw [squeeze_mat h2 hsq.height hsq.cols] at h3
  refine ⟨text, _, h1, h3, ⟨_, rfl, hsq⟩, rfl, rfl, ?_⟩
  intro p q _ _
  unfold entry get
  rw [hm]
  dsimp only
  rw [List.getElem?_map]
  cases rows[c.names.idxOf p]? with
  | none => rfl
  | some r => simp [List.getElem?_map]

/-- **C25**: saving what has been read back changes nothing. -/
theorem save_load_twice {c : CovMat K} (h : Good c) (ht : ∀ n ∈ c.names, Token n) (h2 : 2 ≤ c.names.length)
    {text : Str} {c' : CovMat K} (hs : saveText c = .ok text) (hl : loadText text = .ok c') :
    ∃ text', saveText c' = .ok text' ∧ loadText text' = .ok c' := by
  obtain ⟨rows, hm, hsq⟩ := h
  obtain ⟨t1, a1, a2⟩ := load_saved hm hsq ht
  rw [hs] at a1
  cases a1
  rw [hl] at a2
  cases a2
  have hsq' : Square c.names (rows.map (fun r => r.map (roundSig 7))) :=
    ⟨hsq.nodup, by simp [hsq.height], by
      intro r hr
      obtain ⟨r', hr', rfl⟩ := List.mem_map.mp hr
      rw [List.length_map]; exact hsq.cols r' hr'⟩
  rw [squeeze_mat h2 hsq'.height hsq'.cols]
  obtain ⟨t2, b1, b2⟩ := load_saved
    (c := { names := c.names, size := c.names.length, matrix := some (.mat (rows.map (fun r => r.map (roundSig 7)))) }) rfl hsq' ht
  refine ⟨t2, b1, ?_⟩
  rw [b2]
  have e : (rows.map (fun r => r.map (roundSig 7))).map (fun r => r.map (roundSig 7)) = rows.map (fun r => r.map (roundSig (K := K) 7)) := by
    rw [List.map_map]
    apply List.map_congr_left
    intro r _
    simp only [Function.comp, List.map_map]
    apply List.map_congr_left
    intro x _
    exact roundSig_idem 7 x
  rw [e, squeeze_mat h2 hsq'.height hsq'.cols]

/-! ## Examples and failures -/

def exA : CovMat ℚ := { names := [c!"a", c!"b"], matrix := some (.mat [[4, 1], [1, 9]]), size := 2 }
def exB : CovMat ℚ := { names := [c!"c", c!"a"], matrix := some (.mat [[16, 2], [2, 5]]), size := 2 }
def exC : CovMat ℚ := { names := [c!"c", c!"b"], matrix := some (.mat [[25, 3], [3, 36]]), size := 2 }

theorem exA_good : Good exA := ⟨_, rfl, by decide, rfl, by decide⟩
theorem exB_good : Good exB := ⟨_, rfl, by decide, rfl, by decide⟩
theorem exC_good : Good exC := ⟨_, rfl, by decide, rfl, by decide⟩

example : (merge exA exB).map (fun c => (c.names, c.matrix)) =
    .ok ([c!"a", c!"b", c!"c"], some (.mat [[4, 1, 2], [1, 9, 0], [2, 0, 16]])) := by decide +kernel
example : ∃ m, merge exA exB = .ok m ∧ entry m c!"c" c!"a" = entry exB c!"c" c!"a" := by
  obtain ⟨m, h1, _, h3, h4⟩ := merge_spec exA_good exB_good
  exact ⟨m, h1, by rw [h4 _ _ (by rw [h3]; decide) (by rw [h3]; decide)]; decide +kernel⟩
example : (rescale exA c!"b" 2).map (·.matrix) = .ok (some (.mat [[4, 2], [2, 36]])) := by decide +kernel
example : (correlation (fun x => x / 2) exA) = .ok (.mat [[1, 1 / 9], [1 / 9, 4 / 9]]) := by decide +kernel
example : (saveText exA).map (fun t => startsWith c!"# a b\n  4.0000000E+00   1.0000000E+00\n  1" t) = .ok true := by decide +kernel
example : (saveText exA).bind loadText = .ok exA := by decide +kernel

/-- **C24**: a merged matrix has size 0: its correlation matrix is the covariance matrix, although the same matrix written to a file
and read again has the right one. -/
theorem merged_correlation_fails : ∃ m : CovMat ℚ, merge exA exB = .ok m ∧ m.size = 0 ∧
    correlation (fun x => x / 2) m = .ok (.mat [[4, 1, 2], [1, 9, 0], [2, 0, 16]]) ∧
    ((saveText m).bind (loadText (K := ℚ))).bind (correlation (fun x : ℚ => x / 2)) =
      .ok (.mat [[1, 1 / 9, 1 / 8], [1 / 9, 4 / 9, 0], [1 / 8, 0, 1 / 4]]) := by
  refine ⟨{ names := [c!"a", c!"b", c!"c"], matrix := some (.mat [[4, 1, 2], [1, 9, 0], [2, 0, 16]]), size := 0 }, ?_, ?_, ?_, ?_⟩ <;>
    decide +kernel

/-- **C24**: merging three files, the covariance of `b` and `c` is given only by the third, but the zero put in when merging the
first two hides it. -/
theorem covcomb_zero_hides_fails :
    ((mergeAll exA [exB, exC]).map (fun m => entry m c!"b" c!"c") = .ok (some 0)) ∧ entry exC c!"b" c!"c" = some 3 ∧
    ((mergeAll exA [exC, exB]).map (fun m => entry m c!"b" c!"c") = .ok (some 3)) := by
  refine ⟨?_, ?_, ?_⟩ <;> decide +kernel

/-- **C25**: the matrix of a single parameter is read back as a number without dimensions, which can be neither rescaled nor saved
nor turned into a correlation matrix. -/
theorem single_parameter_fails (s x : K) (n : Str) (hn : Token n) :
    ∃ text c', saveText ({ names := [n], matrix := some (.mat [[x]]), size := 1 } : CovMat K) = .ok text ∧
      loadText text = .ok c' ∧ c'.matrix = some (.scalar (roundSig 7 x)) ∧
      rescale c' n s = .error .indexError ∧ saveText c' = .error .valueError ∧ (∀ sqrt, correlation sqrt c' = .error .indexError) := by
  obtain ⟨text, h1, h2⟩ := load_saved (c := ({ names := [n], matrix := some (.mat [[x]]), size := 1 } : CovMat K)) rfl
    ⟨by simp, rfl, by simp⟩ (by simpa using hn)
  refine ⟨text, _, h1, h2, rfl, ?_, rfl, ?_⟩
  · unfold rescale
    rw [if_pos (by simp)]
    rfl
  · intro sqrt; rfl

end Verif.Cov
