import Verif.Model.DES
import Mathlib.LinearAlgebra.Matrix.PosDef
import Mathlib.Analysis.Matrix.PosDef
import Mathlib.Algebra.Order.Star.Real
import Mathlib.Tactic.LinearCombination
import Mathlib.Tactic.FieldSimp

/-!
# Selection of data and chi squared of the DES likelihood

Specification: the rows of all measurement files one after the other, as in the covariance.
-/

namespace Verif.DES
open Verif.Py Matrix

set_option linter.unusedSectionVars false

variable {K : Type} [LinearOrder K]

/-! ### selection -/

/-- rows of all files in the order of the covariance: number of the type, type, row -/
def allRows (i : Nat) : List (Str × List (Row K)) → List (Nat × Str × Row K)
  | [] => []
  | f :: fs => f.2.map (fun r => (i, f.1, r)) ++ allRows (i + 1) fs

/-- Limits are those of the last line for the type and bins, if the type is used. -/
theorem rangesOf_spec (dataTypes usedTypes : List Str) (sel : List (Sel K)) (d : Dict (Str × Nat × Nat) (K × K)) (h : rangesOf dataTypes usedTypes sel = .ok d)
    (key : Str × Nat × Nat) :
    Dict.get? d key = (sel.reverse.find? fun s => decide (s.tp ∈ usedTypes ∧ (s.tp, s.bin1 - 1, s.bin2 - 1) = key)).map fun s => (s.mn, s.mx) := by
  have gen : ∀ (sel : List (Sel K)) (d0 d : Dict (Str × Nat × Nat) (K × K)),
      sel.foldlM (rangeStep dataTypes usedTypes) d0 = .ok d →
      Dict.get? d key = ((sel.reverse.find? fun s => decide (s.tp ∈ usedTypes ∧ (s.tp, s.bin1 - 1, s.bin2 - 1) = key)).map fun s => (s.mn, s.mx)).or (Dict.get? d0 key) := by
    intro sel
    induction sel with
    | nil =>
      intro d0 d h
      simp only [List.foldlM_nil] at h
      cases h
      simp
    | cons s sel ih =>
      intro d0 d h
      rw [List.foldlM_cons] at h
      rw [List.reverse_cons, List.find?_append]
      by_cases hu : s.tp ∈ usedTypes
      · by_cases hd : s.tp ∈ dataTypes
        · by_cases hb : s.bin1 - 1 < 6 ∧ s.bin2 - 1 < 6
          · have e : rangeStep dataTypes usedTypes d0 s = .ok (Dict.set d0 (s.tp, s.bin1 - 1, s.bin2 - 1) (s.mn, s.mx)) := by simp [rangeStep, hu, hd, hb]
            rw [e] at h
            have := ih _ d h
            rw [this, Dict.get?_set]
            rcases hf : (sel.reverse.find? fun s => decide (s.tp ∈ usedTypes ∧ (s.tp, s.bin1 - 1, s.bin2 - 1) = key)) with _ | q
            · by_cases hk : (s.tp, s.bin1 - 1, s.bin2 - 1) = key
              · simp [hu, hk]
              · have hk' : ¬ (key = (s.tp, s.bin1 - 1, s.bin2 - 1)) := fun h => hk h.symm
                simp [hu, hk, hk']
            · rw [hf]; rfl
          · have e : rangeStep dataTypes usedTypes d0 s = .error .index := by simp only [rangeStep, hu, hd, hb, if_true, if_false]
            rw [e] at h
            cases h
        · have e : rangeStep dataTypes usedTypes d0 s = .error .key := by simp [rangeStep, hu, hd]
          rw [e] at h
          cases h
      · have e : rangeStep dataTypes usedTypes d0 s = .ok d0 := by simp [rangeStep, hu]
        rw [e] at h
        have := ih _ d h
        rw [this]
        simp [hu]
  have := gen sel [] d h
  simpa using this

/-- Example: only one of two types is used, and of two lines for the same bins the last counts. -/
example : (rangesOf [c!"xip", c!"xim"] [c!"xip"] [⟨c!"xip", 1, 1, (2 : ℚ), 9⟩, ⟨c!"xim", 1, 1, 3, 9⟩, ⟨c!"xip", 1, 1, 4, 9⟩] |>.toOption) =
    some [((c!"xip", 0, 0), (4, 9))] := by decide +kernel

/-- the loop over rows as one loop -/
theorem load_eq (r : Dict (Str × Nat × Nat) (K × K)) (theta : List K) (i : Nat) (files : List (Str × List (Row K))) (s : St K) :
    load r theta i files s = (allRows i files).foldl (fun s x => step r theta x.1 x.2.1 s x.2.2) s := by
  induction files generalizing i s with
  | nil => rfl
  | cons f fs ih =>
    rw [load, ih, allRows, List.foldl_append]
    congr 1
    rw [List.foldl_map]

example : (load [((c!"xip", 0, 0), ((2 : ℚ), 9))] [1, 4] 0 [(c!"xip", [⟨1, 1, 1, 10⟩, ⟨1, 1, 2, 20⟩])] ⟨[], [], [], [], []⟩).usedIdx =
    ((allRows 0 [(c!"xip", [⟨1, 1, 1, (10 : ℚ)⟩, ⟨1, 1, 2, 20⟩])]).foldl (fun s x => step [((c!"xip", 0, 0), (2, 9))] [1, 4] x.1 x.2.1 s x.2.2) ⟨[], [], [], [], []⟩).usedIdx ∧
    (load [((c!"xip", 0, 0), ((2 : ℚ), 9))] [1, 4] 0 [(c!"xip", [⟨1, 1, 1, 10⟩, ⟨1, 1, 2, 20⟩])] ⟨[], [], [], [], []⟩).usedIdx = [1] := by decide +kernel

/-- what the loop has done -/
structure Done (r : Dict (Str × Nat × Nat) (K × K)) (theta : List K) (rows : List (Nat × Str × Row K)) (s : St K) : Prop where
  indices : s.indices = rows.map fun x => itemOf x.1 x.2.2
  pairs : ∀ p, p ∈ s.pairs ↔ ∃ x ∈ rows, p = (x.1, x.2.2.bin1 - 1, x.2.2.bin2 - 1)
  arrays : ∀ it, Dict.get? s.arrays it = (rows.reverse.find? fun x => decide (itemOf x.1 x.2.2 = it)).map fun x => x.2.2.val
  used : s.usedIdx.map (fun k => rows[k]?) = (rows.filter fun x => selected r theta x.2.1 x.2.2).map some
  sorted : s.usedIdx.Pairwise (· < ·)
  bound : ∀ k ∈ s.usedIdx, k < rows.length
  items : s.usedItems = (rows.filter fun x => selected r theta x.2.1 x.2.2).map fun x => itemOf x.1 x.2.2

theorem done_step (r : Dict (Str × Nat × Nat) (K × K)) (theta : List K) (rows : List (Nat × Str × Row K)) (s : St K) (h : Done r theta rows s) (x : Nat × Str × Row K) :
    Done r theta (rows ++ [x]) (step r theta x.1 x.2.1 s x.2.2) := by
  have hlen : s.indices.length = rows.length := by rw [h.indices]; simp
  have hold : s.usedIdx.map (fun k => (rows ++ [x])[k]?) = s.usedIdx.map (fun k => rows[k]?) := by
    apply List.map_congr_left
    intro k hk
    rw [List.getElem?_append_left (h.bound k hk)]
  constructor
  · simp [step, h.indices]
  · intro p
    simp only [step, addPair]
    split_ifs with hp
    · rw [h.pairs]
      constructor
      · rintro ⟨y, hy, rfl⟩
        exact ⟨y, by simp [hy], rfl⟩
      · rintro ⟨y, hy, rfl⟩
        rcases List.mem_append.mp hy with hy | hy
        · exact ⟨y, hy, rfl⟩
        · simp only [List.mem_singleton] at hy
          subst hy
          exact (h.pairs _).mp hp
    · rw [List.mem_append, h.pairs]
      constructor
      · rintro (⟨y, hy, rfl⟩ | hy)
        · exact ⟨y, by simp [hy], rfl⟩
        · simp only [List.mem_singleton] at hy
          exact ⟨x, by simp, hy⟩
      · rintro ⟨y, hy, rfl⟩
        rcases List.mem_append.mp hy with hy | hy
        · exact Or.inl ⟨y, hy, rfl⟩
        · simp only [List.mem_singleton] at hy
          subst hy
          exact Or.inr (by simp)
  · intro it
    simp only [step]
    rw [Dict.get?_set, h.arrays, List.reverse_append, List.reverse_cons, List.reverse_nil, List.nil_append, List.singleton_append, List.find?_cons]
    by_cases hi : itemOf x.1 x.2.2 = it
    · simp [hi]
    · have : ¬ it = itemOf x.1 x.2.2 := fun h => hi h.symm
      simp [hi, this]
  · simp only [step]
    rw [List.filter_append]
    split_ifs with hs
    · rw [List.map_append, hold, h.used]
      simp [hs, hlen]
    · rw [hold, h.used]
      simp [hs]
  · simp only [step]
    split_ifs with hs
    · rw [List.pairwise_append]
      refine ⟨h.sorted, by simp, ?_⟩
      intro a ha b hb
      simp only [List.mem_singleton] at hb
      subst hb
      rw [hlen]
      exact h.bound a ha
    · exact h.sorted
  · intro k hk
    simp only [step] at hk
    split_ifs at hk with hs
    · rcases List.mem_append.mp hk with hk | hk
      · have := h.bound k hk
        simp
        omega
      · simp only [List.mem_singleton] at hk
        subst hk
        simp [hlen]
    · have := h.bound k hk
      simp
      omega
  · simp only [step]
    rw [List.filter_append]
    split_ifs with hs
    · rw [h.items]
      simp [hs]
    · rw [h.items]
      simp [hs]

/-- The data used are exactly the rows whose type is used and whose angle is strictly inside the limits, in the order of the covariance;
the index of each is its position there. -/
theorem load_spec (r : Dict (Str × Nat × Nat) (K × K)) (theta : List K) (files : List (Str × List (Row K))) :
    Done r theta (allRows 0 files) (load r theta 0 files ⟨[], [], [], [], []⟩) := by
  rw [load_eq]
  have key : ∀ (todo done : List (Nat × Str × Row K)) (s : St K), Done r theta done s →
      Done r theta (done ++ todo) (todo.foldl (fun s x => step r theta x.1 x.2.1 s x.2.2) s) := by
    intro todo
    induction todo with
    | nil => intro done s h; simpa using h
    | cons x xs ih =>
      intro done s h
      have := ih (done ++ [x]) _ (done_step r theta done s h x)
      simpa using this
  have h0 : Done r theta [] (⟨[], [], [], [], []⟩ : St K) := by
    constructor <;> simp [Dict.get?]
  have := key (allRows 0 files) [] _ h0
  simpa using this

/-- a row is selected exactly when limits are given and kept strictly -/
theorem selected_iff (r : Dict (Str × Nat × Nat) (K × K)) (theta : List K) (tp : Str) (row : Row K) :
    selected r theta tp row = true ↔ ∃ mn mx t, Dict.get? r (tp, row.bin1 - 1, row.bin2 - 1) = some (mn, mx) ∧ theta[row.tbin - 1]? = some t ∧ mn < t ∧ t < mx := by
  unfold selected
  rcases h1 : Dict.get? r (tp, row.bin1 - 1, row.bin2 - 1) with _ | ⟨mn, mx⟩
  · simp
  · rcases h2 : theta[row.tbin - 1]? with _ | t
    · simp
    · simp

theorem makeVector_ok {L : Type} (used : List Item) (arrays : Item → Option L) (xs : List L) :
    makeVector used arrays = .ok xs ↔ used.map arrays = xs.map some := by
  unfold makeVector
  induction used generalizing xs with
  | nil => cases xs <;> simp
  | cons it used ih =>
    rw [List.foldr_cons, List.map_cons]
    rcases ha : arrays it with _ | x
    · rw [consItem]
      constructor
      · intro h; cases h
      · intro h
        cases xs <;> simp at h
    · rcases hacc : used.foldr (fun it acc => consItem (arrays it) acc) (.ok []) with e | ys
      · rw [consItem]
        constructor
        · intro h; cases h
        · intro h
          rcases xs with _ | ⟨y, ys⟩
          · simp at h
          · simp only [List.map_cons, List.cons.injEq, Option.some.injEq] at h
            have := (ih ys).mpr h.2
            rw [hacc] at this
            cases this
      · rw [consItem]
        simp only [Except.ok.injEq]
        have hy := (ih ys).mp hacc
        constructor
        · rintro rfl
          simp [hy]
        · intro h
          rcases xs with _ | ⟨y, zs⟩
          · simp at h
          · simp only [List.map_cons, List.cons.injEq, Option.some.injEq] at h
            have := (ih zs).mpr h.2
            rw [hacc] at this
            simp only [Except.ok.injEq] at this
            rw [this, h.1]

/-- The data vector holds the values of the rows used, if no measurement is given twice. -/
theorem dataVector_spec (r : Dict (Str × Nat × Nat) (K × K)) (theta : List K) (files : List (Str × List (Row K)))
    (hnd : ((allRows 0 files).map fun x => itemOf x.1 x.2.2).Nodup) :
    makeVector (load r theta 0 files ⟨[], [], [], [], []⟩).usedItems (Dict.get? (load r theta 0 files ⟨[], [], [], [], []⟩).arrays) =
      .ok (((allRows 0 files).filter fun x => selected r theta x.2.1 x.2.2).map fun x => x.2.2.val) := by
  have h := load_spec r theta files
  rw [makeVector_ok, h.items, List.map_map, List.map_map]
  apply List.map_congr_left
  intro x hx
  have hx' := (List.mem_filter.mp hx).1
  simp only [Function.comp_apply]
  rw [h.arrays]
  rcases hf : ((allRows 0 files).reverse.find? fun y => decide (itemOf y.1 y.2.2 = itemOf x.1 x.2.2)) with _ | y
  · rw [List.find?_eq_none] at hf
    have := hf x (by simpa using hx')
    simp at this
  · have hy := List.find?_some hf
    have hym : y ∈ allRows 0 files := by simpa using List.mem_of_find?_eq_some hf
    simp only [decide_eq_true_eq] at hy
    have : y = x := List.inj_on_of_nodup_map hnd hym hx' hy
    rw [hf, this]
    rfl

example : (fun s : St ℚ => makeVector s.usedItems (Dict.get? s.arrays)) (load [((c!"xip", 0, 0), (2, 9))] [1, 4, 5] 0 [(c!"xip", [⟨1, 1, 1, 10⟩, ⟨1, 1, 3, 30⟩, ⟨1, 1, 2, 20⟩])] ⟨[], [], [], [], []⟩) =
    .ok [30, 20] := by decide +kernel

/-- Example: two types, one of them not used. -/
example : (loadAll [c!"xip"] [⟨c!"xip", 1, 1, (2 : ℚ), 9⟩] [1, 4, 8] [(c!"xip", [⟨1, 1, 1, 10⟩, ⟨1, 1, 2, 20⟩, ⟨1, 1, 3, 30⟩]), (c!"xim", [⟨1, 1, 2, 40⟩])]).toOption.map
    (fun s => (s.usedIdx, s.usedItems)) = some ([1, 2], [(0, 0, 0, 1), (0, 0, 0, 2)]) := by decide +kernel

/-! ### chi squared -/

/-- the quadratic form -/
noncomputable def quad {m : Nat} (C : Matrix (Fin m) (Fin m) ℝ) (x : Fin m → ℝ) : ℝ := x ⬝ᵥ C⁻¹ *ᵥ x

theorem chiSq_quad (full : Nat → Nat → ℝ) (u : List Nat) (data theory : List ℝ) :
    chiSq full u data theory = quad (covSub full u) (vec u.length data - vec u.length theory) := by
  rw [chiSq, quad, dotProduct_comm]

example : chiSq (fun i j => if i = j then 1 else 0) [0] [3] [1] = quad (covSub (fun i j => if i = j then (1 : ℝ) else 0) [0]) (vec 1 [3] - vec 1 [1]) := chiSq_quad _ [0] [3] [1]

/-- A theory equal to the data has chi squared zero. -/
theorem chiSq_self (full : Nat → Nat → ℝ) (u : List Nat) (data : List ℝ) : chiSq full u data data = 0 := by
  rw [chiSq_quad, sub_self]
  simp [quad]

/-- the covariance of data selected from a positive definite matrix is positive definite -/
theorem covSub_posDef (N : Nat) (full : Nat → Nat → ℝ) (hf : (Matrix.of fun i j : Fin N => full i j).PosDef) (u : List Nat)
    (hs : u.Pairwise (· < ·)) (hb : ∀ k ∈ u, k < N) : (covSub full u).PosDef := by
  have hb' : ∀ i : Fin u.length, u[i] < N := fun i => hb _ (List.getElem_mem _)
  have hinj : Function.Injective (fun i : Fin u.length => (⟨u[i], hb' i⟩ : Fin N)) := by
    intro i j hij
    simp only [Fin.mk.injEq] at hij
    have hnd : u.Nodup := hs.imp (fun h => Nat.ne_of_lt h)
    exact Fin.ext ((List.Nodup.getElem_inj_iff hnd).mp hij)
  have := hf.submatrix hinj
  exact this

example : (covSub (fun i j => if i = j then (2 : ℝ) else 0) [0, 2]).PosDef :=
  covSub_posDef 3 _ (by
    have h : (Matrix.of fun i j : Fin 3 => if i.val = j.val then (2 : ℝ) else 0) = Matrix.diagonal fun _ => 2 := by
      ext i j
      simp [Matrix.diagonal_apply, Fin.ext_iff]
    rw [h]
    exact Matrix.PosDef.diagonal (fun _ => by norm_num)) [0, 2] (by simp) (by simp)

/-- Chi squared is positive unless data and theory agree. -/
theorem chiSq_pos (N : Nat) (full : Nat → Nat → ℝ) (hf : (Matrix.of fun i j : Fin N => full i j).PosDef) (u : List Nat)
    (hs : u.Pairwise (· < ·)) (hb : ∀ k ∈ u, k < N) (data theory : List ℝ) (h1 : data.length = u.length) (h2 : theory.length = u.length) :
    0 ≤ chiSq full u data theory ∧ (chiSq full u data theory = 0 → data = theory) := by
  have hC := (covSub_posDef N full hf u hs hb).inv
  rw [chiSq_quad]
  by_cases hx : vec u.length data - vec u.length theory = 0
  · constructor
    · rw [hx]; simp [quad]
    · intro _
      apply List.ext_getElem (by rw [h1, h2])
      intro i hi hi'
      have := congrFun hx ⟨i, by omega⟩
      simp only [vec, Pi.sub_apply, Pi.zero_apply, sub_eq_zero] at this
      simpa [List.getD, hi, hi'] using this
  · have hpos := hC.dotProduct_mulVec_pos hx
    simp only [star_trivial] at hpos
    exact ⟨hpos.le, fun h => absurd h hpos.ne'⟩

/-- quadratic form of a part of the data -/
theorem quad_sub {ι κ : Type} [Fintype ι] [DecidableEq ι] [Fintype κ] [DecidableEq κ] (C : Matrix ι ι ℝ) (hC : C.PosDef) (e : κ → ι) (he : Function.Injective e)
    (x : ι → ℝ) : (x ∘ e) ⬝ᵥ (C.submatrix e e)⁻¹ *ᵥ (x ∘ e) ≤ x ⬝ᵥ C⁻¹ *ᵥ x := by
  have hS := hC.submatrix he
  have hCT : Cᵀ = C := by
    have := hC.1
    rwa [IsHermitian, conjTranspose_eq_transpose_of_trivial] at this
  set w := (C.submatrix e e)⁻¹ *ᵥ (x ∘ e) with hw
  -- extension by zero
  set v : ι → ℝ := fun i => ∑ k, if e k = i then w k else 0 with hv
  have dot : ∀ y : ι → ℝ, v ⬝ᵥ y = w ⬝ᵥ (y ∘ e) := by
    intro y
    simp only [dotProduct, hv, Finset.sum_mul]
    rw [Finset.sum_comm]
    apply Finset.sum_congr rfl
    intro k _
    rw [Finset.sum_eq_single (e k)]
    · simp
    · intro i _ hi
      rw [if_neg (fun h => hi h.symm), zero_mul]
    · simp
  have hve : ∀ k, v (e k) = w k := by
    intro k
    simp only [hv]
    rw [Finset.sum_eq_single k]
    · simp
    · intro j _ hj
      rw [if_neg (fun h => hj (he h))]
    · simp
  have hCv : (C *ᵥ v) ∘ e = (C.submatrix e e) *ᵥ w := by
    funext k
    simp only [Function.comp_apply, mulVec]
    rw [dotProduct_comm, dot]
    rw [dotProduct_comm]
    rfl
  have hSw : (C.submatrix e e) *ᵥ w = x ∘ e := by
    rw [hw, mulVec_mulVec, mul_nonsing_inv _ (isUnit_iff_ne_zero.mpr hS.det_pos.ne'), one_mulVec]
  have hq1 : v ⬝ᵥ x = (x ∘ e) ⬝ᵥ w := by rw [dot, dotProduct_comm]
  have hq2 : v ⬝ᵥ C *ᵥ v = (x ∘ e) ⬝ᵥ w := by rw [dot, hCv, hSw, dotProduct_comm]
  have hCy : C *ᵥ (C⁻¹ *ᵥ x) = x := by
    rw [mulVec_mulVec, mul_nonsing_inv _ (isUnit_iff_ne_zero.mpr hC.det_pos.ne'), one_mulVec]
  have hpos := hC.posSemidef.dotProduct_mulVec_nonneg (C⁻¹ *ᵥ x - v)
  simp only [star_trivial] at hpos
  rw [mulVec_sub, hCy, sub_dotProduct, dotProduct_sub, dotProduct_sub, hq1, hq2] at hpos
  have hcross : (C⁻¹ *ᵥ x) ⬝ᵥ C *ᵥ v = (x ∘ e) ⬝ᵥ w := by
    rw [dotProduct_mulVec, ← mulVec_transpose, hCT, hCy, dotProduct_comm, hq1]
  rw [hcross, dotProduct_comm] at hpos
  linarith

theorem vec_map (v : List Nat) (w : List ℝ) (m : Nat) (i : Fin m) (hi : i.val < v.length) : vec m (v.map fun k => w.getD k 0) i = w.getD v[i.val] 0 := by
  simp [vec, List.getD, hi]

/-- Leaving out data never increases chi squared: for positions `v` among the data used, with the data and theory at these positions. -/
theorem chiSq_less (N : Nat) (full : Nat → Nat → ℝ) (hf : (Matrix.of fun i j : Fin N => full i j).PosDef) (u v : List Nat)
    (hu : u.Pairwise (· < ·)) (hb : ∀ k ∈ u, k < N) (hv : v.Pairwise (· < ·)) (hvb : ∀ k ∈ v, k < u.length) (data theory : List ℝ) :
    chiSq full (v.map fun k => u.getD k 0) (v.map fun k => data.getD k 0) (v.map fun k => theory.getD k 0) ≤ chiSq full u data theory := by
  have hC := covSub_posDef N full hf u hu hb
  rw [chiSq_quad, chiSq_quad]
  have hlen : (v.map fun k => u.getD k 0).length = v.length := by simp
  have hvl : ∀ i : Fin (v.map fun k => u.getD k 0).length, v[i.val]'(by have := i.isLt; omega) < u.length := fun i => hvb _ (List.getElem_mem _)
  have hinj : Function.Injective (fun i : Fin (v.map fun k => u.getD k 0).length => (⟨v[i.val]'(by have := i.isLt; omega), hvl i⟩ : Fin u.length)) := by
    intro i j hij
    simp only [Fin.mk.injEq] at hij
    have hnd : v.Nodup := hv.imp (fun h => Nat.ne_of_lt h)
    exact Fin.ext ((List.Nodup.getElem_inj_iff hnd).mp hij)
  have h := quad_sub (covSub full u) hC _ hinj (vec u.length data - vec u.length theory)
  unfold quad
  convert h using 2
  · funext i
    have hi : i.val < v.length := by have := i.isLt; omega
    simp only [Pi.sub_apply, Function.comp_apply, vec_map v _ _ i hi]
    rfl
  · congr 1
    · congr 1
      ext i j
      have hi := hvl i
      have hj := hvl j
      simp only [covSub, of_apply, submatrix_apply, Fin.getElem_fin, List.getElem_map]
      simp [List.getD, hi, hj]
    · funext i
      have hi : i.val < v.length := by have := i.isLt; omega
      simp only [Pi.sub_apply, Function.comp_apply, vec_map v _ _ i hi]
      rfl

/-- Example: two data with unit covariance, the second left out. -/
example : chiSq (fun i j => if i = j then 1 else 0) [0] [3] [1] ≤ chiSq (fun i j => if i = j then 1 else 0) [0, 1] [3, 5] [1, 1] := by
  have h : (Matrix.of fun i j : Fin 2 => if i.val = j.val then (1 : ℝ) else 0) = 1 := by
    ext i j
    fin_cases i <;> fin_cases j <;> simp
  have := chiSq_less 2 (fun i j => if i = j then 1 else 0) (by rw [h]; exact PosDef.one) [0, 1] [0] (by simp) (by simp) (by simp) (by simp) [3, 5] [1, 1]
  simpa using this

/-- The errors are the roots of the variances, if no measurement is given twice. -/
theorem errorsOf_spec (full : Nat → Nat → ℝ) (indices : List Item) (hnd : indices.Nodup) (k : Nat) (hk : k < indices.length) :
    Dict.get? (errorsOf full indices) indices[k] = some (Real.sqrt (full k k)) := by
  unfold errorsOf
  have gen : ∀ (l : List Item) (m : Nat) (d : Dict Item ℝ) (it : Item), l.Nodup →
      Dict.get? ((l.zipIdx m).foldl (fun d p => Dict.set d p.1 (Real.sqrt (full p.2 p.2))) d) it =
        if it ∈ l then some (Real.sqrt (full (m + l.idxOf it) (m + l.idxOf it))) else Dict.get? d it := by
    intro l
    induction l with
    | nil => intro m d it _; simp
    | cons a l ih =>
      intro m d it hnd
      rw [List.zipIdx_cons, List.foldl_cons, ih _ _ _ (List.nodup_cons.mp hnd).2, Dict.get?_set]
      by_cases h : it = a
      · subst h
        rw [if_neg (List.nodup_cons.mp hnd).1]
        simp
      · have h' : ¬ a = it := fun e => h e.symm
        by_cases hm : it ∈ l
        · simp only [hm, if_true, List.mem_cons, or_true]
          rw [List.idxOf_cons_ne _ h']
          have : m + 1 + List.idxOf it l = m + (List.idxOf it l).succ := by omega
          rw [this]
        · simp [hm, h]
  rw [gen _ _ _ _ hnd, if_pos (List.getElem_mem _)]
  rw [hnd.idxOf_getElem]
  simp

/-- Example. -/
example : Dict.get? (errorsOf (fun i _ => ((i : ℝ) + 1) ^ 2) [(0, 0, 0, 0), (0, 0, 0, 1)]) (0, 0, 0, 1) = some 2 := by
  have := errorsOf_spec (fun i _ => ((i : ℝ) + 1) ^ 2) [(0, 0, 0, 0), (0, 0, 0, 1)] (by decide) 1 (by simp)
  simp only [List.getElem_cons_succ, List.getElem_cons_zero] at this
  rw [this, Real.sqrt_sq (by norm_num)]
  norm_num

end Verif.DES
