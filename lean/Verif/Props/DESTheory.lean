import Verif.Props.DES

/-!
# Theory vector, sums over multipoles and distances of the DES likelihood; defects
-/

namespace Verif.DES
open Verif.Py Matrix

set_option linter.unusedSectionVars false

variable {K : Type} [LinearOrder K]

/-! ### theory -/

theorem allRows_type (files : List (Str × List (Row K))) (i : Nat) (x : Nat × Str × Row K) (hx : x ∈ allRows i files) :
    ∃ j f, files[j]? = some f ∧ x.1 = i + j ∧ x.2.1 = f.1 ∧ x.2.2 ∈ f.2 := by
  induction files generalizing i with
  | nil => simp [allRows] at hx
  | cons f fs ih =>
    rw [allRows, List.mem_append] at hx
    rcases hx with hx | hx
    · simp only [List.mem_map] at hx
      obtain ⟨r, hr, rfl⟩ := hx
      exact ⟨0, f, rfl, rfl, rfl, hr⟩
    · obtain ⟨j, g, h1, h2, h3, h4⟩ := ih (i + 1) hx
      exact ⟨j + 1, g, by simpa using h1, by omega, h3, h4⟩

/-- the correlation that belongs to an entry of the data -/
def corrOf {L : Type} (dataTypes : List Str) (corr : Str → Nat → Nat → Nat → L) (it : Item) : L := corr (dataTypes.getD it.1 []) it.2.1 it.2.2.1 it.2.2.2

theorem pairsOf_mem (dataTypes : List Str) (pairs : List (Nat × Nat × Nat)) (tp : Str) (h : tp ∈ dataTypes) :
    ∃ ps, pairsOf dataTypes pairs tp = .ok ps ∧ ∀ b1 b2, (b1, b2) ∈ ps ↔ (dataTypes.idxOf tp, b1, b2) ∈ pairs := by
  refine ⟨_, by rw [pairsOf, if_pos (by simpa using h)], ?_⟩
  intro b1 b2
  simp only [List.mem_map, List.mem_filter, beq_iff_eq]
  constructor
  · rintro ⟨⟨a, b, c⟩, ⟨h1, h2⟩, h3⟩
    simp only [Prod.mk.injEq] at h2 h3
    rw [← h2, ← h3.1, ← h3.2]
    exact h1
  · intro h
    exact ⟨_, ⟨h, rfl⟩, rfl⟩

/-- pairs for which a type is computed -/
def CompOk (dataTypes : List Str) (pairs : List (Nat × Nat × Nat)) (c : Bool) (tp : Str) (ps : List (Nat × Nat)) : Prop :=
  c = true → ∀ b1 b2, (b1, b2) ∈ ps ↔ (dataTypes.idxOf tp, b1, b2) ∈ pairs

theorem get_ok (dataTypes : List Str) (pairs : List (Nat × Nat × Nat)) (c : Bool) (tp : Str) (h : c = true → tp ∈ dataTypes) :
    ∃ ps, (if c then pairsOf dataTypes pairs tp else .ok []) = .ok ps ∧ CompOk dataTypes pairs c tp ps := by
  cases c with
  | false => exact ⟨[], rfl, fun h => by cases h⟩
  | true =>
    obtain ⟨ps, h1, h2⟩ := pairsOf_mem dataTypes pairs tp (h rfl)
    exact ⟨ps, by simpa using h1, fun _ => h2⟩

/-- With the data types in the order of the theory (all four, or the first of them) each entry of the data is compared with its own correlation,
if `xim` has no other pairs of bins than `xip`. -/
theorem theoryVector_spec {L : Type} (usedTypes : List Str) (sel : List (Sel K)) (theta : List K) (files : List (Str × List (Row K)))
    (hpre : files.map Prod.fst <+: theoryOrder) (hused : ∀ t ∈ usedTypes, t ∈ files.map Prod.fst) (s : St K) (hl : loadAll usedTypes sel theta files = .ok s)
    (hm : ∀ b1 b2, (1, b1, b2) ∈ s.pairs → (0, b1, b2) ∈ s.pairs) (corr : Str → Nat → Nat → Nat → L) :
    theoryVector (files.map Prod.fst) usedTypes s corr = .ok (s.usedItems.map (corrOf (files.map Prod.fst) corr)) := by
  unfold loadAll at hl
  rcases hr : rangesOf (files.map Prod.fst) usedTypes sel with e | r
  · rw [hr] at hl; cases hl
  rw [hr] at hl
  simp only [Except.ok.injEq] at hl
  subst hl
  have hd := load_spec r theta files
  -- facts about every entry used
  have hit : ∀ it ∈ (load r theta 0 files ⟨[], [], [], [], []⟩).usedItems, ∃ tp, (files.map Prod.fst)[it.1]? = some tp ∧ tp ∈ usedTypes ∧
      (it.1, it.2.1, it.2.2.1) ∈ (load r theta 0 files ⟨[], [], [], [], []⟩).pairs := by
    intro it hit
    rw [hd.items, List.mem_map] at hit
    obtain ⟨x, hx, rfl⟩ := hit
    obtain ⟨hx, hsel⟩ := List.mem_filter.mp hx
    obtain ⟨j, f, h1, h2, h3, -⟩ := allRows_type files 0 x hx
    refine ⟨f.1, ?_, ?_, (hd.pairs _).mpr ⟨x, hx, rfl⟩⟩
    · simp only [itemOf]
      rw [h2, Nat.zero_add, List.getElem?_map, h1]
      rfl
    · obtain ⟨mn, mx, t, hg, -⟩ := (selected_iff r theta x.2.1 x.2.2).mp hsel
      rw [rangesOf_spec _ _ _ _ hr] at hg
      rw [Option.map_eq_some_iff] at hg
      obtain ⟨q, hq, -⟩ := hg
      have := List.find?_some hq
      simp only [decide_eq_true_eq, Prod.mk.injEq] at this
      rw [← h3, ← this.2.1]
      exact this.1
  generalize load r theta 0 files ⟨[], [], [], [], []⟩ = s at *
  generalize hdt : files.map Prod.fst = dt at *
  have hp : ∀ t, t ∈ dt → t ∈ theoryOrder := fun t ht => hpre.subset ht
  have hidx : ∀ (i : Nat) (tp : Str), dt[i]? = some tp → theoryOrder[i]? = some tp := by
    intro i tp h
    obtain ⟨t, ht⟩ := hpre
    rw [← ht, List.getElem?_append_left (by
      by_contra hc
      rw [List.getElem?_eq_none (by omega)] at h
      cases h)]
    exact h
  have hidxOf : ∀ t ∈ dt, dt.idxOf t = theoryOrder.idxOf t := by
    intro t ht
    obtain ⟨u, hu⟩ := hpre
    rw [← hu, List.idxOf_append_of_mem ht]
  have hxip : c!"xim" ∈ dt → c!"xip" ∈ dt := by
    intro h
    have hlt := List.idxOf_lt_length_of_mem h
    rw [hidxOf _ h] at hlt
    have h1 : theoryOrder.idxOf c!"xim" = 1 := by decide
    rw [h1] at hlt
    obtain ⟨u, hu⟩ := hpre
    have h0 : (dt ++ u)[0]? = some c!"xip" := by rw [hu]; decide
    rw [List.getElem?_append_left (by omega)] at h0
    exact List.mem_of_getElem? h0
  obtain ⟨A, hA, hA'⟩ := get_ok dt s.pairs (usedTypes.contains c!"xip" || usedTypes.contains c!"xim") c!"xip" (by
    intro h
    rcases (Bool.or_eq_true _ _).mp h with h | h
    · exact hused _ (by simpa using h)
    · exact hxip (hused _ (by simpa using h)))
  obtain ⟨B, hB, hB'⟩ := get_ok dt s.pairs (usedTypes.contains c!"gammat") c!"gammat" (fun h => hused _ (by simpa using h))
  obtain ⟨C, hC, hC'⟩ := get_ok dt s.pairs (usedTypes.contains c!"wtheta") c!"wtheta" (fun h => hused _ (by simpa using h))
  have hcomp : computed dt usedTypes s.pairs = .ok [A, A, B, C] := by
    unfold computed
    simp only [hA, hB, hC]
  unfold theoryVector
  rw [hcomp]
  simp only
  rw [makeVector_ok, List.map_map]
  apply List.map_congr_left
  intro it hi
  obtain ⟨tp, htp, htu, hpair⟩ := hit it hi
  have hto := hidx _ _ htp
  have hlt : it.1 < 4 := by
    by_contra hc
    rw [List.getElem?_eq_none (by simp [theoryOrder]; omega)] at hto
    cases hto
  have hdtm : tp ∈ dt := List.mem_of_getElem? htp
  simp only [Function.comp_apply, theoryArrays, hto, corrOf, List.getD, htp, Option.getD_some]
  have hmem : ∃ ps, [A, A, B, C][it.1]? = some ps ∧ (it.2.1, it.2.2.1) ∈ ps := by
    obtain ⟨i, b1, b2, t⟩ := it
    simp only at hlt hto hpair ⊢
    have h0 : ∀ q ∈ dt, ∀ n, theoryOrder.idxOf q = n → dt.idxOf q = n := fun q hq n hn => by rw [hidxOf q hq, hn]
    interval_cases i
    · have : tp = c!"xip" := by
        have : theoryOrder[0]? = some c!"xip" := by decide
        rw [this] at hto
        exact (Option.some.inj hto).symm
      subst this
      refine ⟨A, rfl, (hA' (by simp [-String.reduceToList, htu]) b1 b2).mpr ?_⟩
      rw [h0 _ hdtm 0 (by decide)]
      exact hpair
    · have : tp = c!"xim" := by
        have : theoryOrder[1]? = some c!"xim" := by decide
        rw [this] at hto
        exact (Option.some.inj hto).symm
      subst this
      refine ⟨A, rfl, (hA' (by simp [-String.reduceToList, htu]) b1 b2).mpr ?_⟩
      rw [h0 _ (hxip hdtm) 0 (by decide)]
      exact hm _ _ hpair
    · have : tp = c!"gammat" := by
        have : theoryOrder[2]? = some c!"gammat" := by decide
        rw [this] at hto
        exact (Option.some.inj hto).symm
      subst this
      refine ⟨B, rfl, (hB' (by simp [-String.reduceToList, htu]) b1 b2).mpr ?_⟩
      rw [h0 _ hdtm 2 (by decide)]
      exact hpair
    · have : tp = c!"wtheta" := by
        have : theoryOrder[3]? = some c!"wtheta" := by decide
        rw [this] at hto
        exact (Option.some.inj hto).symm
      subst this
      refine ⟨C, rfl, (hC' (by simp [-String.reduceToList, htu]) b1 b2).mpr ?_⟩
      rw [h0 _ hdtm 3 (by decide)]
      exact hpair
  obtain ⟨ps, h1, h2⟩ := hmem
  rw [h1]
  simp [h2]

/-- a correlation that shows which one it is -/
def tagCorr (tp : Str) (b1 b2 t : Nat) : Str × Nat × Nat × Nat := (tp, b1, b2, t)

/-- theory vector after loading -/
def theoryOf (usedTypes : List Str) (sel : List (Sel ℚ)) (theta : List ℚ) (files : List (Str × List (Row ℚ))) : Option (Except Err (List (Str × Nat × Nat × Nat))) :=
  (loadAll usedTypes sel theta files).toOption.map fun s => theoryVector (files.map Prod.fst) usedTypes s tagCorr

/-- Example: lensing only. -/
example : theoryOf [c!"xip", c!"xim"] [⟨c!"xip", 1, 1, 2, 9⟩, ⟨c!"xim", 1, 1, 2, 9⟩] [1, 4] [(c!"xip", [⟨1, 1, 1, 10⟩, ⟨1, 1, 2, 20⟩]), (c!"xim", [⟨1, 1, 1, 30⟩, ⟨1, 1, 2, 40⟩])] =
    some (.ok [(c!"xip", 0, 0, 1), (c!"xim", 0, 0, 1)]) := by rfl

/-! ### sums over multipoles -/

variable {F : Type} [Field F]

/-- the multipoles of a group -/
def members (g : Nat × Nat) : List Nat := (List.range g.2).map (g.1 + ·)

/-- The groups, one after the other, are all multipoles from two on. -/
theorem groups_flatten (ell : Nat) (ds : List Nat) : ((groups ell ds).map members).flatten = (List.range ds.sum).map (ell + ·) := by
  induction ds generalizing ell with
  | nil => rfl
  | cons d ds ih =>
    rw [groups, List.map_cons, List.flatten_cons, ih, List.sum_cons, List.range_add, List.map_append, List.map_map]
    congr 1
    apply List.map_congr_left
    intro k _
    simp [Nat.add_assoc]

theorem diffs_sum (l : List Nat) (h : l.Pairwise (· < ·)) (a : Nat) (ha : l.head? = some a) (b : Nat) (hb : l.getLast? = some b) : a + (diffs l).sum = b := by
  induction l generalizing a with
  | nil => cases ha
  | cons x l ih =>
    rcases l with _ | ⟨y, l⟩
    · simp at ha hb
      simp [diffs, ← ha, ← hb]
    · simp only [List.head?_cons, Option.some.injEq] at ha
      subst ha
      have hxy : x < y := (List.pairwise_cons.mp h).1 y (by simp)
      have := ih (List.pairwise_cons.mp h).2 y rfl (by simpa using hb)
      rw [diffs, List.sum_cons]
      omega

/-- For the grid of multipoles from one to at most `lmax`, all multipoles of the groups exist: they are those from two to the last of the grid, each in one group. -/
theorem groups_spec (l : List Nat) (h : l.Pairwise (· < ·)) (ha : l.head? = some 1) (b : Nat) (hb : l.getLast? = some b) (lmax : Nat) (hl : b ≤ lmax) :
    ((groups 2 (diffs l)).map members).flatten = (List.range (b - 1)).map (2 + ·) ∧ ∀ g ∈ groups 2 (diffs l), ∀ m ∈ members g, 2 ≤ m ∧ m ≤ lmax := by
  have hs := diffs_sum l h 1 ha b hb
  have hfl := groups_flatten 2 (diffs l)
  rw [show (diffs l).sum = b - 1 by omega] at hfl
  refine ⟨hfl, ?_⟩
  intro g hg m hm
  have : m ∈ ((groups 2 (diffs l)).map members).flatten := List.mem_flatten.mpr ⟨_, List.mem_map_of_mem hg, hm⟩
  rw [hfl] at this
  simp only [List.mem_map, List.mem_range] at this
  obtain ⟨k, hk, rfl⟩ := this
  omega

/-- Example. -/
example : groups 2 (diffs [1, 2, 4, 7]) = [(2, 1), (3, 2), (5, 3)] := by decide

theorem groupSum_members (j : Nat → F) (g : Nat × Nat) : groupSum j g = ((members g).map j).sum := by
  simp [groupSum, members, List.map_map, Function.comp_def]

/-- The transform is the full sum over multipoles for a spectrum that is constant on each group. -/
theorem transform_spec (j : Nat → F) (cl : F → F) (c : Nat → F) (ds : List Nat) (h : ∀ g ∈ groups 2 ds, ∀ m ∈ members g, c m = cl (centre g)) :
    transform j cl (groups 2 ds) = ((List.range ds.sum).map fun k : Nat => c (2 + k) * j (2 + k)).sum := by
  have hm : ((List.range ds.sum).map fun k : Nat => c (2 + k) * j (2 + k)) = (((groups 2 ds).map members).flatten).map fun m => c m * j m := by
    rw [groups_flatten, List.map_map]
    rfl
  rw [hm]
  clear hm
  generalize groups 2 ds = gs at *
  unfold transform
  induction gs with
  | nil => simp
  | cons g gs ih =>
    rw [List.map_cons, List.sum_cons, List.map_cons, List.flatten_cons, List.map_append, List.sum_append]
    rw [ih (fun g' hg' => h g' (by simp [hg']))]
    congr 1
    rw [groupSum_members, ← List.sum_map_mul_left]
    congr 1
    apply List.map_congr_left
    intro m hm
    rw [h g (by simp) m hm]

/-- The centre of a group is the mean of its multipoles, so a linear spectrum is sampled at its mean. -/
theorem centre_mean (g : Nat × Nat) (h2 : (2 : F) ≠ 0) : (centre g : F) * g.2 = ((members g).map fun m : Nat => (m : F)).sum := by
  obtain ⟨a, d⟩ := g
  unfold centre members
  rw [List.map_map]
  simp only [Function.comp_def]
  have key : ∀ d : Nat, 2 * ((List.range d).map fun k : Nat => ((a + k : Nat) : F)).sum = (2 * a + d - 1) * d := by
    intro d
    induction d with
    | zero => simp
    | succ d ih =>
      rw [List.range_succ, List.map_append, List.sum_append, mul_add, ih]
      push_cast
      simp
      ring
  have := key d
  field_simp
  rw [this, mul_comm]

/-- Example: the group 3, 4 has its centre between. -/
example : (centre (3, 2) : ℚ) = 7 / 2 := by norm_num [centre]

/-! ### distances -/

/-- The steps add up to the largest distance and half of the last step more: the first reaches from zero, the others from middle to middle. -/
theorem dchis_sum (c : Nat → F) (n : Nat) (h2 : (2 : F) ≠ 0) :
    ((List.range (n + 2)).map fun i : Nat => dchis c (n + 2) i).sum = c (n + 1) + (c (n + 1) - c n) / 2 := by
  have hpart : ∀ m, m ≤ n → ((List.range (m + 1)).map fun i : Nat => dchis c (n + 2) i).sum = (c (m + 1) + c m) / 2 := by
    intro m
    induction m with
    | zero => intro _; simp [dchis]
    | succ m ih =>
      intro hm
      rw [List.range_succ, List.map_append, List.sum_append, ih (by omega)]
      simp only [List.map_cons, List.map_nil, List.sum_cons, List.sum_nil, add_zero]
      rw [dchis, if_neg (by omega), if_neg (by omega), Nat.add_sub_cancel]
      field_simp
      ring
  rw [List.range_succ, List.map_append, List.sum_append, hpart n (le_refl n)]
  simp only [List.map_cons, List.map_nil, List.sum_cons, List.sum_nil, add_zero]
  rw [dchis, if_neg (by omega), if_pos rfl]
  simp only [Nat.add_sub_cancel, show n + 2 - 1 = n + 1 from rfl]
  field_simp
  ring

/-- Example: three distances. -/
example : ((List.range 3).map fun i : Nat => dchis (fun k => (k : ℚ) + 1) 3 i) = [3 / 2, 1, 1] := by norm_num [dchis, List.range_succ]

variable [LinearOrder F] [IsStrictOrderedRing F]

/-- The lensing efficiency is not negative, and does not increase with distance. -/
theorem lensW_spec (c fac : Nat → F) (n i k : Nat) (hik : i ≤ k) (hf : ∀ j, 0 ≤ fac j) (hc : ∀ j, 0 < c j) (hmono : ∀ a b, a ≤ b → c a ≤ c b) :
    0 ≤ lensW c fac n k ∧ lensW c fac n k ≤ lensW c fac n i := by
  have hterm : ∀ a j, a ≤ j → 0 ≤ fac j * (1 - c a / c j) := by
    intro a j haj
    have : c a / c j ≤ 1 := (div_le_one (hc j)).mpr (hmono a j haj)
    exact mul_nonneg (hf j) (by linarith)
  constructor
  · apply List.sum_nonneg
    intro x hx
    simp only [List.mem_map] at hx
    obtain ⟨j, -, rfl⟩ := hx
    split_ifs with h
    · exact hterm k j h
    · exact le_refl _
  · apply List.sum_le_sum
    intro j _
    split_ifs with h1 h2 h2
    · apply mul_le_mul_of_nonneg_left _ (hf j)
      have := div_le_div_of_nonneg_right (hmono i k hik) (hc j).le
      linarith
    · omega
    · exact hterm i j h2
    · exact le_refl _

/-- Example: two distances, all galaxies at the far one. -/
example : lensW (fun k => (k : ℚ) + 1) (fun _ => 1) 2 0 = 1 / 2 := by norm_num [lensW, List.range_succ]

/-! ### defects -/

/-- The full statement: each entry of the data is compared with its own correlation, whatever the order of the data types in the settings. -/
def TheoryMatches : Prop :=
  ∀ (usedTypes : List Str) (sel : List (Sel ℚ)) (theta : List ℚ) (files : List (Str × List (Row ℚ))) (s : St ℚ), (∀ f ∈ files, f.1 ∈ theoryOrder) →
    (files.map Prod.fst).Nodup → (∀ t ∈ usedTypes, t ∈ files.map Prod.fst) → loadAll usedTypes sel theta files = .ok s →
    theoryVector (files.map Prod.fst) usedTypes s tagCorr = .ok (s.usedItems.map (corrOf (files.map Prod.fst) tagCorr))

/-- The theory is returned in the fixed order `xip xim gammat wtheta`, but looked up by the position in `data_types`: with `data_types = xim xip` the data of one
are compared with the theory of the other.  (DES.py:123, 148, 595, 601) -/
theorem typeOrder_fails : ¬ TheoryMatches := by
  intro h
  have h1 : ∃ s, loadAll [c!"xim", c!"xip"] [⟨c!"xip", 1, 1, (2 : ℚ), 9⟩, ⟨c!"xim", 1, 1, 2, 9⟩] [4] [(c!"xim", [⟨1, 1, 1, 10⟩]), (c!"xip", [⟨1, 1, 1, 30⟩])] = .ok s ∧
      theoryVector [c!"xim", c!"xip"] [c!"xim", c!"xip"] s tagCorr = .ok [(c!"xip", 0, 0, 0), (c!"xim", 0, 0, 0)] ∧
      s.usedItems.map (corrOf [c!"xim", c!"xip"] tagCorr) = [(c!"xim", 0, 0, 0), (c!"xip", 0, 0, 0)] := ⟨_, rfl, by rfl, by decide +kernel⟩
  obtain ⟨s, hs, ht, hu⟩ := h1
  have h2 := h _ _ _ _ s (by decide) (by decide) (by decide) hs
  rw [show ([(c!"xim", [(⟨1, 1, 1, 10⟩ : Row ℚ)]), (c!"xip", [⟨1, 1, 1, 30⟩])].map Prod.fst) = [c!"xim", c!"xip"] from rfl, ht, hu] at h2
  simp only [Except.ok.injEq] at h2
  exact absurd h2 (by decide)

/-- With `wtheta` as the only type the theory is missing: the first array returned is that of `xip`, which is empty.  (DES.py:595, 601) -/
theorem onlyGalaxies_fails : theoryOf [c!"wtheta"] [⟨c!"wtheta", 1, 1, 2, 9⟩] [4] [(c!"wtheta", [⟨1, 1, 1, 10⟩])] = some (.error .type) := by rfl

/-- Data of `xim` without `xip` cannot be used: the pairs of bins of `xip` are looked up.  (DES.py:581) -/
theorem ximAlone_fails : theoryOf [c!"xim"] [⟨c!"xim", 1, 1, 2, 9⟩] [4] [(c!"xim", [⟨1, 1, 1, 10⟩])] = some (.error .value) := by rfl

/-- A pair of bins of `xim` that `xip` does not have has no theory.  (DES.py:581-585) -/
theorem ximPairs_fails : theoryOf [c!"xip", c!"xim"] [⟨c!"xim", 1, 2, 2, 9⟩] [4] [(c!"xip", [⟨1, 1, 1, 10⟩]), (c!"xim", [⟨1, 2, 1, 10⟩])] = some (.error .type) := by rfl

/-- The full statement: the steps in distance add up to the largest distance. -/
def StepsAddUp : Prop := ∀ (c : Nat → ℚ) (n : Nat), ((List.range (n + 2)).map fun i : Nat => dchis c (n + 2) i).sum = c (n + 1)

/-- The last step in distance is counted whole, although half of it belongs to the point before: the steps exceed the largest distance by half of the last.  (DES.py:486) -/
theorem lastStep_fails : ¬ StepsAddUp := by
  intro h
  have := h (fun k => (k : ℚ) + 1) 1
  norm_num [dchis, List.range_succ] at this

/-- The full statement: the data vector holds the values of the rows used. -/
def ValuesKept : Prop :=
  ∀ (r : Dict (Str × Nat × Nat) (ℚ × ℚ)) (theta : List ℚ) (files : List (Str × List (Row ℚ))),
    makeVector (load r theta 0 files ⟨[], [], [], [], []⟩).usedItems (Dict.get? (load r theta 0 files ⟨[], [], [], [], []⟩).arrays) =
      .ok (((allRows 0 files).filter fun x => selected r theta x.2.1 x.2.2).map fun x => x.2.2.val)

/-- A measurement given twice is entered twice with the second value.  (DES.py:157-162) -/
theorem duplicate_fails : ¬ ValuesKept := by
  intro h
  have h1 := (makeVector_ok _ _ _).mp (h [((c!"xip", 0, 0), (2, 9))] [4] [(c!"xip", [⟨1, 1, 1, 10⟩, ⟨1, 1, 1, 20⟩])])
  exact absurd h1 (by decide +kernel)

end Verif.DES
