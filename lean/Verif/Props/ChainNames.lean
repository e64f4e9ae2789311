import Verif.Props.Chains

/-!
# C22, C58: parameter names and columns of chains; examples and failures of C19-C22, C57
-/

namespace Verif.Chains
open Verif.Py Verif.Py.Np Verif.Thin Verif.Samples
set_option linter.unusedSectionVars false

variable {K : Type} [Field K] [LinearOrder K] [FloorRing K]

/-! ### fixed columns -/

/-- a column is fixed: all values agree with their average to a relative 1e-12 -/
def Fixed (col : List K) : Prop :=
  ∀ x ∈ col, |x - col.sum / (col.length : K)| ≤ 1 / 10 ^ 12 * |col.sum / (col.length : K)|

theorem isclose_of_fixed [IsStrictOrderedRing K] {a b m : K} (ha : |a - m| ≤ 1 / 10 ^ 12 * |m|)
    (hb : |b - m| ≤ 1 / 10 ^ 12 * |m|) : isclose a b = true := by
  unfold isclose
  rw [decide_eq_true_eq]
  have h1 : |a - b| ≤ |a - m| + |b - m| := by
    rw [abs_sub_comm b m]; exact abs_sub_le a m b
  have h2 : |m| - |b| ≤ |b - m| := by rw [abs_sub_comm]; exact abs_sub_abs_le_abs_sub m b
  have hm := abs_nonneg m
  have h3 : |m| ≤ 2 * |b| := by nlinarith
  have hb0 := abs_nonneg b
  nlinarith

theorem colFixed_iff [IsStrictOrderedRing K] {col : List K} (h : col ≠ []) :
    (colFixed col).getD false = true ↔ Fixed col := by
  cases col with
  | nil => exact absurd rfl h
  | cons a l =>
    unfold colFixed
    simp only [List.head?_cons]
    rw [List.getLast?_eq_some_getLast h]
    simp only [Option.getD_some, Bool.and_eq_true, List.all_eq_true, decide_eq_true_eq]
    unfold Fixed average
    constructor
    · exact fun h => h.2
    · intro hf
      exact ⟨isclose_of_fixed (hf a (by simp)) (hf _ (List.getLast_mem h)), hf⟩

/-- an exactly constant column is fixed, with that constant as its average -/
theorem fixed_const [IsStrictOrderedRing K] {col : List K} {v : K} (h : ∀ x ∈ col, x = v) (hne : col ≠ []) :
    Fixed col ∧ col.sum / (col.length : K) = v := by
  have hc : col = List.replicate col.length v := List.eq_replicate_iff.2 ⟨rfl, h⟩
  have hl : (col.length : K) ≠ 0 := by
    have : col.length ≠ 0 := by simpa using hne
    exact_mod_cast this
  have hs : col.sum / (col.length : K) = v := by
    conv_lhs => rw [hc]
    simp only [List.sum_replicate, List.length_replicate, nsmul_eq_mul]
    field_simp
  refine ⟨?_, hs⟩
  intro x hx
  rw [hs, h x hx, sub_self, abs_zero]
  positivity

/-- the columns that stay -/
def kept (n : Nat) (ix : List Nat) : List Nat := (List.range n).filter (fun i => !ix.contains i)

theorem deleteIdx_kept {α : Type} (l : List α) (ix : List Nat) (d : α) :
    deleteIdx l ix = (kept l.length ix).map (fun i => l.getD i d) := by
  unfold deleteIdx kept
  have : l.zipIdx = (List.range l.length).map (fun i => (l.getD i d, i)) := by
    apply List.ext_getElem
    · simp
    · intro i h1 h2
      simp at h1
      simp [List.getD_eq_getElem?_getD, h1]
  rw [this, List.filter_map, List.map_map]
  rfl

theorem deleteIndices_kept (ps : List ParamNames.Info) (ix : List Nat) :
    (ParamNames.deleteIndices ps ix).map some = (kept ps.length ix).map (fun i => ps[i]?) := by
  have : ParamNames.deleteIndices ps ix = deleteIdx ps ix := by
    unfold ParamNames.deleteIndices; rw [ParamNames.deleteFrom_spec]; rfl
  rw [this, deleteIdx_kept ps ix {}, List.map_map]
  apply List.map_congr_left
  intro i hi
  have : i < ps.length := by have := (List.mem_filter.1 hi).1; simpa using this
  simp [List.getD_eq_getElem?_getD, this]

/-- the columns found fixed are the fixed columns, with their averages -/
theorem fixedCols_spec [IsStrictOrderedRing K] {n : Nat} {rows : List (Row K)} (hne : rows ≠ []) :
    ∃ fixed, fixedCols ⟨n, rows.map (·.sample)⟩ = .ok fixed ∧
      (∀ i, i ∈ fixed.map (·.1) ↔ i < n ∧ Fixed (rows.map (fun r => r.sample.getD i 0))) ∧
      (∀ p ∈ fixed, p.2 = (rows.map (fun r => r.sample.getD p.1 0)).sum / (rows.length : K)) := by
  unfold fixedCols
  rw [if_neg (by simp [hne])]
  refine ⟨_, rfl, ?_, ?_⟩
  · intro i
    simp only [List.map_map, List.mem_map, List.mem_filter, List.mem_range, Function.comp_apply, exists_eq_right, col_rows]
    rw [colFixed_iff (by simpa using hne)]
  · intro p hp
    obtain ⟨i, -, rfl⟩ := List.mem_map.1 hp
    simp only [col_rows, average, List.length_map]

/-- a row with only the columns `kp` -/
def restrict (kp : List Nat) (r : Row K) : Row K := { r with sample := kp.map (fun i => r.sample.getD i 0) }

theorem getParamIndices_ok {c : CH K} (h : c.ws.samples.isSome → c.names.length = c.ws.n) :
    getParamIndices c = .ok { c with index := indexOf c.names } := by
  unfold getParamIndices
  rw [if_neg]
  rintro ⟨h1, h2⟩
  exact h2 (h h1)

theorem index_fold (ps : List ParamNames.Info) (k : Nat) (d : Dict Str Nat) (nm : Str) :
    ((ps.zipIdx k).foldl (fun d p => d.set p.1.name p.2) d).get? nm =
      match (ps.zipIdx k).reverse.find? (fun p => p.1.name = nm) with
      | some p => some p.2
      | none => d.get? nm := by
  induction ps generalizing k d with
  | nil => rfl
  | cons p ps ih =>
    simp only [List.zipIdx_cons, List.foldl_cons, List.reverse_cons, List.find?_append]
    rw [ih]
    cases (ps.zipIdx (k + 1)).reverse.find? (fun p => decide (p.1.name = nm)) with
    | some q => rfl
    | none =>
      simp only [Option.none_or]
      rw [Dict.get?_set]
      by_cases h : p.name = nm
      · simp [h]
      · simp [h, Ne.symm h]

/-- the index of a name, for distinct names, is its position -/
theorem index_get {ps : List ParamNames.Info} (hnd : (ps.map (·.name)).Nodup) {i : Nat} (hi : i < ps.length) :
    (indexOf ps).get? ps[i].name = some i := by
  have key : ∀ (ps : List ParamNames.Info) (k : Nat) (d : Dict Str Nat), (ps.map (·.name)).Nodup → ∀ (i : Nat) (hi : i < ps.length),
      ((ps.zipIdx k).foldl (fun d p => d.set p.1.name p.2) d).get? ps[i].name = some (k + i) := by
    intro ps
    induction ps with
    | nil => intro k d _ i hi; simp at hi
    | cons p ps ih =>
      intro k d hnd i hi
      simp only [List.map_cons, List.nodup_cons] at hnd
      simp only [List.zipIdx_cons, List.foldl_cons]
      cases i with
      | zero =>
        simp only [List.getElem_cons_zero, Nat.add_zero]
        rw [index_fold]
        have : (ps.zipIdx (k + 1)).reverse.find? (fun q => decide (q.1.name = p.name)) = none := by
          rw [List.find?_eq_none]
          intro q hq
          simp only [List.mem_reverse] at hq
          have := List.fst_mem_of_mem_zipIdx hq
          simp only [decide_eq_true_eq]
          intro h
          exact hnd.1 (h ▸ List.mem_map_of_mem this)
        rw [this]
        exact Dict.get?_set_self _ _ _
      | succ i =>
        simp only [List.getElem_cons_succ]
        rw [ih (k + 1) _ hnd.2 i (by simpa using hi)]
        congr 1; omega
  unfold indexOf
  simpa using key ps 0 [] hnd i hi

example : (indexOf [{ name := c!"a" }, { name := c!"b" }]).get? c!"b" = some 1 := by decide

theorem index_none {ps : List ParamNames.Info} {nm : Str} (h : nm ∉ ps.map (·.name)) :
    (indexOf ps).get? nm = none := by
  unfold indexOf
  rw [index_fold]
  have : ps.zipIdx.reverse.find? (fun q => decide (q.1.name = nm)) = none := by
    rw [List.find?_eq_none]
    intro q hq
    simp only [List.mem_reverse] at hq
    have := List.fst_mem_of_mem_zipIdx hq
    simp only [decide_eq_true_eq]
    intro h'
    exact h (h' ▸ List.mem_map_of_mem this)
  rw [this]; rfl

/-- the names and the columns of the samples are the old ones at the positions `kp` -/
structure Aligned (c : CH K) (kp : List Nat) (c' : CH K) : Prop where
  names : c'.names.map some = kp.map (fun i => c.names[i]?)
  index : c'.index = indexOf c'.names

theorem autoCutSegs_map (ratio : Option K) (segs : List (List (Row K))) (g : Row K → Row K) (hg : ∀ r, (g r).weight = r.weight) :
    autoCutSegs ratio (segs.map (List.map g)) = (autoCutSegs ratio segs).map (List.map (List.map g)) := by
  have hw : (segs.map (List.map g)).flatten.map (·.weight) = segs.flatten.map (·.weight) := by
    rw [← List.map_flatten, List.map_map]
    apply List.map_congr_left; intro r _; exact hg r
  unfold autoCutSegs
  cases ratio with
  | none => rfl
  | some r =>
    simp only [cutSegs, hw]
    split
    · cases max? (segs.flatten.map (·.weight)) with
      | error e => rfl
      | ok mx =>
        cases min? (segs.flatten.map (·.weight)) with
        | error e => rfl
        | ok mn =>
          simp only []
          split
          · simp only [Except.map, List.map_map]
            congr 1
            apply List.map_congr_left
            intro seg _
            simp [Function.comp_def, List.filter_map, hg]
          · rfl
    · rfl

/-- **C22 (combined chains)** removing fixed parameters: there is an increasing list `kp` of kept columns such that
exactly the fixed columns (over all chains) are missing, names and columns are the old ones at `kp`, row by row and
chain by chain, and the reported values are the averages of the removed columns. -/
theorem deleteFixed_combined [IsStrictOrderedRing K] {c : CH K} {hasL : Bool} {n : Nat} {segs : List (List (Row K))}
    (h : Combined c hasL n segs) (hnames : c.names.length = n) (hrect : ∀ r ∈ segs.flatten, r.sample.length = n)
    (hne : segs.flatten ≠ []) :
    ∃ (kp : List Nat) (fixed : List (Nat × K)), kp.Sublist (List.range n) ∧
      (∀ i < n, i ∉ kp ↔ Fixed (segs.flatten.map (fun r => r.sample.getD i 0))) ∧
      (∀ i, i ∈ fixed.map (·.1) ↔ i < n ∧ i ∉ kp) ∧
      (∀ p ∈ fixed, p.2 = (segs.flatten.map (fun r => r.sample.getD p.1 0)).sum / (segs.flatten.length : K)) ∧
      Ag (fun r segs' => r.2 = fixed ∧ Combined r.1 hasL kp.length (segs'.map (List.map (restrict kp))) ∧ Aligned c kp r.1)
        (deleteFixedParams c) (autoCutSegs c.ws.minWeightRatio segs) := by
  obtain ⟨fixed, h1, h2, h3⟩ := fixedCols_spec (n := n) hne
  refine ⟨kept n (fixed.map (·.1)), fixed, List.filter_sublist, ?_, ?_, h3, ?_⟩
  · intro i hi
    rw [← and_iff_right (a := i < n) hi (b := Fixed _), ← h2 i]
    simp [kept, hi]
  · intro i
    have := h2 i
    simp only [kept, List.mem_filter, List.mem_range, not_and, Bool.not_eq_true', List.contains_eq_mem,
      decide_eq_false_iff_not, not_not]
    constructor
    · intro hi; exact ⟨(this.1 hi).1, fun _ => hi⟩
    · rintro ⟨a, b⟩; exact b a
  · set ix := fixed.map (·.1) with hix
    set kp := kept n ix with hkp
    unfold deleteFixedParams changeSamples
    rw [h.ws.samples]
    dsimp only
    rw [h1]
    simp only [bind, Except.bind]
    set segs1 := segs.map (List.map (restrict kp)) with hsegs1
    have hflat : segs1.flatten = segs.flatten.map (restrict kp) := by rw [hsegs1, List.map_flatten]
    have e1 : deleteCols ⟨n, segs.flatten.map (·.sample)⟩ ix = ⟨kp.length, segs1.flatten.map (·.sample)⟩ := by
      unfold deleteCols
      congr 1
      · rw [deleteIdx_kept _ _ 0, List.length_map, List.length_range]
      · rw [hflat, List.map_map, List.map_map]
        apply List.map_congr_left
        intro r hr
        simp only [Function.comp_apply]
        rw [deleteIdx_kept _ _ 0, hrect r hr]; rfl
    have e2 : segs.flatten.map (·.weight) = segs1.flatten.map (·.weight) := by rw [hflat, List.map_map]; rfl
    have e3 : segs.flatten.map (·.loglike) = segs1.flatten.map (·.loglike) := by rw [hflat, List.map_map]; rfl
    have ho : c.offsets = some (starts 0 (segs1.map List.length)) := by
      rw [h.offsets, hsegs1]; simp [Function.comp_def]
    have key := setSamples_segs h.chains hasL kp.length segs1 ho
    rw [hsegs1, autoCutSegs_map _ _ (restrict kp) (fun r => rfl), ← hsegs1] at key
    rw [e1, h.ws.weights, h.ws.loglikes, e2, e3]
    cases hcut : autoCutSegs c.ws.minWeightRatio segs with
    | error e =>
      rw [hcut] at key
      have key : setSamples c ⟨kp.length, segs1.flatten.map (·.sample)⟩ (some (segs1.flatten.map (·.weight)))
        (if hasL then some (segs1.flatten.map (·.loglike)) else none) = .error e := key
      simp only [key]; rfl
    | ok segs' =>
      rw [hcut] at key
      obtain ⟨c1, g1, g2, g3, g4, g5⟩ := key
      rw [g1]
      dsimp only
      have hk := deleteIndices_kept c1.names ix
      rw [g4, hnames] at hk
      rw [g4]
      rw [getParamIndices_ok (by
        intro _
        have := congrArg List.length hk
        simp only [List.length_map] at this
        show (ParamNames.deleteIndices c.names ix).length = c1.ws.n
        rw [this, g2.ws.hn])]
      refine ⟨_, rfl, rfl, ⟨rfl, g2.offsets, g2.ws⟩, hk, rfl⟩

/-! ### looking up parameters by name -/

/-- the object is usable: rows, distinct names matching the columns, statistics outdated or index up to date -/
structure Named (sqrt : K → K) (c : CH K) (hasL : Bool) (n : Nat) (rows : List (Row K)) : Prop where
  ws : Rep c.ws hasL n rows
  fresh : Fresh sqrt c.ws n rows
  len : c.names.length = n
  nodup : (c.names.map (·.name)).Nodup
  index : c.ws.needsUpdate = true ∨ c.index = indexOf c.names

/-- **C58** `samples['name']` is the column at the position of the name -/
theorem paramvec_name [IsStrictOrderedRing K] (sqrt : K → K) {c : CH K} {hasL : Bool} {n : Nat} {rows : List (Row K)} (h : Named sqrt c hasL n rows)
    (hne : rows ≠ []) (i : Nat) (hi : i < c.names.length) :
    paramvec sqrt c c.names[i].name = .ok (rows.map (fun r => r.sample.getD i 0)) := by
  have fin : ∀ c1 : CH K, Rep c1.ws hasL n rows → c1.index = indexOf c.names →
      (match c1.index.get? c.names[i].name with
        | some i => do
          let a ← need c1.ws.samples
          if i < a.n then pure (a.col i) else throw .indexError
        | none =>
          if c.names[i].name = c!"weight" then need c1.ws.weights
          else if c.names[i].name = c!"loglike" then need c1.ws.loglikes
          else throw .paramError : Except NErr (List K)) = .ok (rows.map (fun r => r.sample.getD i 0)) := by
    intro c1 h1 h2
    rw [h2, index_get h.nodup hi, h1.samples]
    dsimp only [need, bind, Except.bind]
    rw [if_pos (by rw [← h.len]; exact hi), col_rows]
    rfl
  unfold paramvec
  cases hnu : c.ws.needsUpdate with
  | false =>
    simp only [Bool.false_eq_true, if_false]
    have hx : c.index = indexOf c.names := by
      rcases h.index with h' | h'
      · rw [hnu] at h'; cases h'
      · exact h'
    exact fin c h.ws hx
  | true =>
    simp only [if_true]
    obtain ⟨s', g1, g2, g3⟩ := getVars_spec h.ws h.fresh
    have hr := g2.rep h.ws
    unfold updateBase
    rw [g1]
    obtain ⟨mx, hmx⟩ := max?_isSome (l := rows.map (·.weight)) (by simpa using hne)
    simp only [bind, Except.bind, weightsOf, hr.weights, hmx]
    rw [getParamIndices_ok (c := { c with ws := s' }) (by intro _; show c.names.length = s'.n; rw [hr.hn, h.len])]
    exact fin _ ⟨hr.samples, hr.weights, hr.loglikes, hr.hn, hr.hrows⟩ rfl

/-- a row with one more parameter -/
def extend (r : Row K) (x : K) : Row K := { r with sample := r.sample ++ [x] }

/-- **C58** adding a derived parameter: refused if a parameter is known under this name; otherwise every row gets its
value, the old columns and names are unchanged, the new name is last. -/
theorem addDerived_spec (sqrt : K → K) {c : CH K} (hc : c.chains = none) {hasL : Bool} {n : Nat} {rows : List (Row K)} (hr : Rep c.ws hasL n rows)
    (vec : List K) (info : ParamNames.Info) :
    ((∃ p ∈ c.names, p.name = info.name ∨ info.name ∈ p.renames) → addDerived c vec info = .error .valueError) ∧
    ((∀ p ∈ c.names, p.name ≠ info.name ∧ info.name ∉ p.renames) → vec.length = rows.length →
      Ag (fun c' rows' => Rep c'.ws hasL (n + 1) rows' ∧ c'.names = c.names ++ [info] ∧ c'.ws.needsUpdate = true ∧
          Fresh sqrt c'.ws (n + 1) rows')
        (addDerived c vec info) (autoCut c.ws.minWeightRatio (List.zipWith extend rows vec))) := by
  have hm : ∀ p : ParamNames.Info, (∃ m, ParamNames.Means [] info.name m ∧ ParamNames.KnownAs [] p m) ↔
      (p.name = info.name ∨ info.name ∈ p.renames) := by
    intro p
    rw [← ParamNames.matchesName_iff]
    simp [ParamNames.matchesName, ParamNames.aliasesOf, Dict.get?]
  have hn := (ParamNames.parWithName_none c.names info.name []).1
  simp only [hm] at hn
  constructor
  · rintro ⟨p, hp, h⟩
    unfold addDerived
    rw [if_pos]
    rw [Option.isSome_iff_ne_none]
    intro h'
    exact hn.1 h' p hp h
  · intro hnew hl
    have hnone : ParamNames.parWithName c.names info.name = none := hn.2 (fun p hp => by
      have := hnew p hp; tauto)
    unfold addDerived changeSamples
    rw [hnone, hr.samples]
    simp only [Option.isSome_none, Bool.false_eq_true, if_false, List.length_map, hl, if_true]
    set new := List.zipWith extend rows vec with hnewdef
    have e1 : new.map (·.sample) = List.zipWith (fun r x => r ++ [x]) (rows.map (·.sample)) vec := by
      rw [hnewdef, List.map_zipWith, List.zipWith_map_left]; rfl
    have e2 : new.map (·.weight) = rows.map (·.weight) := map_zipWith_left (·.weight) extend (fun _ _ => rfl) _ _ hl.symm
    have e3 : new.map (·.loglike) = rows.map (·.loglike) := map_zipWith_left (·.loglike) extend (fun _ _ => rfl) _ _ hl.symm
    have key := setSamples_agrees sqrt True c.ws hasL (n + 1) new
    rw [hr.weights, hr.loglikes, ← e1, ← e2, ← e3]
    obtain ⟨k1, k2⟩ := setSamples_ws c hc ⟨n + 1, new.map (·.sample)⟩ (some (new.map (·.weight)))
      (if hasL then some (new.map (·.loglike)) else none)
    rw [← k1] at key
    unfold Agrees at key
    cases hcut : autoCut c.ws.minWeightRatio new with
    | error e =>
      rw [hcut] at key
      simp only [bind, Except.bind] at key
      cases hs : setSamples c ⟨n + 1, new.map (·.sample)⟩ (some (new.map (·.weight)))
          (if hasL then some (new.map (·.loglike)) else none) with
      | error e' => rw [hs] at key; cases key; rfl
      | ok c' => rw [hs] at key; cases key
    | ok rows' =>
      rw [hcut] at key
      obtain ⟨s', h1, h2, h3, h4⟩ := key
      cases hs : setSamples c ⟨n + 1, new.map (·.sample)⟩ (some (new.map (·.weight)))
          (if hasL then some (new.map (·.loglike)) else none) with
      | error e' => rw [hs] at h1; cases h1
      | ok c' =>
        rw [hs] at h1
        cases h1
        have hu := setSamples_update c _ _ _ hs
        exact ⟨_, rfl, h2, by rw [(k2 c' hs).2], hu, h4 trivial⟩

/-! ### fixed parameters of separate chains -/

theorem change_ag {s : WS K} {ratio : Option K} {hasL : Bool} {n : Nat} {seg : List (Row K)}
    (h : Rep s hasL n seg ∧ s.minWeightRatio = ratio) (ix : List Nat) (hrect : ∀ r ∈ seg, r.sample.length = n) :
    Ag (fun s' rows => Rep s' hasL (kept n ix).length rows ∧ s'.minWeightRatio = ratio)
      (do Samples.changeSamples s (deleteCols (← need s.samples) ix))
      (autoCut ratio (seg.map (restrict (kept n ix)))) := by
  have key := setSamples_agrees (fun x => x) True s hasL (kept n ix).length (seg.map (restrict (kept n ix)))
  have e1 : deleteCols ⟨n, seg.map (·.sample)⟩ ix = ⟨(kept n ix).length, (seg.map (restrict (kept n ix))).map (·.sample)⟩ := by
    unfold deleteCols
    congr 1
    · rw [deleteIdx_kept _ _ 0, List.length_map, List.length_range]
    · rw [List.map_map, List.map_map]
      apply List.map_congr_left
      intro r hr
      simp only [Function.comp_apply]
      rw [deleteIdx_kept _ _ 0, hrect r hr]; rfl
  have e2 : (seg.map (restrict (kept n ix))).map (·.weight) = seg.map (·.weight) := by rw [List.map_map]; rfl
  have e3 : (seg.map (restrict (kept n ix))).map (·.loglike) = seg.map (·.loglike) := by rw [List.map_map]; rfl
  rw [h.1.samples]
  simp only [need, bind, Except.bind]
  unfold Samples.changeSamples
  rw [e1, h.1.weights, h.1.loglikes, ← e2, ← e3]
  rw [h.2] at key
  unfold Agrees at key
  cases hcut : autoCut ratio (seg.map (restrict (kept n ix))) with
  | error e => rw [hcut] at key; exact key
  | ok rows =>
    rw [hcut] at key
    obtain ⟨s', h1, h2, h3, -⟩ := key
    exact ⟨s', h1, h2, h3.trans h.2⟩

/-- **C22 (separate chains), partial**: names and the columns of every chain stay aligned, but the removed columns are
those that are fixed in the first chain.  Missing: that they are fixed in the other chains (`fixed_first_chain_fails`). -/
theorem deleteFixed_separate_partial [IsStrictOrderedRing K] {c : CH K} {ratio : Option K} {hasL : Bool} {n : Nat}
    {first : List (Row K)} {segs : List (List (Row K))}
    (h : Separate c ratio hasL n (first :: segs)) (hnames : c.names.length = n)
    (hrect : ∀ seg ∈ first :: segs, ∀ r ∈ seg, r.sample.length = n) (hne : first ≠ []) :
    ∃ (kp : List Nat) (fixed : List (Nat × K)), kp.Sublist (List.range n) ∧
      (∀ i < n, i ∉ kp ↔ Fixed (first.map (fun r => r.sample.getD i 0))) ∧
      (∀ i, i ∈ fixed.map (·.1) ↔ i < n ∧ i ∉ kp) ∧
      Ag (fun r segs' => r.2 = fixed ∧ Separate r.1 ratio hasL kp.length segs' ∧ Aligned c kp r.1)
        (deleteFixedParams c) ((first :: segs).mapM (fun seg => autoCut ratio (seg.map (restrict kp)))) := by
  obtain ⟨fixed, h1, h2, -⟩ := fixedCols_spec (n := n) hne
  refine ⟨kept n (fixed.map (·.1)), fixed, List.filter_sublist, ?_, ?_, ?_⟩
  · intro i hi
    rw [← and_iff_right (a := i < n) hi (b := Fixed _), ← h2 i]
    simp [kept, hi]
  · intro i
    have := h2 i
    simp only [kept, List.mem_filter, List.mem_range, not_and, Bool.not_eq_true', List.contains_eq_mem,
      decide_eq_false_iff_not, not_not]
    constructor
    · intro hi; exact ⟨(this.1 hi).1, fun _ => hi⟩
    · rintro ⟨a, b⟩; exact b a
  · set ix := fixed.map (·.1) with hix
    obtain ⟨⟨cs, hcs, hold⟩, hs⟩ := h
    cases hold with
    | @cons s _ rest _ hfirst hrest =>
      have a1 := change_ag hfirst ix (hrect first (by simp))
      have a2 : Ag (Hold ratio hasL (kept n ix).length)
          (rest.mapM (fun s => do Samples.changeSamples s (deleteCols (← need s.samples) ix)))
          (segs.mapM (fun seg => autoCut ratio (seg.map (restrict (kept n ix))))) := by
        apply mapM_ag
        have hr : ∀ seg ∈ segs, ∀ r ∈ seg, r.sample.length = n := fun seg hm => hrect seg (by simp [hm])
        clear hrect a1 h1 h2 hcs
        induction hrest with
        | nil => exact .nil
        | cons hx _ ih =>
          exact .cons (change_ag hx ix (hr _ (by simp))) (ih (fun seg hm => hr seg (by simp [hm])))
      unfold deleteFixedParams Samples.deleteFixedParams
      rw [hs, hcs]
      dsimp only
      rw [hfirst.1.samples] at a1 ⊢
      dsimp only
      rw [h1, List.mapM_cons]
      simp only [need, bind, Except.bind] at a1 a2 ⊢
      cases hc1 : autoCut ratio (first.map (restrict (kept n ix))) with
      | error e =>
        rw [hc1] at a1
        have a1 : Samples.changeSamples s (deleteCols ⟨n, first.map (·.sample)⟩ ix) = .error e := a1
        rw [← hix, a1]; rfl
      | ok seg1 =>
        rw [hc1] at a1
        obtain ⟨s1, b1, b2⟩ := a1
        rw [← hix, b1]
        dsimp only [pure, Except.pure]
        cases hc2 : segs.mapM (fun seg => autoCut ratio (seg.map (restrict (kept n ix)))) with
        | error e =>
          rw [hc2] at a2
          simp only [Ag] at a2
          simp only [Ag]
          rw [← hix, a2]
        | ok segs2 =>
          rw [hc2] at a2
          obtain ⟨rest1, d1, d2⟩ := a2
          rw [← hix, d1]
          dsimp only
          have hk := deleteIndices_kept c.names ix
          rw [hnames] at hk
          rw [getParamIndices_ok (by intro h'; simp [hs] at h')]
          exact ⟨_, rfl, rfl, ⟨⟨s1 :: rest1, rfl, .cons b2 d2⟩, hs⟩, hk, rfl⟩

/-! ### concrete chains -/

/-- a sample object holding the rows -/
def mkWS (n : Nat) (rows : List (Row ℚ)) : WS ℚ :=
  { samples := some ⟨n, rows.map (·.sample)⟩, weights := some (rows.map (·.weight)),
    loglikes := some (rows.map (·.loglike)), n := n, numrows := rows.length, norm := some (rows.map (·.weight)).sum,
    minWeightRatio := defaultRatio }

theorem mkWS_rep (n : Nat) (rows : List (Row ℚ)) : Rep (mkWS n rows) true n rows ∧ (mkWS n rows).minWeightRatio = defaultRatio :=
  ⟨⟨rfl, rfl, rfl, rfl, rfl⟩, rfl⟩

/-- separate chains -/
def mkCH (n : Nat) (segs : List (List (Row ℚ))) (names : List ParamNames.Info := []) : CH ℚ :=
  { ws := { minWeightRatio := defaultRatio }, chains := some (segs.map (mkWS n)), names := names }

theorem mkCH_separate (n : Nat) (segs : List (List (Row ℚ))) (names : List ParamNames.Info) :
    Separate (mkCH n segs names) defaultRatio true n segs := by
  refine ⟨⟨_, rfl, ?_⟩, rfl⟩
  induction segs with
  | nil => exact .nil
  | cons seg segs ih => exact .cons (mkWS_rep n seg) ih

/-- chain by chain: samples and weights -/
def view (r : Except NErr (List (WS ℚ))) : Except NErr (List (Option (List (List ℚ)) × Option (List ℚ))) :=
  r.map (List.map (fun s => (s.samples.map (·.rows), s.weights)))

/-- two chains with rows of one parameter -/
def exA : List (Row ℚ) := [⟨[1], 1, 10⟩, ⟨[2], 2, 20⟩]
def exB : List (Row ℚ) := [⟨[3], 3, 30⟩, ⟨[4], 1, 40⟩, ⟨[5], 1, 50⟩]

example : view (do getSeparateChains (← makeSingle (mkCH 1 [exA, exB]))) =
    .ok [(some [[1], [2]], some [1, 2]), (some [[3], [4], [5]], some [3, 1, 1])] := by decide +kernel

example : ∀ seg ∈ [exA, exB], NoCut seg := by
  unfold NoCut; decide +kernel

example : view (do getSeparateChains (← filter (← makeSingle (mkCH 1 [exA, exB])) (.mask [false, true, true, false, true]))) =
    .ok [(some [[2]], some [2]), (some [[3], [5]], some [3, 1])] := by decide +kernel

example : maskSegs [exA, exB] [false, true, true, false, true] = [[⟨[2], 2, 20⟩], [⟨[3], 3, 30⟩, ⟨[5], 1, 50⟩]] := by
  decide +kernel

example : view (do
    let c ← removeBurnFraction (mkCH 1 [exA, exB]) (1 / 2)
    pure (c.chains.getD [])) =
    .ok [(some [[2]], some [2]), (some [[5]], some [1])] := by decide +kernel

example : Dropped 3 (1 / 2 : ℚ) 2 ∧ Dropped 5 (1 / 2 : ℚ) 2 ∧ Dropped 7 (5 / 2 : ℚ) 2 := by
  unfold Dropped
  refine ⟨by norm_num [abs_of_nonneg], ?_, by norm_num⟩
  rw [if_neg (by norm_num)]
  norm_num [abs_of_nonpos]

example : view (do getSeparateChains (← crun (fun x => 2 + x) (mkCH 1 [exA, exB])
      [.removeBurnFraction 1, .makeSingle, .reweight [0, 0, -1], .filter [true, false, true], .deleteZeros])) =
    .ok [(some [[2]], some [2]), (some [[5]], some [2])] := by decide +kernel

example : covered true ([.removeBurnFraction 1, .makeSingle, .reweight [0, 0, -1], .cool 2, .deleteZeros] : List (COp ℚ))
    = true := by decide

example : (do
    let (c, fixed) ← deleteFixedParams (← makeSingle (mkCH 2 [[⟨[1, 7], 1, 1⟩, ⟨[2, 7], 1, 2⟩], [⟨[3, 7], 1, 3⟩]]
      [{ name := c!"x" }, { name := c!"y" }]))
    pure (c.ws.samples.map (·.rows), fixed, c.offsets)) =
    (.ok (some [[1], [2], [3]], [(1, 7)], some [0, 2, 3]) :
      Except NErr (Option (List (List ℚ)) × List (Nat × ℚ) × Option (List Nat))) := by decide +kernel

example : (do
    let (c, _) ← deleteFixedParams (← makeSingle (mkCH 2 [[⟨[7, 1], 1, 1⟩, ⟨[7, 2], 1, 2⟩], [⟨[7, 3], 1, 3⟩]]
      [{ name := c!"x" }, { name := c!"y" }]))
    paramvec id c c!"y") = (.ok [1, 2, 3] : Except NErr (List ℚ)) := by decide +kernel

example : (do
    let c ← addDerived (← makeSingle (mkCH 1 [exA, exB] [{ name := c!"x" }])) [1, 4, 9, 16, 25] { name := c!"x2" }
    pure (← paramvec id c c!"x2", ← paramvec id c c!"x")) =
    (.ok ([1, 4, 9, 16, 25], [1, 2, 3, 4, 5]) : Except NErr (List ℚ × List ℚ)) := by decide +kernel

/-! ### what fails -/

/-- **C21 fails for combined chains**: a quarter of the combined rows is dropped, but the offsets are not updated, so a
row of the second chain moves into the first. -/
theorem burn_combined_fails :
    view (do getSeparateChains (← removeBurnFraction (← makeSingle (mkCH 1 [exA, exB])) (1 / 5))) =
      .ok [(some [[2], [3]], some [2, 3]), (some [[4], [5]], some [1, 1])] := by decide +kernel

/-- **C57 fails for `thin`**: the offsets are those of the unthinned chains. -/
theorem thin_boundaries_fails :
    (do pure (← thin (← makeSingle (mkCH 1 [exA, exB])) 2).ws.samples) = (.ok (some ⟨1, [[2], [3], [3], [5]]⟩) : Except NErr _) ∧
    view (do getSeparateChains (← thin (← makeSingle (mkCH 1 [exA, exB])) 2)) =
      .ok [(some [[2], [3]], some [1, 1]), (some [[3], [5]], some [1, 1])] := by decide +kernel

/-- **C20 fails for a list of indices**: the non-zero entries of slices of the index list are counted, so the kept rows
of the first chain are lost or moved. -/
theorem filter_indices_fails :
    (do pure (← filter (← makeSingle (mkCH 1 [exA, exB])) (.idx [0, 1, 3])).ws.samples) =
      (.ok (some ⟨1, [[1], [2], [4]]⟩) : Except NErr _) ∧
    view (do getSeparateChains (← filter (← makeSingle (mkCH 1 [exA, exB])) (.idx [0, 1, 3]))) =
      .ok [(some [[1]], some [1]), (some [[2]], some [2])] := by decide +kernel

/-- **C19 fails without likelihoods**: combined chains without likelihoods cannot be split. -/
theorem split_without_loglikes_fails :
    (do pure (← makeSingle (← loadList ({ ws := { minWeightRatio := some (1 / 10 ^ 30) } } : CH ℚ)
      [⟨1, [[1], [2]]⟩, ⟨1, [[3]]⟩] none none)).ws.samples) = (.ok (some ⟨1, [[1], [2], [3]]⟩) : Except NErr _) ∧
    view (do getSeparateChains (← makeSingle (← loadList ({ ws := { minWeightRatio := some (1 / 10 ^ 30) } } : CH ℚ)
      [⟨1, [[1], [2]]⟩, ⟨1, [[3]]⟩] none none))) = .error .typeError := by decide +kernel

/-- **C19 fails with small weights**: zero weight rows kept by the combined chains are lost when they are split. -/
theorem split_drops_rows_fails :
    view (do getSeparateChains (← makeSingle (mkCH 1 [[⟨[1], 1, 10⟩, ⟨[2], 0, 20⟩], exB]))) =
      .ok [(some [[1]], some [1]), (some [[3], [4], [5]], some [3, 1, 1])] := by decide +kernel

/-- **C19 fails with an empty chain**: e.g. after a filter that removes a whole chain, splitting raises. -/
theorem split_empty_chain_fails :
    view (do getSeparateChains (← filter (← makeSingle (mkCH 1 [exA, exB])) (.mask [false, false, true, true, true]))) =
      .error .valueError := by decide +kernel

/-- **C22 fails for separate chains**: the second column varies in the second chain but is removed because it is fixed in
the first. -/
theorem fixed_first_chain_fails :
    view (do getSeparateChains (← deleteFixedParams (mkCH 2
        [[⟨[1, 7], 1, 1⟩, ⟨[2, 7], 1, 2⟩], [⟨[3, 8], 1, 3⟩, ⟨[3, 9], 1, 3⟩]]
        [{ name := c!"x" }, { name := c!"y" }])).1) =
      .ok [(some [[1], [2]], some [1, 1]), (some [[3], [3]], some [1, 1])] ∧
    ¬ Fixed ([7, 7, 8, 9] : List ℚ) := by
  refine ⟨by decide +kernel, ?_⟩
  intro h
  have := h 9 (by simp)
  norm_num [abs_of_nonneg] at this

/-- **C57 fails for loading**: loading a single array into an object that held chains keeps the old boundaries. -/
theorem load_boundaries_fails :
    view (do getSeparateChains (← loadSingle (← makeSingle (mkCH 1 [exA, exB])) ⟨1, [[6], [7], [8]]⟩ (some [1, 1, 1])
      (some [0, 0, 0]))) = .ok [(some [[6], [7]], some [1, 1]), (some [[8]], some [1])] := by decide +kernel

end Verif.Chains
