import Mathlib.Tactic.Linarith
import Mathlib.Tactic.FieldSimp
import Mathlib.Tactic.Ring
import Mathlib.Analysis.Complex.ExponentialBounds
import Verif.Model.CamSpec

/-!
# Ranges, data and chi squared of the CamSpec likelihood
-/

namespace Verif.CamSpec
open Verif.Py Matrix

set_option linter.unusedSectionVars false

/-! ### ranges -/

theorem mem_fullElls (lo hi l : Nat) : l ∈ fullElls lo hi ↔ lo ≤ l ∧ l ≤ hi := by
  unfold fullElls
  simp only [List.mem_map, List.mem_range]
  constructor
  · rintro ⟨k, hk, rfl⟩
    omega
  · intro h
    exact ⟨l - lo, by omega, by omega⟩

theorem fullElls_sorted (lo hi : Nat) : (fullElls lo hi).Pairwise (· < ·) := by
  unfold fullElls
  rw [List.pairwise_map]
  exact List.pairwise_lt_range.imp (by intro a b h; omega)

theorem fullElls_length (lo hi : Nat) : (fullElls lo hi).length = hi + 1 - lo := by simp [fullElls]

/-- the text of a range -/
def rangeText (mn mx : Nat) : Str := strNat mn ++ '-' :: strNat mx

theorem digits_noDash (n : Nat) : '-' ∉ strNat n := fun h => by
  have := strNat_isDigit h
  revert this
  decide

theorem splitChar_noDash (s : Str) (h : '-' ∉ s) : splitChar '-' s = [s] := by
  induction s with
  | nil => rfl
  | cons c s ih =>
    have hc : c ≠ '-' := fun hc => h (by simp [hc])
    have hs : '-' ∉ s := fun hs => h (by simp [hs])
    rw [splitChar, ih hs]
    simp [hc]

theorem splitChar_dash (a b : Str) (ha : '-' ∉ a) (hb : '-' ∉ b) : splitChar '-' (a ++ '-' :: b) = [a, b] := by
  induction a with
  | nil =>
    rw [List.nil_append, splitChar, splitChar_noDash b hb]
    simp
  | cons c a ih =>
    have hc : c ≠ '-' := fun hc => ha (by simp [hc])
    have hs : '-' ∉ a := fun hs => ha (by simp [hs])
    rw [List.cons_append, splitChar, ih hs]
    simp [hc]

/-- A range `a-b` is read as the multipoles from `a` to `b`. -/
theorem itemElls_spec (mn mx : Nat) : itemElls (rangeText mn mx) = .ok (fullElls mn mx) := by
  unfold itemElls rangeText
  rw [if_pos (by simp), splitChar_dash _ _ (digits_noDash mn) (digits_noDash mx)]
  simp [intStr_strNat, fullElls]

example : itemElls c!"30-32" = .ok [30, 31, 32] := by decide

/-- Several ranges are read one after the other. -/
theorem itemsElls_spec (rs : List (Nat × Nat)) : itemsElls (rs.map fun r => rangeText r.1 r.2) = .ok (rs.flatMap fun r => fullElls r.1 r.2) := by
  induction rs with
  | nil => rfl
  | cons r rs ih =>
    rw [List.map_cons, itemsElls, itemElls_spec, ih]
    rfl

example : itemsElls [c!"30-31", c!"7-8"] = .ok [30, 31, 7, 8] := by decide

/-- Example. -/
example : rangeToElls c!"30-32 100-101" = .ok [30, 31, 32, 100, 101] := by decide

/-! ### data -/

variable {F : Type}

/-- all data of the lines: spectrum and multipole, in the order of the covariance -/
def allEntries : Nat → List Line → List (Nat × Nat)
  | _, [] => []
  | i, ln :: lns => (if ln.hi ≠ 0 ∧ ln.lo ≤ ln.hi then (fullElls ln.lo ln.hi).map fun l => (i, l) else []) ++ allEntries (i + 1) lns

/-- the data used -/
def isUsed (useCl : List Str) (use : Option Use) (tp : Str) (l : Nat) : Bool :=
  useCl.contains tp && match use with
    | none => true
    | some (.all e) => e.contains l
    | some (.by d) => match d.get? tp with
      | some e => e.contains l
      | none => true

/-- spectrum and multipole of the data used -/
def usedEntries (useCl : List Str) (use : Option Use) : Nat → List Line → List (Nat × Nat)
  | _, [] => []
  | i, ln :: lns => (if ln.hi ≠ 0 ∧ ln.lo ≤ ln.hi then ((fullElls ln.lo ln.hi).filter (isUsed useCl use ln.tp)).map fun l => (i, l) else []) ++
      usedEntries useCl use (i + 1) lns

theorem ellsOf_eq (useCl : List Str) (use : Option Use) (tp : Str) (lo hi : Nat) (h : useCl.contains tp = true) :
    ellsOf use tp lo hi = (fullElls lo hi).filter (isUsed useCl use tp) := by
  unfold ellsOf isUsed
  simp only [h, Bool.true_and]
  rcases use with _ | ⟨e⟩ | ⟨d⟩
  · simp
  · rfl
  · simp only
    rcases d.get? tp with _ | e
    · simp
    · rfl

/-- entries of lists of multipoles -/
def entriesOf : Nat → List (List Nat) → List (Nat × Nat)
  | _, [] => []
  | i, e :: es => (e.map fun l => (i, l)) ++ entriesOf (i + 1) es

theorem entriesOf_append (i : Nat) (as bs : List (List Nat)) : entriesOf i (as ++ bs) = entriesOf i as ++ entriesOf (i + as.length) bs := by
  induction as generalizing i with
  | nil => simp [entriesOf]
  | cons a as ih =>
    rw [List.cons_append, entriesOf, ih, entriesOf, List.append_assoc, List.length_cons]
    congr 3
    omega

/-- what the loop keeps -/
structure Inv (spectra : Nat → Nat → F) (all used : List (Nat × Nat)) (i : Nat) (s : St F) : Prop where
  data : s.data = all.map fun e => spectra e.2 e.1
  nX : s.nX = all.length
  pos : s.used.map (fun k => all[k]?) = used.map some
  ranges : entriesOf 0 (rangesOf s) = used
  len : s.ranges.length = i

theorem inv_step (spectra : Nat → Nat → F) (useCl : List Str) (use : Option Use) (i : Nat) (ln : Line) (all used : List (Nat × Nat)) (s : St F)
    (h : Inv spectra all used i s) :
    Inv spectra (all ++ allEntries i [ln]) (used ++ usedEntries useCl use i [ln]) (i + 1) (step spectra useCl use i ln s) := by
  unfold step allEntries usedEntries
  simp only [allEntries, usedEntries, List.append_nil]
  have hlen : (rangesOf s).length = i := by simp [rangesOf, h.len]
  have hnone : ∀ t : St F, t.ranges = s.ranges ++ [none] → entriesOf 0 (rangesOf t) = used := by
    intro t ht
    have : rangesOf t = rangesOf s ++ [[]] := by simp [rangesOf, ht]
    rw [this, entriesOf_append, h.ranges]
    simp [entriesOf]
  have hold : ∀ k ∈ s.used, ∀ ext : List (Nat × Nat), (all ++ ext)[k]? = all[k]? := by
    intro k hk ext
    have : all[k]? ∈ s.used.map (fun k => all[k]?) := List.mem_map_of_mem hk
    rw [h.pos] at this
    simp only [List.mem_map] at this
    obtain ⟨x, -, hx⟩ := this
    rw [List.getElem?_append_left]
    by_contra hc
    rw [List.getElem?_eq_none (by omega)] at hx
    cases hx
  have hposOld : ∀ ext : List (Nat × Nat), s.used.map (fun k => (all ++ ext)[k]?) = used.map some := by
    intro ext
    rw [← h.pos]
    exact List.map_congr_left fun k hk => hold k hk ext
  by_cases hv : ln.hi ≠ 0 ∧ ln.lo ≤ ln.hi
  · simp only [if_pos hv]
    rcases hu : useCl.contains ln.tp with _ | _
    · have hf : ((fullElls ln.lo ln.hi).filter (isUsed useCl use ln.tp)) = [] := by
        rw [List.filter_eq_nil_iff]
        intro l _
        simp only [isUsed, hu, Bool.false_and]
        exact Bool.false_ne_true
      rw [hf, List.map_nil, List.append_nil]
      simp only [Bool.false_eq_true, if_false]
      exact ⟨by simp [h.data, List.map_map, Function.comp_def], by simp [h.nX, fullElls_length]; omega, hposOld _, hnone _ rfl, by simp [h.len]⟩
    · simp only [if_true]
      rw [ellsOf_eq useCl use ln.tp ln.lo ln.hi hu]
      refine ⟨by simp [h.data, List.map_map, Function.comp_def], by simp [h.nX, fullElls_length]; omega, ?_, ?_, by simp [h.len]⟩
      · rw [List.map_append, List.map_append, hposOld, List.map_map, List.map_map]
        congr 1
        apply List.map_congr_left
        intro l hl
        have hl := (mem_fullElls _ _ _).mp (List.mem_filter.mp hl).1
        simp only [Function.comp_apply]
        rw [List.getElem?_append_right (by rw [h.nX]; omega), List.getElem?_map]
        have : (fullElls ln.lo ln.hi)[l + s.nX - ln.lo - all.length]? = some l := by
          unfold fullElls
          rw [List.getElem?_map, List.getElem?_range (by rw [h.nX]; omega), h.nX]
          simp only [Option.map_some, Option.some.injEq]
          omega
        rw [this]
        rfl
      · have : ∀ t : St F, t.ranges = s.ranges ++ [some ((fullElls ln.lo ln.hi).filter (isUsed useCl use ln.tp))] →
            rangesOf t = rangesOf s ++ [(fullElls ln.lo ln.hi).filter (isUsed useCl use ln.tp)] := by
          intro t ht
          simp [rangesOf, ht]
        rw [this _ rfl, entriesOf_append, h.ranges, hlen]
        simp [entriesOf]
  · simp only [if_neg hv, List.append_nil]
    exact ⟨h.data, h.nX, h.pos, hnone _ rfl, by simp [h.len]⟩

theorem inv_load (spectra : Nat → Nat → F) (useCl : List Str) (use : Option Use) (lns : List Line) (i : Nat) (all used : List (Nat × Nat)) (s : St F)
    (h : Inv spectra all used i s) :
    Inv spectra (all ++ allEntries i lns) (used ++ usedEntries useCl use i lns) (i + lns.length) (loadFrom spectra useCl use i lns s) := by
  induction lns generalizing i all used s with
  | nil => simpa [allEntries, usedEntries, loadFrom] using h
  | cons ln lns ih =>
    have := ih (i + 1) _ _ _ (inv_step spectra useCl use i ln all used s h)
    have e1 : allEntries i (ln :: lns) = allEntries i [ln] ++ allEntries (i + 1) lns := by simp [allEntries]
    have e2 : usedEntries useCl use i (ln :: lns) = usedEntries useCl use i [ln] ++ usedEntries useCl use (i + 1) lns := by simp [usedEntries]
    rw [e1, e2, ← List.append_assoc, ← List.append_assoc, loadFrom, List.length_cons, show i + (lns.length + 1) = i + 1 + lns.length by omega]
    exact this

/-- The data are those of the spectra used, at the multipoles used, in the order of the file, and each position in the covariance is that of its entry. -/
theorem load_spec (spectra : Nat → Nat → F) (useCl : List Str) (use : Option Use) (lns : List Line) :
    let s := load spectra useCl use lns
    dataVector s = (usedEntries useCl use 0 lns).map (fun e => some (spectra e.2 e.1)) ∧
    s.used.map (fun k => (allEntries 0 lns)[k]?) = (usedEntries useCl use 0 lns).map some ∧
    s.nX = (allEntries 0 lns).length ∧ entriesOf 0 (rangesOf s) = usedEntries useCl use 0 lns := by
  intro s
  have h := inv_load spectra useCl use lns 0 [] [] ⟨[], 0, [], []⟩ ⟨rfl, rfl, rfl, rfl, rfl⟩
  simp only [List.nil_append] at h
  refine ⟨?_, h.pos, h.nX, h.ranges⟩
  unfold dataVector
  have hd : s.data = (allEntries 0 lns).map fun e => spectra e.2 e.1 := h.data
  rw [hd]
  have : (s.used.map fun k => ((allEntries 0 lns).map fun e => spectra e.2 e.1)[k]?) = (s.used.map fun k => (allEntries 0 lns)[k]?).map (Option.map fun e => spectra e.2 e.1) := by
    rw [List.map_map]
    apply List.map_congr_left
    intro k _
    simp
  rw [this]
  rw [show s.used.map (fun k => (allEntries 0 lns)[k]?) = (usedEntries useCl use 0 lns).map some from h.pos, List.map_map]
  rfl

example : dataVector (load (fun l i => (100 * i + l : Nat)) [c!"TE"] (some (.by [(c!"TE", [4, 5, 9])])) [⟨c!"143x143", 2, 3⟩, ⟨c!"TE", 3, 5⟩]) = [some 104, some 105] := by decide

/-- An entry is used exactly if its spectrum and multipole are. -/
theorem usedEntries_iff (useCl : List Str) (use : Option Use) (lns : List Line) (i j l : Nat) :
    (j, l) ∈ usedEntries useCl use i lns ↔ ∃ k ln, j = i + k ∧ lns[k]? = some ln ∧ ln.hi ≠ 0 ∧ ln.lo ≤ l ∧ l ≤ ln.hi ∧ isUsed useCl use ln.tp l = true := by
  induction lns generalizing i with
  | nil => simp [usedEntries]
  | cons ln lns ih =>
    rw [usedEntries, List.mem_append, ih]
    constructor
    · rintro (h | ⟨k, ln', h1, h2, h3⟩)
      · by_cases hv : ln.hi ≠ 0 ∧ ln.lo ≤ ln.hi
        · rw [if_pos hv, List.mem_map] at h
          obtain ⟨l', hl', he⟩ := h
          obtain ⟨h1, h2⟩ := List.mem_filter.mp hl'
          have h3 := (mem_fullElls _ _ _).mp h1
          simp only [Prod.mk.injEq] at he
          obtain ⟨rfl, rfl⟩ := he
          exact ⟨0, ln, rfl, rfl, hv.1, h3.1, h3.2, h2⟩
        · rw [if_neg hv] at h
          simp at h
      · exact ⟨k + 1, ln', by omega, by simpa using h2, h3⟩
    · rintro ⟨k, ln', h1, h2, h3, h4, h5, h6⟩
      rcases k with _ | k
      · left
        simp only [List.getElem?_cons_zero, Option.some.injEq] at h2
        subst h2
        rw [if_pos ⟨h3, by omega⟩, List.mem_map]
        exact ⟨l, List.mem_filter.mpr ⟨(mem_fullElls _ _ _).mpr ⟨h4, h5⟩, h6⟩, by simp [h1]⟩
      · right
        exact ⟨k, ln', by omega, by simpa using h2, h3, h4, h5, h6⟩

example : usedEntries [c!"TE"] (some (.by [(c!"TE", [4, 5, 9])])) 0 [⟨c!"143x143", 2, 3⟩, ⟨c!"TE", 3, 5⟩] = [(1, 4), (1, 5)] := by decide

/-- Example: two spectra, the second with a range. -/
example : (load (fun l i => (100 * i + l : Nat)) [c!"143x143", c!"TE"] (some (.by [(c!"TE", [4, 5, 9])])) [⟨c!"143x143", 2, 3⟩, ⟨c!"217x217", 2, 4⟩, ⟨c!"TE", 3, 5⟩]).used = [0, 1, 6, 7] := by decide

variable [Field F]

/-! ### templates -/

/-- A normalised template is zero at the first two multipoles, has the values of the file after them, and is one at the pivot. -/
theorem readNormalized_spec (vals : List F) (p : Nat) (v : F) (hp : vals[p]? = some v) (hv : v ≠ 0) :
    ∃ d, readNormalized 2 vals (some (p + 2)) = .ok d ∧ d.length = vals.length + 2 ∧ d[p + 2]? = some 1 ∧ d[0]? = some 0 ∧ d[1]? = some 0 ∧
      ∀ l, d[l + 2]? = (vals[l]?).map (· / v) := by
  have hlt : p < vals.length := by
    by_contra hc
    rw [List.getElem?_eq_none (by omega)] at hp
    cases hp
  refine ⟨(0 :: 0 :: vals).map (· / v), ?_, by simp, by simp [hp, hv], by simp, by simp, by simp⟩
  unfold readNormalized
  have : (0 :: 0 :: vals)[p + 2]? = some v := by simpa using hp
  simp only [this]
  rw [if_neg (by simp), if_neg (by simp; omega)]

/-- Example. -/
example : readNormalized 2 [(2 : ℚ), 4] (some 3) = .ok [0, 0, 1 / 2, 1] := by decide +kernel

/-! ### chi squared -/

theorem subSlice_append (pre d vals post : List F) (h : d.length = vals.length) :
    subSlice pre.length vals (pre ++ d ++ post) = pre ++ List.zipWith (· - ·) d vals ++ post := by
  unfold subSlice
  apply List.ext_getElem?
  intro k
  rw [List.getElem?_mapIdx]
  by_cases h1 : k < pre.length
  · rw [List.append_assoc, List.append_assoc, List.getElem?_append_left h1, List.getElem?_append_left h1, List.getElem?_eq_getElem h1]
    simp only [Option.map_some]
    rw [if_neg (by omega)]
  · rw [List.append_assoc, List.append_assoc, List.getElem?_append_right (show pre.length ≤ k by omega), List.getElem?_append_right (show pre.length ≤ k by omega)]
    by_cases h2 : k - pre.length < d.length
    · rw [List.getElem?_append_left h2, List.getElem?_append_left (by simp; omega), List.getElem?_eq_getElem h2, List.getElem?_eq_getElem (by simp; omega)]
      simp only [Option.map_some, Option.some.injEq]
      rw [if_pos (by omega), List.getElem_zipWith]
      congr 1
      rw [List.getD, List.getElem?_eq_getElem (by omega : k - pre.length < vals.length), Option.getD_some]
    · rw [List.getElem?_append_right (by omega), List.getElem?_append_right (by simp; omega)]
      simp only [List.length_zipWith, h, min_self]
      have he : ∀ x : Option F, x.map (fun y => if pre.length ≤ k ∧ k < pre.length + vals.length then y - vals.getD (k - pre.length) 0 else y) = x := by
        intro x
        rcases x with _ | x
        · rfl
        · simp only [Option.map_some]
          rw [if_neg (by omega)]
      exact he _

theorem subLoop_spec (th : Nat → Nat → F) (es : List (List Nat)) (i : Nat) (pre d : List F) (h : d.length = (entriesOf i es).length) :
    subLoop th i pre.length es (pre ++ d) = pre ++ List.zipWith (· - ·) d ((entriesOf i es).map fun e => th e.1 e.2) := by
  induction es generalizing i pre d with
  | nil =>
    simp only [entriesOf, List.length_nil, List.length_eq_zero_iff] at h
    subst h
    simp [subLoop, entriesOf]
  | cons e es ih =>
    rw [entriesOf] at h ⊢
    rw [List.length_append, List.length_map] at h
    have hd : d = d.take e.length ++ d.drop e.length := (List.take_append_drop _ _).symm
    have hl1 : (d.take e.length).length = e.length := by rw [List.length_take]; omega
    have hl2 : (d.drop e.length).length = (entriesOf (i + 1) es).length := by rw [List.length_drop]; omega
    rw [List.map_append, List.map_map]
    by_cases he : 0 < e.length
    · rw [subLoop, if_pos he]
      have hs := subSlice_append pre (d.take e.length) (e.map (th i)) (d.drop e.length) (by simp [hl1])
      rw [List.append_assoc, ← hd] at hs
      rw [hs]
      have := ih (i + 1) (pre ++ List.zipWith (· - ·) (d.take e.length) (e.map (th i))) (d.drop e.length) hl2
      rw [List.length_append, List.length_zipWith, List.length_map, hl1, min_self] at this
      rw [this, List.append_assoc]
      congr 1
      conv_rhs => rw [hd]
      rw [List.zipWith_append (by simp [hl1])]
      rfl
    · have he0 : e = [] := by
        rcases e with _ | _
        · rfl
        · simp at he
      subst he0
      rw [subLoop, if_neg (by simp)]
      rw [ih (i + 1) pre d (by simpa using h)]
      simp

/-- With up to six spectra, the difference of each entry is its value less its own theory. -/
theorem deltaVector_spec (th : Nat → Nat → F) (ranges : List (List Nat)) (hr : ranges.length ≤ 6) (data : List F) (h : data.length = (entriesOf 0 ranges).length) :
    deltaVector th ranges data = List.zipWith (· - ·) data ((entriesOf 0 ranges).map fun e => th e.1 e.2) := by
  unfold deltaVector
  rw [List.take_of_length_le hr]
  have := subLoop_spec th ranges 0 [] data h
  simpa using this

/-- Example: two spectra of two and one multipoles. -/
example : deltaVector (fun i l => (10 * i + l : ℚ)) [[2, 3], [], [7]] [100, 200, 300] = [98, 197, 273] := by decide +kernel

/-- The calibrations: the cross spectrum has the geometric mean of those of its two channels, all are multiplied by the overall one. -/
theorem cals_spec (sqrt : F → F) (par : Dict Str F) (hs : sqrt ((par.get? c!"cal2").getD 1) * sqrt ((par.get? c!"cal2").getD 1) = (par.get? c!"cal2").getD 1) :
    ∃ c0 c1 c2 c3 c4 c5, cals sqrt par = [c0, c1, c2, c3, c4, c5] ∧ c3 * c3 = c1 * c2 ∧ (par.get? c!"calPlanck" = none → c1 = 1) := by
  refine ⟨_, _, _, _, _, _, rfl, ?_, ?_⟩
  · rw [mul_mul_mul_comm, hs]
    ring
  · intro h
    simp [-String.reduceToList, h]

/-- Example: no calibrations given. -/
example : cals (fun x : ℚ => x) [] = [1, 1, 1, 1, 1, 1] := by decide +kernel

/-! ### differences of spectra -/

/-- For consecutive multipoles, the position of a multipole in the covariance is its place in the list of multipoles. -/
theorem diffPos_spec (off lmin lo hi l : Nat) (h0 : lo ≤ hi) (h1 : lo ≤ lmin) (h2 : lmin ≤ l) (h3 : l ≤ hi) : diffPos off lmin (fullElls lo hi) l = off + (fullElls lo hi).idxOf l := by
  have hh : (fullElls lo hi).headD 0 = lo := by
    unfold fullElls
    obtain ⟨k, hk⟩ : ∃ k, hi + 1 - lo = k + 1 := ⟨hi - lo, by omega⟩
    rw [hk]
    simp [List.range_succ_eq_map]
  have hi' : (fullElls lo hi).idxOf l = l - lo := by
    have hnd : (fullElls lo hi).Nodup := (fullElls_sorted lo hi).imp (by intro a b h; omega)
    have hlt : l - lo < (fullElls lo hi).length := by rw [fullElls_length]; omega
    have : (fullElls lo hi)[l - lo] = l := by
      simp [fullElls]
      omega
    conv_lhs => rw [← this]
    exact hnd.idxOf_getElem _ _
  unfold diffPos
  rw [hh, hi']
  omega

example : diffPos 100 30 (fullElls 20 40) 33 = 113 := by decide

/-- The covariance of differences is the covariance of the linear combinations: for a covariance that is a sum of products of shared fluctuations, so is that of the
differences, with the differences of the calibrated fluctuations. -/
theorem diffCov_spec {m : Nat} (x : Nat → Fin m → F) (cov : Nat → Nat → F) (hc : ∀ p q, cov p q = ∑ k, x p k * x q k) (ci cj : F) (p1 q1 p2 q2 : Nat) :
    diffCov cov ci cj p1 q1 p2 q2 = ∑ k, (x p1 k * ci - x p2 k * cj) * (x q1 k * ci - x q2 k * cj) := by
  unfold diffCov
  simp only [hc]
  rw [Finset.mul_sum, Finset.mul_sum, ← Finset.sum_add_distrib, mul_add, Finset.mul_sum, Finset.mul_sum, ← Finset.sum_add_distrib, ← Finset.sum_sub_distrib]
  apply Finset.sum_congr rfl
  intro k _
  ring

/-- The same fluctuation in both, with the foregrounds added and the calibrations divided out, gives no difference. -/
theorem diffAt_spec (ci cj c fi fj : F) (hi : ci ≠ 0) (hj : cj ≠ 0) : diffAt ci cj ((c + fi) / ci) ((c + fj) / cj) fi fj = 0 := by
  unfold diffAt
  field_simp
  ring

example : diffAt (2 : ℚ) 3 ((10 + 1) / 2) ((10 + 4) / 3) 1 4 = 0 ∧ diffAt (2 : ℚ) 3 6 ((10 + 4) / 3) 1 4 = 1 := by decide +kernel

/-- Example: independent unit variances. -/
example : diffCov (fun p q => if p = q then (1 : ℚ) else 0) 1 2 0 0 1 1 = 5 := by norm_num [diffCov]

/-! ### the tilt of the infrared background -/

theorem toInt_small (x : ℝ) (h : |x| < 1) : toInt x = 0 := by
  obtain ⟨h1, h2⟩ := abs_lt.mp h
  unfold toInt
  split_ifs with h0
  · rw [Int.floor_eq_iff]
    constructor <;> push_cast <;> linarith
  · rw [Int.ceil_eq_iff]
    constructor <;> push_cast <;> linarith

/-- The stored logarithm is zero for all multipoles within a factor e of the pivot 3000. -/
theorem lnrat_zero (lmin l : Nat) (h1 : 3000 * Real.exp (-1) < l) (h2 : (l : ℝ) < 3000 * Real.exp 1) : lnrat lmin l = 0 := by
  unfold lnrat
  split_ifs with h
  · apply toInt_small
    have hp : 0 < Real.exp (-1) := Real.exp_pos _
    have hl : (0 : ℝ) < l / 3000 := by linarith
    rw [abs_lt]
    constructor
    · rw [Real.lt_log_iff_exp_lt hl]; linarith
    · rw [Real.log_lt_iff_lt_exp hl]; linarith
  · rfl

end Verif.CamSpec
