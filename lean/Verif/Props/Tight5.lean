import Mathlib.Algebra.Polynomial.Coeff
import Mathlib.Algebra.Polynomial.BigOperators
import Verif.Props.CamSpecCoadd
import Verif.Props.Smooth
import Verif.Props.AnalyserSettings

/-!
# Theorems added after changed models went unnoticed: CamSpec, smoothing, labels of plots
-/

set_option linter.unusedSectionVars false

namespace Verif.CamSpec
open Verif.Py

section theory
variable {F : Type} [Field F]

/-- the spectra in order: four of temperature with their foregrounds, TE and EE -/
def spectra (CT TE EE : Nat → F) (fg : Nat → Nat → F) : List (Nat → F) :=
  [fun l => CT l + fg 0 l, fun l => CT l + fg 1 l, fun l => CT l + fg 2 l, fun l => CT l + fg 3 l, TE, EE]

theorem theoryAt_spec (cal CT TE EE : Nat → F) (fg : Nat → Nat → F) (i l : Nat) (hi : i < 6) (hc : cal i ≠ 0) :
    (spectra CT TE EE fg)[i]?.map (fun s => s l) = some (theoryAt cal CT TE EE fg i l * cal i) := by
  have : i = 0 ∨ i = 1 ∨ i = 2 ∨ i = 3 ∨ i = 4 ∨ i = 5 := by omega
  rcases this with rfl | rfl | rfl | rfl | rfl | rfl <;> simp [spectra, theoryAt, hc]

theorem entriesOf_lt (es : List (List Nat)) (i : Nat) : ∀ e ∈ entriesOf i es, e.1 < i + es.length := by
  induction es generalizing i with
  | nil => simp [entriesOf]
  | cons a es ih =>
    intro e he
    rw [entriesOf, List.mem_append, List.mem_map] at he
    rcases he with ⟨l, -, rfl⟩ | he
    · simp
    · have := ih (i + 1) e he
      simp only [List.length_cons]
      omega

/-- **C164** The differences from the data are all zero exactly if each data point, times its calibration, is the spectrum of its position at its multipole. -/
theorem delta_zero (cal CT TE EE : Nat → F) (fg : Nat → Nat → F) (ranges : List (List Nat)) (hr : ranges.length ≤ 6) (data : List F)
    (h : data.length = (entriesOf 0 ranges).length) (hc : ∀ i, cal i ≠ 0) :
    (∀ x ∈ deltaVector (theoryAt cal CT TE EE fg) ranges data, x = 0) ↔
      List.Forall₂ (fun d e => (spectra CT TE EE fg)[e.1]?.map (fun s => s e.2) = some (d * cal e.1)) data (entriesOf 0 ranges) := by
  rw [deltaVector_spec _ ranges hr data h]
  have hlt : ∀ e ∈ entriesOf 0 ranges, e.1 < 6 := fun e he => by have := entriesOf_lt ranges 0 e he; omega
  generalize entriesOf 0 ranges = es at h hlt
  clear hr
  induction data generalizing es with
  | nil =>
    cases es with
    | nil => simp
    | cons e es => simp at h
  | cons d data ih =>
    cases es with
    | nil => simp at h
    | cons e es =>
      have he := hlt e (List.mem_cons_self ..)
      have ih' := ih es (by simpa using h) (fun x hx => hlt x (List.mem_cons_of_mem _ hx))
      rw [List.map_cons, List.zipWith_cons_cons, List.forall_mem_cons, List.forall₂_cons, theoryAt_spec cal CT TE EE fg e.1 e.2 he (hc _), Option.some.injEq]
      refine and_congr ?_ ih'
      rw [sub_eq_zero, eq_comm]
      exact ⟨fun h => by rw [h], fun h => mul_right_cancel₀ (hc _) h⟩

end theory

example : deltaVector (theoryAt (fun i => (i + 1 : ℚ)) (fun l => (l : ℚ)) (fun _ => 50) (fun _ => 12) (fun i _ => (i : ℚ))) [[2], [3], [], [], [7], [8]] [2, 2, 10, 2] = [0, 0, 0, 0] := by
  decide +kernel

theorem foldl_min_spec (l : List Nat) (a : Nat) : (l.foldl min a = a ∨ l.foldl min a ∈ l) ∧ l.foldl min a ≤ a ∧ ∀ x ∈ l, l.foldl min a ≤ x := by
  induction l generalizing a with
  | nil => simp
  | cons b l ih =>
    obtain ⟨h1, h2, h3⟩ := ih (min a b)
    rw [List.foldl_cons]
    refine ⟨?_, by omega, ?_⟩
    · rcases h1 with h | h
      · rcases Nat.le_total a b with hab | hab
        · left; rw [h, Nat.min_eq_left hab]
        · right; rw [h, Nat.min_eq_right hab]; exact List.mem_cons_self ..
      · right; exact List.mem_cons_of_mem _ h
    · intro x hx
      rcases List.mem_cons.1 hx with rfl | hx
      · omega
      · exact h3 x hx

theorem foldl_max_spec (l : List Nat) (a : Nat) : (l.foldl max a = a ∨ l.foldl max a ∈ l) ∧ a ≤ l.foldl max a ∧ ∀ x ∈ l, x ≤ l.foldl max a := by
  induction l generalizing a with
  | nil => simp
  | cons b l ih =>
    obtain ⟨h1, h2, h3⟩ := ih (max a b)
    rw [List.foldl_cons]
    refine ⟨?_, by omega, ?_⟩
    · rcases h1 with h | h
      · rcases Nat.le_total a b with hab | hab
        · right; rw [h, Nat.max_eq_right hab]; exact List.mem_cons_self ..
        · left; rw [h, Nat.max_eq_left hab]
      · right; exact List.mem_cons_of_mem _ h
    · intro x hx
      rcases List.mem_cons.1 hx with rfl | hx
      · omega
      · exact h3 x hx

/-- multipoles of some spectra -/
def multipoles (rs : List (Option (List Nat))) : Set Nat := {x | ∃ l, some l ∈ rs ∧ x ∈ l}

theorem limitsOne_spec (r : Option (List Nat)) (p : Nat × Nat) (h : limitsOne r = .ok p) :
    ∃ l, r = some l ∧ p.1 ∈ l ∧ p.2 ∈ l ∧ ∀ x ∈ l, p.1 ≤ x ∧ x ≤ p.2 := by
  match r with
  | none => simp [limitsOne] at h
  | some [] => simp [limitsOne] at h
  | some (a :: l) =>
    simp only [limitsOne, Except.ok.injEq] at h
    obtain ⟨h1, h2, h3⟩ := foldl_min_spec l a
    obtain ⟨g1, g2, g3⟩ := foldl_max_spec l a
    subst h
    refine ⟨a :: l, rfl, ?_, ?_, ?_⟩
    · rcases h1 with h | h
      · simp [h]
      · exact List.mem_cons_of_mem _ h
    · rcases g1 with h | h
      · simp [h]
      · exact List.mem_cons_of_mem _ h
    · intro x hx
      rcases List.mem_cons.1 hx with rfl | hx
      · exact ⟨h2, g2⟩
      · exact ⟨h3 x hx, g3 x hx⟩

/-- **C165** The limits of the sum are the least and the largest multipole of all its spectra; there are limits exactly if there are spectra and all are used. -/
theorem limits_spec (rs : List (Option (List Nat))) (p : Nat × Nat) (h : limitsAll rs = .ok p) :
    IsLeast (multipoles rs) p.1 ∧ IsGreatest (multipoles rs) p.2 := by
  induction rs generalizing p with
  | nil => simp [limitsAll] at h
  | cons r rs ih =>
    have key : ∀ a, limitsOne r = .ok a → ∀ b : Nat × Nat, (rs = [] ∨ (IsLeast (multipoles rs) b.1 ∧ IsGreatest (multipoles rs) b.2)) →
        p = (if rs = [] then a else (min a.1 b.1, max a.2 b.2)) → IsLeast (multipoles (r :: rs)) p.1 ∧ IsGreatest (multipoles (r :: rs)) p.2 := by
      intro a ha b hb hp
      obtain ⟨l, rfl, h1, h2, h3⟩ := limitsOne_spec r a ha
      by_cases hrs : rs = []
      · subst hrs
        rw [if_pos rfl] at hp
        subst hp
        have hm : multipoles [some l] = {x | x ∈ l} := by
          ext x
          simp only [multipoles, List.mem_singleton, Option.some.injEq, Set.mem_ofPred_eq]
          exact ⟨fun ⟨_, e, h⟩ => e ▸ h, fun h => ⟨l, rfl, h⟩⟩
        rw [hm]
        exact ⟨⟨h1, fun x hx => (h3 x hx).1⟩, h2, fun x hx => (h3 x hx).2⟩
      · rw [if_neg hrs] at hp
        subst hp
        obtain ⟨⟨m1, m2⟩, g1, g2⟩ := hb.resolve_left hrs
        have hm : multipoles (some l :: rs) = {x | x ∈ l} ∪ multipoles rs := by
          ext x
          simp only [multipoles, List.mem_cons, Option.some.injEq, Set.mem_ofPred_eq, Set.mem_union]
          constructor
          · rintro ⟨l', rfl | h, hx⟩
            · exact Or.inl hx
            · exact Or.inr ⟨l', h, hx⟩
          · rintro (hx | ⟨l', h, hx⟩)
            · exact ⟨l, Or.inl rfl, hx⟩
            · exact ⟨l', Or.inr h, hx⟩
        rw [hm]
        refine ⟨⟨?_, ?_⟩, ?_, ?_⟩
        · rcases Nat.le_total a.1 b.1 with h | h
          · left; simpa [Nat.min_eq_left h] using h1
          · right; simpa [Nat.min_eq_right h] using m1
        · rintro x (hx | hx)
          · exact (Nat.min_le_left _ _).trans (h3 x hx).1
          · exact (Nat.min_le_right _ _).trans (m2 hx)
        · rcases Nat.le_total a.2 b.2 with h | h
          · right; simpa [Nat.max_eq_right h] using g1
          · left; simpa [Nat.max_eq_left h] using h2
        · rintro x (hx | hx)
          · exact (h3 x hx).2.trans (Nat.le_max_left _ _)
          · exact (g2 hx).trans (Nat.le_max_right _ _)
    cases rs with
    | nil => exact key p (by simpa [limitsAll] using h) (0, 0) (Or.inl rfl) (by simp)
    | cons r2 rs =>
      rw [limitsAll] at h
      · cases h1 : limitsOne r with
        | error e => rw [h1] at h; cases h
        | ok a =>
          rw [h1] at h
          cases h2 : limitsAll (r2 :: rs) with
          | error e => rw [h2] at h; cases h
          | ok b =>
            rw [h2] at h
            simp only [Except.ok.injEq] at h
            exact key a h1 b (Or.inr (ih b h2)) (by rw [if_neg (by simp)]; exact h.symm)
      · simp

example : limitsAll [some [50, 51, 52], some [30, 31], some [500, 40]] = .ok (30, 500) := by decide

/-- The weights need the object of the test program, and nothing else. -/
theorem weights_name (globals : List Str) : weightsObject globals = .ok () ↔ c!"camspec" ∈ globals := by
  unfold weightsObject
  by_cases h : c!"camspec" ∈ globals
  · rw [if_pos (List.contains_iff_mem.2 h)]; exact ⟨fun _ => h, fun _ => rfl⟩
  · rw [if_neg (fun g => h (List.contains_iff_mem.1 g))]
    exact Iff.intro (fun g => by cases g) (fun g => absurd g h)

end Verif.CamSpec

namespace Verif.Smooth
open Polynomial

variable {F : Type} [Field F]

/-- **C167** The convolution is that of sequences: its values are coefficients of the product of the polynomials of data and window, from the position `start` on. -/
theorem conv_poly (win : Nat → F) (start len : Nat) {N : Nat} (data : Fin N → F) (n : Fin N) :
    conv win start len data n = ((∑ k : Fin N, C (data k) * X ^ (k : ℕ)) * ∑ j ∈ Finset.range len, C (win j) * X ^ j : F[X]).coeff (n + start) := by
  rw [Finset.sum_mul, finsetSum_coeff]
  unfold conv
  refine Finset.sum_congr rfl fun k _ => ?_
  rw [mul_assoc, coeff_C_mul]
  congr 1
  rw [coeff_X_pow_mul', finsetSum_coeff]
  unfold tap
  by_cases hk : (k : ℕ) ≤ n + start
  · rw [if_pos hk]
    simp only [coeff_C_mul, coeff_X_pow, mul_ite, mul_one, mul_zero]
    rw [Finset.sum_ite_eq]
    simp [hk, Finset.mem_range]
  · rw [if_neg hk, if_neg (fun h => hk h.1)]

example : (fun n => conv (fun j => ([1, 10, 100] : List ℚ).getD j 0) 1 3 ![1, 2, 3, 4] n) = ![12, 123, 234, 340] := by
  funext n
  revert n
  decide +kernel

end Verif.Smooth

namespace Verif.ParamNames
open Verif.Py

/-- a parameter with label and kind of that of the same name in a list -/
def relabelled (l : List Info) (p : Info) : Info :=
  match l.find? (fun q => q.name = p.name) with
  | some q => { p with label := q.label, isDerived := q.isDerived }
  | none => p

theorem updateFirst_name (f : Info → Info) (ps : List Info) (name : Str) (hr : ∀ p ∈ ps, p.renames = []) (hn : (ps.map (·.name)).Nodup) :
    updateFirst f (matchesName name []) ps = ps.map fun p => if p.name = name then f p else p := by
  induction ps with
  | nil => rfl
  | cons p ps ih =>
    have hm : matchesName name [] p = decide (p.name = name) := by
      simp only [matchesName, aliasesOf, Dict.get?, hr p (List.mem_cons_self ..), Option.getD_none, List.append_nil, List.any_cons, List.any_nil, Bool.or_false]
      by_cases h : p.name = name
      · simp [h]
      · simp [h]
    rw [List.map_cons, List.nodup_cons] at hn
    rw [updateFirst, hm, List.map_cons]
    by_cases h : p.name = name
    · rw [decide_eq_true h, if_pos rfl, if_pos h]
      congr 1
      refine ((List.map_congr_left fun q hq => ?_).trans (List.map_id _)).symm
      rw [if_neg (fun e => hn.1 (List.mem_map.2 ⟨q, hq, by rw [e, h]⟩))]
      rfl
    · rw [decide_eq_false h, if_neg (by simp), if_neg h, ih (fun q hq => hr q (List.mem_cons_of_mem _ hq)) hn.2]

/-- Labels and kinds of parameters are those of the parameters of the same names in the given list; the others are kept. -/
theorem labels_set (ps l : List Info) (hr : ∀ p ∈ ps, p.renames = []) (hn : (ps.map (·.name)).Nodup) (hl : (l.map (·.name)).Nodup) :
    setLabelsAndDerived true ps l = ps.map (relabelled l) := by
  induction l generalizing ps with
  | nil =>
    rw [setLabelsAndDerived]
    exact ((List.map_congr_left fun p _ => rfl).trans (List.map_id _)).symm
  | cons q l ih =>
    rw [List.map_cons, List.nodup_cons] at hl
    rw [setLabelsAndDerived, updateFirst_name _ ps q.name hr hn, ih]
    · rw [List.map_map]
      refine List.map_congr_left fun p _ => ?_
      simp only [Function.comp, relabelled, List.find?_cons]
      by_cases h : p.name = q.name
      · have hnone : l.find? (fun x => decide (x.name = p.name)) = none := by
          rw [List.find?_eq_none]
          intro x hx e
          exact hl.1 (List.mem_map.2 ⟨x, hx, by rw [of_decide_eq_true e, h]⟩)
        simp only [if_pos h, hnone, if_true]
        rw [decide_eq_true h.symm]
      · rw [if_neg h, decide_eq_false (fun e => h e.symm)]
    · intro p hp
      obtain ⟨p', hp', rfl⟩ := List.mem_map.1 hp
      split_ifs <;> exact hr p' hp'
    · have : (ps.map fun p => if p.name = q.name then { p with label := q.label, isDerived := if true = true then q.isDerived else p.isDerived } else p).map (·.name) = ps.map (·.name) := by
        rw [List.map_map]
        refine List.map_congr_left fun p _ => ?_
        simp only [Function.comp]
        split_ifs <;> rfl
      rw [this]
      exact hn
    · exact hl.2

/-- The same without the kinds. -/
theorem labels_only (ps l : List Info) (p : Info) (hr : ∀ p ∈ ps, p.renames = []) (hn : (ps.map (·.name)).Nodup) (hp : p ∈ setLabelsAndDerived false ps l) :
    ∃ p' ∈ ps, p'.name = p.name ∧ p'.isDerived = p.isDerived := by
  induction l generalizing ps with
  | nil => exact ⟨p, hp, rfl, rfl⟩
  | cons q l ih =>
    rw [setLabelsAndDerived, updateFirst_name _ ps q.name hr hn] at hp
    have hname : (ps.map fun p => if p.name = q.name then { p with label := q.label, isDerived := if false = true then q.isDerived else p.isDerived } else p).map (·.name) = ps.map (·.name) := by
      rw [List.map_map]
      refine List.map_congr_left fun p _ => ?_
      simp only [Function.comp]
      split_ifs <;> rfl
    obtain ⟨p', hp', h1, h2⟩ := ih _ (by
      intro p hp
      obtain ⟨p', hp', rfl⟩ := List.mem_map.1 hp
      split_ifs <;> exact hr p' hp') (by rw [hname]; exact hn) hp
    obtain ⟨p'', hp'', rfl⟩ := List.mem_map.1 hp'
    refine ⟨p'', hp'', ?_, ?_⟩
    · rw [← h1]; split_ifs <;> rfl
    · rw [← h2]
      by_cases h : p''.name = q.name
      · rw [if_pos h]; rfl
      · rw [if_neg h]

end Verif.ParamNames

namespace Verif.Analyser
open Verif.Py Verif.ParamNames

variable {S D G U : Type} [DecidableEq S]

/-- **C172** With a list of labels the names of the samples have its labels and kinds afterwards, and those of other samples are as before. -/
theorem labels_given (w : World S D G U) (st st' : St S D G U) (root : Root S) (l ps : List Info) (hl : (l.map (·.name)).Nodup)
    (h : paramsForRoot w st root (some l) = .ok (ps, st')) :
    ∃ s st1, samplesForRoot w st root none true [] = .ok (s, st1) ∧
      ((∀ p ∈ st1.names s, p.renames = []) → ((st1.names s).map (·.name)).Nodup → ps = (st1.names s).map (relabelled l) ∧ st'.names s = ps) ∧ ∀ t, t ≠ s → st'.names t = st1.names t := by
  unfold paramsForRoot at h
  cases hs : samplesForRoot w st root none true [] with
  | error e => rw [hs] at h; cases h
  | ok p =>
    obtain ⟨s, st1⟩ := p
    rw [hs] at h
    simp only [bind, Except.bind, Except.ok.injEq, Prod.mk.injEq] at h
    obtain ⟨rfl, rfl⟩ := h
    refine ⟨s, st1, rfl, fun h1 h2 => ⟨labels_set _ l h1 h2 hl, ?_⟩, fun t ht => ?_⟩
    · simp
    · simp [ht]

end Verif.Analyser
