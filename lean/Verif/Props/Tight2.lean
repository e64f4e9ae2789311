import Verif.Props.AutoCorr
import Verif.Props.GelmanRubin
import Verif.Props.Confidence
import Verif.Props.Samples
import Verif.Props.ParamNames
import Verif.Props.IniFile
import Verif.Model.CMBlikes

/-!
# More theorems found missing by wrong programs
-/

set_option linter.unusedSectionVars false

namespace Verif.AutoCorr
variable {K : Type} [Field K] [LinearOrder K] [IsStrictOrderedRing K]

/-- **C84** The width of the kernel is `h` times the scale if one is given and not zero, and `h` times the standard deviation otherwise. -/
theorem kernelVar_spec (s : WS K) (d : List K) (h : K) :
    (∀ a, a ≠ 0 → kernelVar s d h (some a) = (a * h) ^ 2) ∧ kernelVar s d h (some 0) = kernelVar s d h none ∧ kernelVar s d h none = var s d * h ^ 2 := by
  refine ⟨fun a ha => ?_, ?_, rfl⟩
  · simp only [kernelVar, if_neg ha]; ring
  · simp [kernelVar]

example : kernelVar (⟨[1, 1], 1⟩ : WS ℚ) [0, 2] 3 (some 2) = 36 ∧ kernelVar (⟨[1, 1], 1⟩ : WS ℚ) [0, 2] 3 none = 9 := by decide +kernel

end Verif.AutoCorr

namespace Verif.GelmanRubin

/-- **C83** Without eigenvalues there is no value, and with at least one there is. -/
theorem worst_none {p : Nat} (d : Option (Fin p → ℝ)) (hp : p ≠ 0) : worst d = none ↔ d = none := by
  cases d with
  | none => simp [worst]
  | some D =>
    obtain ⟨i, h, _⟩ := worst_some D hp
    simp [h]

example : worst (some ![1, 3]) ≠ none := fun h => by cases (worst_none (some ![1, 3]) (by decide)).mp h

end Verif.GelmanRubin

namespace Verif.Confidence
open Verif.Py Verif.Py.Np
variable {K : Type} [Field K] [LinearOrder K] [IsStrictOrderedRing K]

/-- **C12** A fraction that no cumulative weight reaches gives the last value in order, the largest: never an error. -/
theorem confidence_beyond (argsort : List K → List Nat) (hA : IsArgsort argsort) (w vec : List K) (hl : vec.length = w.length) (hne : vec ≠ [])
    (hw : ∀ x ∈ w, 0 ≤ x) (hs : 0 < w.sum) (p : K) (hp : 1 < p) :
    ∃ x, confidence argsort w vec p false 0 none none = .ok x ∧ x ∈ vec ∧ ∀ y ∈ vec, y ≤ x := by
  obtain ⟨hperm, hsort⟩ := hA vec
  have hlen : (argsort vec).length = vec.length := by simpa using hperm.length_eq
  have hlt : ∀ i ∈ argsort vec, i < vec.length := fun i hi => by simpa using hperm.mem_iff.mp hi
  have hpos : 0 < vec.length := List.length_pos_of_ne_nil hne
  have hg : gather w ((argsort vec).map (0 + ·)) = .ok (((argsort vec).map (0 + ·)).map (fun i => w.getD i 0)) := by
    apply gather_ok
    intro i hi
    obtain ⟨j, hj, rfl⟩ := List.mem_map.mp hi
    have := hlt j hj
    omega
  have hcs : ∀ (l : List K) (acc t : K), (∀ x ∈ l, 0 ≤ x) → acc + l.sum < t → searchsorted (cumsumFrom acc l) t = l.length := by
    intro l
    induction l with
    | nil => intro acc t _ _; rfl
    | cons a l ih =>
      intro acc t hn hlt
      rw [List.sum_cons] at hlt
      have h0 := List.sum_nonneg (fun x hx => hn x (List.mem_cons_of_mem _ hx) : ∀ x ∈ l, 0 ≤ x)
      have := ih (acc + a) t (fun x hx => hn x (List.mem_cons_of_mem _ hx)) (by linarith)
      unfold searchsorted cumsumFrom
      unfold searchsorted at this
      rw [List.takeWhile_cons_of_pos (by simpa using (by linarith : acc + a < t)), List.length_cons, this, List.length_cons]
  have hsum : ((argsort vec).map (fun i => w.getD i 0)).sum = w.sum := by
    have := (hperm.map (fun i => w.getD i 0)).sum_eq
    rw [this, hl, map_getD_range]
  have hss : searchsorted (cumsum ((argsort vec).map (fun i => w.getD i 0))) (w.sum * p) = (argsort vec).length := by
    rw [cumsum, hcs]
    · simp
    · intro x hx
      obtain ⟨i, hi, rfl⟩ := List.mem_map.mp hx
      have := hlt i hi
      rw [List.getD_eq_getElem?_getD, List.getElem?_eq_getElem (by omega)]
      exact hw _ (List.getElem_mem _)
    · rw [hsum, zero_add]; nlinarith
  have hj : (argsort vec)[(argsort vec).length - 1]? = some ((argsort vec)[(argsort vec).length - 1]'(by omega)) := List.getElem?_eq_getElem _
  set j := (argsort vec)[(argsort vec).length - 1]'(by omega) with hjd
  have hjl : j < vec.length := hlt j (List.getElem_mem _)
  refine ⟨vec[j], ?_, List.getElem_mem _, ?_⟩
  · unfold confidence initParamConfidenceData
    simp only [Option.getD_none, slice, List.drop_zero, hg, bind, Except.bind, pure, Except.pure]
    unfold confidenceData
    simp only [List.map_map, Bool.not_false, if_true]
    have e : (argsort vec).map ((fun i => w.getD i 0) ∘ (0 + ·)) = (argsort vec).map (fun i => w.getD i 0) := by
      apply List.map_congr_left; intro i _; simp
    rw [e, hss, if_neg (by omega), Nat.min_eq_right (by omega), hj]
    simp [hjl]
  · intro y hy
    obtain ⟨i, hi, rfl⟩ := List.getElem_of_mem hy
    have him : i ∈ argsort vec := hperm.mem_iff.mpr (by simpa using hi)
    obtain ⟨k, hk, hki⟩ := List.getElem_of_mem him
    have hvi : vec.getD i 0 = vec[i] := by simp [hi]
    have hvj : vec.getD j 0 = vec[j] := by simp [hjl]
    rcases Nat.lt_or_ge k ((argsort vec).length - 1) with h | h
    · have := List.pairwise_iff_getElem.mp hsort k ((argsort vec).length - 1) (by simpa using hk) (by simp; omega) h
      simp only [List.getElem_map, hki, ← hjd] at this
      rw [hvi, hvj] at this
      exact this
    · have : k = (argsort vec).length - 1 := by omega
      subst this
      have : i = j := hki.symm
      subst this
      exact le_refl _

example : (confidence argsortIns [1, 2, (1 : ℚ)] [3, 9, 5] 2 false 0 none none).toOption = some 9 := by decide +kernel

end Verif.Confidence

namespace Verif.Samples
open Verif.Py Verif.Py.Np
variable {K : Type} [Field K] [LinearOrder K] [FloorRing K]

/-- **C22** Without rows fixed parameters cannot be found, unless there are no parameters. -/
theorem fixedCols_empty (n : Nat) : fixedCols (⟨n, []⟩ : Arr2 K) = if n = 0 then .ok [] else .error .indexError := by
  unfold fixedCols
  rcases Nat.eq_zero_or_pos n with h | h
  · subst h; simp
  · simp [h, h.ne']

example : fixedCols (⟨2, []⟩ : Arr2 ℚ) = .error .indexError ∧ fixedCols (⟨2, [[1, 5], [2, 5]]⟩ : Arr2 ℚ) = .ok [(1, 5)] := by decide +kernel

end Verif.Samples

namespace Verif.ParamNames
open Verif.Py

/-- **C07** A name is refused exactly if it holds an asterisk, a question mark, a space or a tab. -/
theorem setName_spec (p : Info) (name : Str) :
    (('*' ∈ name ∨ '?' ∈ name ∨ ' ' ∈ name ∨ '\t' ∈ name) → setName p name = .error (.badName name)) ∧
    ('*' ∉ name → '?' ∉ name → ' ' ∉ name → '\t' ∉ name → setName p name = .ok { p with name := name }) := by
  unfold setName
  constructor
  · intro h
    rw [if_pos]
    rw [List.any_eq_true]
    rcases h with h | h | h | h <;> exact ⟨_, h, by decide⟩
  · intro h1 h2 h3 h4
    rw [if_neg]
    rw [List.any_eq_true]
    rintro ⟨c, hc, hb⟩
    unfold badNameChar at hb
    simp only [Bool.or_eq_true, beq_iff_eq] at hb
    rcases hb with ((rfl | rfl) | rfl) | rfl
    · exact h1 hc
    · exact h2 hc
    · exact h3 hc
    · exact h4 hc

example : setName {} (c!"a?b") = .error (.badName (c!"a?b")) := by rfl

end Verif.ParamNames

namespace Verif.IniFile
open Verif.Py

/-- **C52** A truth value stored in the settings is read as text `True` or `False`. -/
theorem getString_bool (ini : Ini) (name : Str) (b : Bool) (d : Option Str) (e : Bool) (h : ini.params.get? name = some (.bool b)) :
    getString ini name d e = .ok (if b then c!"True" else c!"False") := by
  unfold getString
  have : isSet ini name e = true := by simp [isSet, h]
  rw [if_pos this, h]
  cases b <;> rfl

/-- **C56** A relative path is put behind the directory with exactly one slash between them; an absolute one stands alone. -/
theorem pathJoin_spec (a b : Str) : (startsWith c!"/" b = true → pathJoin a b = b) ∧
    (startsWith c!"/" b = false → a ≠ [] → a.getLast? ≠ some '/' → pathJoin a b = a ++ '/' :: b) ∧
    (startsWith c!"/" b = false → pathJoin (a ++ ['/']) b = a ++ '/' :: b) ∧ (startsWith c!"/" b = false → pathJoin [] b = b) := by
  have hend : ∀ a : Str, endsWith c!"/" a = true ↔ a.getLast? = some '/' := by
    intro a
    unfold endsWith
    rw [List.isSuffixOf_iff_suffix]
    constructor
    · rintro ⟨t, rfl⟩; simp
    · intro h
      obtain ⟨hne, hl⟩ := List.getLast?_eq_some_iff.mp h
      exact ⟨hne, hl.symm⟩
  refine ⟨fun h => ?_, fun h h1 h2 => ?_, fun h => ?_, fun h => ?_⟩
  · unfold pathJoin isAbs; rw [if_pos h]
  · unfold pathJoin isAbs
    rw [if_neg (by rw [h]; decide), if_neg]
    · simp
    · rw [Bool.or_eq_true, hend, List.isEmpty_iff]
      rintro (e | e)
      · exact h1 e
      · exact h2 e
  · unfold pathJoin isAbs
    rw [if_neg (by rw [h]; decide), if_pos]
    · simp
    · rw [Bool.or_eq_true, hend]
      right; simp
  · unfold pathJoin isAbs
    rw [if_neg (by rw [h]; decide), if_pos]
    · simp
    · simp

example : pathJoin c!"a/b" c!"c" = c!"a/b/c" ∧ pathJoin c!"a/" c!"c" = c!"a/c" ∧ pathJoin c!"a" c!"/c" = c!"/c" := by decide

end Verif.IniFile

namespace Verif.CMBlikes
variable {K : Type} [Field K]

/-- **C74** With a linear correction the binned spectra are the binned ones plus the corrected minus the fiducial, provided the correction covers all pairs of maps. -/
theorem binned_corr (L : Like K) (cls : Nat → Nat → List K) (W : Win K) (fid : Nat → Nat → K) (hc : L.corr = some (W, fid)) (m : Nat) (P Q : Nat → Nat → K)
    (h1 : binCls L.win L.nreq cls = .ok (m, P)) (h2 : binCls W L.nreq cls = .ok (m, Q)) (hm : m = L.nmaps * (L.nmaps + 1) / 2) :
    binned L cls = .ok (m, fun b c => P b c + (Q b c - fid c b)) := by
  unfold binned
  rw [h1]
  simp only [bind, Except.bind, hc, h2]
  rw [if_neg]
  · rfl
  · rintro (h | h)
    · exact h hm
    · exact h rfl

example : (binned (⟨1, 1, fun _ _ => (0, 0), 0, 1, 1, ⟨[(0, 0)], [0], fun _ _ => [1, 1]⟩, some (⟨[(0, 0)], [0], fun _ _ => [2, 0]⟩, fun _ _ => 3), none, fun _ _ => 0, [0], fun _ _ => 1, 0⟩ : Like ℚ)
    (fun _ _ => [5, 7])).toOption.map (fun r => (r.1, r.2 0 0)) = some (1, 12 + (10 - 3)) := by decide +kernel

/-- **C74** A correction of another shape is an error. -/
theorem binned_shape (L : Like K) (cls : Nat → Nat → List K) (W : Win K) (fid : Nat → Nat → K) (hc : L.corr = some (W, fid)) (m m' : Nat) (P Q : Nat → Nat → K)
    (h1 : binCls L.win L.nreq cls = .ok (m, P)) (h2 : binCls W L.nreq cls = .ok (m', Q)) (hm : m' ≠ L.nmaps * (L.nmaps + 1) / 2 ∨ m ≠ m') :
    binned L cls = .error .shape := by
  unfold binned
  rw [h1]
  simp only [bind, Except.bind, hc, h2]
  rw [if_pos hm]

example : (binned (⟨2, 1, fun _ _ => (0, 0), 0, 1, 1, ⟨[(0, 0)], [0], fun _ _ => [1, 1]⟩, some (⟨[(0, 0)], [0], fun _ _ => [2, 0]⟩, fun _ _ => 3), none, fun _ _ => 0, [0], fun _ _ => 1, 0⟩ : Like ℚ)
    (fun _ _ => [5, 7])).toOption.map (fun r => (r.1, r.2 0 0)) = none := by decide +kernel

end Verif.CMBlikes
