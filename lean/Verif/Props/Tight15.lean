import Verif.Props.MeanLikes
import Verif.Props.DensityObj

/-!
# More on what single definitions do, VII

Found by changing definitions: these changes broke nothing before.
-/

namespace Verif.MeanLikes
variable {ι K : Type} [Fintype ι] [Nonempty ι] [Field K] [LinearOrder K] [IsStrictOrderedRing K]

/-- **C225**: in every bin the mean logarithm of its samples is between the smallest and the largest -/
theorem fineLogs_between [DecidableEq ι] (a b : K) : ∀ s : List (Smp ι K), (∀ x ∈ s, 0 ≤ x.weight ∧ a ≤ x.loglike ∧ x.loglike ≤ b) →
    ∀ i, a * hist s i ≤ fineLogs s i ∧ fineLogs s i ≤ b * hist s i
  | [], _, i => by simp [hist, fineLogs, bincount]
  | x :: s, h, i => by
    obtain ⟨h0, h1, h2⟩ := h x (List.mem_cons_self ..)
    obtain ⟨i1, i2⟩ := fineLogs_between a b s (fun y hy => h y (List.mem_cons_of_mem _ hy)) i
    unfold hist fineLogs at *
    rw [List.map_cons, List.map_cons, bincount_cons, bincount_cons]
    dsimp only
    by_cases e : x.bin = i
    · rw [if_pos e, if_pos e]
      have e1 := mul_le_mul_of_nonneg_left h1 h0
      have e2 := mul_le_mul_of_nonneg_left h2 h0
      constructor <;> nlinarith
    · rw [if_neg e, if_neg e]
      constructor <;> linarith

example : fineLogs [⟨0, 2, 1⟩, ⟨1, 5, 1⟩, ⟨(0 : Fin 2), (3 : ℚ), 4⟩] 0 = 14 := by decide +kernel

/-- **C225**: the density below which nothing is shown is a ten thousandth of the highest -/
theorem mean2_threshold (M : ι → ι → K) (rounds : Nat) (bins fine : ι → K) (i : ι) :
    (10000 * smooth M bins i ≤ maxOf (smooth M bins) → mean2 M rounds bins fine i = 0) ∧
    (maxOf (smooth M bins) < 10000 * smooth M bins i → mean2 M rounds bins fine i * smooth M bins i = smoothed2 M rounds fine i ∨ smooth M bins i ≤ 0) := by
  unfold mean2 small
  constructor
  · intro h
    rw [if_neg]
    norm_num
    linarith
  · intro h
    rw [if_pos (by norm_num; linarith)]
    rcases le_or_gt (smooth M bins i) 0 with h0 | h0
    · exact .inr h0
    · left
      field_simp

example : mean2 (fun i j : Fin 2 => if i = j then (1 : ℚ) else 0) 0 ![1, 20000] ![5, 7] 0 = 0 := by decide +kernel

end Verif.MeanLikes

namespace Verif.DensityObj
open Verif.Density (By maxOf)
variable {K : Type} [Field K] [LinearOrder K]

/-- **C227**: densities are divided by their integral or their maximum; a maximum of zero and other norms are errors, and nothing else is -/
theorem norm_spec (integral : Arr K → K) (a : Arr K) :
    norm integral .integral a = .ok (integral a) ∧ (norm integral .max a = .error .densities ↔ maxOf a.data = 0) ∧
    (maxOf a.data ≠ 0 → norm integral .max a = .ok (maxOf a.data)) ∧ norm integral .other a = .error .densities := by
  unfold norm
  refine ⟨rfl, ?_, ?_, rfl⟩
  · dsimp only
    split
    next h => exact ⟨fun _ => h, fun _ => rfl⟩
    next h => exact ⟨fun e => (by cases e), fun e => absurd e h⟩
  · intro h
    dsimp only
    rw [if_neg h]

example : norm (fun _ => (7 : ℚ)) .max ⟨[2], [1, 3]⟩ = .ok 3 ∧ norm (fun _ => (7 : ℚ)) .max ⟨[2], [0, 0]⟩ = .error .densities ∧
    norm (fun _ => (7 : ℚ)) .max ⟨[2], [0, 1]⟩ = .ok 1 := by decide +kernel

omit [LinearOrder K] in
/-- **C227**: the ends of an axis are its first and last value -/
theorem ends_spec (ax : List K) (h : ax ≠ []) : ax.head? = some (ends ax).1 ∧ ax.getLast? = some (ends ax).2 := by
  unfold ends
  cases ax with
  | nil => exact absurd rfl h
  | cons x l => exact ⟨rfl, by rw [List.getLastD_eq_getLast?]; cases hl : (x :: l).getLast? with | none => simp at hl | some v => rfl⟩

example : ends [(1 : ℚ), 2, 5] = (1, 5) := by decide +kernel

end Verif.DensityObj
