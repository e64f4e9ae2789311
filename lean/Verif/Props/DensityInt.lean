import Verif.Model.Density
import Mathlib.Algebra.BigOperators.Ring.List
import Mathlib.Tactic.Ring
import Mathlib.Tactic.Linarith
import Mathlib.Tactic.FieldSimp
import Mathlib.Tactic.NormNum

/-!
# C39: integrals and normalisation of grid densities
-/

namespace Verif.Density
set_option linter.unusedSectionVars false
open Verif.Py Verif.Py.Np

variable {K : Type} [Field K] [LinearOrder K] [IsStrictOrderedRing K]

/-! ## The trapezoid rule -/

/-- the trapezoid rule for points `x` and values `p` -/
def trap : List K → List K → K
  | x0 :: x1 :: xs, p0 :: p1 :: ps => (x1 - x0) * (p0 + p1) / 2 + trap (x1 :: xs) (p1 :: ps)
  | _, _ => 0

/-- equally spaced points -/
def Uniform (s : K) : List K → Prop
  | x0 :: x1 :: xs => x1 - x0 = s ∧ Uniform s (x1 :: xs)
  | _ => True

/-- sum with the ends counted half -/
def half (p : List K) : K := p.sum - (p.headD 0 + p.getLastD 0) / 2

theorem getLastD_cons_cons (a b : K) (l : List K) (d : K) : (a :: b :: l).getLastD d = (b :: l).getLastD d := by
  cases l <;> rfl

theorem trap_half (s : K) : ∀ (x p : List K), x.length = p.length → p ≠ [] → Uniform s x → trap x p = s * half p
  | [], p, h, hp, _ => by cases p with | nil => exact absurd rfl hp | cons _ _ => simp at h
  | [x0], p, h, _, _ => by
    match p, h with
    | [p0], _ => simp only [trap, half, List.sum_cons, List.sum_nil, List.headD_cons]; rw [show [p0].getLastD 0 = p0 from rfl]; ring
  | x0 :: x1 :: xs, p, h, _, hu => by
    match p, h with
    | p0 :: p1 :: ps, h =>
      rw [trap, hu.1, trap_half s (x1 :: xs) (p1 :: ps) (by simpa using h) (by simp) hu.2]
      unfold half
      rw [getLastD_cons_cons]
      simp only [List.sum_cons, List.headD_cons]
      ring

theorem split_ends {α : Type} (d : α) : ∀ {p : List α}, 2 ≤ p.length → p = p.headD d :: (mid p ++ [p.getLastD d])
  | a :: b :: l, _ => by
    have hne : b :: l ≠ [] := by simp
    have : (b :: l).dropLast ++ [(b :: l).getLast hne] = b :: l := List.dropLast_concat_getLast hne
    show a :: b :: l = a :: ((b :: l).dropLast ++ [(a :: b :: l).getLastD d])
    rw [show (a :: b :: l).getLastD d = (b :: l).getLast hne by simp [List.getLastD_eq_getLast?, List.getLast?_eq_getLast_of_ne_nil hne], this]

theorem half_mid {p : List K} (h : 2 ≤ p.length) : half p = (p.headD 0 + p.getLastD 0) / 2 + (mid p).sum := by
  unfold half
  have e := congrArg List.sum (split_ends 0 h)
  rw [List.sum_cons, List.sum_append, List.sum_singleton] at e
  rw [e]; ring

/-- **C39**: the integral of a 1D density is the trapezoid rule on its points -/
theorem integrate1_trapezoid (s : K) (x P : List K) (hl : x.length = P.length) (h2 : 2 ≤ P.length) (hu : Uniform s x) :
    integrate1 s P = trap x P := by
  rw [trap_half s x P hl (by rintro rfl; simp at h2) hu, half_mid h2]
  unfold integrate1; ring

theorem sum_half {M : List (List K)} (h : ∀ r ∈ M, 2 ≤ r.length) : (M.map half).sum =
    ((M.map (fun r => r.headD 0)).sum + (M.map (fun r => r.getLastD 0)).sum) / 2 + (M.map (fun r => (mid r).sum)).sum := by
  induction M with
  | nil => simp
  | cons r M ih =>
    simp only [List.map_cons, List.sum_cons]
    rw [ih (fun r hr => h r (List.mem_cons_of_mem _ hr)), half_mid (h r List.mem_cons_self)]
    ring

theorem headD_map {α β : Type} (f : α → β) (d : α) (d' : β) {l : List α} (h : l ≠ []) : (l.map f).headD d' = f (l.headD d) := by
  cases l with
  | nil => exact absurd rfl h
  | cons a l => rfl

theorem getLastD_map {α β : Type} (f : α → β) (d : α) (d' : β) {l : List α} (h : l ≠ []) : (l.map f).getLastD d' = f (l.getLastD d) := by
  rw [List.getLastD_eq_getLast?, List.getLastD_eq_getLast?, List.getLast?_map, List.getLast?_eq_getLast_of_ne_nil h]
  rfl

theorem mid_map {α β : Type} (f : α → β) (l : List α) : mid (l.map f) = (mid l).map f := by
  unfold mid; rw [← List.map_tail, List.map_dropLast]

theorem mem_of_mem_mid {α : Type} {l : List α} {a : α} (h : a ∈ mid l) : a ∈ l :=
  List.mem_of_mem_tail (List.dropLast_subset _ h)

theorem headD_mem {α : Type} (d : α) {l : List α} (h : l ≠ []) : l.headD d ∈ l := by
  cases l with
  | nil => exact absurd rfl h
  | cons a l => simp

theorem getLastD_mem {α : Type} (d : α) {l : List α} (h : l ≠ []) : l.getLastD d ∈ l := by
  rw [List.getLastD_eq_getLast?, List.getLast?_eq_getLast_of_ne_nil h]; exact List.getLast_mem h

/-- **C39**: the integral of a 2D density is the trapezoid rule in both directions -/
theorem integrate2_trapezoid (sx sy : K) (x y : List K) (P : List (List K)) (hy : y.length = P.length) (h2 : 2 ≤ P.length)
    (hx : ∀ r ∈ P, r.length = x.length) (hx2 : 2 ≤ x.length) (hux : Uniform sx x) (huy : Uniform sy y) :
    integrate2 (sx * sy) P = trap y (P.map (trap x)) := by
  have hne : P ≠ [] := by rintro rfl; simp at h2
  have hr2 : ∀ r ∈ P, 2 ≤ r.length := fun r hr => by rw [hx r hr]; exact hx2
  have hmap : P.map (trap x) = (P.map half).map (sx * ·) := by
    rw [List.map_map]
    refine List.map_congr_left (fun r hr => ?_)
    exact trap_half sx x r (hx r hr).symm (by have := hr2 r hr; rintro rfl; simp at this) hux
  have hscale : ∀ l : List K, l ≠ [] → half (l.map (sx * ·)) = sx * half l := by
    intro l hl
    unfold half
    rw [headD_map _ 0 0 hl, getLastD_map _ 0 0 hl, List.sum_map_mul_left, List.map_id']
    ring
  rw [trap_half sy y _ (by simpa using hy) (by simpa using hne) huy, hmap, hscale _ (by simpa using hne),
    half_mid (p := P.map half) (by simpa using h2), headD_map half [] 0 hne, getLastD_map half [] 0 hne, mid_map,
    sum_half (fun r hr => hr2 r (mem_of_mem_mid hr)), half_mid (hr2 _ (headD_mem [] hne)), half_mid (hr2 _ (getLastD_mem [] hne))]
  unfold integrate2
  ring

example : integrate1 (2 : ℚ) [1, 4, 3] = trap [5, 7, 9] [1, 4, 3] ∧ integrate1 (2 : ℚ) [1, 4, 3] = 12 := by
  simp [integrate1, trap, mid]; norm_num

example : integrate2 (2 * 3 : ℚ) [[1, 4, 3], [2, 2, 0]] = trap [0, 3] ([[1, 4, 3], [2, 2, 0]].map (trap [5, 7, 9])) :=
  integrate2_trapezoid 2 3 [5, 7, 9] [0, 3] _ rfl (by decide) (by decide) (by decide) (by norm_num [Uniform]) (by norm_num [Uniform])

/-! ## Linearity -/

theorem integrate1_scale (s c : K) (P : List K) : integrate1 s (P.map (· * c)) = integrate1 s P * c := by
  unfold integrate1
  cases P with
  | nil => simp [mid]
  | cons a l =>
    rw [headD_map _ 0 0 (by simp), getLastD_map _ 0 0 (by simp), mid_map, List.sum_map_mul_right, List.map_id']
    ring

theorem sum_mid {p : List K} (h : 2 ≤ p.length) : (mid p).sum = p.sum - p.headD 0 - p.getLastD 0 := by
  have e := congrArg List.sum (split_ends 0 h)
  rw [List.sum_cons, List.sum_append, List.sum_singleton] at e
  rw [e]; ring

theorem sum_zipWith_add : ∀ {p q : List K}, p.length = q.length → (List.zipWith (· + ·) p q).sum = p.sum + q.sum
  | [], [], _ => by simp
  | a :: p, b :: q, h => by
    rw [List.zipWith_cons_cons, List.sum_cons, List.sum_cons, List.sum_cons, sum_zipWith_add (by simpa using h)]; ring
  | [], _ :: _, h => by simp at h
  | _ :: _, [], h => by simp at h

theorem getLastD_zipWith : ∀ {p q : List K}, p.length = q.length → p ≠ [] →
    (List.zipWith (· + ·) p q).getLastD 0 = p.getLastD 0 + q.getLastD 0
  | [a], [b], _, _ => rfl
  | a :: a' :: p, b :: b' :: q, h, _ => by
    rw [List.zipWith_cons_cons, List.zipWith_cons_cons, getLastD_cons_cons, getLastD_cons_cons, getLastD_cons_cons,
      ← List.zipWith_cons_cons (f := (· + ·)), getLastD_zipWith (by simpa using h) (by simp)]
  | [], _, _, h => absurd rfl h
  | _ :: _, [], h, _ => by simp at h
  | [_], _ :: _ :: _, h, _ => by simp at h
  | _ :: _ :: _, [_], h, _ => by simp at h

/-- **C39**: the integral is additive -/
theorem integrate1_add (s : K) (P Q : List K) (hl : P.length = Q.length) (h2 : 2 ≤ P.length) :
    integrate1 s (List.zipWith (· + ·) P Q) = integrate1 s P + integrate1 s Q := by
  have hne : P ≠ [] := by rintro rfl; simp at h2
  unfold integrate1
  rw [sum_mid (p := List.zipWith _ P Q) (by simpa [hl] using hl ▸ h2), sum_mid h2, sum_mid (hl ▸ h2), sum_zipWith_add hl,
    getLastD_zipWith hl hne]
  have : (List.zipWith (· + ·) P Q).headD 0 = P.headD 0 + Q.headD 0 := by
    cases P with
    | nil => exact absurd rfl hne
    | cons a P => cases Q with
      | nil => simp at hl
      | cons b Q => rfl
  rw [this]; ring

/-- **C39**: the integral of a non-negative density is not negative, and positive as soon as a value is positive -/
theorem integrate1_nonneg (s : K) (P : List K) (hs : 0 < s) (hP : ∀ v ∈ P, 0 ≤ v) (h2 : 2 ≤ P.length) :
    0 ≤ integrate1 s P ∧ ((∃ v ∈ P, 0 < v) → 0 < integrate1 s P) := by
  have hne : P ≠ [] := by rintro rfl; simp at h2
  have h0 := hP _ (headD_mem 0 hne)
  have hl := hP _ (getLastD_mem 0 hne)
  have hm : 0 ≤ (mid P).sum := List.sum_nonneg (fun v hv => hP v (mem_of_mem_mid hv))
  unfold integrate1
  refine ⟨mul_nonneg (by linarith) hs.le, ?_⟩
  rintro ⟨v, hv, hpos⟩
  refine mul_pos ?_ hs
  have e := split_ends (0 : K) h2
  rw [e] at hv
  rcases List.mem_cons.mp hv with hv | hv
  · rw [← hv] at h0 ⊢; linarith
  · rcases List.mem_append.mp hv with hv | hv
    · have : v ≤ (mid P).sum := List.single_le_sum (fun w hw => hP w (mem_of_mem_mid hw)) v hv
      linarith
    · rw [List.mem_singleton] at hv; rw [← hv]; linarith

/-! ## Normalisation -/

theorem maxOf_spec : ∀ {l : List K}, l ≠ [] → maxOf l ∈ l ∧ ∀ v ∈ l, v ≤ maxOf l := by
  have key : ∀ (l : List K) (a : K), l.foldl max a ∈ a :: l ∧ ∀ v ∈ a :: l, v ≤ l.foldl max a := by
    intro l
    induction l with
    | nil => intro a; simp
    | cons b l ih =>
      intro a
      rw [List.foldl_cons]
      obtain ⟨h1, h2⟩ := ih (max a b)
      constructor
      · rcases List.mem_cons.mp h1 with h | h
        · rw [h]
          rcases max_choice a b with hm | hm <;> rw [hm] <;> simp
        · exact List.mem_cons_of_mem _ (List.mem_cons_of_mem _ h)
      · intro v hv
        have hab := h2 (max a b) List.mem_cons_self
        rcases List.mem_cons.mp hv with rfl | hv
        · exact le_trans (le_max_left _ _) hab
        · rcases List.mem_cons.mp hv with rfl | hv
          · exact le_trans (le_max_right _ _) hab
          · exact h2 v (List.mem_cons_of_mem _ hv)
  intro l hl
  cases l with
  | nil => exact absurd rfl hl
  | cons a l => exact key l a

theorem maxOf_unique {l : List K} {m : K} (h : m ∈ l) (hm : ∀ v ∈ l, v ≤ m) : maxOf l = m := by
  obtain ⟨a, b⟩ := maxOf_spec (List.ne_nil_of_mem h)
  exact le_antisymm (hm _ a) (b m h)

/-- **C39**: normalising by the integral gives values in the same proportions with integral one; doing it again changes nothing -/
theorem normalize_integral (integral : List K → K) (hom : ∀ (c : K) (P : List K), integral (P.map (· * c)) = integral P * c)
    (P : List K) (hP : integral P ≠ 0) : ∃ Q, normalize integral .integral P = .ok Q ∧ integral Q = 1 ∧ Q.length = P.length ∧
      (∀ i, Q.getD i 0 * integral P = P.getD i 0) ∧ normalize integral .integral Q = .ok Q := by
  have e : P.map (· / integral P) = P.map (· * (integral P)⁻¹) := List.map_congr_left (fun v _ => by rw [div_eq_mul_inv])
  have h1 : integral (P.map (· / integral P)) = 1 := by rw [e, hom, mul_inv_cancel₀ hP]
  refine ⟨_, rfl, h1, by simp, ?_, ?_⟩
  · intro i
    rw [List.getD_eq_getElem?_getD, List.getD_eq_getElem?_getD, List.getElem?_map]
    cases P[i]? with
    | none => simp
    | some v => simp [hP]
  · unfold normalize
    simp only []
    rw [h1]; simp

/-- the rows of a flat array -/
def rows (m n : Nat) (l : List K) : List (List K) := (List.range m).map (fun i => (l.drop (i * n)).take n)

theorem integrate2_scale (s c : K) (P : List (List K)) : integrate2 s (P.map (fun r => r.map (· * c))) = integrate2 s P * c := by
  have hh : ∀ r : List K, (r.map (· * c)).headD 0 = r.headD 0 * c := by intro r; cases r <;> simp
  have hl : ∀ r : List K, (r.map (· * c)).getLastD 0 = r.getLastD 0 * c := by
    intro r
    cases r with
    | nil => simp
    | cons a r => rw [getLastD_map _ 0 0 (by simp)]
  have hm : ∀ r : List K, (mid (r.map (· * c))).sum = (mid r).sum * c := by
    intro r; rw [mid_map, List.sum_map_mul_right, List.map_id']
  cases P with
  | nil => simp [integrate2, mid]
  | cons r P =>
    unfold integrate2
    simp only []
    rw [headD_map _ [] [] (by simp), getLastD_map _ [] [] (by simp), mid_map]
    simp only [List.map_map, Function.comp_def, hh, hl, hm, List.sum_map_mul_right]
    ring

theorem rows_scale (m n : Nat) (c : K) (l : List K) : rows m n (l.map (· * c)) = (rows m n l).map (fun r => r.map (· * c)) := by
  unfold rows
  rw [List.map_map]
  refine List.map_congr_left (fun i _ => ?_)
  simp [List.map_take, List.map_drop]

/-- **C39** for 1D densities -/
theorem normalize_1D (s : K) (P : List K) (hP : integrate1 s P ≠ 0) : ∃ Q, normalize (integrate1 s) .integral P = .ok Q ∧
    integrate1 s Q = 1 ∧ Q.length = P.length ∧ (∀ i, Q.getD i 0 * integrate1 s P = P.getD i 0) ∧ normalize (integrate1 s) .integral Q = .ok Q :=
  normalize_integral _ (integrate1_scale s) P hP

/-- **C39** for 2D densities -/
theorem normalize_2D (s : K) (m n : Nat) (P : List K) (hP : integrate2 s (rows m n P) ≠ 0) :
    ∃ Q, normalize (fun l => integrate2 s (rows m n l)) .integral P = .ok Q ∧ integrate2 s (rows m n Q) = 1 ∧ Q.length = P.length ∧
      (∀ i, Q.getD i 0 * integrate2 s (rows m n P) = P.getD i 0) ∧ normalize (fun l => integrate2 s (rows m n l)) .integral Q = .ok Q :=
  normalize_integral (fun l => integrate2 s (rows m n l)) (fun c l => by rw [rows_scale, integrate2_scale]) P hP

/-- **C39**: normalising by the maximum makes the largest value one and keeps proportions; a vanishing density is refused -/
theorem normalize_max (integral : List K → K) (P : List K) (hne : P ≠ []) (h0 : ∀ v ∈ P, 0 ≤ v) :
    if ∀ v ∈ P, v = 0 then normalize integral .max P = .error .densitiesError
    else ∃ Q, normalize integral .max P = .ok Q ∧ 1 ∈ Q ∧ (∀ v ∈ Q, v ≤ 1) ∧ (∃ m ≠ 0, Q.map (· * m) = P) ∧ normalize integral .max Q = .ok Q := by
  obtain ⟨hm, hle⟩ := maxOf_spec hne
  by_cases hz : ∀ v ∈ P, v = 0
  · rw [if_pos hz]
    unfold normalize
    simp only []
    rw [if_pos (hz _ hm)]
  · rw [if_neg hz]
    have hpos : 0 < maxOf P := by
      simp only [not_forall] at hz
      obtain ⟨v, hv, hv0⟩ := hz
      exact lt_of_lt_of_le (lt_of_le_of_ne (h0 v hv) (Ne.symm hv0)) (hle v hv)
    have h1 : (1 : K) ∈ P.map (· / maxOf P) := List.mem_map.mpr ⟨_, hm, div_self hpos.ne'⟩
    have h2 : ∀ v ∈ P.map (· / maxOf P), v ≤ 1 := by
      intro v hv
      obtain ⟨w, hw, rfl⟩ := List.mem_map.mp hv
      exact (div_le_one hpos).mpr (hle w hw)
    refine ⟨P.map (· / maxOf P), ?_, h1, h2, ⟨maxOf P, hpos.ne', ?_⟩, ?_⟩
    · unfold normalize; simp only []; rw [if_neg hpos.ne']
    · rw [List.map_map]
      conv_rhs => rw [← List.map_id P]
      refine List.map_congr_left (fun v _ => ?_)
      simp [div_mul_cancel₀ v hpos.ne']
    · unfold normalize
      simp only []
      rw [maxOf_unique h1 h2, if_neg one_ne_zero]; simp

example : ∃ Q, normalize (integrate1 (1 / 2 : ℚ)) .integral [1, 2, 1] = .ok Q ∧ integrate1 (1 / 2 : ℚ) Q = 1 ∧ Q.length = 3 ∧
    (∀ i, Q.getD i 0 * integrate1 (1 / 2 : ℚ) [1, 2, 1] = [1, 2, 1].getD i 0) ∧ normalize (integrate1 (1 / 2 : ℚ)) .integral Q = .ok Q :=
  normalize_1D _ _ (by simp [integrate1, mid]; norm_num)

/-! ## Densities of any dimension -/

/-- weight of index `i` on an axis of `n` points -/
def edgeW (n i : Nat) : K := (if i = 0 then 1 / 2 else 1) * (if i + 1 = n then 1 / 2 else 1)

/-- the trapezoid rule for unit spacing, one axis after another -/
def trapN : List Nat → (List Nat → K) → K
  | [], P => P []
  | n :: ns, P => ((List.range n).map (fun i => edgeW n i * trapN ns (fun ind => P (i :: ind)))).sum

def wOf : List Nat → List Nat → K
  | n :: ns, i :: is => edgeW n i * wOf ns is
  | _, _ => 1

theorem sum_flatMap {α β : Type} (f : β → K) (g : α → List β) (l : List α) :
    ((l.flatMap g).map f).sum = (l.map (fun a => ((g a).map f).sum)).sum := by
  induction l with
  | nil => rfl
  | cons a l ih => rw [List.flatMap_cons, List.map_append, List.sum_append, ih, List.map_cons, List.sum_cons]

theorem trapN_sum : ∀ (shape : List Nat) (P : List Nat → K), trapN shape P = ((ndindex shape).map (fun ind => wOf shape ind * P ind)).sum
  | [], P => by simp [trapN, ndindex, wOf]
  | n :: ns, P => by
    rw [trapN, ndindex, sum_flatMap]
    congr 1
    refine List.map_congr_left (fun i _ => ?_)
    rw [trapN_sum ns, List.map_map, ← List.sum_map_mul_left]
    congr 1
    refine List.map_congr_left (fun ind _ => ?_)
    show edgeW n i * (wOf ns ind * P (i :: ind)) = wOf (n :: ns) (i :: ind) * P (i :: ind)
    rw [wOf]; ring

theorem mem_ndindex : ∀ {shape ind : List Nat}, ind ∈ ndindex shape ↔ List.Forall₂ (fun i n => i < n) ind shape
  | [], ind => by simp [ndindex]
  | n :: ns, ind => by
    rw [ndindex, List.mem_flatMap]
    constructor
    · rintro ⟨i, hi, h⟩
      obtain ⟨is, his, rfl⟩ := List.mem_map.mp h
      exact .cons (List.mem_range.mp hi) (mem_ndindex.mp his)
    · intro h
      cases h with
      | cons h1 h2 => exact ⟨_, List.mem_range.mpr h1, List.mem_map.mpr ⟨_, mem_ndindex.mpr h2, rfl⟩⟩

theorem nBoundaries_cons (n i : Nat) (ns is : List Nat) :
    nBoundaries (n :: ns) (i :: is) = (if i = 0 then 1 else 0) + (if i + 1 = n then 1 else 0) + nBoundaries ns is := by
  unfold nBoundaries
  rw [List.zipWith_cons_cons, List.count_cons, List.count_cons]
  have : (((i : Int) - n + 1) == 0) = decide (i + 1 = n) := by
    rw [Bool.eq_iff_iff]; simp; omega
  rw [this]
  by_cases h1 : i = 0 <;> by_cases h2 : i + 1 = n <;> simp [h1, h2] <;> omega

theorem wOf_eq : ∀ {shape ind : List Nat}, ind.length = shape.length → (wOf shape ind : K) = 1 / 2 ^ nBoundaries shape ind
  | [], [], _ => by simp [wOf, nBoundaries]
  | n :: ns, i :: is, h => by
    rw [wOf, wOf_eq (by simpa using h), nBoundaries_cons, edgeW]
    split_ifs <;> simp only [pow_add, pow_one, pow_zero] <;> field_simp
  | [], _ :: _, h => by simp at h
  | _ :: _, [], h => by simp at h

theorem nBoundaries_le : ∀ {shape ind : List Nat}, ind ∈ ndindex shape → (∀ n ∈ shape, 2 ≤ n) → nBoundaries shape ind ≤ shape.length
  | [], ind, h, _ => by simp [ndindex] at h; subst h; simp [nBoundaries]
  | n :: ns, ind, h, h2 => by
    rw [mem_ndindex] at h
    cases h with
    | cons h1 h3 =>
      rename_i i is
      rw [nBoundaries_cons]
      have := nBoundaries_le (mem_ndindex.mpr h3) (fun m hm => h2 m (List.mem_cons_of_mem _ hm))
      have hn := h2 n List.mem_cons_self
      rw [List.length_cons]
      by_cases h4 : i = 0
      · rw [if_pos h4, if_neg (by omega)]; omega
      · rw [if_neg h4]; split <;> omega

/-- weighted sum of the accumulated values -/
def wsum (m : List K) : K := (m.zipIdx.map (fun p => p.1 / 2 ^ p.2)).sum

theorem wsum_set_aux : ∀ (m : List K) (k j : Nat) (v x : K), m[k]? = some v →
    (((m.set k (v + x)).zipIdx j).map (fun p => p.1 / 2 ^ p.2)).sum = ((m.zipIdx j).map (fun p => p.1 / 2 ^ p.2)).sum + x / 2 ^ (j + k)
  | [], k, j, v, x, h => by simp at h
  | a :: m, 0, j, v, x, h => by
    simp at h; subst h
    simp only [List.set_cons_zero, List.zipIdx_cons, List.map_cons, List.sum_cons, Nat.add_zero]
    ring
  | a :: m, k + 1, j, v, x, h => by
    rw [List.set_cons_succ, List.zipIdx_cons, List.zipIdx_cons, List.map_cons, List.map_cons, List.sum_cons, List.sum_cons,
      wsum_set_aux m k (j + 1) v x (by simpa using h), show j + 1 + k = j + (k + 1) by omega]
    ring

theorem accum_spec (shape : List Nat) (P : List Nat → K) : ∀ (inds : List (List Nat)) (m : List K),
    (∀ ind ∈ inds, nBoundaries shape ind < m.length) →
    ∃ m', accum shape P inds m = .ok m' ∧ wsum m' = wsum m + (inds.map (fun ind => P ind / 2 ^ nBoundaries shape ind)).sum
  | [], m, _ => ⟨m, rfl, by simp⟩
  | ind :: inds, m, h => by
    have h1 := h ind List.mem_cons_self
    have hg := List.getElem?_eq_getElem h1
    obtain ⟨m', e, hs⟩ := accum_spec shape P inds (m.set (nBoundaries shape ind) (m[nBoundaries shape ind] + P ind))
      (fun i hi => by rw [List.length_set]; exact h i (List.mem_cons_of_mem _ hi))
    refine ⟨m', ?_, ?_⟩
    · rw [accum, hg]; exact e
    · rw [hs]
      unfold wsum
      rw [wsum_set_aux m _ 0 _ _ hg, List.map_cons, List.sum_cons, Nat.zero_add]
      ring

theorem wsum_zero (n : Nat) : wsum (List.replicate n (0 : K)) = 0 := by
  unfold wsum
  apply List.sum_eq_zero
  intro x hx
  obtain ⟨p, hp, rfl⟩ := List.mem_map.mp hx
  have : p.1 ∈ List.replicate n (0 : K) := List.fst_mem_of_mem_zipIdx hp
  rw [(List.mem_replicate.mp this).2, zero_div]

/-- **C39**, any dimension: if the first axis has at least as many points as there are dimensions, the value is the trapezoid rule for unit
spacing (the factor of the spacing is missing) -/
theorem integrateN_partial (n : Nat) (ns : List Nat) (P : List Nat → K) (h2 : ∀ m ∈ n :: ns, 2 ≤ m) (hn : (n :: ns).length ≤ n) :
    integrateN (n :: ns) P = .ok (trapN (n :: ns) P) := by
  obtain ⟨m, e, hs⟩ := accum_spec (n :: ns) P (ndindex (n :: ns)) (List.replicate (n + 1) 0) (by
    intro ind hi
    have := nBoundaries_le hi h2
    rw [List.length_replicate]; omega)
  unfold integrateN
  simp only []
  rw [e]
  simp only []
  rw [show (m.zipIdx.map (fun p => p.1 / 2 ^ p.2)).sum = wsum m from rfl, hs, wsum_zero, zero_add, trapN_sum]
  congr 2
  refine List.map_congr_left (fun ind hi => ?_)
  rw [wOf_eq (mem_ndindex.mp hi).length_eq]; ring

theorem ndindex_head : ∀ (shape : List Nat), (∀ m ∈ shape, 1 ≤ m) → ∃ rest, ndindex shape = List.replicate shape.length 0 :: rest
  | [], _ => ⟨[], rfl⟩
  | n :: ns, h => by
    obtain ⟨rest, hr⟩ := ndindex_head ns (fun m hm => h m (List.mem_cons_of_mem _ hm))
    obtain ⟨k, rfl⟩ : ∃ k, n = k + 1 := ⟨n - 1, by have := h n List.mem_cons_self; omega⟩
    rw [ndindex, List.range_succ_eq_map, List.flatMap_cons, hr]
    exact ⟨_, rfl⟩

/-- **C39 fails** in more dimensions than the first axis has points: `len(P)` is taken for the number of dimensions -/
theorem integrateN_fails (n : Nat) (ns : List Nat) (P : List Nat → K) (h1 : ∀ m ∈ n :: ns, 1 ≤ m) (hn : n < (n :: ns).length) :
    integrateN (n :: ns) P = .error .indexError := by
  obtain ⟨rest, hr⟩ := ndindex_head (n :: ns) h1
  unfold integrateN
  simp only []
  rw [hr, accum]
  rw [List.getElem?_eq_none (by
    rw [List.length_replicate]
    unfold nBoundaries
    rw [List.count_replicate_self]; omega)]

/-- **C39 fails** for densities of any dimension: after dividing by the computed norm the trapezoid integral is the cell volume, not one -/
theorem normalizeN_fails (n : Nat) (ns : List Nat) (P : List Nat → K) (vol : K) (h2 : ∀ m ∈ n :: ns, 2 ≤ m) (hn : (n :: ns).length ≤ n)
    (hP : trapN (n :: ns) P ≠ 0) :
    ∃ norm, integrateN (n :: ns) P = .ok norm ∧ vol * trapN (n :: ns) (fun ind => P ind / norm) = vol := by
  refine ⟨_, integrateN_partial n ns P h2 hn, ?_⟩
  have : trapN (n :: ns) (fun ind => P ind / trapN (n :: ns) P) = trapN (n :: ns) P / trapN (n :: ns) P := by
    rw [trapN_sum _ (fun ind => P ind / trapN (n :: ns) P)]
    conv_rhs => rw [div_eq_mul_inv]
    conv_rhs => enter [1]; rw [trapN_sum]
    rw [← List.sum_map_mul_right]
    congr 1
    refine List.map_congr_left (fun ind _ => ?_)
    rw [div_eq_mul_inv, mul_assoc]
  rw [this, div_self hP, mul_one]

/-- a constant density on a 2x2 grid of cells of volume 4: computed norm 1, integral 4 -/
example : integrateN [2, 2] (fun _ => (1 : ℚ)) = .ok 1 := by
  rw [integrateN_partial 2 [2] _ (by decide) (by decide)]
  simp [trapN, edgeW, List.range_succ]; norm_num

example (P : List Nat → ℚ) : integrateN [2, 2, 2] P = .error .indexError := integrateN_fails 2 [2, 2] P (by decide) (by decide)

end Verif.Density
