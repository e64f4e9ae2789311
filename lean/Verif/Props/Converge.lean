import Verif.Model.Converge
import Verif.Props.AutoCorr
import Verif.Props.GelmanRubin

/-!
# Correlation lengths of several chains, variance of the chain means, correlations at given distances
-/

set_option linter.unusedSectionVars false

namespace Verif.Converge
open Verif.Py Verif.Py.Np
open Verif.Convolve (AutoOk)

section lengths
variable {K : Type} [Field K] [LinearOrder K] [IsStrictOrderedRing K]
open Verif.AutoCorr (specMean specVar pairMean at' lengthOf autocorr_spec corrLength)

/-! ## specification -/

/-- a chain that can be used: as many values as weights, some, of a size the transforms can handle, with positive total weight -/
structure Usable (c : Col K) : Prop where
  len : c.x.length = c.w.length
  pos : 0 < c.w.length
  big : 2 * c.w.length ≤ 2013265920
  sum : 0 < c.w.sum

/-- correlation of the weighted differences from the chain means `k` rows apart: products are averaged in each chain, the chains count by their number of
rows, and the unit is the variance of all samples times the total weight -/
def specCorr (cs : List (Col K)) (k : Nat) : K :=
  (cs.map (fun c => (c.w.length : K) * pairMean c.w c.x k)).sum / ((join cs).w.sum * specVar (join cs).w (join cs).x)

/-- the range of distances: a tenth of the shortest chain -/
def IsRange (cs : List (Col K)) (m : Nat) : Prop := (∃ c ∈ cs, m = c.w.length / 10) ∧ ∀ c ∈ cs, m ≤ c.w.length / 10

variable {pack : List K → Nat → List K} {idct1 : List K → List K}

theorem min_ok {α : Type} [LinearOrder α] (l : List α) (h : l ≠ []) : ∃ m ∈ l, (∀ x ∈ l, m ≤ x) ∧ min? l = .ok m := by
  cases l with
  | nil => exact absurd rfl h
  | cons a l =>
    clear h
    unfold min?
    induction l generalizing a with
    | nil => exact ⟨a, by simp, by simp, rfl⟩
    | cons b l ih =>
      obtain ⟨m, hm, hle, hr⟩ := ih (min a b)
      refine ⟨m, ?_, ?_, by simpa using hr⟩
      · rcases List.mem_cons.mp hm with rfl | hm
        · rcases min_choice a b with e | e <;> simp [e]
        · simp [hm]
      · intro x hx
        have h0 := hle (min a b) (by simp)
        simp only [List.mem_cons] at hx
        rcases hx with rfl | rfl | hx
        · exact h0.trans (min_le_left _ _)
        · exact h0.trans (min_le_right _ _)
        · exact hle x (by simp [hx])

theorem range_unique {cs : List (Col K)} {m m' : Nat} (h : IsRange cs m) (h' : IsRange cs m') : m = m' := by
  obtain ⟨c, hc, e⟩ := h.1
  obtain ⟨c', hc', e'⟩ := h'.1
  exact le_antisymm (e' ▸ h.2 c' hc') (e ▸ h'.2 c hc)

theorem sum_fold (ho : AutoOk pack idct1) (m : Nat) (cs : List (Col K)) (hu : ∀ c ∈ cs, Usable c) (hm : ∀ c ∈ cs, m ≤ c.w.length / 10) (f : Nat → K) :
    cs.foldlM (fun (acc : List K) (c : Col K) => do
      let a ← AutoCorr.autocorr pack idct1 c.ws c.x (some m) true false
      pure (List.zipWith (· + ·) acc (a.map (· * AutoCorr.norm c.ws)))) ((List.range (m + 1)).map f) =
    Except.ok ((List.range (m + 1)).map (fun k => f k + (cs.map (fun c => (c.w.length : K) * pairMean c.w c.x k)).sum)) := by
  induction cs generalizing f with
  | nil => simp [pure, Except.pure]
  | cons c cs ih =>
    have hc := hu c (by simp)
    have hp := hc.pos
    have hm' : m < c.w.length := by have := hm c (by simp); omega
    rw [List.foldlM_cons, autocorr_spec ho c.ws c.x hc.len m hm' hc.big]
    have e : List.zipWith (· + ·) ((List.range (m + 1)).map f) (((List.range (m + 1)).map (fun k =>
        pairMean c.ws.weights c.x k / (if false = true then specVar c.ws.weights c.x else 1) / (if true = true then c.ws.weights.sum / (c.ws.weights.length : K) else 1))).map
          (· * AutoCorr.norm c.ws)) = (List.range (m + 1)).map (fun k => f k + (c.w.length : K) * pairMean c.w c.x k) := by
      rw [List.map_map, List.zipWith_map, List.zipWith_self]
      apply List.map_congr_left
      intro k _
      have h1 := hc.sum.ne'
      have h2 : (c.w.length : K) ≠ 0 := by exact_mod_cast hp.ne'
      simp only [Function.comp_apply, AutoCorr.norm, Col.ws, if_true, Bool.false_eq_true, if_false, div_one]
      congr 1
      field_simp
    refine (congrArg (fun z => cs.foldlM (fun (acc : List K) (c : Col K) => do
      let a ← AutoCorr.autocorr pack idct1 c.ws c.x (some m) true false
      pure (List.zipWith (· + ·) acc (a.map (· * AutoCorr.norm c.ws)))) z) e).trans ?_
    refine (ih (fun c h => hu c (by simp [h])) (fun c h => hm c (by simp [h])) _).trans ?_
    simp [add_assoc]

/-- the length read off from the correlations -/
theorem corrN_eq (ho : AutoOk pack idct1) (cs : List (Col K)) (hne : cs ≠ []) (hu : ∀ c ∈ cs, Usable c) :
    ∃ m, IsRange cs m ∧ corrN pack idct1 cs = .ok (lengthOf (1 / 20) ((List.range (m + 1)).map (specCorr cs))) := by
  obtain ⟨m, hm, hle, hr⟩ := min_ok (cs.map (fun c => c.w.length / 10)) (by simpa using hne)
  have hlen : (join cs).x.length = (join cs).w.length := by
    unfold join
    simp only [List.length_flatten, List.map_map]
    congr 1
    apply List.map_congr_left
    intro c hc
    exact (hu c hc).len
  refine ⟨m, ⟨?_, ?_⟩, ?_⟩
  · simpa [eq_comm] using hm
  · intro c hc; exact hle _ (List.mem_map.mpr ⟨c, hc, rfl⟩)
  unfold corrN corrSum
  rw [hr]
  have h0 : List.replicate (m + 1) (0 : K) = (List.range (m + 1)).map (fun _ => 0) := by
    apply List.ext_getElem <;> simp
  simp only [bind, Except.bind]
  rw [h0]
  have := sum_fold ho m cs hu (fun c hc => hle _ (List.mem_map.mpr ⟨c, hc, rfl⟩)) (fun _ => 0)
  simp only [bind, Except.bind] at this
  rw [this]
  simp only [pure, Except.pure, List.map_map]
  congr 2
  apply List.map_congr_left
  intro k _
  simp only [Function.comp_apply, zero_add]
  unfold specCorr
  rw [AutoCorr.var_eq _ _ hlen]
  rfl

/-- **C137** The correlation length of a parameter: up to the first distance at which the correlation has fallen to a twentieth of its value at distance zero,
twice the sum of the correlations is added to the value at zero. -/
theorem corrN_spec (ho : AutoOk pack idct1) (cs : List (Col K)) (hne : cs ≠ []) (hu : ∀ c ∈ cs, Usable c) (m : Nat) (hm : IsRange cs m) (ix : Nat) (hix : ix ≤ m)
    (hi : specCorr cs ix ≤ 1 / 20 * specCorr cs 0) (hlt : ∀ k < ix, 1 / 20 * specCorr cs 0 < specCorr cs k) :
    corrN pack idct1 cs = .ok (specCorr cs 0 + 2 * ((List.range' 1 (ix - 1)).map (specCorr cs)).sum) := by
  obtain ⟨m', hm', h⟩ := corrN_eq ho cs hne hu
  obtain rfl := range_unique hm hm'
  rw [h]
  have hat : ∀ k ≤ m, at' ((List.range (m + 1)).map (specCorr cs)) k = specCorr cs k := by
    intro k hk
    simp [at', List.getD_eq_getElem?_getD, show k < m + 1 by omega]
  rw [AutoCorr.length_spec (1 / 20) _ ix (by simp; omega) (by rw [hat _ hix, hat 0 (by omega)]; exact hi)
    (fun k hk => by rw [hat 0 (by omega), hat k (by omega)]; exact hlt k hk), hat 0 (by omega)]
  congr 4
  apply List.map_congr_left
  intro k hk
  have := List.mem_range'_1.mp hk
  exact hat k (by omega)

/-- **C137** For one chain it is the correlation length of that chain. -/
theorem corrN_single (ho : AutoOk pack idct1) (c : Col K) (hc : Usable c) : corrN pack idct1 [c] = corrLength pack idct1 c.ws c.x true (1 / 20) := by
  obtain ⟨m, hm, h⟩ := corrN_eq ho [c] (by simp) (by simpa using hc)
  obtain ⟨c', hc', hm'⟩ := hm.1
  obtain rfl : c' = c := by simpa using hc'
  have hp := hc.pos
  rw [h]
  unfold corrLength AutoCorr.WS.numrows
  have e : c'.ws.weights.length / 10 = m := hm'.symm
  rw [e, autocorr_spec ho c'.ws c'.x hc.len m (by show m < c'.w.length; omega) hc.big]
  simp only [bind, Except.bind, pure, Except.pure]
  congr 2
  apply List.map_congr_left
  intro k _
  have h1 := hc.sum.ne'
  have h2 : (c'.w.length : K) ≠ 0 := by exact_mod_cast hp.ne'
  simp only [specCorr, join, List.map_cons, List.map_nil, List.flatten_cons, List.flatten_nil, List.append_nil, List.sum_cons, List.sum_nil, add_zero, Col.ws, if_true]
  by_cases hv : specVar c'.w c'.x = 0
  · simp [hv]
  field_simp

/-! ## the samples of all chains -/

theorem zip_flatten (cs : List (Col K)) (hu : ∀ c ∈ cs, c.x.length = c.w.length) (f : K → K → K) :
    List.zipWith f (cs.map (·.w)).flatten (cs.map (·.x)).flatten = (cs.map (fun c => List.zipWith f c.w c.x)).flatten := by
  induction cs with
  | nil => rfl
  | cons c cs ih =>
    have h := hu c (by simp)
    simp only [List.map_cons, List.flatten_cons]
    rw [List.zipWith_append h.symm, ih (fun c h => hu c (by simp [h]))]

theorem zip_sum (cs : List (Col K)) (hu : ∀ c ∈ cs, c.x.length = c.w.length) (f : K → K → K) :
    (List.zipWith f (join cs).w (join cs).x).sum = (cs.map (fun c => (List.zipWith f c.w c.x).sum)).sum := by
  show (List.zipWith f (cs.map (·.w)).flatten (cs.map (·.x)).flatten).sum = _
  rw [zip_flatten cs hu, List.sum_flatten, List.map_map]
  rfl

theorem norm_join (cs : List (Col K)) : (join cs).w.sum = (cs.map (fun c => c.w.sum)).sum := by
  show (cs.map (·.w)).flatten.sum = _
  rw [List.sum_flatten, List.map_map]
  rfl

theorem zip_at (f : K → K → K) (l r : List K) (h : r.length = l.length) : List.zipWith f l r = (List.range l.length).map (fun i => f (at' l i) (at' r i)) := by
  apply List.ext_getElem
  · simp [h]
  · intro i h1 h2
    simp at h1 h2
    simp [at', List.getD_eq_getElem?_getD, h1]

theorem specMean_zip (w x : List K) (h : x.length = w.length) : specMean w x = (List.zipWith (· * ·) w x).sum / w.sum := by
  rw [zip_at _ _ _ h]; rfl

theorem specVar_zip (w x : List K) (h : x.length = w.length) : specVar w x = (List.zipWith (fun a v => a * (v - specMean w x) ^ 2) w x).sum / w.sum := by
  rw [zip_at _ _ _ h]; rfl

theorem len_join (cs : List (Col K)) (hu : ∀ c ∈ cs, c.x.length = c.w.length) : (join cs).x.length = (join cs).w.length := by
  unfold join
  simp only [List.length_flatten, List.map_map]
  congr 1
  apply List.map_congr_left
  intro c hc
  exact hu c hc

theorem join_perm {cs cs' : List (Col K)} (h : cs.Perm cs') (hu : ∀ c ∈ cs, c.x.length = c.w.length) :
    (join cs).w.sum = (join cs').w.sum ∧ specVar (join cs).w (join cs).x = specVar (join cs').w (join cs').x := by
  have hu' : ∀ c ∈ cs', c.x.length = c.w.length := fun c hc => hu c (h.mem_iff.mpr hc)
  have hn : (join cs).w.sum = (join cs').w.sum := by rw [norm_join, norm_join]; exact (h.map _).sum_eq
  have hmean : specMean (join cs).w (join cs).x = specMean (join cs').w (join cs').x := by
    rw [specMean_zip _ _ (len_join cs hu), specMean_zip _ _ (len_join cs' hu'), hn, zip_sum cs hu, zip_sum cs' hu', (h.map _).sum_eq]
  refine ⟨hn, ?_⟩
  rw [specVar_zip _ _ (len_join cs hu), specVar_zip _ _ (len_join cs' hu'), hn, zip_sum cs hu, zip_sum cs' hu', hmean, (h.map _).sum_eq]

/-- **C137** The order of the chains does not matter. -/
theorem corrN_perm (ho : AutoOk pack idct1) {cs cs' : List (Col K)} (h : cs.Perm cs') (hne : cs ≠ []) (hu : ∀ c ∈ cs, Usable c) :
    corrN pack idct1 cs = corrN pack idct1 cs' := by
  have hmem : ∀ c, c ∈ cs' ↔ c ∈ cs := fun c => h.mem_iff.symm
  obtain ⟨m, hm, e⟩ := corrN_eq ho cs hne hu
  obtain ⟨m', hm', e'⟩ := corrN_eq ho cs' (by rintro rfl; exact hne (List.perm_nil.mp h)) (fun c hc => hu c ((hmem c).mp hc))
  have : m = m' := by
    refine range_unique hm ⟨?_, fun c hc => hm'.2 c ((hmem c).mpr hc)⟩
    obtain ⟨c, hc, r⟩ := hm'.1
    exact ⟨c, (hmem c).mp hc, r⟩
  subst this
  rw [e, e']
  congr 3
  funext k
  obtain ⟨h1, h2⟩ := join_perm h (fun c hc => (hu c hc).len)
  unfold specCorr
  rw [h1, h2, (h.map _).sum_eq]

/-! ### parts of the variance -/

theorem shift_sum (w x : List K) (h : x.length = w.length) (hw : w.sum ≠ 0) (a : K) :
    (List.zipWith (fun a' v => a' * (v - a) ^ 2) w x).sum = w.sum * specVar w x + w.sum * (specMean w x - a) ^ 2 := by
  have key : ∀ (w x : List K) (b : K), x.length = w.length → (List.zipWith (fun a' v => a' * (v - b) ^ 2) w x).sum =
      (List.zipWith (fun a' v => a' * v ^ 2) w x).sum - 2 * b * (List.zipWith (· * ·) w x).sum + b ^ 2 * w.sum := by
    intro w x b h
    induction w generalizing x with
    | nil => simp
    | cons u w ih =>
      cases x with
      | nil => simp at h
      | cons v x =>
        simp only [List.length_cons, add_left_inj] at h
        simp only [List.zipWith_cons_cons, List.sum_cons, ih x h]
        ring
  rw [specVar_zip _ _ h, mul_div_cancel₀ _ hw, key w x _ h, key w x _ h]
  have hm : (List.zipWith (· * ·) w x).sum = specMean w x * w.sum := by rw [specMean_zip _ _ h, div_mul_cancel₀ _ hw]
  rw [hm]
  ring

/-- the variance of all samples is the weighted mean of that in the chains and of the squares of the differences of the chain means from the mean -/
theorem total_var (cs : List (Col K)) (hu : ∀ c ∈ cs, Usable c) (hw : (join cs).w.sum ≠ 0) :
    (join cs).w.sum * specVar (join cs).w (join cs).x = (cs.map (fun c => c.w.sum * specVar c.w c.x)).sum +
      (cs.map (fun c => c.w.sum * (specMean c.w c.x - specMean (join cs).w (join cs).x) ^ 2)).sum := by
  have hl : ∀ c ∈ cs, c.x.length = c.w.length := fun c hc => (hu c hc).len
  conv_lhs => rw [specVar_zip _ _ (len_join cs hl), mul_div_cancel₀ _ hw]
  rw [zip_sum cs hl, ← AutoCorr.sum_map_add]
  congr 1
  apply List.map_congr_left
  intro c hc
  exact shift_sum c.w c.x (hu c hc).len (hu c hc).sum.ne' _

theorem pair_zero (n : Nat) (x : List K) : pairMean (List.replicate n (1 : K)) x 0 = specVar (List.replicate n (1 : K)) x := by
  unfold pairMean specVar
  simp only [List.length_replicate, Nat.sub_zero, add_zero]
  have : (List.replicate n (1 : K)).sum = (n : K) := by simp
  rw [this]
  congr 2
  apply List.map_congr_left
  intro i hi
  have : at' (List.replicate n (1 : K)) i = 1 := by
    have := List.mem_range.mp hi
    simp [at', List.getD_eq_getElem?_getD, this]
  rw [this]; ring

/-- a chain of rows of weight one -/
def units (x : List K) : Col K := ⟨List.replicate x.length 1, x⟩

theorem specVar_nonneg (w x : List K) (hw : ∀ a ∈ w, 0 ≤ a) : 0 ≤ specVar w x := by
  unfold specVar
  refine div_nonneg (AutoCorr.sum_nonneg' _ _ ?_) (List.sum_nonneg hw)
  intro i hi
  refine mul_nonneg ?_ (sq_nonneg _)
  have := List.mem_range.mp hi
  have e : at' w i = w[i] := by simp [at', List.getD_eq_getElem?_getD, this]
  rw [e]; exact hw _ (List.getElem_mem _)

/-- **C137** For rows of weight one the correlation at distance zero is the part of the variance that is within the chains: one if all chains have the same
mean, and otherwise less by exactly the part that is between them. -/
theorem corr_zero (xs : List (List K)) (hx : ∀ x ∈ xs, x ≠ []) (hne : xs ≠ [])
    (hv : specVar (join (xs.map units)).w (join (xs.map units)).x ≠ 0) :
    specCorr (xs.map units) 0 = 1 - (xs.map (fun x => (x.length : K) * (x.sum / x.length - (xs.flatten.sum / xs.flatten.length)) ^ 2)).sum /
      ((xs.flatten.length : K) * specVar (join (xs.map units)).w (join (xs.map units)).x) := by
  have hlen : ∀ x ∈ xs, (0 : K) < x.length := by
    intro x h
    have := List.length_pos_of_ne_nil (hx x h)
    exact_mod_cast this
  have hl : ∀ c ∈ xs.map units, c.x.length = c.w.length := by
    intro c hc; obtain ⟨x, _, rfl⟩ := List.mem_map.mp hc; simp [units]
  have hmean : ∀ x : List K, x ≠ [] → specMean (units x).w (units x).x = x.sum / x.length := by
    intro x _
    rw [specMean_zip _ _ (by simp [units])]
    have : List.zipWith (· * ·) (units x).w (units x).x = x := by
      apply List.ext_getElem <;> simp [units]
    rw [this]; simp [units]
  have hW : (join (xs.map units)).w.sum = (xs.flatten.length : K) := by
    rw [norm_join, List.map_map, List.length_flatten, Nat.cast_list_sum, List.map_map]
    congr 1
    apply List.map_congr_left
    intro x _; simp [units]
  have hfl : (0 : K) < xs.flatten.length := by
    obtain ⟨x, xs', rfl⟩ := List.exists_cons_of_ne_nil hne
    have := List.length_pos_of_ne_nil (hx x (by simp))
    have : 0 < (x :: xs').flatten.length := by simp; omega
    exact_mod_cast this
  have hmeanAll : specMean (join (xs.map units)).w (join (xs.map units)).x = xs.flatten.sum / xs.flatten.length := by
    rw [specMean_zip _ _ (len_join _ hl), hW, zip_sum _ hl, List.map_map, List.sum_flatten]
    congr 2
    apply List.map_congr_left
    intro x _
    have : List.zipWith (· * ·) (units x).w (units x).x = x := by
      apply List.ext_getElem <;> simp [units]
    simp [Function.comp_apply, this]
  have htv : (join (xs.map units)).w.sum * specVar (join (xs.map units)).w (join (xs.map units)).x = ((xs.map units).map (fun c => c.w.sum * specVar c.w c.x)).sum +
      ((xs.map units).map (fun c => c.w.sum * (specMean c.w c.x - specMean (join (xs.map units)).w (join (xs.map units)).x) ^ 2)).sum := by
    conv_lhs => rw [specVar_zip _ _ (len_join _ hl), mul_div_cancel₀ _ (by rw [hW]; exact hfl.ne')]
    rw [zip_sum _ hl, ← AutoCorr.sum_map_add]
    congr 1
    apply List.map_congr_left
    intro c hc
    refine shift_sum c.w c.x (hl c hc) ?_ _
    obtain ⟨x, h, rfl⟩ := List.mem_map.mp hc
    have := (hlen x h).ne'
    simpa [units] using hx x h
  have hin : ((xs.map units).map (fun c => (c.w.length : K) * pairMean c.w c.x 0)).sum = ((xs.map units).map (fun c => c.w.sum * specVar c.w c.x)).sum := by
    congr 1
    apply List.map_congr_left
    intro c hc
    obtain ⟨x, h, rfl⟩ := List.mem_map.mp hc
    have := pair_zero x.length x
    simp only [units] at this ⊢
    rw [this]; simp
  have hbet : ((xs.map units).map (fun c => c.w.sum * (specMean c.w c.x - specMean (join (xs.map units)).w (join (xs.map units)).x) ^ 2)).sum =
      (xs.map (fun x => (x.length : K) * (x.sum / x.length - (xs.flatten.sum / xs.flatten.length)) ^ 2)).sum := by
    rw [List.map_map, hmeanAll]
    congr 1
    apply List.map_congr_left
    intro x h
    rw [Function.comp_apply, hmean x (hx x h)]
    simp [units]
  unfold specCorr
  rw [hin, ← hbet, hW]
  rw [hW] at htv
  have hd : (xs.flatten.length : K) * specVar (join (xs.map units)).w (join (xs.map units)).x ≠ 0 := mul_ne_zero hfl.ne' hv
  rw [eq_sub_iff_add_eq, ← add_div, ← htv, div_self hd]

/-! ## invariance -/

/-- all values changed in the same way -/
def mapX (f : K → K) (c : Col K) : Col K := ⟨c.w, c.x.map f⟩
def mapW (f : K → K) (c : Col K) : Col K := ⟨c.w.map f, c.x⟩

theorem join_mapX (f : K → K) (cs : List (Col K)) : join (cs.map (mapX f)) = mapX f (join cs) := by
  unfold join mapX
  simp only [List.map_map, List.map_flatten]
  rfl

theorem join_mapW (f : K → K) (cs : List (Col K)) : join (cs.map (mapW f)) = mapW f (join cs) := by
  unfold join mapW
  simp only [List.map_map, List.map_flatten]
  rfl

theorem join_sum_pos (cs : List (Col K)) (hne : cs ≠ []) (hu : ∀ c ∈ cs, Usable c) : 0 < (join cs).w.sum := by
  rw [norm_join]
  obtain ⟨c, cs, rfl⟩ := List.exists_cons_of_ne_nil hne
  have h1 := (hu c (by simp)).sum
  have h2 : 0 ≤ (cs.map (fun c => c.w.sum)).sum := AutoCorr.sum_nonneg' _ _ (fun d hd => (hu d (by simp [hd])).sum.le)
  simp only [List.map_cons, List.sum_cons]
  linarith

theorem specCorr_affine (cs : List (Col K)) (hne : cs ≠ []) (hu : ∀ c ∈ cs, Usable c) (a b : K) (ha : a ≠ 0) (k : Nat) :
    specCorr (cs.map (mapX (fun v => a * v + b))) k = specCorr cs k := by
  unfold specCorr
  rw [join_mapX]
  have hl := len_join cs (fun c hc => (hu c hc).len)
  have e : ((cs.map (mapX (fun v => a * v + b))).map (fun c => (c.w.length : K) * pairMean c.w c.x k)).sum =
      a ^ 2 * (cs.map (fun c => (c.w.length : K) * pairMean c.w c.x k)).sum := by
    rw [← AutoCorr.sum_map_mul, List.map_map]
    congr 1
    apply List.map_congr_left
    intro c hc
    simp only [Function.comp_apply, mapX]
    rw [AutoCorr.pairMean_affine c.w c.x a b (hu c hc).len (hu c hc).sum.ne']
    ring
  rw [e]
  simp only [mapX]
  rw [AutoCorr.specVar_affine _ _ _ _ hl (join_sum_pos cs hne hu).ne', mul_left_comm, mul_div_mul_left _ _ (pow_ne_zero 2 ha)]

/-- **C137** The length does not depend on the unit or origin of the parameter. -/
theorem corrN_affine (ho : AutoOk pack idct1) (cs : List (Col K)) (hne : cs ≠ []) (hu : ∀ c ∈ cs, Usable c) (a b : K) (ha : a ≠ 0) :
    corrN pack idct1 (cs.map (mapX (fun v => a * v + b))) = corrN pack idct1 cs := by
  obtain ⟨m, hm, e⟩ := corrN_eq ho cs hne hu
  have hu' : ∀ c ∈ cs.map (mapX (fun v => a * v + b)), Usable c := by
    intro c hc
    obtain ⟨d, hd, rfl⟩ := List.mem_map.mp hc
    have := hu d hd
    exact ⟨by simpa [mapX] using this.len, this.pos, this.big, this.sum⟩
  obtain ⟨m', hm', e'⟩ := corrN_eq ho (cs.map (mapX (fun v => a * v + b))) (by simpa using hne) hu'
  have : m = m' := by
    refine range_unique hm ⟨?_, fun c hc => by simpa [mapX] using hm'.2 (mapX (fun v => a * v + b) c) (List.mem_map.mpr ⟨c, hc, rfl⟩)⟩
    obtain ⟨c, hc, r⟩ := hm'.1
    obtain ⟨d, hd, rfl⟩ := List.mem_map.mp hc
    exact ⟨d, hd, r⟩
  subst this
  rw [e, e']
  congr 3
  funext k
  exact specCorr_affine cs hne hu a b ha k

theorem specCorr_weight (cs : List (Col K)) (c : K) (hc : 0 < c) (k : Nat) : specCorr (cs.map (mapW (c * ·))) k = c * specCorr cs k := by
  unfold specCorr
  rw [join_mapW]
  have e : ((cs.map (mapW (c * ·))).map (fun d => (d.w.length : K) * pairMean d.w d.x k)).sum =
      c ^ 2 * (cs.map (fun d => (d.w.length : K) * pairMean d.w d.x k)).sum := by
    rw [← AutoCorr.sum_map_mul, List.map_map]
    congr 1
    apply List.map_congr_left
    intro d hd
    simp only [Function.comp_apply, mapW, List.length_map]
    rw [AutoCorr.pairMean_weight d.w d.x c hc.ne']
    ring
  have hsum : (mapW (c * ·) (join cs)).w.sum = c * (join cs).w.sum := by
    show ((join cs).w.map (c * ·)).sum = _
    rw [AutoCorr.sum_map_mul (f := fun x => x), List.map_id']
  rw [e, hsum]
  simp only [mapW]
  rw [AutoCorr.specVar_weight _ _ _ hc.ne']
  by_cases h : (join cs).w.sum * specVar (join cs).w (join cs).x = 0
  · rw [mul_assoc, h]; simp
  have h1 := left_ne_zero_of_mul h
  have h2 := right_ne_zero_of_mul h
  have := hc.ne'
  field_simp

/-- **C137** If all weights are multiplied by a number the length is multiplied by it too: the effective number of samples stays. -/
theorem corrN_weight (ho : AutoOk pack idct1) (cs : List (Col K)) (hne : cs ≠ []) (hu : ∀ c ∈ cs, Usable c) (a : K) (ha : 0 < a) :
    ∃ n, corrN pack idct1 cs = .ok n ∧ corrN pack idct1 (cs.map (mapW (a * ·))) = .ok (a * n) := by
  obtain ⟨m, hm, e⟩ := corrN_eq ho cs hne hu
  refine ⟨_, e, ?_⟩
  have hu' : ∀ c ∈ cs.map (mapW (a * ·)), Usable c := by
    intro c hc
    obtain ⟨d, hd, rfl⟩ := List.mem_map.mp hc
    have := hu d hd
    refine ⟨by simpa [mapW] using this.len, by simpa [mapW] using this.pos, by simpa [mapW] using this.big, ?_⟩
    show 0 < (d.w.map (a * ·)).sum
    rw [AutoCorr.sum_map_mul (f := fun x => x), List.map_id']
    exact mul_pos ha this.sum
  obtain ⟨m', hm', e'⟩ := corrN_eq ho (cs.map (mapW (a * ·))) (by simpa using hne) hu'
  have : m = m' := by
    refine range_unique hm ⟨?_, fun c hc => by simpa [mapW] using hm'.2 _ (List.mem_map.mpr ⟨c, hc, rfl⟩)⟩
    obtain ⟨c, hc, r⟩ := hm'.1
    obtain ⟨d, hd, rfl⟩ := List.mem_map.mp hc
    exact ⟨d, hd, by simpa [mapW] using r⟩
  subst this
  rw [e', ← AutoCorr.length_scale (1 / 20) a ha, List.map_map]
  congr 3
  funext k
  exact specCorr_weight cs a ha k

/-- **C137** The three numbers of a line: the length `N` in units of weight, in rows of mean weight, and the total weight divided by `N`; the product of the
last two numbers is the number of rows. -/
theorem corrLine_spec (ho : AutoOk pack idct1) (cs : List (Col K)) (hne : cs ≠ []) (hu : ∀ c ∈ cs, Usable c) (a b e : K)
    (h : corrLine pack idct1 cs = .ok (a, b, e)) :
    corrN pack idct1 cs = .ok a ∧ a * e = (join cs).w.sum ∧ b * e = ((join cs).w.length : K) := by
  obtain ⟨m, hm, en⟩ := corrN_eq ho cs hne hu
  have hW := (join_sum_pos cs hne hu).ne'
  unfold corrLine at h
  rw [en] at h
  simp only [bind, Except.bind] at h
  split at h
  · cases h
  simp only [pure, Except.pure] at h
  split at h
  · cases h
  rename_i hv hz
  injection h with h
  simp only [Prod.mk.injEq] at h
  obtain ⟨h1, h2, h3⟩ := h
  rw [h1] at hz h2 h3
  refine ⟨by rw [en, h1], ?_, ?_⟩
  · rw [← h3, mul_div_cancel₀ _ hz]; rfl
  · have hW' : AutoCorr.norm (join cs).ws ≠ 0 := hW
    have hl : ((join cs).w.length : K) ≠ 0 := by
      intro h0
      have : (join cs).w.length = 0 := by exact_mod_cast h0
      rw [List.length_eq_zero_iff.mp this] at hW
      simp at hW
    rw [← h2, ← h3]
    field_simp

/-- **C137** A line is given exactly if the parameter varies and the length found is not zero. -/
theorem corrLine_ok (ho : AutoOk pack idct1) (cs : List (Col K)) (hne : cs ≠ []) (hu : ∀ c ∈ cs, Usable c) :
    (∃ r, corrLine pack idct1 cs = .ok r) ↔ specVar (join cs).w (join cs).x ≠ 0 ∧ corrN pack idct1 cs ≠ .ok 0 := by
  obtain ⟨m, hm, en⟩ := corrN_eq ho cs hne hu
  have hW : AutoCorr.norm (join cs).ws ≠ 0 := (join_sum_pos cs hne hu).ne'
  have hv : AutoCorr.var (join cs).ws (join cs).x = specVar (join cs).w (join cs).x := AutoCorr.var_eq _ _ (len_join cs (fun c hc => (hu c hc).len))
  unfold corrLine
  rw [en]
  simp only [bind, Except.bind, hv, mul_eq_zero, hW, false_or, pure, Except.pure]
  constructor
  · rintro ⟨r, h⟩
    split at h
    · cases h
    rename_i h1
    split at h
    · cases h
    rename_i h2
    exact ⟨h1, fun h => h2 (by injection h)⟩
  · rintro ⟨h1, h2⟩
    rw [if_neg h1]
    rw [if_neg (fun h => h2 (by rw [h]))]
    exact ⟨_, rfl⟩

theorem replicate_at (n : Nat) (v : K) {i : Nat} (h : i < n) : at' (List.replicate n v) i = v := by
  simp [at', List.getD_eq_getElem?_getD, h]

theorem pair_const (w : List K) (v : K) (hw : w.sum ≠ 0) (k : Nat) : pairMean w (List.replicate w.length v) k = 0 := by
  have hm : specMean w (List.replicate w.length v) = v := by
    unfold specMean
    have : (List.range w.length).map (fun i => at' w i * at' (List.replicate w.length v) i) = (List.range w.length).map (fun i => v * at' w i) := by
      apply List.map_congr_left
      intro i hi
      rw [replicate_at _ _ (List.mem_range.mp hi), mul_comm]
    rw [this, AutoCorr.sum_map_mul]
    have e : (List.range w.length).map (at' w) = w := by
      apply List.ext_getElem
      · simp
      · intro i h1 h2; simp [at', List.getD_eq_getElem?_getD, h2]
    rw [e, mul_div_assoc, div_self hw, mul_one]
  unfold pairMean
  rw [hm]
  have : ((List.range (w.length - k)).map (fun i => (at' w i * (at' (List.replicate w.length v) i - v)) * (at' w (i + k) * (at' (List.replicate w.length v) (i + k) - v)))).sum = 0 := by
    apply List.sum_eq_zero
    intro y hy
    obtain ⟨i, hi, rfl⟩ := List.mem_map.mp hy
    have := List.mem_range.mp hi
    rw [replicate_at _ _ (by omega)]
    ring
  rw [this, zero_div]

/-- **C138** If in every chain a parameter keeps its value (the same or not) then the whole test raises an exception: a chain that never moves, or a
parameter that is constant. -/
theorem constant_fails (ho : AutoOk pack idct1) (cs : List (Col K)) (hne : cs ≠ []) (hu : ∀ c ∈ cs, Usable c)
    (hc : ∀ c ∈ cs, ∃ v, c.x = List.replicate c.w.length v) : corrLine pack idct1 cs = .error .valueError := by
  have hz : ∀ k, specCorr cs k = 0 := by
    intro k
    unfold specCorr
    have : (cs.map (fun c => (c.w.length : K) * pairMean c.w c.x k)).sum = 0 := by
      apply List.sum_eq_zero
      intro y hy
      obtain ⟨c, h, rfl⟩ := List.mem_map.mp hy
      obtain ⟨v, hv⟩ := hc c h
      rw [hv, pair_const _ _ (hu c h).sum.ne', mul_zero]
    rw [this, zero_div]
  obtain ⟨m, hm, e⟩ := corrN_eq ho cs hne hu
  have hn : corrN pack idct1 cs = .ok 0 := by
    rw [corrN_spec ho cs hne hu m hm 0 (by omega) (by simp [hz]) (by simp)]
    simp [hz]
  unfold corrLine
  rw [hn]
  simp only [bind, Except.bind, if_true]
  split <;> rfl

end lengths

section witnesses
variable {pack : List ℚ → Nat → List ℚ} {idct1 : List ℚ → List ℚ}
open Verif.AutoCorr (specMean specVar pairMean at')

/-- two chains which stay in different places, each jumping between two values -/
def apart : List (Col ℚ) := [units [1001, 999, 1001, 999, 1001, 999, 1001, 999, 1001, 999], units [-1001, -999, -1001, -999, -1001, -999, -1001, -999, -1001, -999]]

theorem apart_usable : ∀ c ∈ apart, Usable c := by
  intro c hc
  simp only [apart, List.mem_cons, List.not_mem_nil, or_false] at hc
  rcases hc with rfl | rfl <;> exact ⟨by decide, by decide, by decide, by decide +kernel⟩

theorem two_line (ho : AutoOk pack idct1) (c d : Col ℚ) (hc : Usable c) (hd : Usable d) (h1 : c.w.length / 10 = 1) (h2 : d.w.length / 10 = 1) (a v : ℚ) (ha : 0 < a)
    (h0 : specCorr [c, d] 0 = a) (hneg : specCorr [c, d] 1 ≤ 0) (hv : AutoCorr.var (join [c, d]).ws (join [c, d]).x = v) (hv0 : v ≠ 0)
    (hw : AutoCorr.norm (join [c, d]).ws = 20) (hl : (join [c, d]).w.length = 20) : corrLine pack idct1 [c, d] = .ok (a, a, 20 / a) := by
  have hr : IsRange [c, d] 1 := by
    refine ⟨⟨c, List.mem_cons_self, h1.symm⟩, ?_⟩
    intro e he
    simp only [List.mem_cons, List.not_mem_nil, or_false] at he
    rcases he with rfl | rfl
    · omega
    · omega
  have hu : ∀ e ∈ [c, d], Usable e := by
    intro e he
    simp only [List.mem_cons, List.not_mem_nil, or_false] at he
    rcases he with rfl | rfl <;> assumption
  have hn := corrN_spec ho [c, d] (by simp) hu 1 hr 1 (by omega) (by rw [h0]; linarith)
    (by intro k hk; obtain rfl : k = 0 := by omega
        rw [h0]; linarith)
  unfold corrLine
  rw [hn]
  simp only [h0, bind, Except.bind, Nat.sub_self, List.range'_zero, List.map_nil, List.sum_nil, mul_zero, add_zero, hw, hv, hl]
  rw [if_neg (by simpa using hv0)]
  simp only [pure, Except.pure]
  rw [if_neg ha.ne']
  norm_num

/-- **C138** Chains that have not found each other at all seem to be nearly free of correlations: two chains of ten rows which stay near `1000` and `-1000`
are worth twenty million samples. -/
theorem stuck_chains_fails (ho : AutoOk pack idct1) : corrLine pack idct1 apart = .ok (1 / 1000001, 1 / 1000001, 20000020) := by
  have := two_line ho (units [1001, 999, 1001, 999, 1001, 999, 1001, 999, 1001, 999]) (units [-1001, -999, -1001, -999, -1001, -999, -1001, -999, -1001, -999])
    (apart_usable _ (by simp [apart])) (apart_usable _ (by simp [apart])) (by decide) (by decide) (1 / 1000001) 1000001 (by norm_num) (by decide +kernel) (by decide +kernel)
    (by decide +kernel) (by norm_num) (by decide +kernel) (by decide +kernel)
  unfold apart
  rw [this]
  norm_num

/-- two chains which mix, with the same values -/
example (ho : AutoOk pack idct1) : corrLine pack idct1 [units [1001, -999, 1001, -999, 1001, -999, 1001, -999, 1001, -999], units [-1001, 999, -1001, 999, -1001, 999, -1001, 999, -1001, 999]] =
    .ok (1000000 / 1000001, 1000000 / 1000001, 20 / (1000000 / 1000001)) := by
  exact two_line ho _ _ ⟨by decide, by decide, by decide, by decide +kernel⟩ ⟨by decide, by decide, by decide, by decide +kernel⟩ (by decide) (by decide) _ 1000001
    (by norm_num) (by decide +kernel) (by decide +kernel) (by decide +kernel) (by norm_num) (by decide +kernel) (by decide +kernel)

end witnesses

/-- The thinning for independent samples is the largest of the correlation lengths, zero if none is positive. -/
theorem indepThin_spec {K : Type} [LinearOrder K] [Field K] [IsStrictOrderedRing K] (ns : List K) :
    (∀ n ∈ ns, n ≤ indepThin ns) ∧ 0 ≤ indepThin ns ∧ (indepThin ns = 0 ∨ indepThin ns ∈ ns) := by
  have key : ∀ (l : List K) (a : K), (∀ n ∈ l, n ≤ l.foldl max a) ∧ a ≤ l.foldl max a ∧ (l.foldl max a = a ∨ l.foldl max a ∈ l) := by
    intro l
    induction l with
    | nil => intro a; simp
    | cons x l ih =>
      intro a
      obtain ⟨h1, h2, h3⟩ := ih (max a x)
      rw [List.foldl_cons]
      refine ⟨?_, le_trans (le_max_left _ _) h2, ?_⟩
      · intro n hn
        rcases List.mem_cons.mp hn with rfl | hn
        · exact le_trans (le_max_right _ _) h2
        · exact h1 n hn
      · rcases h3 with h | h
        · rw [h]
          rcases max_choice a x with e | e
          · exact .inl e
          · exact .inr (by rw [e]; simp)
        · exact .inr (by simp [h])
  exact key ns 0

/-- Example. -/
example : indepThin [3, 7, (5 : ℚ)] = 7 := by decide +kernel

end Verif.Converge
