import Verif.Props.DensityInt
import Verif.Props.Confidence

/-!
# C38: contour levels; C67: equal-density limits
-/

namespace Verif.Density
set_option linter.unusedSectionVars false
open Verif.Py Verif.Py.Np
open Verif.Confidence (IsArgsort)

variable {K : Type} [Field K] [LinearOrder K] [IsStrictOrderedRing K]

/-! ## Cumulative sums and searching -/

theorem cumsumFrom_get : ∀ (l : List K) (acc : K) (i : Nat),
    (cumsumFrom acc l)[i]? = if i < l.length then some (acc + (l.take (i + 1)).sum) else none
  | [], acc, i => by simp [cumsumFrom]
  | a :: l, acc, 0 => by simp [cumsumFrom]
  | a :: l, acc, i + 1 => by
    rw [cumsumFrom, List.getElem?_cons_succ, cumsumFrom_get l (acc + a) i]
    rw [List.take_succ_cons, List.sum_cons, List.length_cons, ← add_assoc]
    simp only [Nat.add_lt_add_iff_right]

theorem cumsum_get (l : List K) (i : Nat) : (cumsum l)[i]? = if i < l.length then some ((l.take (i + 1)).sum) else none := by
  unfold cumsum; rw [cumsumFrom_get]; simp

theorem searchsorted_spec (x : K) : ∀ a : List K, (∀ j < searchsorted a x, ∃ v, a[j]? = some v ∧ v < x) ∧
    ∀ v, a[searchsorted a x]? = some v → x ≤ v
  | [] => by simp [searchsorted]
  | b :: a => by
    obtain ⟨h1, h2⟩ := searchsorted_spec x a
    by_cases hb : b < x
    · have e : searchsorted (b :: a) x = searchsorted a x + 1 := by simp [searchsorted, hb]
      rw [e]
      refine ⟨?_, by simpa using h2⟩
      intro j hj
      cases j with
      | zero => exact ⟨b, rfl, hb⟩
      | succ j => simpa using h1 j (by omega)
    · have e : searchsorted (b :: a) x = 0 := by simp [searchsorted, hb]
      rw [e]
      refine ⟨by simp, ?_⟩
      intro v hv
      simp at hv; subst hv; exact not_lt.mp hb

theorem searchsorted_unique {a : List K} {x : K} {i : Nat} (h1 : ∀ j < i, ∃ v, a[j]? = some v ∧ v < x)
    (h2 : ∀ v, a[i]? = some v → x ≤ v) : searchsorted a x = i := by
  obtain ⟨g1, g2⟩ := searchsorted_spec x a
  rcases Nat.lt_trichotomy (searchsorted a x) i with h | h | h
  · obtain ⟨v, hv, hlt⟩ := h1 _ h
    exact absurd (g2 v hv) (not_le.mpr hlt)
  · exact h
  · obtain ⟨v, hv, hlt⟩ := g1 _ h
    exact absurd (h2 v hv) (not_le.mpr hlt)

theorem take_sum_mono {l : List K} (h : ∀ v ∈ l, 0 ≤ v) {i j : Nat} (hij : i ≤ j) : (l.take i).sum ≤ (l.take j).sum := by
  obtain ⟨k, rfl⟩ := Nat.le.dest hij
  rw [List.take_add, List.sum_append]
  have : 0 ≤ ((l.drop i).take k).sum := List.sum_nonneg (fun v hv => h v (List.mem_of_mem_drop (List.mem_of_mem_take hv)))
  linarith

theorem take_succ_sum {l : List K} {i : Nat} {v : K} (h : l[i]? = some v) : (l.take (i + 1)).sum = (l.take i).sum + v := by
  rw [List.take_add_one, h]; simp

/-- what a computed level is -/
theorem levelAt_ok {s : List K} {t L : K} (h : levelAt s t = .ok L) :
    ∃ i s0 s1, s[i]? = some s0 ∧ s[i + 1]? = some s1 ∧ (s.take (i + 1)).sum < t ∧ t ≤ (s.take (i + 2)).sum ∧
      L = s1 - ((s.take (i + 2)).sum - t) / s1 * (s1 - s0) := by
  unfold levelAt at h
  simp only [] at h
  obtain ⟨g1, g2⟩ := searchsorted_spec t (cumsum s)
  generalize searchsorted (cumsum s) t = ix at h g1 g2
  by_cases h0 : ix = 0
  · rw [if_pos h0] at h; cases h
  · rw [if_neg h0] at h
    obtain ⟨i, rfl⟩ : ∃ i, ix = i + 1 := ⟨ix - 1, by omega⟩
    rw [Nat.add_sub_cancel] at h
    have hc1 := cumsum_get s (i + 1)
    have hc0 := cumsum_get s i
    by_cases hlen : i + 1 < s.length
    · rw [if_pos hlen] at hc1
      rw [if_pos (by omega)] at hc0
      have hs1 : s[i + 1]? = some s[i + 1] := List.getElem?_eq_getElem hlen
      have hs0 : s[i]? = some s[i] := List.getElem?_eq_getElem (by omega)
      rw [hc1, hc0, hs1, hs0] at h
      simp only [] at h
      injection h with h
      refine ⟨i, _, _, hs0, hs1, ?_, g2 _ hc1, ?_⟩
      · obtain ⟨v, hv, hlt⟩ := g1 i (by omega)
        rw [hc0] at hv; injection hv with hv; rw [hv]; exact hlt
      · have e := take_succ_sum hs1
        have : (List.take (i + 1 + 1) s).sum - (List.take (i + 1) s).sum = s[i + 1] := by rw [e]; ring
        rw [this] at h
        rw [← h, show i + 2 = i + 1 + 1 from rfl]; ring
    · rw [if_neg hlen] at hc1
      rw [hc1] at h
      simp only [] at h
      cases h

/-- when a level is computed -/
theorem levelAt_found {s : List K} {a t : K} (h0 : a < t) (h1 : t ≤ (a :: s).sum) : ∃ L, levelAt (a :: s) t = .ok L := by
  unfold levelAt
  simp only []
  obtain ⟨g1, g2⟩ := searchsorted_spec t (cumsum (a :: s))
  generalize searchsorted (cumsum (a :: s)) t = ix at g1 g2
  have hne : ix ≠ 0 := by
    rintro rfl
    have := g2 a (by rw [cumsum_get]; simp)
    linarith
  have hlt : ix < (a :: s).length := by
    refine Nat.lt_of_not_le (fun hle => ?_)
    obtain ⟨v, hv, hvt⟩ := g1 s.length (by rw [List.length_cons] at hle; omega)
    rw [cumsum_get, if_pos (by simp), List.take_of_length_le (by simp)] at hv
    injection hv with hv
    rw [← hv] at hvt; linarith
  rw [if_neg hne, cumsum_get, if_pos hlt, cumsum_get, if_pos (by omega), List.getElem?_eq_getElem hlt,
    List.getElem?_eq_getElem (show ix - 1 < (a :: s).length by omega)]
  exact ⟨_, rfl⟩

/-- too small a target is refused -/
theorem levelAt_refused {s : List K} {a t : K} (h0 : t ≤ a) : levelAt (a :: s) t = .error .densitiesError := by
  unfold levelAt
  simp only []
  rw [if_pos]
  simp [searchsorted, cumsum, cumsumFrom, not_lt.mpr h0]

/-! ## The mass enclosed by a level -/

/-- total of the bins with density at least `L` -/
def massGe (F : List K) (L : K) : K := (F.filter (fun v => decide (L ≤ v))).sum
/-- total of the bins with density above `v` -/
def massGt (F : List K) (v : K) : K := (F.filter (fun w => decide (v < w))).sum

/-- The region of density at least `L` holds more than `m`, but leaving out the bins of the lowest density in it leaves at most `m`. -/
def Encloses (F : List K) (m L : K) : Prop :=
  m < massGe F L ∧ ∃ v ∈ F, L ≤ v ∧ (∀ w ∈ F, L ≤ w → v ≤ w) ∧ massGt F v ≤ m

theorem level_between {s0 s1 c t L : K} (h01 : s0 ≤ s1) (hs1 : 0 < s1) (hc : c - s1 < t) (ht : t ≤ c)
    (hL : L = s1 - (c - t) / s1 * (s1 - s0)) : s0 ≤ L ∧ L ≤ s1 ∧ (s0 < s1 → s0 < L) := by
  have hd0 : 0 ≤ (c - t) / s1 := div_nonneg (by linarith) hs1.le
  have hd1 : (c - t) / s1 < 1 := (div_lt_one hs1).mpr (by linarith)
  have h2 : 0 ≤ s1 - s0 := by linarith
  refine ⟨?_, ?_, ?_⟩
  · nlinarith
  · nlinarith [mul_nonneg hd0 h2]
  · intro hlt
    nlinarith [mul_pos (sub_pos.mpr hd1) (sub_pos.mpr hlt)]

theorem sum_filter_le {l : List K} (h : ∀ v ∈ l, 0 ≤ v) (p : K → Bool) : (l.filter p).sum ≤ l.sum := by
  induction l with
  | nil => simp
  | cons a l ih =>
    have ha := h a List.mem_cons_self
    have := ih (fun v hv => h v (List.mem_cons_of_mem _ hv))
    rw [List.filter_cons]
    split <;> simp only [List.sum_cons] <;> linarith

theorem level_core {s : List K} (hsort : s.Pairwise (· ≤ ·)) (hpos : ∀ v ∈ s, 0 ≤ v) {t L : K} (h : levelAt s t = .ok L) :
    Encloses s (s.sum - t) L := by
  obtain ⟨i, s0, s1, h0, h1, hlt, hle, hL⟩ := levelAt_ok h
  obtain ⟨hi1, rfl⟩ := List.getElem?_eq_some_iff.mp h1
  obtain ⟨hi0, rfl⟩ := List.getElem?_eq_some_iff.mp h0
  have e2 : (s.take (i + 2)).sum = (s.take (i + 1)).sum + s[i + 1] := take_succ_sum h1
  have h01 : s[i] ≤ s[i + 1] := List.pairwise_iff_getElem.mp hsort i (i + 1) hi0 hi1 (by omega)
  have hs1 : 0 < s[i + 1] := by linarith
  obtain ⟨b1, b2, b3⟩ := level_between h01 hs1 (by rw [e2]; linarith) hle hL
  have hdrop : ∀ v ∈ s.drop (i + 1), s[i + 1] ≤ v := by
    intro v hv
    obtain ⟨k, hk, rfl⟩ := List.mem_iff_getElem.mp hv
    rw [List.getElem_drop]
    rw [List.length_drop] at hk
    rcases Nat.eq_zero_or_pos k with rfl | hk0
    · exact le_refl _
    · exact List.pairwise_iff_getElem.mp hsort _ _ hi1 (by omega) (by omega)
  have htake : ∀ j, j < s.length → ∀ v ∈ s.take (j + 1), ∀ hj : j < s.length, v ≤ s[j] := by
    intro j _ v hv hj
    obtain ⟨k, hk, rfl⟩ := List.mem_iff_getElem.mp hv
    rw [List.getElem_take]
    rw [List.length_take] at hk
    rcases Nat.lt_or_ge k j with hkj | hkj
    · exact List.pairwise_iff_getElem.mp hsort _ _ (by omega) hj hkj
    · have : k = j := by omega
      subst this; exact le_refl _
  have hsplit := List.take_append_drop (i + 1) s
  have hsplit2 := List.take_append_drop (i + 2) s
  refine ⟨?_, s[i + 1], List.getElem_mem hi1, b2, ?_, ?_⟩
  · have hm : massGe s L = ((s.take (i + 1)).filter (fun v => decide (L ≤ v))).sum + (s.drop (i + 1)).sum := by
      unfold massGe
      conv_lhs => rw [← hsplit]
      rw [List.filter_append, List.sum_append, List.filter_eq_self (l := s.drop (i + 1)) |>.mpr]
      intro v hv
      exact decide_eq_true (le_trans b2 (hdrop v hv))
    have hn : 0 ≤ ((s.take (i + 1)).filter (fun v => decide (L ≤ v))).sum :=
      List.sum_nonneg (fun v hv => hpos v (List.mem_of_mem_take (List.mem_of_mem_filter hv)))
    have hs : s.sum = (s.take (i + 1)).sum + (s.drop (i + 1)).sum := by rw [← List.sum_append, hsplit]
    rw [hm, hs]; linarith
  · intro w hw hLw
    rw [← hsplit] at hw
    rcases List.mem_append.mp hw with hw | hw
    · have hws : w ≤ s[i] := htake i hi0 w hw hi0
      rcases lt_or_eq_of_le h01 with hlt01 | he
      · exact absurd (le_trans hLw hws) (not_le.mpr (b3 hlt01))
      · have : L = s[i + 1] := le_antisymm b2 (he ▸ b1)
        rw [← this]; exact hLw
    · exact hdrop w hw
  · have htk := fun v hv => htake (i + 1) hi1 v hv hi1
    have hm : massGt s s[i + 1] = ((s.drop (i + 2)).filter (fun v => decide (s[i + 1] < v))).sum := by
      unfold massGt
      generalize s[i + 1] = z at htk
      conv_lhs => rw [← hsplit2]
      rw [List.filter_append, List.filter_eq_nil_iff (l := s.take (i + 2)) |>.mpr, List.nil_append]
      intro v hv
      simp only [decide_eq_true_eq, not_lt]
      exact htk v hv
    have hs : s.sum = (s.take (i + 2)).sum + (s.drop (i + 2)).sum := by rw [← List.sum_append, hsplit2]
    rw [hm, hs]
    have := sum_filter_le (l := s.drop (i + 2)) (fun v hv => hpos v (List.mem_of_mem_drop hv)) (fun v => decide (s[i + 1] < v))
    linarith

theorem level_mono {s : List K} (hsort : s.Pairwise (· ≤ ·)) (hpos : ∀ v ∈ s, 0 ≤ v) {t1 t2 L1 L2 : K} (h1 : levelAt s t1 = .ok L1)
    (h2 : levelAt s t2 = .ok L2) (ht : t1 ≤ t2) : L1 ≤ L2 := by
  obtain ⟨i, a0, a1, ha0, ha1, alt, ale, aL⟩ := levelAt_ok h1
  obtain ⟨j, b0, b1, hb0, hb1, blt, ble, bL⟩ := levelAt_ok h2
  obtain ⟨hi1, rfl⟩ := List.getElem?_eq_some_iff.mp ha1
  obtain ⟨hi0, rfl⟩ := List.getElem?_eq_some_iff.mp ha0
  obtain ⟨hj1, rfl⟩ := List.getElem?_eq_some_iff.mp hb1
  obtain ⟨hj0, rfl⟩ := List.getElem?_eq_some_iff.mp hb0
  have hget : ∀ k l (hk : k < s.length) (hl : l < s.length), k ≤ l → s[k] ≤ s[l] := by
    intro k l hk hl hkl
    rcases Nat.lt_or_ge k l with h | h
    · exact List.pairwise_iff_getElem.mp hsort k l hk hl h
    · have : k = l := by omega
      subst this; exact le_refl _
  have ea : (s.take (i + 2)).sum = (s.take (i + 1)).sum + s[i + 1] := take_succ_sum ha1
  have eb : (s.take (j + 2)).sum = (s.take (j + 1)).sum + s[j + 1] := take_succ_sum hb1
  have hsa : 0 < s[i + 1] := by linarith
  have hsb : 0 < s[j + 1] := by linarith
  obtain ⟨ba1, ba2, -⟩ := level_between (hget i (i + 1) hi0 hi1 (by omega)) hsa (by rw [ea]; linarith) ale aL
  obtain ⟨bb1, bb2, -⟩ := level_between (hget j (j + 1) hj0 hj1 (by omega)) hsb (by rw [eb]; linarith) ble bL
  have hij : i ≤ j := by
    refine Nat.le_of_not_lt (fun hji => ?_)
    have := take_sum_mono hpos (show j + 2 ≤ i + 1 by omega)
    linarith
  rcases Nat.lt_or_ge i j with h | h
  · exact le_trans ba2 (le_trans (hget (i + 1) j hi1 hj0 (by omega)) bb1)
  · have : i = j := by omega
    subst this
    rw [aL, bL]
    have hd : ((s.take (i + 2)).sum - t2) / s[i + 1] ≤ ((s.take (i + 2)).sum - t1) / s[i + 1] :=
      (div_le_div_iff_of_pos_right hsa).mpr (by linarith)
    have h2 : 0 ≤ s[i + 1] - s[i] := by have := hget i (i + 1) hi0 hi1 (by omega); linarith
    nlinarith [mul_le_mul_of_nonneg_right hd h2]

/-! ## The function on arrays -/

theorem sortgrid_perm {argsort : List K → List Nat} (hA : IsArgsort argsort) (F : List K) :
    ((argsort F).map (fun i => F.getD i 0)).Perm F := by
  have h := (hA F).1.map (fun i => F.getD i 0)
  rwa [Verif.Confidence.map_getD_range] at h

theorem massGe_perm {F G : List K} (h : F.Perm G) (L : K) : massGe F L = massGe G L := (h.filter _).sum_eq
theorem massGt_perm {F G : List K} (h : F.Perm G) (L : K) : massGt F L = massGt G L := (h.filter _).sum_eq

theorem Encloses_perm {F G : List K} (h : F.Perm G) {m L : K} (he : Encloses F m L) : Encloses G m L := by
  obtain ⟨h1, v, hv, h2, h3, h4⟩ := he
  exact ⟨massGe_perm h L ▸ h1, v, h.mem_iff.mp hv, h2, fun w hw => h3 w (h.mem_iff.mpr hw), massGt_perm h v ▸ h4⟩

theorem mapM_ok {α β ε : Type} (f : α → Except ε β) : ∀ {l : List α} {r : List β}, l.mapM f = .ok r →
    List.Forall₂ (fun a b => f a = .ok b) l r
  | [], r, h => by
    rw [List.mapM_nil] at h
    injection h with h; rw [← h]; exact .nil
  | a :: l, r, h => by
    rw [List.mapM_cons] at h
    cases ha : f a with
    | error e => rw [ha] at h; cases h
    | ok b =>
      rw [ha] at h
      cases hl : l.mapM f with
      | error e => rw [hl] at h; cases h
      | ok bs =>
        rw [hl] at h
        injection h with h
        rw [← h]; exact .cons ha (mapM_ok f hl)

/-- **C38**: without the half-edge option every computed level encloses the requested fraction `c` of the mass (plus the mass said to be
missing), up to the bins at the level itself -/
theorem level_encloses (argsort : List K → List Nat) (hA : IsArgsort argsort) (shape : List Nat) (P : List Nat → K)
    (hP : ∀ v ∈ flat shape P, 0 ≤ v) (cs : List K) (missing : K) (Ls : List K) (h : contourLevels argsort shape P cs missing false = .ok Ls) :
    List.Forall₂ (fun c L => Encloses (flat shape P) (c * (flat shape P).sum + missing) L) cs Ls := by
  unfold contourLevels at h
  simp only [Bool.false_eq_true, if_false] at h
  refine (mapM_ok _ h).imp (fun c L hL => ?_)
  have hp := sortgrid_perm hA (flat shape P)
  have hc := level_core (hA _).2 (fun v hv => hP v (hp.mem_iff.mp hv)) hL
  have := Encloses_perm hp hc
  rw [hp.sum_eq] at this
  rwa [show (flat shape P).sum - ((1 - c) * (flat shape P).sum - missing) = c * (flat shape P).sum + missing by ring] at this

/-- **C38**: a larger fraction never has a higher level -/
theorem levels_antitone (argsort : List K → List Nat) (hA : IsArgsort argsort) (shape : List Nat) (P : List Nat → K)
    (hP : ∀ v ∈ flat shape P, 0 ≤ v) (cs : List K) (missing : K) (Ls : List K) (h : contourLevels argsort shape P cs missing false = .ok Ls)
    (p q : K × K) (hp : p ∈ cs.zip Ls) (hq : q ∈ cs.zip Ls) (hpq : p.1 ≤ q.1) : q.2 ≤ p.2 := by
  unfold contourLevels at h
  simp only [Bool.false_eq_true, if_false] at h
  have hall := mapM_ok _ h
  have hperm := sortgrid_perm hA (flat shape P)
  have get : ∀ r ∈ cs.zip Ls, levelAt ((argsort (flat shape P)).map (fun i => (flat shape P).getD i 0)) ((1 - r.1) * (flat shape P).sum - missing) = .ok r.2 := by
    intro r hr
    exact (List.forall₂_iff_zip.mp hall).2 hr
  refine level_mono (hA _).2 (fun v hv => hP v (hperm.mem_iff.mp hv)) (get q hq) (get p hp) ?_
  have : 0 ≤ (flat shape P).sum := List.sum_nonneg hP
  nlinarith

/-- **C38**: a level is found for every fraction between zero and one whose complement exceeds the smallest bin -/
theorem level_found (argsort : List K → List Nat) (hA : IsArgsort argsort) (shape : List Nat) (P : List Nat → K)
    (hP : ∀ v ∈ flat shape P, 0 ≤ v) (cs : List K) (hcs : ∀ c ∈ cs, 0 ≤ c ∧ ∃ v ∈ flat shape P, v < (1 - c) * (flat shape P).sum ∧ ∀ w ∈ flat shape P, v ≤ w) :
    ∃ Ls, contourLevels argsort shape P cs 0 false = .ok Ls := by
  have hperm := sortgrid_perm hA (flat shape P)
  have hsort := (hA (flat shape P)).2
  unfold contourLevels
  simp only [Bool.false_eq_true, if_false]
  generalize (argsort (flat shape P)).map (fun i => (flat shape P).getD i 0) = s at hperm hsort
  have hpos : ∀ v ∈ s, 0 ≤ v := fun v hv => hP v (hperm.mem_iff.mp hv)
  have hsum : 0 ≤ (flat shape P).sum := List.sum_nonneg hP
  have key : ∀ c ∈ cs, ∃ L, levelAt s ((1 - c) * (flat shape P).sum - 0) = .ok L := by
    intro c hc
    obtain ⟨hc0, v, hv, hlt, hmin⟩ := hcs c hc
    have ht : (1 - c) * (flat shape P).sum - 0 ≤ s.sum := by rw [hperm.sum_eq]; nlinarith
    cases s with
    | nil => exact absurd hv (by rw [← hperm.mem_iff]; simp)
    | cons a s =>
      have hav : a ≤ v := by
        have := hperm.mem_iff.mpr hv
        rcases List.mem_cons.mp this with rfl | h
        · exact le_refl _
        · exact (List.pairwise_cons.mp hsort).1 v h
      exact levelAt_found (by linarith) ht
  clear hcs
  induction cs with
  | nil => exact ⟨[], rfl⟩
  | cons c cs ih =>
    obtain ⟨L, hL⟩ := key c List.mem_cons_self
    obtain ⟨Ls, hLs⟩ := ih (fun c hc => key c (List.mem_cons_of_mem _ hc))
    refine ⟨L :: Ls, ?_⟩
    rw [List.mapM_cons, hL, hLs]; rfl

/-! ## Half edges -/

theorem halveAxis_eq {n k i : Nat} {A : List Nat → K} {ind : List Nat} (h : ind[k]? = some i) (hi : i < n) :
    halveAxis n k A ind = edgeW n i * A ind := by
  unfold halveAxis edgeW
  simp only [h, Option.some.injEq]
  have : i = n - 1 ↔ i + 1 = n := by omega
  simp only [this]
  split_ifs <;> ring

theorem halveEdges_eq : ∀ (ns : List Nat) (A : List Nat → K) (k : Nat) (ind : List Nat), ind.drop k ∈ ndindex ns →
    halveEdges A k ns ind = wOf ns (ind.drop k) * A ind
  | [], A, k, ind, h => by
    simp [ndindex] at h
    simp [halveEdges, wOf]
  | n :: ns, A, k, ind, h => by
    rw [mem_ndindex] at h
    cases hd : ind.drop k with
    | nil => rw [hd] at h; cases h
    | cons i is =>
      rw [hd] at h
      cases h with
      | cons h1 h2 =>
        have hk : k < ind.length := by
          have := congrArg List.length hd
          rw [List.length_drop, List.length_cons] at this; omega
        have hik : ind[k]? = some i := by
          have := congrArg (fun l => l[0]?) hd
          simpa using this
        have hdrop : ind.drop (k + 1) = is := by
          have := congrArg (List.drop 1) hd
          rw [List.drop_drop] at this; simpa [Nat.add_comm] using this
        rw [halveEdges, halveEdges_eq ns _ (k + 1) ind (by rw [hdrop, mem_ndindex]; exact h2), hdrop, halveAxis_eq hik h1, wOf]
        ring

/-- **C38**: with half edges the masses add up to the trapezoid rule -/
theorem half_edge_norm (shape : List Nat) (P : List Nat → K) : (flat shape (halveEdges P 0 shape)).sum = trapN shape P := by
  rw [trapN_sum]
  unfold flat
  congr 1
  refine List.map_congr_left (fun ind hi => ?_)
  rw [halveEdges_eq shape P 0 ind (by simpa using hi)]; simp

/-- **C38**, half edges: nothing changes if the density vanishes on the edges -/
theorem half_edge_partial (argsort : List K → List Nat) (shape : List Nat) (P : List Nat → K) (cs : List K) (missing : K)
    (h0 : ∀ ind ∈ ndindex shape, 0 < nBoundaries shape ind → P ind = 0) :
    contourLevels argsort shape P cs missing true = contourLevels argsort shape P cs missing false := by
  have : flat shape (halveEdges P 0 shape) = flat shape P := by
    unfold flat
    refine List.map_congr_left (fun ind hi => ?_)
    rw [halveEdges_eq shape P 0 ind (by simpa using hi), List.drop_zero]
    by_cases hb : 0 < nBoundaries shape ind
    · rw [h0 ind hi hb, mul_zero]
    · rw [wOf_eq (mem_ndindex.mp hi).length_eq, show nBoundaries shape ind = 0 by omega]; simp
  unfold contourLevels
  simp only [if_true, Bool.false_eq_true, if_false, this]

theorem mass_at {s : List K} (hsort : s.Pairwise (· ≤ ·)) (hpos : ∀ v ∈ s, 0 ≤ v) {i : Nat} (hi : i + 1 < s.length) :
    s.sum - (s.take (i + 1)).sum ≤ massGe s s[i + 1] ∧ massGt s s[i + 1] ≤ s.sum - (s.take (i + 2)).sum := by
  have hget : ∀ k l (hk : k < s.length) (hl : l < s.length), k ≤ l → s[k] ≤ s[l] := by
    intro k l hk hl hkl
    rcases Nat.lt_or_ge k l with h | h
    · exact List.pairwise_iff_getElem.mp hsort k l hk hl h
    · have : k = l := by omega
      subst this; exact le_refl _
  have hd : ∀ v ∈ s.drop (i + 1), s[i + 1] ≤ v := by
    intro v hv
    obtain ⟨k, hk, rfl⟩ := List.mem_iff_getElem.mp hv
    rw [List.getElem_drop]
    rw [List.length_drop] at hk
    exact hget _ _ hi (by omega) (by omega)
  have ht : ∀ v ∈ s.take (i + 2), v ≤ s[i + 1] := by
    intro v hv
    obtain ⟨k, hk, rfl⟩ := List.mem_iff_getElem.mp hv
    rw [List.getElem_take]
    rw [List.length_take] at hk
    exact hget _ _ (by omega) hi (by omega)
  have hsplit := List.take_append_drop (i + 1) s
  have hsplit2 := List.take_append_drop (i + 2) s
  have hs : s.sum = (s.take (i + 1)).sum + (s.drop (i + 1)).sum := by rw [← List.sum_append, hsplit]
  have hs2 : s.sum = (s.take (i + 2)).sum + (s.drop (i + 2)).sum := by rw [← List.sum_append, hsplit2]
  unfold massGe massGt
  generalize s[i + 1] = z at hd ht
  constructor
  · have hm : (s.filter (fun v => decide (z ≤ v))).sum = ((s.take (i + 1)).filter (fun v => decide (z ≤ v))).sum + (s.drop (i + 1)).sum := by
      conv_lhs => rw [← hsplit]
      rw [List.filter_append, List.sum_append, List.filter_eq_self (l := s.drop (i + 1)) |>.mpr]
      intro v hv
      exact decide_eq_true (hd v hv)
    have hn : 0 ≤ ((s.take (i + 1)).filter (fun v => decide (z ≤ v))).sum :=
      List.sum_nonneg (fun v hv => hpos v (List.mem_of_mem_take (List.mem_of_mem_filter hv)))
    rw [hm]; linarith
  · have hm : (s.filter (fun v => decide (z < v))).sum = ((s.drop (i + 2)).filter (fun v => decide (z < v))).sum := by
      conv_lhs => rw [← hsplit2]
      rw [List.filter_append, List.filter_eq_nil_iff (l := s.take (i + 2)) |>.mpr, List.nil_append]
      intro v hv
      simp only [decide_eq_true_eq, not_lt]
      exact ht v hv
    have := sum_filter_le (l := s.drop (i + 2)) (fun v hv => hpos v (List.mem_of_mem_drop hv)) (fun v => decide (z < v))
    rw [hm]; linarith

/-- a sorting function for concrete cases: positions ordered by value -/
def insertIx (l : List ℚ) (i : Nat) : List Nat → List Nat
  | [] => [i]
  | j :: js => if l.getD i 0 ≤ l.getD j 0 then i :: j :: js else j :: insertIx l i js
def argsortQ (l : List ℚ) : List Nat := (List.range l.length).foldr (insertIx l) []

theorem insertIx_perm (l : List ℚ) (i : Nat) : ∀ js, (insertIx l i js).Perm (i :: js)
  | [] => .refl _
  | j :: js => by
    rw [insertIx]
    split
    · exact .refl _
    · exact ((insertIx_perm l i js).cons j).trans (.swap _ _ _)

theorem insertIx_sorted (l : List ℚ) (i : Nat) : ∀ js : List Nat, (js.map (fun i => l.getD i 0)).Pairwise (· ≤ ·) →
    ((insertIx l i js).map (fun i => l.getD i 0)).Pairwise (· ≤ ·)
  | [], _ => by simp [insertIx]
  | j :: js, h => by
    rw [insertIx]
    rw [List.map_cons, List.pairwise_cons] at h
    split
    · rename_i hle
      rw [List.map_cons, List.pairwise_cons, List.map_cons, List.pairwise_cons]
      refine ⟨?_, h⟩
      intro v hv
      rcases List.mem_cons.mp hv with rfl | hv
      · exact hle
      · exact le_trans hle (h.1 v hv)
    · rename_i hle
      rw [List.map_cons, List.pairwise_cons]
      refine ⟨?_, insertIx_sorted l i js h.2⟩
      intro v hv
      obtain ⟨k, hk, rfl⟩ := List.mem_map.mp hv
      rcases List.mem_cons.mp ((insertIx_perm l i js).mem_iff.mp hk) with rfl | hk
      · exact (not_le.mp hle).le
      · exact h.1 _ (List.mem_map_of_mem hk)

theorem argsortQ_ok : IsArgsort argsortQ := by
  intro v
  unfold argsortQ
  induction List.range v.length with
  | nil => exact ⟨.refl _, .nil⟩
  | cons i is ih => exact ⟨(insertIx_perm v i _).trans (ih.1.cons i), insertIx_sorted v i _ ih.2⟩

def vec (l : List ℚ) : List Nat → ℚ := fun ind => l.getD (ind.headD 0) 0

example : contourLevels argsortQ [5] (vec [0, 1, 3, 2, 0]) [1 / 2, 3 / 4] 0 false = .ok [2, 5 / 4] ∧
    Encloses (flat [5] (vec [0, 1, 3, 2, 0])) (1 / 2 * 6 + 0) 2 := by
  have h : contourLevels argsortQ [5] (vec [0, 1, 3, 2, 0]) [1 / 2, 3 / 4] 0 false = .ok [2, 5 / 4] := by decide +kernel
  refine ⟨h, ?_⟩
  have := level_encloses argsortQ argsortQ_ok [5] (vec [0, 1, 3, 2, 0]) (by decide +kernel) _ _ _ h
  cases this with
  | cons h1 _ =>
    rw [show (flat [5] (vec [0, 1, 3, 2, 0])).sum = 6 by decide +kernel] at h1
    exact h1

/-- **C38 fails** with half edges (the default): the level is interpolated between the halved values.  Here the density is highest at the
edge; the level for 20% of the mass lies below that for 30%, and encloses 62% of the mass, of which a whole bin too much -/
theorem half_edge_fails : contourLevels argsortQ [5] (vec [4, 3, 2, 1, 0]) [1 / 5, 3 / 10] 0 true = .ok [14 / 5, 43 / 15] ∧
    (14 / 5 : ℚ) < 43 / 15 ∧ (flat [5] (halveEdges (vec [4, 3, 2, 1, 0]) 0 [5])) = [2, 3, 2, 1, 0] ∧
    ¬ (∃ L, 3 < L ∧ contourLevels argsortQ [5] (vec [4, 3, 2, 1, 0]) [1 / 5] 0 true = .ok [L]) := by
  refine ⟨by decide +kernel, by decide +kernel, by decide +kernel, ?_⟩
  rintro ⟨L, hL, h⟩
  rw [show contourLevels argsortQ [5] (vec [4, 3, 2, 1, 0]) [1 / 5] 0 true = .ok [14 / 5] by decide +kernel] at h
  injection h with h
  simp at h
  rw [← h] at hL
  exact absurd hL (by norm_num)

/-- **C38 fails** for the option of missing mass: mass 2 of a total of 2 + 6 is outside the grid, half of the total is 4, but the region of the level
holds 6, and still 5 without the bins at the level -/
theorem missing_norm_fails : contourLevels argsortQ [5] (vec [0, 1, 3, 2, 0]) [1 / 2] 2 false = .ok [1] ∧
    ¬ Encloses (flat [5] (vec [0, 1, 3, 2, 0])) (1 / 2 * (6 + 2)) 1 := by
  refine ⟨by decide +kernel, ?_⟩
  rintro ⟨-, v, -, h1, h2, h3⟩
  have hv : v = 1 := le_antisymm (h2 1 (by decide +kernel) (le_refl _)) h1
  subst hv
  exact absurd h3 (by decide +kernel)

/-! ## C67: equal-density limits -/

theorem argmaxB_spec {l : List Bool} (h : true ∈ l) : l[argmaxB l]? = some true ∧ ∀ j < argmaxB l, l[j]? = some false := by
  unfold argmaxB
  rw [if_pos h]
  have hlt := List.idxOf_lt_length_of_mem h
  refine ⟨by rw [List.getElem?_eq_getElem hlt, List.getElem_idxOf hlt], ?_⟩
  intro j hj
  have hjl : j < l.length := by omega
  rw [List.getElem?_eq_getElem hjl]
  have := List.not_of_lt_findIdx (p := (· == true)) (show j < l.findIdx (· == true) from hj)
  cases hb : l[j] with
  | false => rfl
  | true => exact absurd hb (by simpa using this)

theorem pyGet_nat {l : List K} {i : Nat} {v : K} : pyGet l i = .ok v ↔ l[i]? = some v := by
  unfold pyGet
  rw [if_pos (by omega)]
  simp only [Int.toNat_natCast]
  cases l[i]? <;> simp

theorem pyGet_zero {l : List K} {v : K} : pyGet l 0 = .ok v ↔ l[0]? = some v := pyGet_nat (i := 0)

theorem pyGet_last {l : List K} {v : K} : pyGet l (-1) = .ok v ↔ l[l.length - 1]? = some v ∧ l ≠ [] := by
  unfold pyGet
  rw [if_neg (by decide)]
  cases l with
  | nil => simp
  | cons a l =>
    rw [if_pos (by simp)]
    rw [show ((-1 : Int) + ((a :: l).length : Nat)).toNat = (a :: l).length - 1 by simp]
    cases (a :: l)[(a :: l).length - 1]? <;> simp

theorem bind_ok {ε α β : Type} {x : Except ε α} {f : α → Except ε β} {r : β} : (x >>= f) = .ok r ↔ ∃ a, x = .ok a ∧ f a = .ok r := by
  cases x with
  | error e => constructor
               · intro h; cases h
               · rintro ⟨a, h, -⟩; cases h
  | ok a => constructor
            · intro h; exact ⟨a, rfl, h⟩
            · rintro ⟨b, h, h2⟩; cases h; exact h2

/-- position of point `k` of the fine grid -/
def pos (x0 fine : K) (k : Nat) : K := x0 + (k : K) * fine

/-- `x` is where the density, linear between the points `i` and `i + 1`, equals `t` -/
def Crossing (x0 fine : K) (grid : List K) (t : K) (i : Nat) (x : K) : Prop :=
  ∃ a b e, grid[i]? = some a ∧ grid[i + 1]? = some b ∧ 0 ≤ e ∧ e ≤ 1 ∧ x = pos x0 fine i + e * fine ∧ a + e * (b - a) = t

theorem lower_spec {x0 fine t : K} {g : LimGrid K} {r : K × Bool} (hmax : ∃ v ∈ g.grid, t < v) (h : lower x0 fine g t = .ok r) :
    (r.2 = true ↔ ∃ v, g.grid[0]? = some v ∧ t ≤ v) ∧ (r.2 = true → r.1 = x0) ∧
    (r.2 = false → ∃ i, Crossing x0 fine g.grid t i r.1 ∧ (∃ v, g.grid[i + 1]? = some v ∧ t < v) ∧
      ∀ j ≤ i, ∀ v, g.grid[j]? = some v → v ≤ t) := by
  unfold lower at h
  obtain ⟨g0, hg0, h⟩ := bind_ok.mp h
  rw [pyGet_zero] at hg0
  by_cases hge : g0 ≥ t
  · rw [if_pos hge] at h
    injection h with h
    subst h
    exact ⟨by simp only [true_iff]; exact ⟨g0, hg0, hge⟩, fun _ => rfl, by simp⟩
  · rw [if_neg hge] at h
    have hmem : true ∈ g.grid.map (fun v => decide (v > t)) := by
      obtain ⟨v, hv, hlt⟩ := hmax
      exact List.mem_map.mpr ⟨v, hv, decide_eq_true hlt⟩
    obtain ⟨hi, hbefore⟩ := argmaxB_spec hmem
    generalize argmaxB (g.grid.map (fun v => decide (v > t))) = i at h hi hbefore
    rw [List.getElem?_map] at hi
    obtain ⟨gi, hgi, h⟩ := bind_ok.mp h
    obtain ⟨gp, hgp, h⟩ := bind_ok.mp h
    rw [pyGet_nat] at hgi
    rw [hgi] at hi
    have hgt : t < gi := by simpa using hi
    cases i with
    | zero =>
      rw [hg0] at hgi
      injection hgi with hgi
      exact absurd (hgi ▸ hgt.le) hge
    | succ i =>
      rw [show ((i + 1 : Nat) : Int) - 1 = (i : Int) by omega, pyGet_nat] at hgp
      injection h with h
      subst h
      have hle : ∀ j ≤ i, ∀ v, g.grid[j]? = some v → v ≤ t := by
        intro j hj v hv
        have := hbefore j (by omega)
        rw [List.getElem?_map, hv] at this
        simpa using this
      have hgp2 := hle i (le_refl _) gp hgp
      have hpos : 0 < gi - gp := by linarith
      refine ⟨?_, by simp, fun _ => ⟨i, ⟨gp, gi, (t - gp) / (gi - gp), hgp, hgi, div_nonneg (by linarith) hpos.le,
        (div_le_one hpos).mpr (by linarith), ?_, ?_⟩, ⟨gi, hgi, hgt⟩, hle⟩⟩
      · simp only [Bool.false_eq_true, false_iff]
        rintro ⟨v, hv, hle⟩
        rw [hg0] at hv; injection hv with hv
        exact hge (hv ▸ hle)
      · show x0 + (((i + 1 : Nat) : K) - (gi - t) / (gi - gp)) * fine = _
        unfold pos
        push_cast
        field_simp
        ring
      · field_simp; ring

theorem upper_spec {x0 xl fine t : K} {g : LimGrid K} {r : K × Bool} (hmax : ∃ v ∈ g.grid, t < v) (h : upper x0 xl fine g t = .ok r) :
    (r.2 = true ↔ ∃ v, g.grid[g.grid.length - 1]? = some v ∧ t ≤ v) ∧ (r.2 = true → r.1 = xl) ∧
    (r.2 = false → ∃ i, Crossing x0 fine g.grid t i r.1 ∧ (∃ v, g.grid[i]? = some v ∧ t < v) ∧
      ∀ j, i < j → ∀ v, g.grid[j]? = some v → v ≤ t) := by
  unfold upper at h
  obtain ⟨gl, hgl, h⟩ := bind_ok.mp h
  rw [pyGet_last] at hgl
  obtain ⟨hgl, hne⟩ := hgl
  have hlen : 0 < g.grid.length := List.length_pos_iff.mpr hne
  by_cases hge : gl ≥ t
  · rw [if_pos hge] at h
    injection h with h
    subst h
    exact ⟨by simp only [true_iff]; exact ⟨gl, hgl, hge⟩, fun _ => rfl, by simp⟩
  · rw [if_neg hge] at h
    have hmem : true ∈ g.grid.reverse.map (fun v => decide (v > t)) := by
      obtain ⟨v, hv, hlt⟩ := hmax
      exact List.mem_map.mpr ⟨v, List.mem_reverse.mpr hv, decide_eq_true hlt⟩
    obtain ⟨hi, hbefore⟩ := argmaxB_spec hmem
    generalize argmaxB (g.grid.reverse.map (fun v => decide (v > t))) = k at h hi hbefore
    rw [List.getElem?_map] at hi
    have hk : k < g.grid.length := by
      refine Nat.lt_of_not_le (fun hc => ?_)
      rw [List.getElem?_eq_none (by simpa using hc)] at hi; cases hi
    rw [List.getElem?_reverse hk] at hi
    obtain ⟨i, hik⟩ : ∃ i, g.grid.length - 1 - k = i := ⟨_, rfl⟩
    rw [hik] at hi
    obtain ⟨gi, hgi, h⟩ := bind_ok.mp h
    obtain ⟨gn, hgn, h⟩ := bind_ok.mp h
    have e1 : (g.grid.length : Int) - (k : Int) - 1 = (i : Int) := by omega
    rw [e1] at hgi hgn h
    rw [pyGet_nat] at hgi
    rw [show (i : Int) + 1 = ((i + 1 : Nat) : Int) by omega, pyGet_nat] at hgn
    rw [hgi] at hi
    have hgt : t < gi := by simpa using hi
    injection h with h
    subst h
    have hle : ∀ j, i < j → ∀ v, g.grid[j]? = some v → v ≤ t := by
      intro j hj v hv
      have hjl : j < g.grid.length := (List.getElem?_eq_some_iff.mp hv).1
      have := hbefore (g.grid.length - 1 - j) (by omega)
      rw [List.getElem?_map, List.getElem?_reverse (by omega), show g.grid.length - 1 - (g.grid.length - 1 - j) = j by omega, hv] at this
      simpa using this
    have hgn2 := hle (i + 1) (by omega) gn hgn
    have hpos : 0 < gi - gn := by linarith
    refine ⟨?_, by simp, fun _ => ⟨i, ⟨gi, gn, (gi - t) / (gi - gn), hgi, hgn, div_nonneg (by linarith) hpos.le,
      (div_le_one hpos).mpr (by linarith), ?_, ?_⟩, ⟨gi, hgi, hgt⟩, hle⟩⟩
    · simp only [Bool.false_eq_true, false_iff]
      rintro ⟨v, hv, hle⟩
      rw [hgl] at hv; injection hv with hv
      exact hge (hv ▸ hle)
    · show x0 + (((i : Int) : K) + (gi - t) / (gi - gn)) * fine = _
      unfold pos
      push_cast
      ring
    · field_simp; ring

/-- **C67**: for a density level `t` below the maximum, the limits are where the density (linear between grid points) crosses `t`, or the end of the
grid, flagged as such, if the density there is not below `t`; all grid points above `t` lie between the limits -/
theorem limits_spec {x0 spacing t p : K} {g : LimGrid K} {l : Limit K} (hf : 0 < spacing / g.factor) (ht : trialOf g ((1 - p) * g.norm) = .ok t)
    (hmax : ∃ v ∈ g.grid, t < v) (h : limitFor x0 (pos x0 (spacing / g.factor) (g.grid.length - 1)) spacing g p = .ok l) :
    (l.bot = true ↔ ∃ v, g.grid[0]? = some v ∧ t ≤ v) ∧ (l.top = true ↔ ∃ v, g.grid[g.grid.length - 1]? = some v ∧ t ≤ v) ∧
    (if l.bot then l.mn = x0 else ∃ i, Crossing x0 (spacing / g.factor) g.grid t i l.mn) ∧
    (if l.top then l.mx = pos x0 (spacing / g.factor) (g.grid.length - 1) else ∃ i, Crossing x0 (spacing / g.factor) g.grid t i l.mx) ∧
    (∀ k v, g.grid[k]? = some v → t < v → l.mn ≤ pos x0 (spacing / g.factor) k ∧ pos x0 (spacing / g.factor) k ≤ l.mx) ∧ l.mn ≤ l.mx := by
  unfold limitFor at h
  rw [ht] at h
  obtain ⟨lo, hlo, h⟩ := bind_ok.mp (show (lower x0 (spacing / g.factor) g t >>= _) = .ok l from h)
  obtain ⟨hi, hhi, h⟩ := bind_ok.mp h
  injection h with h
  subst h
  obtain ⟨a1, a2, a3⟩ := lower_spec hmax hlo
  obtain ⟨b1, b2, b3⟩ := upper_spec hmax hhi
  generalize spacing / g.factor = fine at *
  have hposmono : ∀ {i j : Nat}, i ≤ j → pos x0 fine i ≤ pos x0 fine j := by
    intro i j hij
    unfold pos
    have : (i : K) ≤ (j : K) := by exact_mod_cast hij
    nlinarith
  have hin : ∀ k v, g.grid[k]? = some v → t < v → lo.1 ≤ pos x0 fine k ∧ pos x0 fine k ≤ hi.1 := by
    intro k v hk hv
    constructor
    · cases hb : lo.2 with
      | true => rw [a2 hb]; unfold pos; have : (0 : K) ≤ k := Nat.cast_nonneg k; nlinarith
      | false =>
        obtain ⟨i, ⟨a, b, e, -, -, he0, he1, hx, -⟩, -, hall⟩ := a3 hb
        have hik : i + 1 ≤ k := by
          refine Nat.lt_of_not_le (fun hc => ?_)
          exact absurd (hall k hc v hk) (not_le.mpr hv)
        have := hposmono hik
        have e2 : pos x0 fine (i + 1) = pos x0 fine i + fine := by unfold pos; push_cast; ring
        rw [hx]; nlinarith
    · cases hb : hi.2 with
      | true =>
        rw [b2 hb]
        have hkl : k < g.grid.length := (List.getElem?_eq_some_iff.mp hk).1
        exact hposmono (by omega)
      | false =>
        obtain ⟨i, ⟨a, b, e, -, -, he0, he1, hx, -⟩, -, hall⟩ := b3 hb
        have hik : k ≤ i := by
          refine Nat.le_of_not_lt (fun hc => ?_)
          exact absurd (hall k hc v hk) (not_le.mpr hv)
        have := hposmono hik
        rw [hx]; nlinarith
  refine ⟨a1, b1, ?_, ?_, hin, ?_⟩
  · cases hb : lo.2 with
    | true => rw [if_pos rfl]; exact a2 hb
    | false => rw [if_neg (by simp)]; obtain ⟨i, hi, -⟩ := a3 hb; exact ⟨i, hi⟩
  · cases hb : hi.2 with
    | true => rw [if_pos rfl]; exact b2 hb
    | false => rw [if_neg (by simp)]; obtain ⟨i, hi, -⟩ := b3 hb; exact ⟨i, hi⟩
  · obtain ⟨v, hv, hlt⟩ := hmax
    obtain ⟨k, hk, rfl⟩ := List.mem_iff_getElem.mp hv
    obtain ⟨h1, h2⟩ := hin k _ (List.getElem?_eq_getElem hk) hlt
    exact le_trans h1 h2

theorem trialOf_ok {g : LimGrid K} {target t : K} (h : trialOf g target = .ok t) :
    (target ≤ t ∧ g.sortgrid[0]? = some t) ∨ ∃ i s1 s2, g.sortgrid[i + 1]? = some s1 ∧ g.sortgrid[i + 2]? = some s2 ∧
      (g.sortgrid.take (i + 1)).sum < target ∧ target ≤ (g.sortgrid.take (i + 2)).sum ∧
      t = s1 + ((g.sortgrid.take (i + 2)).sum - target) / s1 * (s2 - s1) := by
  unfold trialOf at h
  dsimp only at h
  obtain ⟨g1, g2⟩ := searchsorted_spec target (cumsum g.sortgrid)
  generalize searchsorted (cumsum g.sortgrid) target = ix at h g1 g2
  obtain ⟨s1, hs1, h⟩ := bind_ok.mp h
  rw [pyGet_nat] at hs1
  have hlt : ix < g.sortgrid.length := (List.getElem?_eq_some_iff.mp hs1).1
  by_cases h0 : ix > 0
  · right
    rw [if_pos h0] at h
    obtain ⟨i, rfl⟩ : ∃ i, ix = i + 1 := ⟨ix - 1, by omega⟩
    obtain ⟨c1, hc1, h⟩ := bind_ok.mp h
    obtain ⟨c0, hc0, h⟩ := bind_ok.mp h
    obtain ⟨s2, hs2, h⟩ := bind_ok.mp h
    rw [pyGet_nat] at hc1
    rw [show ((i + 1 : Nat) : Int) - 1 = (i : Int) by omega, pyGet_nat] at hc0
    rw [show ((i + 1 : Nat) : Int) + 1 = ((i + 2 : Nat) : Int) by omega, pyGet_nat] at hs2
    have hle := g2 _ hc1
    rw [cumsum_get, if_pos hlt] at hc1
    obtain ⟨v, hv, hvlt⟩ := g1 i (by omega)
    rw [hc0] at hv
    rw [cumsum_get, if_pos (by omega)] at hc0
    injection hc1 with hc1; injection hc0 with hc0; injection hv with hv; injection h with h
    subst hc1; subst hc0; subst hv
    refine ⟨i, s1, s2, hs1, hs2, hvlt, hle, ?_⟩
    have e := take_succ_sum hs1
    rw [← h, show i + 2 = i + 1 + 1 from rfl, e]
    have : (List.take (i + 1) g.sortgrid).sum + s1 - (List.take (i + 1) g.sortgrid).sum = s1 := by ring
    rw [this]; ring
  · left
    rw [if_neg h0] at h
    injection h with he
    have hx : ix = 0 := by omega
    subst hx
    rw [← he]
    refine ⟨g2 s1 ?_, hs1⟩
    rw [cumsum_get, if_pos hlt]
    congr 1
    cases hg : g.sortgrid with
    | nil => rw [hg] at hs1; simp at hs1
    | cons a l => rw [hg] at hs1; simp at hs1; simp [hs1]

/-- **C67**, the density at the limits: it lies between the density `v` that encloses the wanted mass (the points of density at least `v` hold
more, those above `v` not more) and the next higher density of the grid.  Missing: it should lie on the lower side of `v`, to be decreasing
with the probability (`limits_not_monotone_fails`). -/
theorem trial_partial {g : LimGrid K} {target t : K} (hperm : g.sortgrid.Perm g.grid) (hsort : g.sortgrid.Pairwise (· ≤ ·))
    (hpos : ∀ v ∈ g.grid, 0 ≤ v) (h0 : ∃ v ∈ g.grid, v < target ∧ ∀ w ∈ g.grid, v ≤ w) (h : trialOf g target = .ok t) :
    ∃ v ∈ g.grid, ∃ w ∈ g.grid, v ≤ t ∧ t ≤ w ∧ (∀ u ∈ g.grid, v < u → w ≤ u) ∧
      g.grid.sum - target < massGe g.grid v ∧ massGt g.grid v ≤ g.grid.sum - target := by
  rcases trialOf_ok h with ⟨hle, hs⟩ | ⟨i, s1, s2, h1, h2, hlt, hle, ht⟩
  · exfalso
    obtain ⟨v, hv, hvt, hmin⟩ := h0
    have hts : t ∈ g.sortgrid := List.mem_of_getElem? hs
    have hvs := hperm.mem_iff.mpr hv
    have : t ≤ v := by
      cases hg : g.sortgrid with
      | nil => rw [hg] at hts; cases hts
      | cons a l =>
        rw [hg] at hs hvs hsort
        simp at hs
        subst hs
        rcases List.mem_cons.mp hvs with rfl | hvs
        · exact le_refl _
        · exact (List.pairwise_cons.mp hsort).1 v hvs
    linarith
  · have hposs : ∀ v ∈ g.sortgrid, 0 ≤ v := fun v hv => hpos v (hperm.mem_iff.mp hv)
    simp only [← massGe_perm hperm, ← massGt_perm hperm, ← hperm.mem_iff, ← hperm.sum_eq]
    obtain ⟨hi1, rfl⟩ := List.getElem?_eq_some_iff.mp h1
    obtain ⟨hi2, rfl⟩ := List.getElem?_eq_some_iff.mp h2
    have hget : ∀ k l (hk : k < g.sortgrid.length) (hl : l < g.sortgrid.length), k ≤ l → g.sortgrid[k] ≤ g.sortgrid[l] := by
      intro k l hk hl hkl
      rcases Nat.lt_or_ge k l with h | h
      · exact List.pairwise_iff_getElem.mp hsort k l hk hl h
      · have : k = l := by omega
        subst this; exact le_refl _
    obtain ⟨m1, m2⟩ := mass_at hsort hposs hi1
    have e := take_succ_sum h1
    have hs1 : 0 < g.sortgrid[i + 1] := by rw [show i + 1 + 1 = i + 2 from rfl] at e; linarith
    have h12 := hget (i + 1) (i + 2) hi1 hi2 (by omega)
    have hd0 : 0 ≤ ((g.sortgrid.take (i + 2)).sum - target) / g.sortgrid[i + 1] := div_nonneg (by linarith) hs1.le
    have hd1 : ((g.sortgrid.take (i + 2)).sum - target) / g.sortgrid[i + 1] ≤ 1 :=
      (div_le_one hs1).mpr (by rw [show i + 1 + 1 = i + 2 from rfl] at e; linarith)
    refine ⟨_, List.getElem_mem hi1, _, List.getElem_mem hi2, ?_, ?_, ?_, ?_, ?_⟩
    · rw [ht]; nlinarith
    · rw [ht]; nlinarith
    · intro u hu hvu
      obtain ⟨k, hk, rfl⟩ := List.mem_iff_getElem.mp hu
      refine hget (i + 2) k hi2 hk (Nat.lt_of_not_le (fun hc => ?_))
      exact absurd (hget k (i + 1) hk hi1 hc) (not_le.mpr hvu)
    · linarith
    · linarith

/-- the fine grid used in the examples: one point per density point -/
def exGrid (l : List ℚ) : LimGrid ℚ := mkGrid (fun l => (argsortQ l).map (fun i => l.getD i 0)) 1 l l

example : limitFor 0 8 1 (exGrid [0, 1, 3, 6, 10, 6, 3, 1, 0]) (19 / 20) = .ok ⟨3 / 2, 13 / 2, false, false⟩ ∧
    trialOf (exGrid [0, 1, 3, 6, 10, 6, 3, 1, 0]) ((1 - 19 / 20) * (exGrid [0, 1, 3, 6, 10, 6, 3, 1, 0]).norm) = .ok 2 ∧
    limitFor 0 4 1 (exGrid [6, 8, 3, 1, 0]) (9 / 10) = .ok ⟨0, 3 / 2, true, false⟩ := by decide +kernel

/-- **C67 fails**: the level is interpolated towards the wrong neighbour, so a larger probability can give a narrower interval -/
theorem limits_not_monotone_fails :
    limitFor 0 8 1 (exGrid [0, 1, 3, 6, 10, 6, 3, 1, 0]) (3 / 4) = .ok ⟨13 / 6, 35 / 6, false, false⟩ ∧
    limitFor 0 8 1 (exGrid [0, 1, 3, 6, 10, 6, 3, 1, 0]) (4 / 5) = .ok ⟨8 / 3, 16 / 3, false, false⟩ ∧
    (13 / 6 : ℚ) < 8 / 3 ∧ (16 / 3 : ℚ) < 35 / 6 := by decide +kernel

/-- **C67 fails** for small probabilities and for flat maxima: the search runs over the end of the array -/
theorem limits_index_fails : limitFor 0 8 1 (exGrid [0, 1, 3, 6, 10, 6, 3, 1, 0]) (1 / 5) = .error .indexError ∧
    limitFor 0 6 1 (exGrid [0, 2, 8, 8, 8, 2, 0]) (1 / 2) = .error .indexError := by decide +kernel

/-- no grid point above the level: the upper limit always ends in an `IndexError` -/
theorem upper_flat (x0 xl fine t : K) (g : LimGrid K) (hmax : ∀ v ∈ g.grid, v ≤ t) (hlast : ∀ v, g.grid.getLast? = some v → v < t) :
    upper x0 xl fine g t = .error .indexError := by
  unfold upper
  cases hl : pyGet g.grid (-1) with
  | error e =>
    have : e = .indexError := by
      unfold pyGet at hl
      split at hl
      · cases hl
      · injection hl with hl; exact hl.symm
    subst this; rfl
  | ok gl =>
    obtain ⟨h1, h2⟩ := pyGet_last.mp hl
    have hlt : gl < t := hlast gl (by rw [List.getLast?_eq_getElem?]; exact h1)
    show (if gl ≥ t then _ else _) = _
    rw [if_neg (not_le.mpr hlt)]
    have hz : argmaxB (g.grid.reverse.map (fun v => decide (v > t))) = 0 := by
      unfold argmaxB
      rw [if_neg]
      intro hm
      obtain ⟨v, hv, hd⟩ := List.mem_map.mp hm
      exact absurd (hmax v (List.mem_reverse.mp hv)) (not_le.mpr (by simpa using hd))
    rw [hz]
    have hlen : 0 < g.grid.length := List.length_pos_iff.mpr h2
    have e1 : (g.grid.length : Int) - ((0 : Nat) : Int) - 1 = ((g.grid.length - 1 : Nat) : Int) := by omega
    dsimp only
    rw [e1, show pyGet g.grid ((g.grid.length - 1 : Nat) : Int) = .ok gl from pyGet_nat.mpr h1]
    have : pyGet g.grid (((g.grid.length - 1 : Nat) : Int) + 1) = .error .indexError := by
      unfold pyGet
      rw [if_pos (by omega), show (((g.grid.length - 1 : Nat) : Int) + 1).toNat = g.grid.length by omega, List.getElem?_eq_none (le_refl _)]
    show (pyGet g.grid (((g.grid.length - 1 : Nat) : Int) + 1) >>= _) = _
    rw [this]; rfl

/-- **C67 fails** for a list of probabilities: only the first limit is returned -/
theorem list_argument_fails (x0 xl spacing : K) (g : LimGrid K) (p : K) (ps : List K) :
    getLimits x0 xl spacing g (.seq (p :: ps)) = getLimits x0 xl spacing g (.num p) := rfl

/-- for an array there is one result per probability, in order -/
theorem array_argument (x0 xl spacing : K) (g : LimGrid K) (ps : List K) (r : List (Limit K))
    (h : getLimits x0 xl spacing g (.arr ps) = .ok (.many r)) : List.Forall₂ (fun p l => limitFor x0 xl spacing g p = .ok l) ps r := by
  unfold getLimits at h
  obtain ⟨r', h1, h2⟩ := bind_ok.mp h
  injection h2 with h2
  injection h2 with h2
  subst h2
  exact mapM_ok _ h1

end Verif.Density
