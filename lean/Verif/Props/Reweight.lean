import Verif.Props.Stats
import Mathlib.Analysis.SpecialFunctions.Exp

/-!
# C18: importance reweighting and cooling compose

`exp` is any function with `exp (x + y) = exp x * exp y` and positive values; `Real.exp` is one.
-/

namespace Verif.Samples
open Verif.Py Verif.Py.Np Verif.Thin
set_option linter.unusedSectionVars false

variable {K : Type} [Field K] [LinearOrder K] [IsStrictOrderedRing K] [FloorRing K]

/-- the functional equation of the exponential -/
structure IsExp (exp : K → K) : Prop where
  add : ∀ x y, exp (x + y) = exp x * exp y
  pos : ∀ x, 0 < exp x

theorem IsExp.zero {exp : K → K} (h : IsExp exp) : exp 0 = 1 := by
  have := h.add 0 0
  rw [add_zero] at this
  have hp := (h.pos 0).ne'
  field_simp at this
  exact this.symm

/-- two weight vectors describe the same distribution: equal up to a positive factor -/
def SameDist (a b : WS K) : Prop :=
  ∃ c w, 0 < c ∧ b.weights = some w ∧ a.weights = some (w.map (c * ·)) ∧ a.samples = b.samples ∧
    a.loglikes = b.loglikes ∧ a.n = b.n ∧ a.numrows = b.numrows

theorem min?_shift (k : K) (l : List K) : min? (l.map (· + k)) = (min? l).map (· + k) := by
  cases l with
  | nil => rfl
  | cons a l =>
    simp only [List.map_cons, min?, Except.map, Except.ok.injEq]
    induction l generalizing a with
    | nil => rfl
    | cons b l ih =>
      simp only [List.map_cons, List.foldl_cons]
      rw [← ih, min_add_add_right]

theorem min?_isSome {l : List K} (h : l ≠ []) : ∃ m, min? l = .ok m := by
  cases l with
  | nil => exact absurd rfl h
  | cons a l => exact ⟨_, rfl⟩

theorem max?_isSome {l : List K} (h : l ≠ []) : ∃ m, max? l = .ok m := by
  cases l with
  | nil => exact absurd rfl h
  | cons a l => exact ⟨_, rfl⟩

theorem min?_spec {l : List K} {m : K} (h : min? l = .ok m) : m ∈ l ∧ ∀ x ∈ l, m ≤ x := by
  cases l with
  | nil => cases h
  | cons a l =>
    simp only [min?, Except.ok.injEq] at h
    subst h
    induction l generalizing a with
    | nil => simp
    | cons b l ih =>
      simp only [List.foldl_cons]
      obtain ⟨h1, h2⟩ := ih (min a b)
      constructor
      · rcases List.mem_cons.1 h1 with h | h
        · rw [h]
          rcases min_choice a b with h | h <;> rw [h] <;> simp
        · exact List.mem_cons_of_mem _ (List.mem_cons_of_mem _ h)
      · intro x hx
        rcases List.mem_cons.1 hx with rfl | hx
        · exact (h2 _ List.mem_cons_self).trans (min_le_left _ _)
        · rcases List.mem_cons.1 hx with rfl | hx
          · exact (h2 _ List.mem_cons_self).trans (min_le_right _ _)
          · exact h2 x (List.mem_cons_of_mem _ hx)

/-- what `reweight` does to the fields -/
theorem reweight_fields (exp : K → K) (s : WS K) (w ll : List K) (hw : s.weights = some w) (hlen : ll.length = w.length)
    (hl : ∀ l, s.loglikes = some l → l.length = w.length) (m : K) (hm : min? ll = .ok m) :
    ∃ s', reweight exp s ll = .ok s' ∧ s'.weights = some (List.zipWith (fun a b => a * exp (-(b - m))) w ll) ∧
      s'.loglikes = s.loglikes.map (fun l => List.zipWith (· + ·) l ll) ∧
      s'.samples = s.samples ∧ s'.n = s.n ∧ s'.numrows = s.numrows := by
  unfold reweight
  rw [hm, hw]
  simp only [bind, Except.bind, pure, Except.pure]
  cases hls : s.loglikes with
  | none =>
    simp only [broadcast, hlen, if_true]
    exact ⟨_, rfl, rfl, rfl, rfl, rfl, rfl⟩
  | some l =>
    simp only [broadcast, hlen, hl l hls, if_true]
    exact ⟨_, rfl, rfl, rfl, rfl, rfl, rfl⟩

/-- three equally long lists as projections of one list -/
theorem as_triples {a b c : List K} (h1 : b.length = a.length) (h2 : c.length = a.length) :
    ∃ d : List (K × K × K), a = d.map (·.1) ∧ b = d.map (·.2.1) ∧ c = d.map (·.2.2) := by
  refine ⟨a.zip (b.zip c), ?_, ?_, ?_⟩
  · exact (zip_fst (by simp [h1, h2])).symm
  · have e : (a.zip (b.zip c)).map (·.2) = b.zip c := zip_snd (by simp [h1, h2])
    calc b = (b.zip c).map (·.1) := (zip_fst (by omega)).symm
      _ = _ := by rw [← e, List.map_map]; rw [e]; rfl
  · have e : (a.zip (b.zip c)).map (·.2) = b.zip c := zip_snd (by simp [h1, h2])
    calc c = (b.zip c).map (·.2) := (zip_snd (by omega)).symm
      _ = _ := by rw [← e, List.map_map]; rw [e]; rfl

/-- reweighting by one likelihood and then another is reweighting by the sum, up to a global factor -/
theorem reweight_compose {exp : K → K} (he : IsExp exp) (s : WS K) (w a b : List K) (hw : s.weights = some w)
    (ha : a.length = w.length) (hb : b.length = w.length)
    (hl : ∀ l, s.loglikes = some l → l.length = w.length) (hne : w ≠ []) :
    ∃ s1 s2 s12, reweight exp s a = .ok s1 ∧ reweight exp s1 b = .ok s2 ∧
      reweight exp s (List.zipWith (· + ·) a b) = .ok s12 ∧ SameDist s2 s12 := by
  have hane : a ≠ [] := by intro h; rw [h] at ha; exact hne (List.length_eq_zero_iff.1 ha.symm)
  have hbne : b ≠ [] := by intro h; rw [h] at hb; exact hne (List.length_eq_zero_iff.1 hb.symm)
  obtain ⟨ma, hma⟩ := min?_isSome hane
  obtain ⟨mb, hmb⟩ := min?_isSome hbne
  have hsum : List.zipWith (· + ·) a b ≠ [] := by
    intro h
    have := congrArg List.length h
    simp only [List.length_zipWith, List.length_nil, ha, hb, min_self] at this
    exact hne (List.length_eq_zero_iff.1 this)
  obtain ⟨mab, hmab⟩ := min?_isSome hsum
  obtain ⟨s1, e1, w1, l1, x1, n1, r1⟩ := reweight_fields exp s w a hw ha hl ma hma
  obtain ⟨s2, e2, w2, l2, x2, n2, r2⟩ := reweight_fields exp s1 _ b w1 (by simp [ha, hb]) (by
    intro l h
    rw [l1] at h
    cases hs : s.loglikes with
    | none => rw [hs] at h; cases h
    | some l0 => rw [hs] at h; cases h; simp [hl l0 hs, ha]) mb hmb
  obtain ⟨s12, e12, w12, l12, x12, n12, r12⟩ := reweight_fields exp s w (List.zipWith (· + ·) a b) hw
    (by simp [ha, hb]) hl mab hmab
  refine ⟨s1, s2, s12, e1, e2, e12, exp (ma + mb - mab), _, he.pos _, w12, ?_, ?_, ?_, ?_, ?_⟩
  · rw [w2]
    congr 1
    obtain ⟨d, rfl, rfl, rfl⟩ := as_triples ha hb
    simp only [List.zipWith_map, List.zipWith_self, List.map_map, Function.comp_def]
    apply List.map_congr_left
    intro p _
    have : ∀ u v x : K, x * exp (-(u - ma)) * exp (-(v - mb)) = exp (ma + mb - mab) * (x * exp (-(u + v - mab))) := by
      intro u v x
      have e1 : exp (-(u - ma)) * exp (-(v - mb)) = exp (ma + mb - mab) * exp (-(u + v - mab)) := by
        rw [← he.add, ← he.add]; congr 1; ring
      calc _ = x * (exp (-(u - ma)) * exp (-(v - mb))) := by ring
        _ = _ := by rw [e1]; ring
    exact this _ _ _
  · rw [x2, x1, x12]
  · rw [l2, l1, l12]
    cases hs : s.loglikes with
    | none => rfl
    | some l =>
      simp only [Option.map_some]
      congr 1
      obtain ⟨d, h1, h2, h3⟩ := as_triples (a := l) (b := a) (c := b) (by rw [ha, hl l hs]) (by rw [hb, hl l hs])
      rw [h1, h2, h3]
      simp only [List.zipWith_map, List.zipWith_self]
      apply List.map_congr_left
      intro p _; ring
  · rw [n2, n1, n12]
  · rw [r2, r1, r12]

/-- a constant added to every log likelihood does not change the weights -/
theorem reweight_offset (exp : K → K) (s : WS K) (w a : List K) (hw : s.weights = some w)
    (ha : a.length = w.length) (hl : ∀ l, s.loglikes = some l → l.length = w.length) (hne : w ≠ []) (k : K) :
    ∃ s1 s2, reweight exp s a = .ok s1 ∧ reweight exp s (a.map (· + k)) = .ok s2 ∧ s1.weights = s2.weights ∧
      s1.samples = s2.samples := by
  have hane : a ≠ [] := by intro h; rw [h] at ha; exact hne (List.length_eq_zero_iff.1 ha.symm)
  obtain ⟨m, hm⟩ := min?_isSome hane
  obtain ⟨s1, e1, w1, l1, x1, n1, r1⟩ := reweight_fields exp s w a hw ha hl m hm
  obtain ⟨s2, e2, w2, l2, x2, n2, r2⟩ := reweight_fields exp s w (a.map (· + k)) hw (by simp [ha]) hl (m + k)
    (by rw [min?_shift, hm]; rfl)
  refine ⟨s1, s2, e1, e2, ?_, by rw [x1, x2]⟩
  rw [w1, w2]
  congr 1
  rw [List.zipWith_map_right]
  congr 1
  funext x y
  congr 2; ring

/-- the weights are multiplied by the likelihood: ratios follow, and the best sample keeps its weight -/
theorem reweight_ratio {exp : K → K} (he : IsExp exp) (s : WS K) (w a : List K) (hw : s.weights = some w)
    (ha : a.length = w.length) (hl : ∀ l, s.loglikes = some l → l.length = w.length) (hne : w ≠ []) :
    ∃ s' w', reweight exp s a = .ok s' ∧ s'.weights = some w' ∧ w'.length = w.length ∧
      (∀ i j : Fin w.length, ∀ wi' wj' ai aj, w'[i.1]? = some wi' → w'[j.1]? = some wj' → a[i.1]? = some ai →
        a[j.1]? = some aj → wi' * (w[j] * exp (-aj)) = wj' * (w[i] * exp (-ai))) ∧
      ∃ i : Fin w.length, w'[i.1]? = some w[i] := by
  have hane : a ≠ [] := by intro h; rw [h] at ha; exact hne (List.length_eq_zero_iff.1 ha.symm)
  obtain ⟨m, hm⟩ := min?_isSome hane
  obtain ⟨s1, e1, w1, -⟩ := reweight_fields exp s w a hw ha hl m hm
  refine ⟨s1, _, e1, w1, by simp [ha], ?_, ?_⟩
  · intro i j wi' wj' ai aj h1 h2 h3 h4
    simp only [List.getElem?_zipWith, h3, h4, List.getElem?_eq_getElem i.2, List.getElem?_eq_getElem j.2,
      Option.some.injEq] at h1 h2
    rw [← h1, ← h2]
    have e1 : exp (-(ai - m)) * exp (-aj) = exp (-(aj - m)) * exp (-ai) := by
      rw [← he.add, ← he.add]; congr 1; ring
    simp only [Fin.getElem_fin]
    calc _ = w[i.1] * w[j.1] * (exp (-(ai - m)) * exp (-aj)) := by ring
      _ = _ := by rw [e1]; ring
  · obtain ⟨i, hi, hmi⟩ := List.getElem_of_mem (min?_spec hm).1
    refine ⟨⟨i, by omega⟩, ?_⟩
    simp only [List.getElem?_zipWith, List.getElem?_eq_getElem hi, List.getElem?_eq_getElem (show i < w.length by omega), hmi]
    simp [he.zero]

/-- what `cool` does to the fields -/
theorem cool_fields (exp : K → K) (s : WS K) (w l : List K) (c : K) (hw : s.weights = some w) (hl : s.loglikes = some l)
    (hlen : l.length = w.length) (m : K) (hm : max? l = .ok m) :
    ∃ s', cool exp s c = .ok s' ∧
      s'.weights = some (List.zipWith (fun a b => a * exp (-(b * c - b) - m * (1 - c))) w l) ∧
      s'.loglikes = some (l.map (· * c)) ∧ s'.samples = s.samples ∧ s'.n = s.n ∧ s'.numrows = s.numrows := by
  unfold cool
  rw [hl, hw]
  simp only [hm, bind, Except.bind, pure, Except.pure]
  have e : List.zipWith (fun nl ol => exp (-(nl - ol) - m * (1 - c))) (l.map (· * c)) l =
      l.map (fun b => exp (-(b * c - b) - m * (1 - c))) := by
    rw [List.zipWith_map_left, List.zipWith_self]
  rw [e]
  simp only [broadcast, List.length_map, hlen, if_true]
  refine ⟨_, rfl, ?_, rfl, rfl, rfl, rfl⟩
  simp only [weightsChanged]
  rw [List.zipWith_map_right]

/-- cooling by `c1` and then `c2` is cooling by `c1 * c2` -/
theorem cool_compose {exp : K → K} (he : IsExp exp) (s : WS K) (w l : List K) (c1 c2 : K) (hw : s.weights = some w)
    (hl : s.loglikes = some l) (hlen : l.length = w.length) (hne : w ≠ []) :
    ∃ s1 s2 s12, cool exp s c1 = .ok s1 ∧ cool exp s1 c2 = .ok s2 ∧ cool exp s (c1 * c2) = .ok s12 ∧ SameDist s2 s12 := by
  have hlne : l ≠ [] := by intro h; rw [h] at hlen; exact hne (List.length_eq_zero_iff.1 hlen.symm)
  obtain ⟨m, hm⟩ := max?_isSome hlne
  obtain ⟨m2, hm2⟩ := max?_isSome (l := l.map (· * c1)) (by simpa using hlne)
  obtain ⟨s1, e1, w1, l1, x1, n1, r1⟩ := cool_fields exp s w l c1 hw hl hlen m hm
  obtain ⟨s2, e2, w2, l2, x2, n2, r2⟩ := cool_fields exp s1 _ _ c2 w1 l1 (by simp [hlen]) m2 hm2
  obtain ⟨s12, e12, w12, l12, x12, n12, r12⟩ := cool_fields exp s w l (c1 * c2) hw hl hlen m hm
  refine ⟨s1, s2, s12, e1, e2, e12, exp (m * (1 - c1 * c2) - m * (1 - c1) - m2 * (1 - c2)), _, he.pos _, w12,
    ?_, ?_, ?_, ?_, ?_⟩
  · rw [w2]
    congr 1
    obtain ⟨d, rfl, rfl, -⟩ := as_triples hlen hlen
    simp only [List.zipWith_map, List.zipWith_self, List.map_map, Function.comp_def]
    apply List.map_congr_left
    intro p _
    generalize p.1 = x
    generalize p.2.1 = u
    have e1 : exp (-(u * c1 - u) - m * (1 - c1)) * exp (-(u * c1 * c2 - u * c1) - m2 * (1 - c2)) =
        exp (m * (1 - c1 * c2) - m * (1 - c1) - m2 * (1 - c2)) * exp (-(u * (c1 * c2) - u) - m * (1 - c1 * c2)) := by
      rw [← he.add, ← he.add]; congr 1; ring
    calc _ = x * (exp (-(u * c1 - u) - m * (1 - c1)) * exp (-(u * c1 * c2 - u * c1) - m2 * (1 - c2))) := by ring
      _ = _ := by rw [e1]; ring
  · rw [x2, x1, x12]
  · rw [l2, l12, List.map_map]
    congr 1
    apply List.map_congr_left
    intro x _
    simp only [Function.comp_apply]; ring
  · rw [n2, n1, n12]
  · rw [r2, r1, r12]

/-- cooling by one changes nothing -/
theorem cool_one {exp : K → K} (he : IsExp exp) (s : WS K) (w l : List K) (hw : s.weights = some w)
    (hl : s.loglikes = some l) (hlen : l.length = w.length) (hne : w ≠ []) :
    ∃ s', cool exp s 1 = .ok s' ∧ s'.weights = s.weights ∧ s'.loglikes = s.loglikes ∧ s'.samples = s.samples := by
  have hlne : l ≠ [] := by intro h; rw [h] at hlen; exact hne (List.length_eq_zero_iff.1 hlen.symm)
  obtain ⟨m, hm⟩ := max?_isSome hlne
  obtain ⟨s1, e1, w1, l1, x1, n1, r1⟩ := cool_fields exp s w l 1 hw hl hlen m hm
  refine ⟨s1, e1, ?_, ?_, x1⟩
  · rw [w1, hw]
    congr 1
    obtain ⟨d, rfl, rfl, -⟩ := as_triples hlen hlen
    simp only [List.zipWith_map, List.zipWith_self]
    apply List.map_congr_left
    intro p _
    simp [he.zero]
  · rw [l1, hl]; simp

/-- equal distributions give equal weighted means, variances and covariances -/
theorem sameDist_stats {a b : WS K} (h : SameDist a b) {sqrt : K → K} {hasL : Bool} {n : Nat} {ra rb : List (Row K)}
    (hra : Rep a hasL n ra) (hrb : Rep b hasL n rb) (fa : Fresh sqrt a n ra) (fb : Fresh sqrt b n rb)
    (v : List K) (hv : v.length = rb.length) :
    mean a (.vec v) none = mean b (.vec v) none ∧ var a (.vec v) none = var b (.vec v) none := by
  obtain ⟨c, w, hc, h1, h2, -⟩ := h
  rw [hrb.weights] at h1
  rw [hra.weights] at h2
  injection h1 with h1
  injection h2 with h2
  have hlen : ra.length = rb.length := by
    have := congrArg List.length h2
    rw [← h1] at this
    simpa using this
  rw [mean_eq hra fa _ v rfl (by omega), mean_eq hrb fb _ v rfl hv, var_eq hra fa _ v rfl (by omega),
    var_eq hrb fb _ v rfl hv, h2, h1]
  have : (w.map (c * ·)).zip v = (w.zip v).map (fun p => (c * p.1, p.2)) := by
    rw [List.zip_map_left]; rfl
  rw [this]
  simp only [chosen, Except.map, wmean_rescale hc.ne', wvar_rescale hc.ne', and_self]

/-- the hypotheses are met by the real exponential -/
theorem isExp_real : IsExp Real.exp := ⟨Real.exp_add, Real.exp_pos⟩

example : ∃ s1 s2 s12, reweight Real.exp ({ weights := some [1, 2], loglikes := some [3, 4] } : WS ℝ) [1, 5] = .ok s1 ∧
    reweight Real.exp s1 [2, -7] = .ok s2 ∧
    reweight Real.exp ({ weights := some [1, 2], loglikes := some [3, 4] } : WS ℝ) [1 + 2, 5 + -7] = .ok s12 ∧
    SameDist s2 s12 := by
  refine reweight_compose isExp_real _ [1, 2] [1, 5] [2, -7] rfl rfl rfl ?_ (by simp)
  intro l h; cases h; rfl

example : ∃ s1 s2 s12, cool Real.exp ({ weights := some [1, 2], loglikes := some [3, 4] } : WS ℝ) 2 = .ok s1 ∧
    cool Real.exp s1 (1/2) = .ok s2 ∧
    cool Real.exp ({ weights := some [1, 2], loglikes := some [3, 4] } : WS ℝ) (2 * (1/2)) = .ok s12 ∧ SameDist s2 s12 :=
  cool_compose isExp_real _ [1, 2] [3, 4] 2 (1/2) rfl rfl rfl (by simp)

/-- powers of two on integers as exponential -/
example : reweight (fun x : ℚ => 2 ^ x.floor) ({ weights := some [3, 5], loglikes := some [1, 1], norm := some 8 } : WS ℚ) [4, 6] =
    .ok { weights := some [3, 5/4], loglikes := some [5, 7], norm := some (17/4) } := by decide +kernel

end Verif.Samples
