import Verif.Props.GaussMix

/-!
# Gaussian mixtures: fewer parameters, known parameters, ranges, random samples
-/

namespace Verif.GaussMix
open Verif.Py Matrix Real MeasureTheory

set_option linter.unusedSectionVars false

/-! ### names and limits -/

theorem resolveAll_spec {d : Nat} (M : Mix d) (ps : List Par) (l : List (Fin d)) (h : resolveAll M ps = .ok l) :
    List.Forall₂ (fun p i => resolve M p = .ok i) ps l := by
  induction ps generalizing l with
  | nil => injection h with h; subst h; exact .nil
  | cons p ps ih =>
    unfold resolveAll at h
    simp only [bind, Except.bind] at h
    cases h1 : resolve M p with
    | error e => rw [h1] at h; cases h
    | ok i =>
      rw [h1] at h
      simp only at h
      cases h2 : resolveAll M ps with
      | error e => rw [h2] at h; cases h
      | ok r =>
        rw [h2] at h
        injection h with h
        subst h
        exact .cons h1 (ih r h2)

/-- A parameter may be given by its name or its number. -/
theorem resolve_spec {d : Nat} (M : Mix d) (i : Fin d) (hn : M.names.Nodup) (hi : i.val < M.names.length) :
    resolve M (.name M.names[i.val]) = .ok i ∧ resolve M (.idx i) = .ok i := by
  unfold resolve
  constructor
  · have h1 : M.names.idxOf M.names[i.val] = i.val := hn.idxOf_getElem i.val hi
    simp only [if_pos (List.getElem_mem hi), h1, i.2, dite_true]
  · simp only [i.2, dite_true]

example : resolve exM (.name c!"y") = .ok 1 ∧ resolve exM (.idx 1) = .ok 1 := resolve_spec exM 1 (by decide) (by decide)

theorem pick_spec {α : Type} {d : Nat} (l : List α) (is : List (Fin d)) (r : List α) (h : pick l is = .ok r) :
    List.Forall₂ (fun (i : Fin d) a => l[i.val]? = some a) is r := by
  induction is generalizing r with
  | nil => injection h with h; subst h; exact .nil
  | cons i is ih =>
    unfold pick at h
    cases h1 : l[i.val]? with
    | none => rw [h1] at h; cases h
    | some a =>
      rw [h1] at h
      simp only [bind, Except.bind] at h
      cases h2 : pick l is with
      | error e => rw [h2] at h; cases h
      | ok r' =>
        rw [h2] at h
        injection h with h
        subst h
        exact .cons h1 (ih r' h2)

example : pick [c!"x", c!"y", c!"z"] ([2, 0] : List (Fin 3)) = .ok [c!"z", c!"x"] ∧ pick [c!"x"] ([2] : List (Fin 3)) = .error .indexError := by decide

/-- Parameters can be integrated out exactly if they have no limits. -/
theorem checkNoLimits_spec {d : Nat} (M : Mix d) (keep : List (Fin d)) :
    checkNoLimits M keep = .ok () ↔
      ∀ l, M.lims = some l → ∀ (i : Nat) (lim : Lim), l[i]? = some lim → (∀ k ∈ keep, k.val ≠ i) → lim = (none, none) := by
  unfold checkNoLimits
  cases hl : M.lims with
  | none => simp
  | some l =>
    simp only [Option.some.injEq, forall_eq']
    constructor
    · intro h i lim hi hk
      split at h
      · cases h
      · rename_i hn
        rw [Bool.not_eq_true, List.any_eq_false] at hn
        have := hn (lim, i) (List.mem_zipIdx_iff_getElem?.mpr hi)
        have hc : (keep.map Fin.val).contains i = false := by
          rw [Bool.eq_false_iff, ne_eq, List.contains_iff_mem, List.mem_map]
          rintro ⟨k, hk1, hk2⟩
          exact hk k hk1 hk2
        simp only [hc, Bool.not_false, Bool.true_and, Bool.or_eq_true, not_or, Option.not_isSome_iff_eq_none] at this
        exact Prod.ext this.1 this.2
    · intro h
      rw [if_neg]
      rw [Bool.not_eq_true, List.any_eq_false]
      rintro ⟨lim, i⟩ hm
      have hi := List.mem_zipIdx_iff_getElem?.mp hm
      simp only at hi ⊢
      by_cases hk : ∀ k ∈ keep, k.val ≠ i
      · rw [h i lim hi hk]; simp
      · push Not at hk
        obtain ⟨k, hk1, hk2⟩ := hk
        have : (keep.map Fin.val).contains i = true := by
          rw [List.contains_iff_mem, List.mem_map]; exact ⟨k, hk1, hk2⟩
        simp only [this]
        simp

example : checkNoLimits { exM with lims := some [(none, none), (some 0, none)] } [1] = .ok () ∧
    checkNoLimits { exM with lims := some [(none, none), (some 0, none)] } [0] ≠ .ok () := by
  refine ⟨?_, ?_⟩
  · rw [checkNoLimits_spec]
    rintro l hl i lim hi hk
    cases hl
    match i with
    | 0 => exact (Option.some.inj hi).symm
    | 1 => exact absurd rfl (hk 1 (by simp))
    | i + 2 => simp at hi
  · rw [Ne, checkNoLimits_spec]
    intro h
    have := h _ rfl 1 (some 0, none) rfl (by simp)
    simp at this

/-! ### fewer parameters -/

theorem comps_map {d m : Nat} (M : Mix d) (R : Mix m) (f : (Fin d → ℝ) → Fin m → ℝ)
    (g : Matrix (Fin d) (Fin d) ℝ → Matrix (Fin m) (Fin m) ℝ) (h1 : R.means = M.means.map f) (h2 : R.covs = M.covs.map g)
    (h3 : R.weights = M.weights) : R.comps = M.comps.map fun c => (f c.1, g c.2.1, c.2.2) := by
  unfold Mix.comps
  rw [h1, h2, h3]
  conv_lhs => rw [← List.map_id M.weights, List.zip_map, List.zip_map]
  rfl

theorem marginalized_ok {d : Nat} (M : Mix d) (params : Option (List Par)) (flag : Bool) (r : (m : Nat) × Mix m)
    (h : marginalized M params flag = .ok r) :
    ∃ l names lims, indices M params = .ok l ∧ (flag = true ∨ checkNoLimits M l = .ok ()) ∧ pick M.names l = .ok names ∧
      (M.lims = none → lims = none) ∧ (∀ ls, M.lims = some ls → ∃ ls', lims = some ls' ∧ pick ls l = .ok ls') ∧
      ∃ R : Mix l.length, r = ⟨l.length, R⟩ ∧ make (M.means.map fun m => m ∘ l.get) (M.covs.map fun c => c.submatrix l.get l.get)
        (some M.weights) (lims2 l.length lims) (some names) = .ok R := by
  unfold marginalized at h
  simp only [bind, Except.bind] at h
  cases h1 : indices M params with
  | error e => rw [h1] at h; cases h
  | ok l =>
    rw [h1] at h
    simp only at h
    cases h2 : checkUnless flag M l with
    | error e => rw [h2] at h; cases h
    | ok u =>
    rw [h2] at h
    simp only at h
    have hf : flag = true ∨ checkNoLimits M l = .ok () := by
      unfold checkUnless at h2
      by_cases hf : flag = true
      · exact .inl hf
      · rw [if_neg hf] at h2; exact .inr h2
    cases h3 : pick M.names l with
    | error e => rw [h3] at h; cases h
    | ok names =>
      rw [h3] at h
      simp only at h
      cases h4 : pickLims M.lims l with
      | error e => rw [h4] at h; cases h
      | ok lims =>
        rw [h4] at h
        simp only at h
        split at h
        · cases h
        · rename_i R hR
          injection h with h
          refine ⟨l, names, lims, rfl, hf, h3, ?_, ?_, R, h.symm, hR⟩
          · intro e; rw [e] at h4; injection h4 with h4; exact h4.symm
          · intro ls e
            rw [e] at h4
            unfold pickLims at h4
            simp only [bind, Except.bind] at h4
            cases h5 : pick ls l with
            | error e => rw [h5] at h4; cases h4
            | ok ls' => rw [h5] at h4; injection h4 with h4; exact ⟨ls', h4.symm, rfl⟩

/-- The mixture of some of the parameters has the density of the whole one with the other parameters integrated out, and the names
and limits of these parameters; parameters with limits are not integrated out unless asked for. -/
theorem marginalized_spec {d : Nat} (M : Mix d) (hM : Proper M) (params : Option (List Par)) (flag : Bool) (r : (m : Nat) × Mix m)
    (h : marginalized M params flag = .ok r) :
    ∃ l, indices M params = .ok l ∧ (flag = true ∨ checkNoLimits M l = .ok ()) ∧ ∃ R : Mix l.length, r = ⟨l.length, R⟩ ∧
      (l.Nodup → Proper R ∧ ∀ x, pdf R x = Marginal M l.get x) ∧ pick M.names l = .ok R.names ∧
      (∀ ls, M.lims = some ls → ∃ ls', R.lims = some ls' ∧ pick ls l = .ok ls') ∧
      (M.lims = none → ∀ ls, R.lims = some ls → ∀ x ∈ ls, x = (none, none)) ∧ (l.length = 2 → R.lims ≠ none) := by
  obtain ⟨l, names, lims, h1, hf, h2, h3, h4, R, hr, hm⟩ := marginalized_ok M params flag r h
  obtain ⟨e1, e2, e3, e4, -, e6, -, e8⟩ := make_spec _ _ _ _ _ _ hm
  have hw : R.weights = M.weights := by
    rw [(e6 _ rfl).2, hM.2.2.2]
    simp
  refine ⟨l, h1, hf, R, hr, ?_, by rw [e8 _ rfl]; exact h2, ?_, ?_, ?_⟩
  · intro hnd
    have hinj : Function.Injective l.get := List.nodup_iff_injective_get.mp hnd
    have hP : Proper R := by
      refine make_proper _ _ _ _ _ _ hm ?_ (by simp [hM.2.1])
      intro c hc
      obtain ⟨c', hc', rfl⟩ := List.mem_map.mp hc
      exact (hM.1 _ hc').submatrix hinj
    refine ⟨hP, fun x => ?_⟩
    rw [marginal_sum M hM _ hinj]
    unfold pdf
    rw [comps_map M R _ _ e1 e2 hw, List.map_map]
    rfl
  · intro ls hls
    obtain ⟨ls', hl', hp⟩ := h4 ls hls
    refine ⟨ls', ?_, hp⟩
    rw [e3, hl']
    unfold lims2
    split <;> rfl
  · intro hn ls hls x hx
    rw [e3, h3 hn] at hls
    unfold lims2 at hls
    split at hls
    · simp only [Option.getD_none, Option.some.injEq] at hls
      subst hls
      simpa using hx
    · cases hls
  · intro h2
    rw [e3, lims2, if_pos h2]
    simp

example (r : (m : Nat) × Mix m) (h : marginalized exM (some [.name c!"y"]) false = .ok r) :
    ∃ R : Mix 1, r = ⟨1, R⟩ ∧ R.names = [c!"y"] ∧ ∀ x, pdf R x = Marginal exM ![1] x := by
  obtain ⟨l, hl, -, R, rfl, hp, hn, -⟩ := marginalized_spec exM exM_proper _ _ r h
  have e : l = [1] := by
    have : indices exM (some [.name c!"y"]) = .ok [1] := by decide
    rw [this] at hl
    exact (Except.ok.inj hl).symm
  subst e
  refine ⟨R, rfl, ?_, ?_⟩
  · have : pick exM.names ([1] : List (Fin 2)) = .ok [c!"y"] := by decide
    rw [this] at hn
    exact (Except.ok.inj hn).symm
  · intro x
    rw [(hp (by decide)).2 x]
    congr 1
    ext i
    match i with | 0 => rfl

/-! ### known parameters -/

/-- a choice of all numbers, in two parts -/
noncomputable def both {d p q : Nat} (f : Fin p → Fin d) (k : Fin q → Fin d) (h : Function.Bijective (Sum.elim f k)) :
    Fin p ⊕ Fin q ≃ Fin d := Equiv.ofBijective _ h

/-- For each component the new mean and covariance are those of the remaining parameters when the others are known: the density is that
of the known ones times the new one. -/
theorem cond_spec {d p q : Nat} (mean : Fin d → ℝ) (cov : Matrix (Fin d) (Fin d) ℝ) (hC : cov.PosDef) (f : Fin p → Fin d)
    (k : Fin q → Fin d) (hb : Function.Bijective (Sum.elim f k)) (z : Fin d → ℝ) :
    density mean cov z = density (mean ∘ f) (cov.submatrix f f) (z ∘ f) *
      density (condMean mean cov f k (z ∘ f)) (condCov cov f k) (z ∘ k) := by
  set e := both f k hb
  have hCe : (cov.submatrix e e).PosDef := hC.submatrix e.injective
  have h11 : (cov.submatrix e e).toBlocks₁₁ = cov.submatrix f f := by ext i j; rfl
  have hi : (cov.submatrix e e)⁻¹ = cov⁻¹.submatrix e e := inv_submatrix_equiv _ _ _
  have h22 : (cov.submatrix e e)⁻¹.toBlocks₂₂ = cov⁻¹.submatrix k k := by rw [hi]; ext i j; rfl
  have h21 : (cov.submatrix e e)⁻¹.toBlocks₂₁ = cov⁻¹.submatrix k f := by rw [hi]; ext i j; rfl
  rw [density_eq, density_eq, density_eq, ← Gauss.normal_reindex e]
  have hz : (z - mean) ∘ e = Sum.elim (z ∘ f - mean ∘ f) (z ∘ k - mean ∘ k) := by
    funext s; rcases s with i | j <;> rfl
  rw [hz, Gauss.normal_split _ hCe, h11, h22, h21]
  congr 2
  unfold condMean condCov
  rw [mulVec_mulVec]
  abel

example (z : Fin 2 → ℝ) : density ![1, 2] ((2 : ℝ) • 1) z =
    density (![1, 2] ∘ ![0]) (((2 : ℝ) • (1 : Matrix (Fin 2) (Fin 2) ℝ)).submatrix ![0] ![0]) (z ∘ ![0]) *
      density (condMean ![1, 2] ((2 : ℝ) • 1) ![0] ![1] (z ∘ ![0])) (condCov ((2 : ℝ) • (1 : Matrix (Fin 2) (Fin 2) ℝ)) ![0] ![1]) (z ∘ ![1]) :=
  cond_spec ![1, 2] ((2 : ℝ) • 1) (PosDef.one.smul (by norm_num)) ![0] ![1] (by decide) z

theorem keep_bijective {d : Nat} (l : List (Fin d)) (hl : l.Nodup) :
    Function.Bijective (Sum.elim l.get ((List.finRange d).filter (· ∉ l)).get) := by
  have hk : ((List.finRange d).filter (· ∉ l)).Nodup := (List.nodup_finRange d).filter _
  constructor
  · rintro (a | a) (b | b) hab
    · exact congrArg Sum.inl (List.nodup_iff_injective_get.mp hl hab)
    · exfalso
      have h1 := List.get_mem ((List.finRange d).filter (· ∉ l)) b
      simp only [Sum.elim_inl, Sum.elim_inr] at hab
      rw [← hab, List.mem_filter] at h1
      exact (of_decide_eq_true h1.2) (List.get_mem l a)
    · exfalso
      have h1 := List.get_mem ((List.finRange d).filter (· ∉ l)) a
      simp only [Sum.elim_inl, Sum.elim_inr] at hab
      rw [hab, List.mem_filter] at h1
      exact (of_decide_eq_true h1.2) (List.get_mem l b)
    · exact congrArg Sum.inr (List.nodup_iff_injective_get.mp hk hab)
  · intro j
    by_cases hj : j ∈ l
    · obtain ⟨i, hi⟩ := List.mem_iff_get.mp hj
      exact ⟨.inl i, hi⟩
    · have : j ∈ (List.finRange d).filter (· ∉ l) := List.mem_filter.mpr ⟨List.mem_finRange j, decide_eq_true hj⟩
      obtain ⟨i, hi⟩ := List.mem_iff_get.mp this
      exact ⟨.inr i, hi⟩

theorem conditional_ok {d : Nat} (M : Mix d) (fixed : List Par) (values : (p : Nat) → Fin p → ℝ) (r : (m : Nat) × Mix m)
    (h : conditional M fixed values = .ok r) :
    ∃ l, indices M (some fixed) = .ok l ∧ checkNoLimits M l = .ok () ∧ keepOf l ≠ [] ∧ ∃ names, pick M.names (keepOf l) = .ok names ∧
      ∃ R : Mix (keepOf l).length, r = ⟨_, R⟩ ∧
      make (M.comps.map fun c => condMean c.1 c.2.1 l.get (keepOf l).get (values l.length))
        (M.comps.map fun c => condCov c.2.1 l.get (keepOf l).get)
        (some ((M.comps.map fun c => condLog c.1 c.2.1 l.get (keepOf l).get (values l.length)).map fun g =>
          exp (-(g - minimum (M.comps.map fun c => condLog c.1 c.2.1 l.get (keepOf l).get (values l.length))) / 2)))
        none (some names) = .ok R := by
  unfold conditional at h
  simp only [bind, Except.bind] at h
  cases h1 : indices M (some fixed) with
  | error e => rw [h1] at h; cases h
  | ok l =>
    rw [h1] at h
    simp only at h
    cases h2 : checkNoLimits M l with
    | error e => rw [h2] at h; cases h
    | ok u =>
      rw [h2] at h
      simp only at h
      by_cases hk : keepOf l = []
      · rw [if_pos hk] at h; cases h
      · rw [if_neg hk] at h
        cases h3 : pick M.names (keepOf l) with
        | error e => rw [h3] at h; cases h
        | ok names =>
          rw [h3] at h
          simp only at h
          split at h
          · cases h
          · rename_i R hR
            injection h with h
            exact ⟨l, rfl, h2, hk, names, h3, R, h.symm, hR⟩

/-- With several components each one becomes the one for known parameters. -/
theorem conditional_comps {d : Nat} (M : Mix d) (hM : Proper M) (fixed : List Par) (values : (p : Nat) → Fin p → ℝ)
    (r : (m : Nat) × Mix m) (h : conditional M fixed values = .ok r) :
    ∃ l, indices M (some fixed) = .ok l ∧ ∃ R : Mix (keepOf l).length, r = ⟨_, R⟩ ∧ R.means.length = M.comps.length ∧
      (l.Nodup → Proper R ∧ ∀ (i : Nat) (c : Comp d), M.comps[i]? = some c → ∃ m C, R.means[i]? = some m ∧ R.covs[i]? = some C ∧
        ∀ z : Fin d → ℝ, z ∘ l.get = values l.length →
          density c.1 c.2.1 z = density (c.1 ∘ l.get) (c.2.1.submatrix l.get l.get) (z ∘ l.get) * density m C (z ∘ (keepOf l).get)) := by
  obtain ⟨l, h1, h2, h3, names, h4, R, hr, hm⟩ := conditional_ok M fixed values r h
  obtain ⟨e1, e2, -⟩ := make_spec _ _ _ _ _ _ hm
  refine ⟨l, h1, R, hr, by rw [e1, List.length_map], fun hnd => ⟨?_, ?_⟩⟩
  · refine make_proper _ _ _ _ _ _ hm ?_ (by simp)
    intro c' hc'
    obtain ⟨c'', hc'', rfl⟩ := List.mem_map.mp hc'
    exact ((comps_posDef M hM _ hc'').inv.submatrix (List.nodup_iff_injective_get.mp ((List.nodup_finRange d).filter _))).inv
  · intro i c hi
    refine ⟨_, _, by rw [e1, List.getElem?_map, hi]; rfl, by rw [e2, List.getElem?_map, hi]; rfl, fun z hz => ?_⟩
    simp only
    rw [← hz]
    exact cond_spec c.1 c.2.1 (comps_posDef M hM c (List.mem_of_getElem? hi)) l.get (keepOf l).get (keep_bijective l hnd) z

example (r : (m : Nat) × Mix m) (h : conditional exM [.name c!"x"] (fun _ _ => 3) = .ok r) :
    ∃ R : Mix (keepOf ([0] : List (Fin 2))).length, r = ⟨_, R⟩ ∧ R.means.length = 2 ∧ Proper R := by
  obtain ⟨l, hl, R, rfl, hm, hp⟩ := conditional_comps exM exM_proper _ _ r h
  have e : l = [0] := by
    have : indices exM (some [.name c!"x"]) = .ok [0] := by decide
    rw [this] at hl
    exact (Except.ok.inj hl).symm
  subst e
  exact ⟨R, rfl, hm, (hp (by decide)).1⟩

/-- Fixing parameters of a single normal distribution: the whole density is the one of the fixed parameters times the new one; the
remaining parameters keep names and order, and none of them may have limits. -/
theorem conditional_single {d : Nat} (M : Mix d) (hM : Proper M) (c : Comp d) (hc : M.comps = [c]) (fixed : List Par)
    (values : (p : Nat) → Fin p → ℝ) (r : (m : Nat) × Mix m) (h : conditional M fixed values = .ok r) :
    ∃ l, indices M (some fixed) = .ok l ∧ checkNoLimits M l = .ok () ∧ ∃ R : Mix (keepOf l).length, r = ⟨_, R⟩ ∧
      pick M.names (keepOf l) = .ok R.names ∧ R.lims = none ∧
      (l.Nodup → Proper R ∧ ∀ z : Fin d → ℝ, z ∘ l.get = values l.length →
        pdf M z = Marginal M l.get (z ∘ l.get) * pdf R (z ∘ (keepOf l).get)) := by
  obtain ⟨l, h1, h2, h3, names, h4, R, hr, hm⟩ := conditional_ok M fixed values r h
  obtain ⟨e1, e2, e3, -, e5, -, -, e8⟩ := make_spec _ _ _ _ _ _ hm
  refine ⟨l, h1, h2, R, hr, by rw [e8 _ rfl]; exact h4, e3, fun hnd => ?_⟩
  have hw : c.2.2 = 1 := by
    have := comps_weights M hM
    rw [hc] at this
    have hs := hM.2.2.2
    rw [← this] at hs
    simpa using hs
  have hp : c.2.1.PosDef := comps_posDef M hM c (by rw [hc]; exact List.mem_singleton_self c)
  have hb := keep_bijective l hnd
  have hkinj : Function.Injective (keepOf l).get := List.nodup_iff_injective_get.mp ((List.nodup_finRange d).filter _)
  have hP : Proper R := by
    refine make_proper _ _ _ _ _ _ hm ?_ (by simp)
    intro c' hc'
    obtain ⟨c'', hc'', rfl⟩ := List.mem_map.mp hc'
    exact ((comps_posDef M hM _ hc'').inv.submatrix hkinj).inv
  refine ⟨hP, fun z hz => ?_⟩
  have hR1 : R.means = [condMean c.1 c.2.1 l.get (keepOf l).get (values l.length)] := by rw [e1, hc]; rfl
  have hR2 : R.covs = [condCov c.2.1 l.get (keepOf l).get] := by rw [e2, hc]; rfl
  have hR3 : R.weights = [1] := by
    have hlen := hP.2.2.1
    rw [hR1] at hlen
    obtain ⟨a, ha⟩ := List.length_eq_one_iff.mp (by simpa using hlen)
    rw [ha] at e5 ⊢
    simpa using e5
  have hRc : R.comps = [(condMean c.1 c.2.1 l.get (keepOf l).get (values l.length), condCov c.2.1 l.get (keepOf l).get, 1)] := by
    unfold Mix.comps; rw [hR1, hR2, hR3]; rfl
  rw [marginal_sum M hM _ (List.nodup_iff_injective_get.mp hnd)]
  unfold pdf
  rw [hRc, hc]
  simp only [List.map_cons, List.map_nil, List.sum_cons, List.sum_nil, add_zero, mul_one, hw]
  rw [← hz]
  exact cond_spec c.1 c.2.1 hp l.get (keepOf l).get hb z

noncomputable def exG : Mix 2 := { exM with means := [![1, 2]], covs := [(2 : ℝ) • 1], weights := [1] }

theorem exG_proper : Proper exG :=
  ⟨fun c hc => by rw [List.mem_singleton.mp hc]; exact PosDef.one.smul (by norm_num), rfl, rfl, by simp [exG]⟩

example (r : (m : Nat) × Mix m) (h : conditional exG [.name c!"x"] (fun _ _ => 3) = .ok r) :
    ∃ R : Mix (keepOf ([0] : List (Fin 2))).length, r = ⟨_, R⟩ ∧ ∀ y : ℝ, pdf exG ![3, y] = Marginal exG ![0] ![3] * pdf R (fun _ => y) := by
  obtain ⟨l, hl, -, R, rfl, -, -, hp⟩ := conditional_single exG exG_proper _ rfl _ _ r h
  have e : l = [0] := by
    have : indices exG (some [.name c!"x"]) = .ok [0] := by decide
    rw [this] at hl
    exact (Except.ok.inj hl).symm
  subst e
  refine ⟨R, rfl, fun y => ?_⟩
  have := (hp (by decide)).2 ![3, y] (by ext i; match i with | 0 => rfl)
  rw [this]
  congr 2
  · ext i; match i with | 0 => rfl
  · ext i; match i with | 0 => rfl
  · ext i
    have hi : (keepOf ([0] : List (Fin 2))).get i = 1 := by
      simp [show keepOf ([0] : List (Fin 2)) = [1] by decide]
    simp only [Function.comp, hi]; rfl

end Verif.GaussMix
