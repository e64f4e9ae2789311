import Verif.Model.Cobaya
import Verif.Props.Bounds

/-!
# Cobaya's parameter information: kinds of parameters, the list of parameters, ranges
-/

namespace Verif.Cobaya
open Verif.Py

set_option linter.unusedSectionVars false

variable {K : Type}

/-! ### kinds -/

/-- a text or function: computed from other parameters -/
def Dynamic (v : Val K) : Prop := (∃ s, v = .text s) ∨ v = .fn

/-- Sampled parameters are those with a prior. -/
theorem sampled_iff (p : PInfo K) : isSampled p = true ↔ ∃ f q, p = .map f ∧ f.prior = some q := by
  cases p with
  | val v => cases v <;> simp [isSampled, expand]
  | map f =>
    obtain ⟨prior, value, derived, latex, renames, mn, mx⟩ := f
    cases prior with
    | none =>
      simp only [isSampled, expand]
      cases value with
      | none => cases derived <;> simp
      | some v => cases v <;> simp
    | some q =>
      simp only [isSampled, expand]
      cases value with
      | none => simp
      | some v => cases v <;> simp

/-- Derived parameters are those marked so, and without mark those with neither prior nor value and those computed. -/
theorem derived_iff (p : PInfo K) : isDerived p = true ↔
    p = .val .null ∨ (∃ v, p = .val v ∧ Dynamic v) ∨
    ∃ f, p = .map f ∧ (f.derived = some true ∨
      f.derived = none ∧ (f.prior = none ∧ f.value = none ∨ ∃ v, f.value = some v ∧ Dynamic v)) := by
  cases p with
  | val v => cases v <;> simp [isDerived, expand, Dynamic]
  | map f =>
    obtain ⟨prior, value, derived, latex, renames, mn, mx⟩ := f
    cases prior <;> cases value with
    | none => cases derived <;> simp [isDerived, expand]
    | some v => cases derived <;> cases v <;> simp [isDerived, expand, Dynamic]

/-- A number is a fixed parameter, neither sampled nor derived. -/
theorem number_fixed (x : K) : isSampled (.val (.num x)) = false ∧ isDerived (.val (.num x)) = false ∧
    fixedValue (.val (.num x)) = .num x ∧ withRange (.val (.num x)) = true := by
  simp [isSampled, isDerived, fixedValue, withRange, expand]

example : isDerived (.val (.text c!"lambda H0: H0/100") : PInfo ℚ) = true ∧
    isDerived (.map { value := some (.text c!"lambda H0: H0/100"), derived := some false } : PInfo ℚ) = false := by decide

/-! ### ranges -/

section ranges
variable [DecidableEq K] (interval : Str → Option K → Option K → Option (Ext K × Ext K)) (parse : Str → Option K)

/-- a limit as a bound: infinity is none -/
def limLow : Ext K → Option (Ext K)
  | .neg => none
  | x => some x
def limUp : Ext K → Option (Ext K)
  | .pos => none
  | x => some x

theorem dropInf_some (a b : Ext K) : dropInf (some a, some b) = (limLow a, limUp b) := by
  cases a <;> cases b <;> simp [dropInf, limLow, limUp]

/-- `[min, max]` -/
theorem range_pair (f : Fields K) (a b : Ext K) (h : f.prior = some (.pair (some a) (some b))) :
    (getRange interval parse (.map f)).1 = .ok (limLow a, limUp b) := by
  obtain ⟨prior, value, derived, latex, renames, mn, mx⟩ := f
  subst h
  simp only [getRange, priorRange, Option.isSome_some, Bool.or_self, if_true, Except.map, dropInf_some]

/-- a dictionary with `min` and `max`, whatever the distribution -/
theorem range_minmax (f : Fields K) (a b : Ext K) (loc scale : Option K) (dist : Option Str)
    (h : f.prior = some (.dict (some a) (some b) loc scale dist)) :
    (getRange interval parse (.map f)).1 = .ok (limLow a, limUp b) := by
  obtain ⟨prior, value, derived, latex, renames, mn, mx⟩ := f
  subst h
  simp only [getRange, priorRange, Option.isSome_some, Bool.or_self, if_true, Except.map, dropInf_some]

/-- a dictionary with one of them -/
theorem range_min (f : Fields K) (a : Ext K) (loc scale : Option K) (dist : Option Str)
    (h : f.prior = some (.dict (some a) none loc scale dist)) :
    (getRange interval parse (.map f)).1 = .ok (limLow a, none) := by
  obtain ⟨prior, value, derived, latex, renames, mn, mx⟩ := f
  subst h
  cases a <;> simp [getRange, priorRange, Except.map, dropInf, limLow]

theorem range_max (f : Fields K) (b : Ext K) (loc scale : Option K) (dist : Option Str)
    (h : f.prior = some (.dict none (some b) loc scale dist)) :
    (getRange interval parse (.map f)).1 = .ok (none, limUp b) := by
  obtain ⟨prior, value, derived, latex, renames, mn, mx⟩ := f
  subst h
  cases b <;> simp [getRange, priorRange, Except.map, dropInf, limUp]

/-- a distribution given by place or width: the interval of probability one of that distribution, by default the uniform one -/
theorem range_dist (f : Fields K) (loc scale : Option K) (dist : Option Str) (a b : Ext K) (hl : loc ≠ none ∨ scale ≠ none)
    (h : f.prior = some (.dict none none loc scale dist))
    (hi : (∃ d, dist = some d ∧ interval d loc scale = some (a, b)) ∨
      dist = none ∧ interval c!"uniform" loc scale = some (a, b)) :
    (getRange interval parse (.map f)).1 = .ok (limLow a, limUp b) := by
  obtain ⟨prior, value, derived, latex, renames, mn, mx⟩ := f
  subst h
  have : (loc.isSome || scale.isSome) = true := by
    rcases hl with h | h
    · obtain ⟨x, rfl⟩ := Option.ne_none_iff_exists'.mp h; rfl
    · obtain ⟨x, rfl⟩ := Option.ne_none_iff_exists'.mp h; simp
  have hi : interval (dist.getD c!"uniform") loc scale = some (a, b) := by
    rcases hi with ⟨d, rfl, h⟩ | ⟨rfl, h⟩ <;> exact h
  simp only [getRange, priorRange, Option.isSome_none, Bool.or_self, Bool.false_eq_true, if_false, this, if_true, hi,
    Except.map, dropInf_some]

/-- a fixed parameter has its value as both limits -/
theorem range_fixed (x : K) : (getRange interval parse (.val (.num x))).1 = .ok (some (.fin x), some (.fin x)) := by
  simp [getRange, (number_fixed x).2.1, (number_fixed x).2.2.1, Except.map, dropInf]

/-- a derived parameter has the limits given for it -/
theorem range_derived (f : Fields K) (hp : f.prior = none) (hd : isDerived (.map f) = true) :
    (getRange interval parse (.map f)).1 = .ok (f.min.bind limLow, f.max.bind limUp) := by
  obtain ⟨prior, value, derived, latex, renames, mn, mx⟩ := f
  subst hp
  have e : (getRange interval parse (.map ⟨none, value, derived, latex, renames, mn, mx⟩)).1 =
      (minMax (.map ⟨none, value, derived, latex, renames, mn, mx⟩)).map dropInf := by
    unfold getRange
    simp only [hd, if_true]
  rw [e]
  cases mn with
  | none =>
    cases mx with
    | none => simp [minMax, Except.map, dropInf]
    | some b => cases b <;> simp [minMax, Except.map, dropInf, limUp]
  | some a =>
    cases mx with
    | none => cases a <;> simp [minMax, Except.map, dropInf, limLow]
    | some b => cases a <;> cases b <;> simp [minMax, Except.map, dropInf, limLow, limUp]

/-- A format that is not known is an error. -/
theorem range_bad (f : Fields K) (h : f.prior = some .bad) : (getRange interval parse (.map f)).1 = .error .valueError := by
  obtain ⟨prior, value, derived, latex, renames, mn, mx⟩ := f
  subst h
  simp [getRange, priorRange, Except.map]

/-- The dictionary given is left as it was, apart from the prior of a sampled parameter. -/
theorem range_keeps (p : PInfo K) : (isSampled p = false → (getRange interval parse p).2 = p) ∧
    ∀ f, p = .map f → ∃ q, (getRange interval parse p).2 = .map { f with prior := q } := by
  constructor
  · intro h
    unfold getRange
    split
    · rename_i q value derived latex renames mn mx
      have : isSampled (PInfo.map ⟨some q, value, derived, latex, renames, mn, mx⟩) = true :=
        (sampled_iff _).mpr ⟨_, _, rfl, rfl⟩
      rw [h] at this
      cases this
    · split <;> rfl
  · rintro f rfl
    obtain ⟨prior, value, derived, latex, renames, mn, mx⟩ := f
    cases prior with
    | none => refine ⟨none, ?_⟩; unfold getRange; simp only; split <;> rfl
    | some q => exact ⟨some (priorRange interval q).2, rfl⟩

end ranges

/-- the distributions of the examples (`scipy.stats`) -/
def exInterval (d : Str) (loc scale : Option ℚ) : Option (Ext ℚ × Ext ℚ) :=
  let loc := loc.getD 0
  let scale := scale.getD 1
  if d = c!"uniform" then some (.fin loc, .fin (loc + scale))
  else if d = c!"norm" then some (.neg, .pos)
  else if d = c!"halfnorm" then some (.fin loc, .pos)
  else none

example : (getRange exInterval (fun _ => none) (.map { prior := some (.pair (some (.fin 0)) (some .pos)) })).1 =
    .ok (some (.fin 0), none) := by decide +kernel
example : (getRange exInterval (fun _ => none) (.map { prior := some (.dict none none (some 3) (some 2) none) })).1 =
    .ok (some (.fin 3), some (.fin 5)) := by decide +kernel

/-! ### the list of parameters -/

theorem setAll_get {ν : Type} (l : List (Str × ν)) (d : Dict Str ν) (k : Str) (h : k ∉ l.map (·.1)) :
    (l.foldl (fun d e => d.set e.1 e.2) d).get? k = d.get? k := by
  induction l generalizing d with
  | nil => rfl
  | cons e l ih =>
    simp only [List.map_cons, List.mem_cons, not_or] at h
    rw [List.foldl_cons, ih _ h.2, Dict.get?_set, if_neg h.1]

theorem setAll_new {ν : Type} (l : List (Str × ν)) (d : Dict Str ν) (h : (d.keys ++ l.map (·.1)).Nodup) :
    l.foldl (fun d e => d.set e.1 e.2) d = d ++ l := by
  induction l generalizing d with
  | nil => simp
  | cons e l ih =>
    have hk : e.1 ∉ d.keys := by
      intro hk
      rw [List.nodup_append] at h
      exact h.2.2 _ hk _ List.mem_cons_self rfl
    have h2 : Dict.set d e.1 e.2 = d ++ [e] := Dict.set_of_not_mem _ hk
    rw [List.foldl_cons, h2, ih]
    · simp
    · simpa using h

/-- what is added for priors and likelihoods -/
def extras (priors likes : List Str) : List (Str × PInfo K) :=
  (c!"minuslogprior", labelled c!"-\\log\\pi") ::
  priors.map (fun q => (c!"minuslogprior__" ++ q, labelled (c!"-\\log\\pi_\\mathrm{" ++ replaceChar '_' c!"\\ " q ++ c!"}"))) ++
  (c!"chi2", labelled c!"\\chi^2") ::
  likes.map (fun q => (c!"chi2__" ++ q, labelled (c!"\\chi^2_\\mathrm{" ++ replaceChar '_' c!"\\ " q ++ c!"}")))

theorem extras_fold (full : Dict Str (PInfo K)) (priors likes : List Str) :
    likes.foldl (fun d l => d.set (c!"chi2__" ++ l)
        (labelled (c!"\\chi^2_\\mathrm{" ++ replaceChar '_' c!"\\ " l ++ c!"}")))
      ((priors.foldl (fun d q => d.set (c!"minuslogprior__" ++ q)
        (labelled (c!"-\\log\\pi_\\mathrm{" ++ replaceChar '_' c!"\\ " q ++ c!"}")))
        (full.set c!"minuslogprior" (labelled c!"-\\log\\pi"))).set c!"chi2" (labelled c!"\\chi^2")) =
    (extras priors likes).foldl (fun d e => d.set e.1 e.2) full := by
  unfold extras
  rw [List.cons_append, List.foldl_cons, List.foldl_append, List.foldl_cons, List.foldl_map, List.foldl_map]

/-- Without `post`: the parameters as given and in that order, then the logarithms of the priors and the chi-squared of the
likelihoods, each with its total first. -/
theorem params_plain (i : Info K) (hp : i.post = none)
    (hn : (i.params.keys ++ (extras (K := K) (c!"0" :: i.prior) i.likelihood).map (·.1)).Nodup) :
    infoParams i = .ok (i.params ++ extras (c!"0" :: i.prior) i.likelihood) := by
  have h0 : i.params.foldl (fun d e => Dict.set d e.1 e.2) ([] : Dict Str (PInfo K)) = i.params := by
    rw [setAll_new]
    · rfl
    · exact (List.nodup_append.mp hn).1
  unfold infoParams
  rw [hp]
  simp only [Option.getD_none, iterate, strToList, List.foldl_nil, List.foldlM_nil, bind, Except.bind, pure, Except.pure,
    h0, List.append_nil]
  rw [extras_fold, setAll_new _ _ hn]

/-- The names added are those of the priors and likelihoods. -/
theorem extras_mem (priors likes : List Str) (k : Str) : k ∈ (extras (K := K) priors likes).map (·.1) ↔
    k = c!"minuslogprior" ∨ (∃ q ∈ priors, k = c!"minuslogprior__" ++ q) ∨ k = c!"chi2" ∨ ∃ l ∈ likes, k = c!"chi2__" ++ l := by
  simp only [extras, List.map_append, List.map_cons, List.map_map, List.mem_append, List.mem_cons, List.mem_map,
    Function.comp_apply, or_assoc, eq_comm (a := k)]

theorem removeAll_get (l : List Str) (d : Dict Str (PInfo K)) (k : Str) :
    (l.foldl Dict.erase d).get? k = if k ∈ l then none else d.get? k := by
  induction l generalizing d with
  | nil => simp
  | cons x l ih =>
    rw [List.foldl_cons, ih, Dict.get?_erase]
    by_cases h1 : k ∈ l
    · simp [h1]
    · by_cases h2 : k = x <;> simp [h1, h2]

theorem addAll_get (l : Dict Str (PInfo K)) (d d' : Dict Str (PInfo K)) (hl : l.WF) (h : l.foldlM addParam d = .ok d')
    (k : Str) :
    (l.get? k = none → d'.get? k = d.get? k) ∧
    ∀ p, l.get? k = some p → ∃ f old, p = .map f ∧ (d.get? k).getD (.map {}) = .map old ∧ d'.get? k = some (.map (updateFields old f)) := by
  induction l generalizing d with
  | nil =>
    rw [List.foldlM_nil] at h
    cases h
    exact ⟨fun _ => rfl, fun p hp => by cases hp⟩
  | cons e l ih =>
    rw [List.foldlM_cons] at h
    obtain ⟨k1, p1⟩ := e
    simp only [Dict.WF, Dict.keys_cons, List.nodup_cons] at hl
    cases h1 : addParam d (k1, p1) with
    | error e => rw [h1] at h; cases h
    | ok d1 =>
      rw [h1] at h
      obtain ⟨i1, i2⟩ := ih d1 hl.2 h
      unfold addParam at h1
      simp only at h1
      split at h1
      · cases h1
      · rename_i old ho
        split at h1
        · cases h1
        · rename_i f
          injection h1 with h1
          subst h1
          constructor
          · intro hk
            rw [Dict.get?_cons] at hk
            split at hk
            · cases hk
            · rename_i hne
              rw [i1 hk, Dict.get?_set, if_neg fun e => hne e.symm]
          · intro p hp
            rw [Dict.get?_cons] at hp
            split at hp
            · rename_i he
              injection hp with hp
              subst he hp
              refine ⟨f, old, rfl, ho, ?_⟩
              rw [i1 (Dict.get?_eq_none.mpr hl.1), Dict.get?_set_self]
            · rename_i hne
              obtain ⟨f2, old2, e1, e2, e3⟩ := i2 p hp
              rw [Dict.get?_set, if_neg fun e => hne e.symm] at e2
              exact ⟨f2, old2, e1, e2, e3⟩

/-- `a` then `b` for one entry -/
def over {α : Type} : Option α → Option α → Option α
  | some x, _ => some x
  | none, y => y

/-- With `post`: a parameter that is removed and not added is not listed; one that is added has the entries added over the
ones it had (none if it was removed); the others are unchanged. -/
theorem params_post (i : Info K) (p : Post K) (d : Dict Str (PInfo K)) (rm : List Str) (hp : i.post = some p)
    (hw : i.params.WF) (ha : p.addParams.WF) (hr : p.removeParams = .many rm) (h : infoParams i = .ok d) (k : Str)
    (hk : ∀ q, k ≠ c!"minuslogprior" ∧ k ≠ c!"minuslogprior__" ++ q ∧ k ≠ c!"chi2" ∧ k ≠ c!"chi2__" ++ q) :
    (p.addParams.get? k = none → d.get? k = if k ∈ rm then none else i.params.get? k) ∧
    ∀ x, p.addParams.get? k = some x → ∃ f old, x = .map f ∧
      (if k ∈ rm then none else i.params.get? k).getD (.map {}) = .map old ∧ d.get? k = some (.map
        { prior := over f.prior old.prior, value := over f.value old.value, derived := over f.derived old.derived,
          latex := over f.latex old.latex, renames := over f.renames old.renames, min := over f.min old.min,
          max := over f.max old.max }) := by
  have ho : ∀ {α : Type} (a b : Option α), a.or b = over a b := fun a b => by cases a <;> rfl
  have h0 : i.params.foldl (fun d e => Dict.set d e.1 e.2) ([] : Dict Str (PInfo K)) = i.params := by
    rw [setAll_new]
    · rfl
    · exact hw
  unfold infoParams at h
  rw [hp] at h
  simp only [Option.getD_some, h0, hr, iterate] at h
  cases h1 : (strToList p.removeLike).foldlM removeOne i.likelihood with
  | error e => rw [h1] at h; cases h
  | ok likes =>
    rw [h1] at h
    cases h2 : (strToList p.removePrior).foldlM removeOne (c!"0" :: i.prior) with
    | error e =>
      simp only [bind, Except.bind, h2] at h
      cases h
    | ok priors =>
      cases h3 : p.addParams.foldlM addParam (rm.foldl Dict.erase i.params) with
      | error e => simp only [bind, Except.bind, h2, h3] at h; cases h
      | ok d1 =>
        simp only [bind, Except.bind, h2, h3, pure, Except.pure] at h
        rw [extras_fold] at h
        injection h with h
        have hd : d.get? k = d1.get? k := by
          rw [← h, setAll_get]
          rw [extras_mem]
          rintro (e | ⟨q, _, e⟩ | e | ⟨q, _, e⟩)
          · exact (hk []).1 e
          · exact (hk q).2.1 e
          · exact (hk []).2.2.1 e
          · exact (hk q).2.2.2 e
        obtain ⟨i1, i2⟩ := addAll_get _ _ _ ha h3 k
        rw [removeAll_get] at i1 i2
        constructor
        · intro hn; rw [hd, i1 hn]
        · intro x hx
          obtain ⟨f, old, e1, e2, e3⟩ := i2 x hx
          refine ⟨f, old, e1, e2, ?_⟩
          rw [hd, e3]
          simp only [updateFields, ho]

theorem removeOnes_spec (rm l l' : List Str) (h : rm.foldlM removeOne l = .ok l') (hl : l.Nodup) (hr : rm.Nodup) :
    (∀ x ∈ rm, x ∈ l) ∧ ∀ q, q ∈ l' ↔ q ∈ l ∧ q ∉ rm := by
  induction rm generalizing l with
  | nil =>
    simp only [List.foldlM_nil, pure, Except.pure, Except.ok.injEq] at h
    subst h
    simp
  | cons x rm ih =>
    rw [List.foldlM_cons] at h
    rw [List.nodup_cons] at hr
    unfold removeOne at h
    by_cases hx : x ∈ l
    · simp only [hx, if_true, bind, Except.bind] at h
      obtain ⟨h1, h2⟩ := ih (l.erase x) h (hl.erase x) hr.2
      refine ⟨?_, ?_⟩
      · intro y hy
        rcases List.mem_cons.mp hy with rfl | hy
        · exact hx
        · exact List.mem_of_mem_erase (h1 y hy)
      · intro q
        rw [h2, hl.mem_erase_iff, List.mem_cons]
        tauto
    · simp only [hx, if_false, bind, Except.bind] at h
      cases h

theorem setAll_some {ν : Type} (l : List (Str × ν)) (d : Dict Str ν) (k : Str) (h : k ∈ l.map (·.1)) :
    ((l.foldl (fun d e => d.set e.1 e.2) d).get? k).isSome := by
  induction l generalizing d with
  | nil => simp at h
  | cons e l ih =>
    rw [List.foldl_cons]
    by_cases h1 : k ∈ l.map (·.1)
    · exact ih _ h1
    · rw [setAll_get _ _ _ h1]
      simp only [List.map_cons, List.mem_cons, h1, or_false] at h
      rw [h, Dict.get?_set_self]
      rfl

/-- With `post`: there is a chi squared for each likelihood that was kept or added and for no other; likelihoods removed must be there. -/
theorem params_likes (i : Info K) (p : Post K) (d : Dict Str (PInfo K)) (hp : i.post = some p) (hw : i.params.WF) (ha : p.addParams.WF)
    (hl : i.likelihood.Nodup) (hr : (strToList p.removeLike).Nodup) (h : infoParams i = .ok d) :
    (∀ x ∈ strToList p.removeLike, x ∈ i.likelihood) ∧
    ∀ q, i.params.get? (c!"chi2__" ++ q) = none → p.addParams.get? (c!"chi2__" ++ q) = none →
      ((d.get? (c!"chi2__" ++ q)).isSome ↔ (q ∈ i.likelihood ∧ q ∉ strToList p.removeLike) ∨ q ∈ p.addLike) := by
  have h0 : i.params.foldl (fun d e => Dict.set d e.1 e.2) ([] : Dict Str (PInfo K)) = i.params := by
    rw [setAll_new]
    · rfl
    · exact hw
  unfold infoParams at h
  rw [hp] at h
  simp only [Option.getD_some, h0] at h
  cases h1 : (strToList p.removeLike).foldlM removeOne i.likelihood with
  | error e => rw [h1] at h; cases h
  | ok likes =>
    rw [h1] at h
    obtain ⟨r1, r2⟩ := removeOnes_spec _ _ _ h1 hl hr
    refine ⟨r1, ?_⟩
    intro q hq1 hq2
    cases h2 : (strToList p.removePrior).foldlM removeOne (c!"0" :: i.prior) with
    | error e =>
      simp only [bind, Except.bind, h2] at h
      cases h
    | ok priors =>
      cases h3 : p.addParams.foldlM addParam ((iterate p.removeParams).foldl Dict.erase i.params) with
      | error e => simp only [bind, Except.bind, h2, h3] at h; cases h
      | ok d1 =>
        simp only [bind, Except.bind, h2, h3, pure, Except.pure] at h
        rw [extras_fold] at h
        injection h with h
        rw [← h, ← r2, ← List.mem_append]
        by_cases hm : q ∈ likes ++ p.addLike
        · refine iff_of_true (setAll_some _ _ _ ?_) hm
          rw [extras_mem]
          exact .inr (.inr (.inr ⟨q, hm, rfl⟩))
        · refine iff_of_false ?_ hm
          rw [setAll_get]
          · rw [(addAll_get _ _ _ ha h3 _).1 hq2, removeAll_get, hq1]
            simp
          · rw [extras_mem]
            rintro (e | ⟨x, _, e⟩ | e | ⟨x, hx, e⟩)
            · simp at e
            · simp at e
            · have := congrArg List.length e; simp at this
            · exact hm (List.append_cancel_left e ▸ hx)

/-- information for the examples -/
def exInfo : Info ℚ :=
  { params := [(c!"ns", .map { prior := some (.pair (some (.fin (8/10))) (some (.fin (12/10)))), latex := some c!"n_s" }),
               (c!"H0", .val .null), (c!"mnu", .val (.num (6/100)))],
    likelihood := [c!"planck_lite"], sampler := some [c!"mcmc"],
    post := some { skip := some (3/10), addParams := [(c!"ns", .map { latex := some c!"n_{\\rm s}" })] } }

/-! ### parameter names -/

/-- The list of parameters: first the sampled, then the derived ones, each in the order given, with name, label (the name if
there is none) and other names. -/
theorem names_spec (i : Info K) (d : Dict Str (PInfo K)) (l : List ParamNames.Info) (hd : infoParams i = .ok d)
    (h : loadNames i = .ok l) :
    l.map (·.name) = (d.filter fun e => isSampled e.2).map (·.1) ++ (d.filter fun e => isDerived e.2).map (·.1) ∧
    l.map (·.isDerived) = (d.filter fun e => isSampled e.2).map (fun _ => false) ++
      (d.filter fun e => isDerived e.2).map (fun _ => true) ∧
    ∀ p ∈ l, ∃ x, (p.name, x) ∈ d ∧ (∀ f s, x = .map f → f.latex = some s → s ≠ [] → p.label = s) ∧
      (∀ f, x = .map f → f.latex = none → p.label = p.name) ∧ (x = .val .null → p.label = p.name) := by
  have hone : ∀ b (e : Str × PInfo K) (q : ParamNames.Info), paramOf b e = .ok q →
      q.name = e.1 ∧ q.isDerived = b ∧ (∀ f s, e.2 = .map f → f.latex = some s → s ≠ [] → q.label = s) ∧
      (∀ f, e.2 = .map f → f.latex = none → q.label = q.name) ∧ (e.2 = .val .null → q.label = q.name) := by
    intro b e q hq
    unfold paramOf at hq
    cases hf : fieldsOf e.2 with
    | error x => rw [hf] at hq; cases hq
    | ok f =>
      rw [hf] at hq
      simp only [bind, Except.bind] at hq
      split at hq
      · cases hq
      · injection hq with hq
        subst hq
        refine ⟨rfl, rfl, ?_, ?_, ?_⟩
        · intro g s hg hs hne
          rw [hg] at hf
          injection hf with hf
          subst hf
          simp [hs, hne]
        · intro g hg hs
          rw [hg] at hf
          injection hf with hf
          subst hf
          simp [hs]
        · intro hg
          rw [hg] at hf
          injection hf with hf
          subst hf
          simp
  have hall : ∀ b (m : List (Str × PInfo K)) (r : List ParamNames.Info), m.mapM (paramOf b) = .ok r →
      r.map (·.name) = m.map (·.1) ∧ r.map (·.isDerived) = m.map (fun _ => b) ∧
      ∀ p ∈ r, ∃ e ∈ m, paramOf b e = .ok p := by
    intro b m
    induction m with
    | nil => intro r hr; rw [List.mapM_nil] at hr; cases hr; simp
    | cons e m ih =>
      intro r hr
      rw [List.mapM_cons] at hr
      cases h1 : paramOf b e with
      | error x => rw [h1] at hr; cases hr
      | ok q =>
        rw [h1] at hr
        cases h2 : m.mapM (paramOf b) with
        | error x => simp only [bind, Except.bind, h2] at hr; cases hr
        | ok s =>
          simp only [bind, Except.bind, h2, pure, Except.pure] at hr
          injection hr with hr
          subst hr
          obtain ⟨j1, j2, j3⟩ := ih s h2
          obtain ⟨k1, k2, _⟩ := hone b e q h1
          refine ⟨by simp [j1, k1], by simp [j2, k2], ?_⟩
          intro p hp
          rcases List.mem_cons.mp hp with rfl | hp
          · exact ⟨e, List.mem_cons_self, h1⟩
          · obtain ⟨e2, he, hh⟩ := j3 p hp
            exact ⟨e2, List.mem_cons_of_mem _ he, hh⟩
  unfold loadNames at h
  rw [hd] at h
  simp only [bind, Except.bind] at h
  cases h1 : (d.filter fun e => isSampled e.2).mapM (paramOf false) with
  | error x => rw [h1] at h; cases h
  | ok a =>
    rw [h1] at h
    simp only at h
    cases h2 : (d.filter fun e => isDerived e.2).mapM (paramOf true) with
    | error x => rw [h2] at h; cases h
    | ok b =>
      rw [h2] at h
      injection h with h
      subst h
      obtain ⟨j1, j2, j3⟩ := hall _ _ _ h1
      obtain ⟨k1, k2, k3⟩ := hall _ _ _ h2
      refine ⟨by rw [List.map_append, j1, k1], by rw [List.map_append, j2, k2], ?_⟩
      intro p hp
      have : ∃ b, ∃ e ∈ d, paramOf b e = .ok p := by
        rcases List.mem_append.mp hp with hp | hp
        · obtain ⟨e, he, hh⟩ := j3 p hp
          exact ⟨_, e, (List.mem_filter.mp he).1, hh⟩
        · obtain ⟨e, he, hh⟩ := k3 p hp
          exact ⟨_, e, (List.mem_filter.mp he).1, hh⟩
      obtain ⟨b, e, he, hh⟩ := this
      obtain ⟨r1, _, r3, r4, r5⟩ := hone b e p hh
      exact ⟨e.2, by rw [r1]; exact he, r3, r4, r5⟩

example : (loadNames exInfo).map (fun l => l.map (·.name)) = .ok
    [c!"ns", c!"H0", c!"minuslogprior", c!"minuslogprior__0", c!"chi2", c!"chi2__planck_lite"] := by decide +kernel
example : (loadNames exInfo).map (fun l => l.map (·.label)) = .ok
    [c!"n_{\\rm s}", c!"H0", c!"-\\log\\pi", c!"-\\log\\pi_\\mathrm{0}", c!"\\chi^2", c!"\\chi^2_\\mathrm{planck\\ lite}"] := by
  decide +kernel

/-! ### bounds -/

section bounds
variable [Field K] [LinearOrder K] [IsStrictOrderedRing K] [FloorRing K]
variable {interval : Str → Option K → Option K → Option (Ext K × Ext K)} {parse : Str → Option K}

/-- a limit that is a number -/
def finite : Option (Ext K) → Option K
  | some (.fin x) => some x
  | _ => none

theorem loadBound_spec (b b' : Bounds.ParamBounds K) (e : Str × PInfo K) (h : loadBound interval parse b e = .ok b') :
    (withRange e.2 = false ∧ b' = b) ∨ (withRange e.2 = true ∧ ∃ r, (getRange interval parse e.2).1 = .ok r ∧
      b' = { names := if e.1 ∈ b.names then b.names else b.names ++ [e.1]
             lower := Bounds.store b.lower e.1 (finite r.1), upper := Bounds.store b.upper e.1 (finite r.2) }) := by
  unfold loadBound at h
  split at h
  · rename_i hw
    refine .inr ⟨hw, ?_⟩
    cases hr : (getRange interval parse e.2).1 with
    | error x => rw [hr] at h; cases h
    | ok r =>
      rw [hr] at h
      refine ⟨r, rfl, ?_⟩
      obtain ⟨lo, up⟩ := r
      have h1 : ∀ u, toLower lo = .ok u → u.value = .ok (finite lo) := by
        intro u hu
        cases lo with
        | none => cases hu; rfl
        | some x => cases x <;> cases hu <;> rfl
      have h2 : ∀ u, toUpper up = .ok u → u.value = .ok (finite up) := by
        intro u hu
        cases up with
        | none => cases hu; rfl
        | some x => cases x <;> cases hu <;> rfl
      simp only [bind, Except.bind] at h
      cases hl : toLower lo with
      | error x => rw [hl] at h; cases h
      | ok u =>
        rw [hl] at h
        simp only at h
        cases hu : toUpper up with
        | error x => rw [hu] at h; cases h
        | ok v =>
          rw [hu] at h
          simp only [Bounds.setRange, bind, Except.bind, h1 u hl, h2 v hu, pure, Except.pure] at h
          injection h with h
          exact h.symm
  · rename_i hw
    injection h with h
    exact .inl ⟨by simpa using hw, h.symm⟩

theorem loadAll_spec (d : Dict Str (PInfo K)) (hd : d.WF) (b b' : Bounds.ParamBounds K)
    (h : d.foldlM (loadBound interval parse) b = .ok b') (k : Str) :
    (d.get? k = none → Bounds.getLower b' k = Bounds.getLower b k ∧ Bounds.getUpper b' k = Bounds.getUpper b k) ∧
    ∀ p, d.get? k = some p →
      (withRange p = false → Bounds.getLower b' k = Bounds.getLower b k ∧ Bounds.getUpper b' k = Bounds.getUpper b k) ∧
      (withRange p = true → ∃ r, (getRange interval parse p).1 = .ok r ∧
        Bounds.getLower b' k = (finite r.1).or (Bounds.getLower b k) ∧
        Bounds.getUpper b' k = (finite r.2).or (Bounds.getUpper b k)) := by
  induction d generalizing b with
  | nil => rw [List.foldlM_nil] at h; cases h; simp
  | cons e d ih =>
    rw [List.foldlM_cons] at h
    cases h1 : loadBound interval parse b e with
    | error x => rw [h1] at h; cases h
    | ok b1 =>
      rw [h1] at h
      simp only [Dict.WF, Dict.keys_cons, List.nodup_cons] at hd
      obtain ⟨i1, i2⟩ := ih hd.2 b1 h
      obtain ⟨k1, p1⟩ := e
      have hs := loadBound_spec _ _ _ h1
      by_cases hk : k1 = k
      · subst hk
        obtain ⟨j1, j2⟩ := i1 (Dict.get?_eq_none.mpr hd.1)
        rw [Dict.get?_cons, if_pos rfl, j1, j2]
        refine ⟨by simp, ?_⟩
        intro p hp
        injection hp with hp
        subst hp
        rcases hs with ⟨hw, rfl⟩ | ⟨hw, r, hr, rfl⟩
        · simp only at hw
          simp [hw]
        · simp only at hw hr
          refine ⟨by simp [hw], fun _ => ⟨r, hr, ?_, ?_⟩⟩ <;>
            simp [Bounds.getLower, Bounds.getUpper, Bounds.get_store]
      · have e1 : Bounds.getLower b1 k = Bounds.getLower b k ∧ Bounds.getUpper b1 k = Bounds.getUpper b k := by
          rcases hs with ⟨hw, rfl⟩ | ⟨hw, r, hr, rfl⟩
          · exact ⟨rfl, rfl⟩
          · simp [Bounds.getLower, Bounds.getUpper, Bounds.get_store, hk]
        rw [Dict.get?_cons, if_neg hk]
        rw [e1.1, e1.2] at i1 i2
        exact ⟨i1, i2⟩

theorem foldl_wf {α : Type} (l : List α) (f : Dict Str (PInfo K) → α → Dict Str (PInfo K)) (d : Dict Str (PInfo K)) (hd : d.WF)
    (hf : ∀ d a, d.WF → (f d a).WF) : (l.foldl f d).WF := by
  induction l generalizing d with
  | nil => exact hd
  | cons a l ih => exact ih _ (hf d a hd)

theorem addAll_wf (l d d' : Dict Str (PInfo K)) (hd : d.WF) (h : l.foldlM addParam d = .ok d') : d'.WF := by
  induction l generalizing d with
  | nil => rw [List.foldlM_nil] at h; cases h; exact hd
  | cons e l ih =>
    rw [List.foldlM_cons] at h
    cases h1 : addParam d e with
    | error x => rw [h1] at h; cases h
    | ok d1 =>
      rw [h1] at h
      refine ih d1 ?_ h
      unfold addParam at h1
      split at h1
      · cases h1
      · split at h1
        · cases h1
        · injection h1 with h1
          rw [← h1]
          exact Dict.WF_set _ _ hd

/-- No parameter is listed twice. -/
theorem params_wf (i : Info K) (d : Dict Str (PInfo K)) (h : infoParams i = .ok d) : d.WF := by
  unfold infoParams at h
  simp only [bind, Except.bind] at h
  split at h
  · cases h
  · split at h
    · cases h
    · split at h
      · cases h
      · rename_i h3
        rw [extras_fold] at h
        injection h with h
        rw [← h]
        refine foldl_wf _ _ _ (addAll_wf _ _ _ ?_ h3) fun d a hd => Dict.WF_set _ _ hd
        exact foldl_wf _ _ _ (foldl_wf _ _ _ Dict.WF_nil fun d a hd => Dict.WF_set _ _ hd) fun d a hd => Dict.WF_erase _ hd

/-- The bounds read from the file: for every parameter with a range the finite limits of its range and no others; none for a
parameter that is not listed or is computed and not saved. -/
theorem bounds_spec (i : Info K) (d : Dict Str (PInfo K)) (b : Bounds.ParamBounds K) (hd : infoParams i = .ok d)
    (h : loadBounds interval parse i = .ok b) (k : Str) :
    (∀ p r, d.get? k = some p → withRange p = true → (getRange interval parse p).1 = .ok r →
      Bounds.getLower b k = finite r.1 ∧ Bounds.getUpper b k = finite r.2) ∧
    (d.get? k = none ∨ (∃ p, d.get? k = some p ∧ withRange p = false) →
      Bounds.getLower b k = none ∧ Bounds.getUpper b k = none) := by
  unfold loadBounds at h
  rw [hd] at h
  obtain ⟨h1, h2⟩ := loadAll_spec d (params_wf i d hd) {} b h k
  constructor
  · intro p r hp hw hr
    obtain ⟨r', hr', e1, e2⟩ := (h2 p hp).2 hw
    rw [hr] at hr'
    injection hr' with hr'
    subst hr'
    rw [e1, e2]
    constructor <;> exact Option.or_none
  · rintro (hk | ⟨p, hp, hw⟩)
    · exact h1 hk
    · exact (h2 p hp).1 hw

/-- A parameter given as a number is fixed to it. -/
theorem bounds_fixed (i : Info K) (d : Dict Str (PInfo K)) (b : Bounds.ParamBounds K) (hd : infoParams i = .ok d)
    (h : loadBounds interval parse i = .ok b) (k : Str) (x : K) (hk : d.get? k = some (.val (.num x))) :
    Bounds.fixedValue b k = some x := by
  obtain ⟨h1, h2⟩ := (bounds_spec i d b hd h k).1 _ _ hk (number_fixed x).2.2.2 (range_fixed interval parse x)
  rw [Bounds.fixedValue_iff]
  exact ⟨h1, h2⟩

example : (loadBounds exInterval (fun _ => none) exInfo).map (fun b => (b.lower, b.upper)) =
    .ok ([(c!"ns", 8/10), (c!"mnu", 6/100)], [(c!"ns", 12/10), (c!"mnu", 6/100)]) := by decide +kernel

end bounds

end Verif.Cobaya
