import Verif.Props.Cobaya

/-!
# Burn-in and sampler of new sample objects, and what fails in reading Cobaya's information
-/

namespace Verif.Cobaya
open Verif.Py

set_option linter.unusedSectionVars false

variable {K : Type} [Field K] [LinearOrder K] [IsStrictOrderedRing K] [FloorRing K]

/-- rows removed: none -/
def Keeps (b : Chains.Burn K) : Prop := b.lines = 0 ∧ b.frac = 0

theorem setBurn_rows (r : K) : (Chains.setBurnOptions r).rows = r := rfl

/-- The keyword argument wins over `settings`, these over the file, for objects without further files. -/
theorem rows_order (kw set ini : Option K) (b : Chains.Burn K) (s : Str) (h : construct kw none set ini none none = .ok (b, s)) :
    s = c!"mcmc" ∧ (∀ r, kw = some r → b.rows = r) ∧ (∀ r, kw = none → set = some r → b.rows = r) ∧
    (∀ r, kw = none → set = none → ini = some r → b.rows = r) ∧ (kw = none → set = none → ini = none → b.rows = 0) := by
  unfold construct at h
  simp only [bind, Except.bind, pure, Except.pure] at h
  rw [if_neg (by intro e; exact absurd e.1 (by decide))] at h
  simp only [Except.ok.injEq, Prod.mk.injEq] at h
  obtain ⟨rfl, rfl⟩ := h
  refine ⟨rfl, ?_, ?_, ?_, ?_⟩
  · rintro r rfl; rfl
  · rintro r rfl rfl; rfl
  · rintro r rfl rfl rfl; rfl
  · rintro rfl rfl rfl; rfl

/-- What `.properties.ini` says wins: with `burn_removed` nothing is removed, otherwise its `ignore_rows` counts. -/
theorem props_win (kw set ini : Option K) (r : Option K) (removed : Bool) (s : Option Str) (info : Option (Info K))
    (b : Chains.Burn K) (t : Str) (h : construct kw none set ini (some (r, removed, s)) info = .ok (b, t)) :
    (removed = true → Keeps b) ∧ (removed = false → ∀ x, r = some x → b = Chains.setBurnOptions x) ∧
    (∀ x, s = some x → setSampler x = .ok t) := by
  unfold construct at h
  simp only [bind, Except.bind, pure, Except.pure] at h
  rw [if_neg (by intro e; exact absurd e.1 (by decide))] at h
  simp only [Option.isNone_none, if_true] at h
  cases hs : setSampler (s.getD c!"mcmc") with
  | error e => rw [hs] at h; cases h
  | ok u =>
    rw [hs] at h
    simp only [Except.ok.injEq, Prod.mk.injEq] at h
    obtain ⟨rfl, rfl⟩ := h
    refine ⟨?_, ?_, ?_⟩
    · rintro rfl; exact ⟨rfl, rfl⟩
    · rintro rfl x rfl; rfl
    · rintro x rfl; exact hs

/-- The sampler given as argument is used, whatever the files say; only three are known. -/
theorem sampler_given (kw set ini : Option K) (x : Str) (props : Option (Option K × Bool × Option Str)) (info : Option (Info K))
    (b : Chains.Burn K) (t : Str) (h : construct kw (some x) set ini props info = .ok (b, t)) :
    t = x.map Char.toLower ∧ (t = c!"mcmc" ∨ t = c!"nested" ∨ t = c!"uncorrelated") ∧
    (t = c!"nested" → kw = none ∨ kw = some 0) := by
  have hs : ∀ u, setSampler x = .ok u → u = x.map Char.toLower ∧ (u = c!"mcmc" ∨ u = c!"nested" ∨ u = c!"uncorrelated") := by
    intro u hu
    unfold setSampler at hu
    simp only at hu
    split at hu
    · rename_i hc; injection hu with hu; subst hu; exact ⟨rfl, hc⟩
    · cases hu
  unfold construct at h
  simp only [bind, Except.bind, pure, Except.pure] at h
  cases hx : setSampler x with
  | error e => rw [hx] at h; cases h
  | ok u =>
    rw [hx] at h
    simp only at h
    split at h
    · cases h
    · rename_i hn
      have : t = u := by
        split at h
        · simp only [Option.isNone_some, Bool.false_eq_true, if_false, Except.ok.injEq, Prod.mk.injEq] at h
          exact h.2.symm
        · split at h
          · simp only [Except.ok.injEq, Prod.mk.injEq] at h
            exact h.2.symm
          · split at h
            · cases h
            · simp only [Option.isNone_some, Bool.false_eq_true, if_false, Except.ok.injEq, Prod.mk.injEq] at h
              exact h.2.symm
      subst this
      obtain ⟨h1, h2⟩ := hs _ hx
      refine ⟨h1, h2, ?_⟩
      intro ht
      rw [not_and, not_not] at hn
      have := hn ht
      cases kw with
      | none => exact .inl rfl
      | some r => exact .inr (congrArg some this)

/-- Cobaya's samplers. -/
theorem sampler_types (i : Info K) :
    (i.sampler = none → samplerType i = .ok c!"mcmc") ∧
    (∀ l, i.sampler = some (c!"mcmc" :: l) → samplerType i = .ok c!"mcmc") ∧
    (∀ l, i.sampler = some (c!"polychord" :: l) → samplerType i = .ok c!"nested") := by
  refine ⟨?_, ?_, ?_⟩
  · intro h; simp [samplerType, h]
  · intro l h; simp [samplerType, h]
  · intro l h; simp [samplerType, h]

/-- The file with the parameters: first the name Cobaya uses now, then the old one; for a root that is a directory the names
without prefix. -/
theorem paramsFile_spec (ex : Str → Bool) (root : Str) (h : ¬ c!"/" <:+ root) :
    (ex (root ++ c!".updated.yaml") = true → paramsFile ex root = some (root ++ c!".updated.yaml")) ∧
    (ex (root ++ c!".updated.yaml") = false → ex (root ++ c!"__full.yaml") = true →
      paramsFile ex root = some (root ++ c!"__full.yaml")) ∧
    (ex (root ++ c!".updated.yaml") = false → ex (root ++ c!"__full.yaml") = false → paramsFile ex root = none) ∧
    (ex (root ++ c!"/updated.yaml") = true → paramsFile ex (root ++ c!"/") = some (root ++ c!"/updated.yaml")) := by
  have h1 : endsWith c!"/" root = false := by
    rw [Bool.eq_false_iff]; exact fun e => h (List.isSuffixOf_iff_suffix.mp e)
  have h2 : endsWith c!"/" (root ++ c!"/") = true := List.isSuffixOf_iff_suffix.mpr (List.suffix_append _ _)
  have e1 : root ++ c!"." ++ c!"updated.yaml" = root ++ c!".updated.yaml" := by rw [List.append_assoc]; congr 1
  have e2 : root ++ c!"__" ++ c!"full.yaml" = root ++ c!"__full.yaml" := by rw [List.append_assoc]; congr 1
  have e3 : root ++ c!"/" ++ [] ++ c!"updated.yaml" = root ++ c!"/updated.yaml" := by
    rw [List.append_nil, List.append_assoc]; congr 1
  refine ⟨?_, ?_, ?_, ?_⟩
  · intro hx
    simp only [paramsFile, h1, Bool.false_eq_true, if_false, e1, hx, if_true]
  · intro hx hy
    simp only [paramsFile, h1, Bool.false_eq_true, if_false, e1, e2, hx, hy, if_true]
  · intro hx hy
    simp only [paramsFile, h1, Bool.false_eq_true, if_false, e1, e2, hx, hy]
  · intro hx
    simp only [paramsFile, h2, if_true, e3, hx]

example : paramsFile (fun f => f == c!"chains/a__full.yaml") c!"chains/a" = some c!"chains/a__full.yaml" := by decide
example : construct (K := ℚ) (some 5) none none (some (3/10)) none none = .ok (⟨5, 5, 0⟩, c!"mcmc") := by decide +kernel

/-! ### what fails -/

/-- Whether burn-in was removed is looked up among the parameters: the answer is always no. -/
theorem burnRemoved_zero (i : Info K) (x : K) (h : burnRemoved i = .ok x) : x = 0 := by
  unfold burnRemoved at h
  cases hp : infoParams i with
  | error e => rw [hp] at h; cases h
  | ok d =>
    rw [hp] at h
    simp only [bind, Except.bind, pure, Except.pure] at h
    split at h
    · injection h with h; exact h.symm
    · injection h with h; exact h.symm
    · cases h

/-- Chains from which Cobaya has removed burn-in (`post: {skip: 0.3}`) have it removed again: `get_burn_removed` looks for
`post` in the dictionary of parameters. -/
theorem skip_twice_fails : ¬ ∀ (i : Info ℚ) (ini : ℚ) (p : Post ℚ) (x : ℚ) (b : Chains.Burn ℚ) (s : Str), i.post = some p →
    p.skip = some x → x ≠ 0 → construct none none none (some ini) none (some i) = .ok (b, s) → Keeps b := by
  intro h
  have := (h exInfo (3/10) _ (3/10) ⟨3/10, 0, 3/10⟩ c!"mcmc" rfl rfl (by norm_num) (by decide +kernel)).2
  revert this
  norm_num

/-- Burn-in is removed from nested samples with the default settings, though asking for it is refused: the check looks only at
the argument. -/
theorem nested_burn_fails : ¬ ∀ (kw set ini : Option ℚ) (b : Chains.Burn ℚ) (s : Str) (info : Option (Info ℚ)) (t : Option Str),
    construct kw t set ini none info = .ok (b, s) → s = c!"nested" → Keeps b := by
  intro h
  have := (h none none (some defaultRows) ⟨3/10, 0, 3/10⟩ c!"nested" none (some c!"nested") (by decide +kernel) rfl).2
  revert this
  norm_num

/-- The same for the chains of Cobaya's nested sampler. -/
theorem nested_file_fails : ¬ ∀ (ini : Option ℚ) (b : Chains.Burn ℚ) (i : Info ℚ) (l : List Str) (s : Str), i.sampler = some (c!"polychord" :: l) →
    construct none none none ini none (some i) = .ok (b, s) → Keeps b := by
  intro h
  have := (h (some defaultRows) ⟨3/10, 0, 3/10⟩ { exInfo with sampler := some [c!"polychord"] } [] c!"nested" rfl
    (by decide +kernel)).2
  revert this
  norm_num

/-- Samples given as arrays, without any setting, lose the first 30 per cent of the rows: the default settings are those for raw
chains. -/
theorem memory_burn_fails : ¬ ∀ (b : Chains.Burn ℚ) (s : Str), construct none none none (some defaultRows) none none = .ok (b, s) →
    Keeps b := by
  intro h
  have := (h ⟨3/10, 0, 3/10⟩ c!"mcmc" (by decide +kernel)).2
  revert this
  norm_num

/-- Files of Cobaya's minimizer cannot be loaded: its type is translated to one that is not known. -/
theorem minimize_fails : ¬ ∀ (i : Info ℚ) (s : Str), samplerType i = .ok s → setSampler s = .ok s := by
  intro h
  have := h { exInfo with sampler := some [c!"minimize"] } c!"minimize" (by decide)
  revert this
  decide

/-- Files of other samplers of Cobaya (`evaluate`) are a `KeyError`. -/
theorem evaluate_fails : ¬ ∀ (i : Info ℚ), ∃ s, samplerType i = .ok s := by
  intro h
  obtain ⟨s, hs⟩ := h { exInfo with sampler := some [c!"evaluate"] }
  revert hs
  have : samplerType { exInfo with sampler := some [c!"evaluate"] } = .error .keyError := by decide
  rw [this]
  exact fun h => by cases h

/-- Reading the range of a parameter removes the distribution from the dictionary given: the second time a normal prior is taken
for a uniform one, with limits. -/
theorem range_twice_fails : ¬ ∀ (p : PInfo ℚ), (getRange exInterval (fun _ => none) (getRange exInterval (fun _ => none) p).2).1 =
    (getRange exInterval (fun _ => none) p).1 := by
  intro h
  have := h (.map { prior := some (.dict none none (some 0) (some 1) (some c!"norm")) })
  revert this
  decide +kernel

/-- The standard normal prior, given by its name only, is an `UnboundLocalError`. -/
theorem standard_fails : ¬ ∀ (dist : Str) (r : Ext ℚ × Ext ℚ), exInterval dist none none = some r →
    ∃ s, (getRange exInterval (fun _ => none) (.map { prior := some (.dict none none none none (some dist)) })).1 = .ok s := by
  intro h
  obtain ⟨s, hs⟩ := h c!"norm" (.neg, .pos) (by decide +kernel)
  have : (getRange exInterval (fun _ => none) (.map { prior := some (.dict none none none none (some c!"norm")) })).1 =
      .error .unboundLocal := by decide +kernel
  rw [this] at hs
  cases hs

/-- A parameter that is not saved and has no value is a `TypeError`. -/
theorem unsaved_fails : ¬ ∀ (p : PInfo ℚ), withRange p = true → ∃ s, (getRange exInterval (fun _ => none) p).1 = .ok s := by
  intro h
  obtain ⟨s, hs⟩ := h (.map { derived := some false }) (by decide)
  have : (getRange exInterval (fun _ => none) (.map { derived := some false })).1 = .error .typeError := by decide +kernel
  rw [this] at hs
  cases hs

/-- A derived parameter given by a text is an `AttributeError`. -/
theorem text_fails : ¬ ∀ (p : PInfo ℚ), isDerived p = true → ∃ s, (getRange exInterval (fun _ => none) p).1 = .ok s := by
  intro h
  obtain ⟨s, hs⟩ := h (.val (.text c!"lambda x: x")) (by decide)
  have : (getRange exInterval (fun _ => none) (.val (.text c!"lambda x: x"))).1 = .error .attributeError := by decide +kernel
  rw [this] at hs
  cases hs

/-- A fixed parameter cannot be changed in `post`. -/
theorem add_fixed_fails : ¬ ∀ (i : Info ℚ) (k : Str) (f : Fields ℚ), i.post = some { addParams := [(k, .map f)] } →
    ∃ d, infoParams i = .ok d := by
  intro h
  obtain ⟨d, hd⟩ := h { exInfo with post := some { addParams := [(c!"mnu", .map { value := some (.num 0) })] } } _ _ rfl
  have : infoParams { exInfo with post := some { addParams := [(c!"mnu", .map { value := some (.num 0) })] } } =
      .error .attributeError := by decide +kernel
  rw [this] at hd
  cases hd

/-- One parameter to remove, given as a text as is possible for likelihoods and priors, is not removed; parameters named by one of
its letters are. -/
theorem remove_text_fails : ¬ ∀ (i : Info ℚ) (k : Str) (d : Dict Str (PInfo ℚ)), i.post = some { removeParams := .one k } →
    infoParams i = .ok d → d.get? k = none := by
  intro h
  have := h { exInfo with post := some { removeParams := .one c!"H0" } } c!"H0"
    (exInfo.params ++ extras [c!"0"] [c!"planck_lite"]) rfl (by decide +kernel)
  revert this
  decide +kernel

/-- A parameter with a prior that is also marked derived is in the list of parameters two times. -/
theorem both_kinds_fails : ¬ ∀ (i : Info ℚ) (l : List ParamNames.Info), loadNames i = .ok l → (l.map (·.name)).Nodup := by
  intro h
  have := h { params := [(c!"x", .map { prior := some (.pair (some (.fin 0)) none), derived := some true })], likelihood := [] }
    [{ name := c!"x", label := c!"x" }, { name := c!"x", label := c!"x", isDerived := true },
     { name := c!"minuslogprior", label := c!"-\\log\\pi", isDerived := true },
     { name := c!"minuslogprior__0", label := c!"-\\log\\pi_\\mathrm{0}", isDerived := true },
     { name := c!"chi2", label := c!"\\chi^2", isDerived := true }] (by decide +kernel)
  revert this
  decide

/-- The limit given by one side only: the names without the doubled ones are listed once. -/
theorem names_nodup (i : Info K) (d : Dict Str (PInfo K)) (l : List ParamNames.Info) (hd : infoParams i = .ok d)
    (h : loadNames i = .ok l) (hb : ∀ e ∈ d, ¬ (isSampled e.2 = true ∧ isDerived e.2 = true)) : (l.map (·.name)).Nodup := by
  rw [(names_spec i d l hd h).1]
  have hw := params_wf i d hd
  rw [List.nodup_append]
  refine ⟨hw.sublist (List.filter_sublist.map _), hw.sublist (List.filter_sublist.map _), ?_⟩
  rintro a ha b hb' rfl
  obtain ⟨e1, h1, rfl⟩ := List.mem_map.mp ha
  obtain ⟨e2, h2, he⟩ := List.mem_map.mp hb'
  rw [List.mem_filter] at h1 h2
  have g1 := Dict.get?_of_mem hw (show (e1.1, e1.2) ∈ d from h1.1)
  have g2 := Dict.get?_of_mem hw (show (e2.1, e2.2) ∈ d from h2.1)
  rw [he, g1] at g2
  injection g2 with g2
  exact hb e1 h1.1 ⟨h1.2, by rw [g2]; exact h2.2⟩

end Verif.Cobaya
