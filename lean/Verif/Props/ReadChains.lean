import Verif.Model.ReadChains
import Verif.Props.Chains

/-!
# Reading chains: burn-in is removed once (C60), column meaning (C61), and refused requests (C19-C21)
-/

namespace Verif.Chains
open Verif.Py Verif.Py.Np Verif.Thin Verif.Samples
set_option linter.unusedSectionVars false

variable {K : Type} [Field K] [LinearOrder K] [FloorRing K]

/-! ### refused requests -/

/-- **C20** a filter can only be applied to combined chains -/
theorem filter_needs_combined {c c' : CH K} {wh : Where} (h : filter c wh = .ok c') : c.chains = none := by
  unfold filter at h
  split at h
  · cases h
  · assumption

/-- **C19** chains with different numbers of columns are never combined -/
theorem makeSingle_columns {c c' : CH K} {cs : List (WS K)} (hcs : c.chains = some cs) (h : makeSingle c = .ok c') :
    ∃ n, ∀ s ∈ cs, ∃ a, s.samples = some a ∧ a.n = n := by
  unfold makeSingle at h
  rw [hcs] at h
  cases cs with
  | nil => exact ⟨0, by simp⟩
  | cons first rest =>
    simp only at h
    cases hm : (first :: rest).mapM (fun s => need s.samples) with
    | error e => rw [hm] at h; cases h
    | ok arrs =>
      rw [hm] at h
      -- the arrays are those of the chains
      have key : ∀ (l : List (WS K)) (r : List (Arr2 K)), l.mapM (fun s => need s.samples) = .ok r →
          List.Forall₂ (fun s a => s.samples = some a) l r := by
        intro l
        induction l with
        | nil => intro r hr; cases hr; exact .nil
        | cons s l ih =>
          intro r hr
          rw [List.mapM_cons] at hr
          cases hs : s.samples with
          | none => rw [hs] at hr; cases hr
          | some a =>
            rw [hs] at hr
            cases hl : l.mapM (fun s => need s.samples) with
            | error e => rw [hl] at hr; cases hr
            | ok r' =>
              rw [hl] at hr
              cases hr
              exact .cons hs (ih r' hl)
      have hA := key _ _ hm
      have hv : ∃ v, vstack arrs = .ok v := by
        cases hv : vstack arrs with
        | ok v => exact ⟨v, rfl⟩
        | error e =>
          exfalso
          simp only [bind, Except.bind, hv] at h
          repeat' split at h
          all_goals cases h
      obtain ⟨v, hv⟩ := hv
      unfold vstack at hv
      cases arrs with
      | nil => cases hv
      | cons a0 al =>
        simp only at hv
        split at hv
        · rename_i hall
          refine ⟨a0.n, ?_⟩
          have hall' : ∀ a ∈ a0 :: al, a.n = a0.n := by
            intro a ha
            rcases List.mem_cons.mp ha with rfl | ha
            · rfl
            · have := List.all_eq_true.mp hall a ha; simpa using this
          intro s hs
          have : ∀ (l : List (WS K)) (r : List (Arr2 K)), List.Forall₂ (fun s a => s.samples = some a) l r →
              s ∈ l → ∃ a ∈ r, s.samples = some a := by
            intro l r hlr
            induction hlr with
            | nil => intro h; cases h
            | cons h1 _ ih =>
              intro hm
              rcases List.mem_cons.mp hm with rfl | hm
              · exact ⟨_, List.mem_cons_self, h1⟩
              · obtain ⟨a, ha, hx⟩ := ih hm
                exact ⟨a, List.mem_cons_of_mem _ ha, hx⟩
          obtain ⟨a, ha, hx⟩ := this _ _ hA hs
          exact ⟨a, hx, hall' a ha⟩
        · cases hv

/-- **C21** burn-in removal needs samples or chains -/
theorem burn_needs_samples {c c' : CH K} {f : K} (h : removeBurnFraction c f = .ok c') :
    c.ws.samples.isSome ∨ c.chains.isSome := by
  unfold removeBurnFraction at h
  split at h
  · rename_i h1; exact Or.inl (by rw [h1]; rfl)
  · rename_i h2; exact Or.inr (by rw [h2]; rfl)
  · cases h

/-- **C20** without any chain boundaries weighted thinning acts on the samples and adds no boundaries -/
theorem weightedThin_plain {c c' : CH K} {f : K} (h1 : c.chains = none) (h2 : c.offsets = none)
    (h : weightedThin c f = .ok c') : Samples.weightedThin c.ws f = .ok c'.ws ∧ c'.offsets = none ∧ c'.chains = none ∧
      c'.names = c.names ∧ c'.index = c.index := by
  unfold weightedThin at h
  rw [if_pos (by simp [h1, h2])] at h
  cases hw : Samples.weightedThin c.ws f with
  | error e => rw [hw] at h; cases h
  | ok ws => rw [hw] at h; cases h; exact ⟨rfl, h2, h1, rfl, rfl⟩

/-! ### loading -/

/-- the record of one line of a chain file: weight, likelihood, parameters -/
def lineRow (r : List K) : Row K := ⟨r.drop 2, r.getD 0 0, r.getD 1 0⟩

/-- a table whose lines all have `n + 2` numbers -/
def Table (a : Arr2 K) (n : Nat) : Prop := a.n = n + 2 ∧ ∀ r ∈ a.rows, r.length = n + 2

theorem col_eq (a : Arr2 K) (i : Nat) : a.col i = a.rows.map (fun r => r.getD i 0) := by
  unfold Arr2.col
  apply List.map_congr_left
  intro r hr
  simp

/-- loading one file: the lines after the skipped ones, as records, with the automatic cut -/
theorem loadFile_ag {a : Arr2 K} {n : Nat} (ha : Table a n) (skip : Nat) (ratio : Option K)
    (hne : a.rows.drop skip ≠ []) :
    Ag (fun s rows => Rep s true n rows ∧ s.minWeightRatio = ratio) (loadFile skip true ratio a)
      (autoCut ratio ((a.rows.drop skip).map lineRow)) := by
  unfold loadFile colData
  have hne' : (a.rows.drop skip).isEmpty = false := by simpa using hne
  have h2 : 2 ≤ a.n := by rw [ha.1]; omega
  simp only [hne', Bool.false_eq_true, if_false, if_true, h2, bind, Except.bind]
  have hn : a.n - 2 = n := by rw [ha.1]; omega
  rw [col_eq ⟨a.n, a.rows.drop skip⟩ 0,
    col_eq ⟨a.n, a.rows.drop skip⟩ 1, hn]
  have := create_agrees (fun x => x) true n ((a.rows.drop skip).map lineRow) ratio
  simp only [List.map_map, if_true] at this
  have e1 : (fun x : Row K => x.sample) ∘ lineRow = List.drop 2 := rfl
  have e2 : (fun x : Row K => x.weight) ∘ lineRow = fun r : List K => r.getD 0 0 := rfl
  have e3 : (fun x : Row K => x.loglike) ∘ lineRow = fun r : List K => r.getD 1 0 := rfl
  rw [e1, e2, e3] at this
  unfold Ag
  cases hc : autoCut ratio ((a.rows.drop skip).map lineRow) with
  | error e => rw [hc] at this; exact this
  | ok kept =>
    rw [hc] at this
    obtain ⟨s, h1, h2, h3, -⟩ := this
    exact ⟨s, h1, h2, h3⟩

/-- the files that have lines left -/
def usable (skip : Nat) (files : List (Arr2 K)) : List (List (Row K)) :=
  (files.filter (fun a => !(a.rows.drop skip).isEmpty)).map (fun a => (a.rows.drop skip).map lineRow)

theorem cut_error {r : K} {rows : List (Row K)} {e : NErr} (h : cut r rows = .error e) : e = .valueError := by
  unfold cut at h
  split at h
  · split at h
    · cases h
    · cases h; rfl
  · cases h

theorem autoCut_error {ratio : Option K} {rows : List (Row K)} {e : NErr} (h : autoCut ratio rows = .error e) :
    e = .valueError := by
  unfold autoCut at h
  split at h
  · cases h
  · exact cut_error h

theorem loadEach_ag {n : Nat} (skip : Nat) (ratio : Option K) : ∀ {files : List (Arr2 K)}, (∀ a ∈ files, Table a n) →
    Ag (Hold ratio true n) (loadEach skip ratio files) ((usable skip files).mapM (autoCut ratio))
  | [], _ => ⟨[], rfl, .nil⟩
  | a :: files, h => by
    have ih := loadEach_ag skip ratio (files := files) fun b hb => h b (List.mem_cons_of_mem _ hb)
    have ha := h a List.mem_cons_self
    unfold loadEach
    by_cases hne : a.rows.drop skip = []
    · have e1 : loadFile skip true ratio a = .error .weightedSampleError := by
        unfold loadFile; rw [if_pos (by simp [hne])]
      have e2 : usable skip (a :: files) = usable skip files := by
        unfold usable; rw [List.filter_cons_of_neg (by simp [hne])]
      rw [e1, e2]
      exact ih
    · have e2 : usable skip (a :: files) = (a.rows.drop skip).map lineRow :: usable skip files := by
        unfold usable; rw [List.filter_cons_of_pos (by simp [hne])]; rfl
      rw [e2, List.mapM_cons]
      have hf := loadFile_ag ha skip ratio hne
      cases hc : autoCut ratio ((a.rows.drop skip).map lineRow) with
      | error e =>
        rw [hc] at hf
        unfold Ag at hf
        simp only at hf
        rw [hf, autoCut_error hc]
        rfl
      | ok kept =>
        rw [hc] at hf
        obtain ⟨s, h1, h2⟩ := hf
        rw [h1]
        simp only [bind, Except.bind]
        cases hm : (usable skip files).mapM (autoCut ratio) with
        | error e =>
          rw [hm] at ih
          unfold Ag at ih
          simp only at ih
          rw [ih]
          rfl
        | ok segs =>
          rw [hm] at ih
          obtain ⟨cs, h3, h4⟩ := ih
          rw [h3]
          exact ⟨s :: cs, rfl, .cons h2 h4⟩

/-- the state after loading: separate chains, one for each file with lines left -/
theorem loadFiles_separate {c : CH K} {n : Nat} (skip : Nat) {files : List (Arr2 K)} (h : ∀ a ∈ files, Table a n)
    {segs : List (List (Row K))} (hs : (usable skip files).mapM (autoCut c.ws.minWeightRatio) = .ok segs) (hne : segs ≠ []) :
    ∃ c', loadFiles c skip files = .ok c' ∧ Separate c' c.ws.minWeightRatio true n segs ∧ c'.names = c.names := by
  have := loadEach_ag skip c.ws.minWeightRatio h
  rw [hs] at this
  obtain ⟨cs, h1, h2⟩ := this
  have hcs : cs ≠ [] := by
    rintro rfl
    cases h2
    exact hne rfl
  have hfe : files ≠ [] := by
    rintro rfl
    cases h1
    exact hcs rfl
  refine ⟨{ c with ws := weightsChanged { c.ws with samples := none, weights := none, loglikes := none }, chains := some cs },
    ?_, ⟨⟨cs, rfl, h2⟩, rfl⟩, rfl⟩
  unfold loadFiles
  rw [if_neg (by simpa using hfe), h1]
  simp only [bind, Except.bind]
  rw [if_neg (by simpa using hcs)]
  rfl

/-- loading arrays: each chain gets its own samples, weights and likelihoods, with the automatic cut -/
theorem loadList_segs {c : CH K} (n : Nat) {segs : List (List (Row K))} (hne : segs ≠ []) :
    Ag (fun c' kept => Separate c' c.ws.minWeightRatio true n kept)
      (loadList c (segs.map (fun seg => ⟨n, seg.map (·.sample)⟩)) (some (segs.map (fun seg => seg.map (·.weight))))
        (some (segs.map (fun seg => seg.map (·.loglike)))))
      (segs.mapM (autoCut c.ws.minWeightRatio)) := by
  unfold loadList
  rw [if_neg (by simpa using hne)]
  have hF : ∀ (f : Arr2 K × Nat → Except NErr (WS K)),
      (∀ (i : Nat) (seg : List (Row K)), segs[i]? = some seg → f (⟨n, seg.map (·.sample)⟩, i) =
        create ⟨n, seg.map (·.sample)⟩ (some (seg.map (·.weight))) (some (seg.map (·.loglike))) c.ws.minWeightRatio) →
      List.Forall₂ (fun a seg => Ag (fun s rows => Rep s true n rows ∧ s.minWeightRatio = c.ws.minWeightRatio) (f a)
        (autoCut c.ws.minWeightRatio seg)) (segs.map (fun seg => (⟨n, seg.map (·.sample)⟩ : Arr2 K))).zipIdx segs := by
    intro f hf
    have : ∀ (l : List (List (Row K))) (p : Nat), (∀ i, l[i]? = segs[p + i]?) →
        List.Forall₂ (fun a seg => Ag (fun s rows => Rep s true n rows ∧ s.minWeightRatio = c.ws.minWeightRatio) (f a)
          (autoCut c.ws.minWeightRatio seg)) ((l.map (fun seg => (⟨n, seg.map (·.sample)⟩ : Arr2 K))).zipIdx p) l := by
      intro l
      induction l with
      | nil => intro p _; exact .nil
      | cons seg l ih =>
        intro p hp
        rw [List.map_cons, List.zipIdx_cons]
        refine .cons ?_ (ih (p + 1) fun i => ?_)
        · have h0 := hp 0
          rw [hf p seg (by simpa using h0.symm)]
          have hc := create_agrees (fun x => x) true n seg c.ws.minWeightRatio
          unfold Ag
          simp only [if_true] at hc
          cases ha : autoCut c.ws.minWeightRatio seg with
          | error e => rw [ha] at hc; exact hc
          | ok kept =>
            rw [ha] at hc
            obtain ⟨s, h1, h2, h3, -⟩ := hc
            exact ⟨s, h1, h2, h3⟩
        · have := hp (i + 1)
          rw [List.getElem?_cons_succ] at this
          rw [this]; congr 1; omega
    exact this segs 0 (by simp)
  refine (Ag.bind (mapM_ag (hF _ ?_)) (R' := fun c' kept => Separate c' c.ws.minWeightRatio true n kept)
    (g := fun segs => .ok segs) ?_).of_eq ?_
  · intro i seg hi
    have e1 : (segs.map (fun seg => seg.map (·.weight)))[i]? = some (seg.map (·.weight)) := by simp [hi]
    have e2 : (segs.map (fun seg => seg.map (·.loglike)))[i]? = some (seg.map (·.loglike)) := by simp [hi]
    simp only [e1, e2]
    rfl
  · intro cs kept h
    exact ⟨_, rfl, ⟨cs, rfl, h⟩, rfl⟩
  · cases segs.mapM (autoCut c.ws.minWeightRatio) <;> rfl

/-! ### C60 -/

theorem trunc_toNat [IsStrictOrderedRing K] {r : K} (h : 0 ≤ r) : ((trunc r).toNat : Int) = ⌊r⌋ := by
  unfold trunc
  rw [if_pos h]
  exact Int.toNat_of_nonneg (Int.floor_nonneg.2 h)

/-- **C60** reading chains with burn-in setting `r`: from each chain file exactly the stated number of leading rows is missing,
once, whether `r` is a fraction or a number of rows. -/
theorem readBurn_once [IsStrictOrderedRing K] {c : CH K} {n : Nat} {files : List (Arr2 K)} {r : K} (hr : 0 ≤ r)
    (hc : c.ws.minWeightRatio = defaultRatio) (ht : ∀ a ∈ files, Table a n) (hne : files ≠ []) :
    ∃ k : Nat → Nat, (∀ len, Dropped len r (k len)) ∧
      ((∀ a ∈ files, NoCut (a.rows.map lineRow)) →
       (∀ a ∈ files, NoCut ((a.rows.map lineRow).drop (k a.rows.length))) →
        ∃ c', readBurn c (burnOptions r none) false files = .ok c' ∧
          Separate c' defaultRatio true n (files.map (fun a => (a.rows.map lineRow).drop (k a.rows.length)))) := by
  by_cases h1 : 1 ≤ r
  · -- a number of rows: they are skipped while reading
    refine ⟨fun _ => (trunc r).toNat, fun len => ?_, ?_⟩
    · unfold Dropped; rw [if_pos h1]; exact trunc_toNat hr
    · intro _ hno
      have hpos : (trunc r).toNat ≠ 0 := by
        have : (1 : Int) ≤ ⌊r⌋ := by rw [Int.le_floor]; exact_mod_cast h1
        have := trunc_toNat hr
        omega
      have hu : usable (trunc r).toNat files = files.map (fun a => (a.rows.map lineRow).drop (trunc r).toNat) := by
        unfold usable
        rw [List.filter_eq_self.mpr]
        · apply List.map_congr_left; intro a _; rw [List.map_drop]
        · intro a ha
          have := (hno a ha).1
          rw [← List.map_drop] at this
          simpa using this
      have hs : (usable (trunc r).toNat files).mapM (autoCut c.ws.minWeightRatio) =
          .ok (files.map (fun a => (a.rows.map lineRow).drop (trunc r).toNat)) := by
        rw [hu, hc, mapM_ok (g := fun s => s), List.map_id']
        intro seg hseg
        obtain ⟨a, ha, rfl⟩ := List.mem_map.mp hseg
        exact autoCut_noCut (hno a ha)
      obtain ⟨c', hl, hsep, -⟩ := loadFiles_separate (c := c) _ ht hs (by simpa using hne)
      refine ⟨c', ?_, hc ▸ hsep⟩
      unfold readBurn burnOptions setBurnOptions
      simp only [hl, bind, Except.bind]
      rw [if_neg hpos, if_neg (by simp)]
      rfl
  · -- a fraction: all rows are read, then removed
    have h0 : (trunc r).toNat = 0 := by
      have h2 : ⌊r⌋ = 0 := by
        rw [Int.floor_eq_zero_iff]
        exact ⟨hr, lt_of_not_ge h1⟩
      have := trunc_toNat hr
      omega
    have hu : (∀ a ∈ files, NoCut (a.rows.map lineRow)) → (usable 0 files).mapM (autoCut c.ws.minWeightRatio) =
        .ok (files.map (fun a => a.rows.map lineRow)) := by
      intro hno
      have : usable 0 files = files.map (fun a => a.rows.map lineRow) := by
        unfold usable
        rw [List.filter_eq_self.mpr]
        · rfl
        · intro a ha
          have := (hno a ha).1
          simpa using this
      rw [this, hc, mapM_ok (g := fun s => s), List.map_id']
      intro seg hseg
      obtain ⟨a, ha, rfl⟩ := List.mem_map.mp hseg
      exact autoCut_noCut (hno a ha)
    refine ⟨fun len => (burnRows len r).toNat, fun len => (burnRows_dropped len hr).2, ?_⟩
    intro hno0 hno
    obtain ⟨c', hl, hsep, -⟩ := loadFiles_separate (c := c) 0 ht (hu hno0) (by simpa using hne)
    rw [hc] at hsep
    unfold readBurn burnOptions setBurnOptions
    simp only [h0, if_true, hl, bind, Except.bind]
    by_cases hz : r = 0
    · rw [if_neg (by simp [hz])]
      refine ⟨c', rfl, ?_⟩
      have hk : ∀ len, (burnRows len r).toNat = 0 := by
        intro len
        apply dropped_unique (n := len) (f := r) (burnRows_dropped len hr).2
        unfold Dropped
        rw [if_neg h1, hz]
        simp
      simpa [hk] using hsep
    · rw [if_pos ⟨hz, trivial⟩]
      have := removeBurn_separate hsep r
      have e : (files.map (fun a => a.rows.map lineRow)).mapM (burnSeg defaultRatio r) =
          .ok ((files.map (fun a => a.rows.map lineRow)).map (fun seg => seg.drop (burnRows seg.length r).toNat)) := by
        apply mapM_ok
        intro seg hs
        obtain ⟨a, ha, rfl⟩ := List.mem_map.mp hs
        unfold burnSeg sliceFrom
        rw [if_pos (burnRows_dropped _ hr).1]
        have := hno a ha
        rw [← List.length_map (as := a.rows) (f := lineRow)] at this
        exact autoCut_noCut this
      rw [e] at this
      obtain ⟨c2, h2, h3, -⟩ := this
      refine ⟨c2, h2, ?_⟩
      rw [List.map_map] at h3
      simpa [Function.comp_def] using h3

/-- **C60** a chain marked `burn_removed` is read completely -/
theorem burnRemoved_none (ini : K) (r : Option K) :
    (burnOptions ini (some (r, true))).lines = 0 ∧ (burnOptions ini (some (r, true))).frac = 0 := ⟨rfl, rfl⟩

/-- **C60** `ignore_rows` in the properties file of a chain replaces the general setting -/
theorem burnOptions_props (ini ini' r : K) (b : Bool) :
    burnOptions ini (some (some r, b)) = burnOptions ini' (some (some r, b)) := rfl

/-- two chains of four rows, all rows different -/
def bx : List (Arr2 ℚ) := [⟨3, [[1, 0, 1], [1, 0, 2], [1, 0, 3], [1, 0, 4], [1, 0, 5]]⟩, ⟨3, [[1, 0, 6], [1, 0, 7], [1, 0, 8], [1, 0, 9], [1, 0, 10]]⟩]

def b0 : CH ℚ := { ws := { minWeightRatio := defaultRatio } }

/-- the parameter values left in each chain -/
def left (c : CH ℚ) : List (List (List ℚ)) := (c.chains.getD []).map (fun s => (s.samples.map (·.rows)).getD [])

example : (readBurn b0 (burnOptions 2 none) false bx).map left = .ok [[[3], [4], [5]], [[8], [9], [10]]] := by decide +kernel
example : (readBurn b0 (burnOptions (2 / 5) none) false bx).map left = .ok [[[3], [4], [5]], [[8], [9], [10]]] := by decide +kernel

/-- **C60** the command line script removes a burn-in given as number of rows twice -/
theorem script_double_burn_fails :
    (scriptBurn b0 2 none none bx).map left = .ok [[[5]], [[10]]] := by decide +kernel

/-- **C60** the command line script removes burn-in from chains marked as already processed -/
theorem script_burn_removed_fails :
    (scriptBurn b0 (2 / 5) (some (none, true)) none bx).map left = .ok [[[3], [4], [5]], [[8], [9], [10]]] ∧
    (readBurn b0 (burnOptions (2 / 5) (some (none, true))) false bx).map left =
      .ok [[[1], [2], [3], [4], [5]], [[6], [7], [8], [9], [10]]] := by constructor <;> decide +kernel

/-- **C60** for a burn-in fraction from the settings, and no properties file, the script does what `readChains` does -/
theorem script_fraction_partial [IsStrictOrderedRing K] {c : CH K} {r : K} {files : List (Arr2 K)} (h0 : 0 < r) (h1 : r < 1) :
    scriptBurn c r none none files = readBurn c (burnOptions r none) false files := by
  have h2 : (trunc r).toNat = 0 := by
    have : ⌊r⌋ = 0 := by rw [Int.floor_eq_zero_iff]; exact ⟨h0.le, h1⟩
    have := trunc_toNat h0.le
    omega
  unfold scriptBurn readBurn burnOptions setBurnOptions
  simp only [h2, if_true, ne_eq, h0.ne', not_false_eq_true, and_self, Option.getD_none]

/-! ### C61 -/

/-- **C61**: a file read as a chain must have the columns for weight and likelihood -/
theorem few_columns_refused {a : Arr2 K} {skip : Nat} {ratio : Option K} (h : a.n < 2) (hne : a.rows.drop skip ≠ []) :
    loadFile skip true ratio a = .error .indexError := by
  unfold loadFile colData
  have hne' : (a.rows.drop skip).isEmpty = false := by simpa using hne
  rw [hne', if_neg (by simp)]
  rw [if_pos rfl, if_neg (show ¬ 2 ≤ a.n by omega)]
  rfl

example : loadFile 1 true none (⟨1, [[1], [2]]⟩ : Arr2 ℚ) = .error .indexError := few_columns_refused (by decide) (by simp)

/-- **C61** a plain table of samples (no weight and likelihood columns) can be read by a `WeightedSamples` object: all columns are
parameters -/
theorem loadFile_plain {a : Arr2 K} {s : WS K} {skip : Nat} {ratio : Option K} (h : loadFile skip false ratio a = .ok s) :
    s.samples = some ⟨a.n, a.rows.drop skip⟩ := by
  unfold loadFile colData at h
  split at h
  · cases h
  · simp only [Bool.false_eq_true, if_false, bind, Except.bind, create, Samples.setSamples] at h
    revert h
    simp only [Samples.assign]
    intro h
    cases ratio with
    | none => cases h; rfl
    | some r =>
      simp only [pure, Except.pure] at h
      by_cases hr : 0 ≤ r
      · simp only [if_pos hr, Samples.setMinWeightRatio] at h
        cases h; rfl
      · simp only [if_neg hr] at h
        cases h; rfl

/-- **C61** but `loadChains`, used by the script option `samples_are_chains = F`, always takes the first two columns as weight and
likelihood -/
theorem samples_are_chains_fails :
    (loadFiles b0 0 [⟨3, [[1, 2, 3], [1, 5, 6]]⟩]).map left = .ok [[[3], [6]]] := by decide +kernel

end Verif.Chains
