import Verif.Model.PlanckGrids
import Verif.Props.BatchItems
import Verif.Props.BatchMore
import Verif.Props.BatchArgs

/-! # C251–C254: the supplied grids -/

namespace Verif.PlanckGrids
open Verif.Py Verif.Batch

/-! ## Filters -/

/-- the data of the run have one of the Planck likelihoods -/
def HasPlanck (i : Info) : Prop := c!"plikHM" ∈ i.data.names ∨ c!"CamSpecHM" ∈ i.data.names

theorem isPlanck_iff (i : Info) : isPlanck i = true ↔ HasPlanck i := by
  unfold isPlanck planckVars HasPlanck
  simp

/-- **C251**: lensing alone is added to runs with a Planck likelihood, and to those with curvature only if nothing else is varied -/
theorem lensing_wanted (i : Info) : postLensing.want i = true ↔ HasPlanck i ∧ (c!"omegak" ∈ i.params → ∃ p, i.params = [p]) := by
  show (isPlanck i && (!i.params.contains c!"omegak" || i.params.length == 1)) = true ↔ _
  rw [Bool.and_eq_true, isPlanck_iff, Bool.or_eq_true, Bool.not_eq_true', List.contains_eq_mem, decide_eq_false_iff_not, beq_iff_eq,
    List.length_eq_one_iff]
  constructor
  · rintro ⟨h, h2⟩
    exact ⟨h, fun hm => h2.resolve_left (fun hn => hn hm)⟩
  · rintro ⟨h, h2⟩
    refine ⟨h, ?_⟩
    by_cases hm : c!"omegak" ∈ i.params
    · exact .inr (h2 hm)
    · exact .inl hm

example : postLensing.want (mkItem [] [c!"omegak"] (mkData [c!"plikHM", c!"TT"] none) c!"base") = true ∧
    postLensing.want (mkItem [] [c!"mnu", c!"omegak"] (mkData [c!"plikHM", c!"TT"] none) c!"base") = false ∧
    postLensing.want (mkItem [] [] (mkData [c!"WMAP"] none) c!"base") = false := by decide +kernel

/-- **C251**: in the grid of the nominal mission the same holds with its likelihood -/
theorem lensing_wanted13 (i : Info) : postLensing13.want i = true ↔ c!"planck" ∈ i.data.names ∧ (c!"omegak" ∈ i.params → ∃ p, i.params = [p]) := by
  show (i.data.names.contains c!"planck" && (!i.params.contains c!"omegak" || i.params.length == 1)) = true ↔ _
  rw [Bool.and_eq_true, Bool.or_eq_true, Bool.not_eq_true', List.contains_eq_mem, List.contains_eq_mem, decide_eq_false_iff_not, beq_iff_eq,
    List.length_eq_one_iff, decide_eq_true_eq]
  constructor
  · rintro ⟨h, h2⟩
    exact ⟨h, fun hm => h2.resolve_left (fun hn => hn hm)⟩
  · rintro ⟨h, h2⟩
    refine ⟨h, ?_⟩
    by_cases hm : c!"omegak" ∈ i.params
    · exact .inr (h2 hm)
    · exact .inl hm

/-- **C251**: supernovae are not added twice, under whatever name -/
theorem sn_wanted (i : Info) : postLensingPantheon.want i = true ↔ c!"JLA" ∉ i.data.names ∧ c!"Pantheon18" ∉ i.data.names := by
  show (!i.data.names.contains c!"JLA" && !i.data.names.contains c!"Pantheon18") = true ↔ _
  rw [Bool.and_eq_true, Bool.not_eq_true', Bool.not_eq_true', List.contains_eq_mem, List.contains_eq_mem, decide_eq_false_iff_not, decide_eq_false_iff_not]

/-- **C251**: the limit on the redshift of reionization goes to the runs with a Planck likelihood that do not have it already -/
theorem zre_wanted (i : Info) : zreRun.want i = true ↔ HasPlanck i ∧ c!"reion" ∉ i.data.names := by
  show (isPlanck i && !i.data.names.contains c!"reion") = true ↔ _
  rw [Bool.and_eq_true, isPlanck_iff, Bool.not_eq_true', List.contains_eq_mem, decide_eq_false_iff_not]

/-- **C251**: the filter for flat models takes exactly models without `omegak` -/
theorem flat_wanted (i : Info) : wantFlat i = true ↔ c!"omegak" ∉ i.params := by
  unfold wantFlat
  rw [Bool.not_eq_true', List.contains_eq_mem, decide_eq_false_iff_not]

/-- **C251**: the filter for the number of neutrinos takes exactly models that vary it -/
theorem nnu_wanted (i : Info) : wantNnu i = true ↔ c!"nnu" ∈ i.params := by
  unfold wantNnu
  rw [List.contains_eq_mem, decide_eq_true_eq]

/-- **C251**: the filter of runs with baryon oscillations takes exactly flat models with these data -/
theorem bao_wanted (i : Info) : wantBAO i = true ↔ c!"omegak" ∉ i.params ∧ c!"BAO" ∈ i.data.names := by
  unfold wantBAO DS.hasName
  rw [Bool.and_eq_true, Bool.not_eq_true', List.contains_eq_mem, decide_eq_false_iff_not]
  simp

/-- **C251**: the filter of the nominal mission leaves out exactly models with curvature with `planck_lowl` -/
theorem lowl_wanted13 (i : Info) : wantNotLowl13 i = true ↔ ¬ (c!"omegak" ∈ i.params ∧ i.datatag = c!"planck_lowl") := by
  unfold wantNotLowl13
  rw [Bool.not_eq_true', ← Bool.not_eq_true, Bool.and_eq_true, List.contains_eq_mem, decide_eq_true_eq, decide_eq_true_eq]

example : wantNotLowl13 (mkItem [] [c!"omegak"] (set13 [c!"lowl"] cam [c!"lowl.ini"]) c!"base") = false := by decide +kernel

example : wantFlat (mkItem [] [c!"mnu"] (mkData [c!"plikHM"] none) c!"base") = true ∧ wantNnu (mkItem [] [c!"nnu", c!"mnu"] (mkData [c!"plikHM"] none) c!"base") = true ∧
    wantBAO (mkItem [] [c!"omegak"] (mkData [c!"plikHM", c!"BAO"] none) c!"base") = false := by decide +kernel

/-! ## Where the importance runs of a grid come from -/

/-- the importance runs of a group, the common ones and the filters -/
def allRuns (s : Settings) (g : Group) : List ImpRun := g.importanceRuns ++ s.importanceRuns ++ s.filters.getD []

theorem impInfo_params (i : Info) (r : ImpRun) : (impInfo i r).params = i.params := rfl
theorem impInfo_names (i : Info) (r : ImpRun) : (impInfo i r).data.names = i.data.names ++ r.names := rfl
theorem impInfo_imp (i : Info) (r : ImpRun) : (impInfo i r).data.imp = r.names := rfl

/-- **C251**: every importance run of a grid is made from a full run of a group — or from an importance run of it, by one of the filters — and
what it is made with was wanted for what it is made from and has no data in common with it -/
theorem imp_origin (path : Str) (skip : List Str) (s : Settings) (hj : s.jobItems = []) (x : Job) (hx : x ∈ (makeItems path skip s).flatMap imps) :
    ∃ g ∈ s.groups, ∃ d ∈ g.datasets, ∃ ps ∈ g.params, ∃ r ∈ allRuns s g, ∃ i, x.info = impInfo i r ∧ r.applies i = true ∧ i.params = ps ∧
      (∀ n ∈ d.names, n ∈ i.data.names) ∧ (r ∈ g.importanceRuns ++ s.importanceRuns → i.data.names = d.names ∨ r ∈ s.filters.getD []) := by
  obtain ⟨j, hjm, hxj⟩ := List.mem_flatMap.mp hx
  have hrel := dedupe_rel skip _ (uniq_numberL (applyFilters s.filters (groupItems path skip s)))
  obtain ⟨b, hb, -, hsub⟩ := hrel.top hjm
  have hk : key x ∈ K b := hsub.subset (List.mem_map_of_mem hxj)
  have hinf : x.info ∈ (imps b).map Job.info := by
    obtain ⟨y, hy, e⟩ := List.mem_map.mp hk
    exact List.mem_map.mpr ⟨y, hy, by have := congrArg Prod.snd e; exact this⟩
  have hflat : x.info ∈ ((applyFilters s.filters (groupItems path skip s)).flatMap imps).map Job.info := by
    rw [← impsL_eq, ← (numberL_infos 0 _).2, impsL_eq]
    exact List.mem_map.mpr (by
      obtain ⟨y, hy, e⟩ := List.mem_map.mp hinf
      exact ⟨y, List.mem_flatMap.mpr ⟨b, hb, hy⟩, e⟩)
  rw [groupItems_spec, hj, List.map_nil, List.append_nil] at hflat
  obtain ⟨y, hy, e⟩ := List.mem_map.mp hflat
  obtain ⟨t, ht, hyt⟩ := List.mem_flatMap.mp hy
  rw [← e]
  have full : ∀ c ∈ combos path s.groups, ∃ d ∈ c.1.datasets, c.1 ∈ s.groups ∧ c.2.params ∈ c.1.params ∧ c.2.data.names = d.names := by
    intro c hc
    unfold combos at hc
    simp only [List.mem_flatMap, List.mem_map] at hc
    obtain ⟨g, hg, d, hd, ps, hps, rfl⟩ := hc
    exact ⟨d, hd, hg, hps, rfl⟩
  cases hf : s.filters with
  | none =>
    rw [hf] at ht
    simp only [applyFilters] at ht
    obtain ⟨c, hc, rfl⟩ := List.mem_map.mp ht
    obtain ⟨d, hd, hg, hps, hn⟩ := full c (List.mem_filter.mp hc).1
    rw [imps, List.mem_append] at hyt
    have : y ∈ ((c.1.importanceRuns ++ s.importanceRuns).filter (fun r => r.applies c.2)).map (fun r => Job.node (impInfo c.2 r) 0 []) := by
      rcases hyt with h | h
      · exact h
      · rw [impsL_eq] at h
        obtain ⟨z, hz, hz2⟩ := List.mem_flatMap.mp h
        obtain ⟨r, -, rfl⟩ := List.mem_map.mp hz
        simp [imps, impsL] at hz2
    obtain ⟨r, hr, rfl⟩ := List.mem_map.mp this
    obtain ⟨hr1, hr2⟩ := List.mem_filter.mp hr
    refine ⟨c.1, hg, d, hd, _, hps, r, ?_, c.2, rfl, hr2, rfl, by rw [hn]; exact fun n h => h, fun _ => .inl hn⟩
    unfold allRuns
    exact List.mem_append_left _ hr1
  | some fs =>
    rw [hf] at ht
    simp only [applyFilters] at ht
    rw [List.map_map] at ht
    obtain ⟨c, hc, rfl⟩ := List.mem_map.mp ht
    obtain ⟨d, hd, hg, hps, hn⟩ := full c (List.mem_filter.mp hc).1
    have hyt' := hyt
    rw [Function.comp_apply, makeImportance_spec, imps] at hyt'
    simp only [Job.info, Job.children] at hyt'
    have hmemF : ∀ r ∈ fs, r ∈ allRuns s c.1 := by
      intro r hr
      unfold allRuns
      rw [hf]
      exact List.mem_append_right _ hr
    have hmemG : ∀ r ∈ c.1.importanceRuns ++ s.importanceRuns, r ∈ allRuns s c.1 := by
      intro r hr
      unfold allRuns
      exact List.mem_append_left _ hr
    -- a child or a grandchild
    have key1 : ∀ z : Job, z ∈ ((((c.1.importanceRuns ++ s.importanceRuns).filter (fun r => r.applies c.2)).map (fun r => Job.node (impInfo c.2 r) 0 [])).map
        (fun c => makeImportance c fs) ++ (fs.filter (fun r => r.applies c.2)).map (fun r => Job.node (impInfo c.2 r) 0 [])) →
        (∃ r, r ∈ allRuns s c.1 ∧ r.applies c.2 = true ∧ z.info = impInfo c.2 r) ∧
        ∀ w ∈ imps z, ∃ r ∈ fs, ∃ r1, w.info = impInfo (impInfo c.2 r1) r ∧ r.applies (impInfo c.2 r1) = true := by
      intro z hz
      rcases List.mem_append.mp hz with h | h
      · rw [List.map_map] at h
        obtain ⟨r, hr, rfl⟩ := List.mem_map.mp h
        obtain ⟨hr1, hr2⟩ := List.mem_filter.mp hr
        rw [Function.comp_apply, makeImportance_spec]
        refine ⟨⟨r, hmemG r hr1, hr2, rfl⟩, ?_⟩
        intro w hw
        rw [imps, List.mem_append] at hw
        simp only [Job.info, Job.children, List.nil_append] at hw
        rcases hw with hw | hw
        · obtain ⟨q, hq, rfl⟩ := List.mem_map.mp hw
          obtain ⟨hq1, hq2⟩ := List.mem_filter.mp hq
          exact ⟨q, hq1, r, rfl, hq2⟩
        · rw [impsL_eq] at hw
          obtain ⟨v, hv, hv2⟩ := List.mem_flatMap.mp hw
          obtain ⟨q, -, rfl⟩ := List.mem_map.mp hv
          simp [imps, impsL] at hv2
      · obtain ⟨r, hr, rfl⟩ := List.mem_map.mp h
        obtain ⟨hr1, hr2⟩ := List.mem_filter.mp hr
        exact ⟨⟨r, hmemF r hr1, hr2, rfl⟩, by intro w hw; simp [imps, impsL] at hw⟩
    rcases List.mem_append.mp hyt' with h | h
    · obtain ⟨⟨r, hr, ha, he⟩, -⟩ := key1 y h
      exact ⟨c.1, hg, d, hd, _, hps, r, hr, c.2, he, ha, rfl, by rw [hn]; exact fun n h => h, fun _ => .inl hn⟩
    · rw [impsL_eq] at h
      obtain ⟨z, hz, hz2⟩ := List.mem_flatMap.mp h
      obtain ⟨-, hw⟩ := key1 z hz
      obtain ⟨r, hr, r1, he, ha⟩ := hw y hz2
      refine ⟨c.1, hg, d, hd, _, hps, r, hmemF r hr, impInfo c.2 r1, he, ha, rfl, ?_, fun _ => .inr hr⟩
      intro n h
      rw [impInfo_names, hn]
      exact List.mem_append_left _ h

/-- data on distances go only to flat models -/
def FlatOnly (r : ImpRun) : Prop := (c!"BAO" ∈ r.names ∨ c!"Riess18" ∈ r.names) → ∀ i, r.want i = true → c!"omegak" ∉ i.params

theorem flatOnly_flat {r : ImpRun} (h : r.want = wantFlat) : FlatOnly r := by
  intro _ i hi
  rw [h] at hi
  exact (flat_wanted i).mp hi

theorem flatOnly_names {r : ImpRun} (h : c!"BAO" ∉ r.names ∧ c!"Riess18" ∉ r.names) : FlatOnly r :=
  fun hn => absurd hn (by rintro (h1 | h1); exacts [h.1 h1, h.2 h1])

theorem flatOnly_lens : ∀ r ∈ lensRuns, FlatOnly r := by
  intro r hr
  apply flatOnly_names
  have h : ∀ r ∈ lensRuns, c!"BAO" ∉ r.names ∧ c!"Riess18" ∉ r.names := by decide +kernel
  exact h r hr

theorem flatOnly_18 : ∀ g ∈ groups18, ∀ r ∈ g.importanceRuns, FlatOnly r := by
  have h1 : FlatOnly postBAO := flatOnly_flat rfl
  have h2 : FlatOnly postLensing := flatOnly_names (by decide +kernel)
  have h3 : FlatOnly postLensingBAO := flatOnly_flat rfl
  have h4 : FlatOnly postHST := flatOnly_flat rfl
  have h5 : FlatOnly postBBN := flatOnly_names (by decide +kernel)
  have h6 : FlatOnly postLensingPantheon := flatOnly_names (by decide +kernel)
  have h7 : FlatOnly postBAOHST := flatOnly_flat rfl
  have h8 : FlatOnly postPantheon := flatOnly_flat rfl
  have h9 : FlatOnly postBAOHSTJLA := flatOnly_flat rfl
  have h10 : FlatOnly postBAOPantheon := flatOnly_flat rfl
  have h11 : FlatOnly postBAOHSTPantheon := flatOnly_flat rfl
  have h12 : FlatOnly postAver15 := flatOnly_names (by decide +kernel)
  have h13 : FlatOnly postLensingJLA := flatOnly_flat rfl
  have h14 : FlatOnly postBAOlensingPantheon := flatOnly_flat rfl
  have h15 := flatOnly_lens
  unfold groups18 group
  simp only [List.forall_mem_cons, h1, h2, h3, h4, h5, h6, h7, h8, h9, h10, h11, h12, h13, h14, true_and]
  simp only [List.not_mem_nil, false_implies, implies_true, and_true, true_and]
  exact h15

/-- **C251**: in the grid of 2018 no importance run adds baryon oscillations or the Hubble constant to a model with curvature -/
theorem curved_18 (path : Str) (skip : List Str) (x : Job) (hx : x ∈ (makeItems path skip grid18).flatMap imps) (hc : c!"omegak" ∈ x.info.params) :
    c!"BAO" ∉ x.info.data.imp ∧ c!"Riess18" ∉ x.info.data.imp := by
  obtain ⟨g, hg, d, -, ps, -, r, hr, i, e, ha, -, -, -⟩ := imp_origin path skip grid18 rfl x hx
  have hw := ((applies_iff r i).mp ha).1
  rw [e] at hc ⊢
  rw [impInfo_params] at hc
  rw [impInfo_imp]
  have hf : FlatOnly r := by
    unfold allRuns at hr
    rcases List.mem_append.mp hr with h | h
    · rcases List.mem_append.mp h with h | h
      · exact flatOnly_18 g hg r h
      · exact absurd h (by simp [grid18])
    · have : r = zreRun := by simpa [grid18] using h
      rw [this]
      exact flatOnly_names (by decide +kernel)
  exact ⟨fun h => hf (.inl h) i hw hc, fun h => hf (.inr h) i hw hc⟩

/-- **C251**: in the grid of 2018 lensing data are only added to runs with a Planck likelihood, and so is the limit on reionization, which is never
added to a run with the data `reion` -/
theorem planck_18 (path : Str) (skip : List Str) (x : Job) (hx : x ∈ (makeItems path skip grid18).flatMap imps) :
    (c!"lensing" ∈ x.info.data.imp → HasPlanck x.info) ∧ (c!"zre6p5" ∈ x.info.data.imp → HasPlanck x.info ∧ c!"reion" ∉ x.info.data.names) := by
  obtain ⟨g, hg, d, hd, ps, -, r, hr, i, e, ha, -, hsub, -⟩ := imp_origin path skip grid18 rfl x hx
  have hw := ((applies_iff r i).mp ha).1
  rw [e]
  rw [impInfo_imp]
  have hL : ∀ g ∈ groups18, ∀ r ∈ g.importanceRuns, (c!"lensing" ∈ r.names → ∀ d ∈ g.datasets, c!"plikHM" ∈ d.names ∨ c!"CamSpecHM" ∈ d.names) ∧
      c!"zre6p5" ∉ r.names := by decide +kernel
  have mono : HasPlanck i → HasPlanck (impInfo i r) := by
    unfold HasPlanck
    rw [impInfo_names]
    rintro (h | h)
    · exact .inl (List.mem_append_left _ h)
    · exact .inr (List.mem_append_left _ h)
  unfold allRuns at hr
  rcases List.mem_append.mp hr with h | h
  · rcases List.mem_append.mp h with h | h
    · obtain ⟨h1, h2⟩ := hL g hg r h
      refine ⟨fun hl => mono ?_, fun hz => absurd hz h2⟩
      rcases h1 hl d hd with h | h
      · exact .inl (hsub _ h)
      · exact .inr (hsub _ h)
    · exact absurd h (by simp [grid18])
  · have hz : r = zreRun := by simpa [grid18] using h
    subst hz
    obtain ⟨h1, h2⟩ := (zre_wanted i).mp hw
    refine ⟨fun hl => absurd hl (by decide +kernel), fun _ => ⟨mono h1, ?_⟩⟩
    rw [impInfo_names]
    intro hm
    rcases List.mem_append.mp hm with h | h
    · exact h2 h
    · exact absurd h (by decide +kernel)

/-! ## Names of runs -/

/-- parameters and data tag of every run of the groups, in order -/
def pairs (gs : List Group) : List (List Str × Str) := gs.flatMap (fun g => g.datasets.flatMap (fun d => g.params.map (fun ps => (ps, d.tag))))

/-- where the chains of a run are, below the directory of the grid -/
def place (c : List Str × Str) : Str := join us (c!"base" :: c.1) ++ c!"/" ++ c.2 ++ c!"/" ++ join us (c!"base" :: c.1) ++ c!"_" ++ c.2

/-- parameters and data tag of a run -/
def pairOf (j : Job) : List Str × Str := (j.info.params, j.info.datatag)

theorem make_pairs (path : Str) (skip : List Str) (s : Settings) (hj : s.jobItems = []) :
    ((makeItems path skip s).map pairOf).Sublist (pairs s.groups) ∧ (skip = [] → (makeItems path skip s).map pairOf = pairs s.groups) ∧
    ∀ j ∈ makeItems path skip s, j.info.chainRoot = path ++ place (pairOf j) := by
  have h := (makeItems_spec path skip s).1
  rw [hj, List.map_nil, List.append_nil] at h
  have hp : ((combos path s.groups).map Prod.snd).map (fun i : Info => (i.params, i.datatag)) = pairs s.groups := by
    unfold combos pairs
    rw [List.map_map, List.map_flatMap]
    congr 1; funext g
    rw [List.map_flatMap]
    congr 1; funext d
    rw [List.map_map]
    rfl
  have h2 : (makeItems path skip s).map pairOf = ((makeItems path skip s).map Job.info).map (fun i : Info => (i.params, i.datatag)) := by
    rw [List.map_map]; rfl
  refine ⟨?_, ?_, ?_⟩
  · rw [h2, h, ← hp]
    exact List.filter_sublist.map _
  · rintro rfl
    rw [h2, h, ← hp]
    simp
  · intro j hjm
    have : j.info ∈ (makeItems path skip s).map Job.info := List.mem_map_of_mem hjm
    rw [h] at this
    have hc := (List.mem_filter.mp this).1
    unfold combos at hc
    simp only [List.mem_map, List.mem_flatMap] at hc
    obtain ⟨c, ⟨g, -, d, -, ps, -, rfl⟩, e⟩ := hc
    unfold pairOf
    rw [← e]
    simp [fullRun, mkItem, place, us]

theorem nodup_path (path : Str) (l : List (List Str × Str)) (h : (l.map place).Nodup) : (l.map (fun c => path ++ place c)).Nodup := by
  rw [show (fun c => path ++ place c) = (fun s : Str => path ++ s) ∘ place from rfl, ← List.map_map]
  exact h.map (fun a b e => List.append_cancel_left e)

/-- a number for a text; different numbers come from different texts -/
def code (s : Str) : Nat := s.foldl (fun n c => n * 31 + c.toNat) 1 % 1000003

/-- no number appears twice, and none is in the set `m` of bits -/
def fresh : Nat → List Nat → Bool
  | _, [] => true
  | m, a :: l => !m.testBit a && fresh (m ||| (1 <<< a)) l

theorem fresh_nodup : ∀ (l : List Nat) (m : Nat), fresh m l = true → l.Nodup ∧ ∀ a ∈ l, m.testBit a = false
  | [], _, _ => ⟨List.nodup_nil, by simp⟩
  | a :: l, m, h => by
    rw [fresh, Bool.and_eq_true, Bool.not_eq_true'] at h
    obtain ⟨h1, h2⟩ := fresh_nodup l _ h.2
    have h3 : ∀ b ∈ l, b ≠ a ∧ m.testBit b = false := by
      intro b hb
      have := h2 b hb
      rw [Nat.testBit_or, Bool.or_eq_false_iff] at this
      refine ⟨?_, this.1⟩
      rintro rfl
      simp at this
    refine ⟨List.nodup_cons.mpr ⟨fun hm => (h3 a hm).1 rfl, h1⟩, ?_⟩
    intro b hb
    rcases List.mem_cons.mp hb with rfl | hb
    · exact h.1
    · exact (h3 b hb).2

theorem nodup_code {l : List Str} (h : fresh 0 (l.map code) = true) : l.Nodup := List.Nodup.of_map _ (fresh_nodup _ _ h).1

theorem places15 : fresh 0 (((pairs groups15).map place).map code) = true := by decide +kernel
theorem places13 : fresh 0 (((pairs groups13).map place).map code) = true := by decide +kernel

theorem roots_nodup (path : Str) (skip : List Str) (s : Settings) (hj : s.jobItems = []) (p : List Str × Str → Bool)
    (h : (((pairs s.groups).filter p).map place).Nodup) :
    (((makeItems path skip s).filter (fun j => p (pairOf j))).map (fun j => j.info.chainRoot)).Nodup := by
  obtain ⟨h1, -, h3⟩ := make_pairs path skip s hj
  have e : ((makeItems path skip s).filter (fun j => p (pairOf j))).map (fun j => j.info.chainRoot) =
      ((((makeItems path skip s).map pairOf).filter p).map (fun c => path ++ place c)) := by
    rw [List.filter_map, List.map_map]
    apply List.map_congr_left
    intro j hm
    exact h3 j (List.mem_filter.mp hm).1
  rw [e]
  exact (nodup_path path _ h).sublist ((h1.filter p).map _)

/-- **C252**: in the grid of 2015, wherever it is, no two runs write to the same chains -/
theorem runs_distinct_15 (path : Str) (skip : List Str) : ((makeItems path skip grid15).map (fun j => j.info.chainRoot)).Nodup := by
  have := roots_nodup path skip grid15 rfl (fun _ => true) (by rw [List.filter_true]; exact nodup_code places15)
  rwa [List.filter_true] at this

/-- **C252**: nor in the grid of the nominal mission -/
theorem runs_distinct_13 (path : Str) (skip : List Str) : ((makeItems path skip grid13).map (fun j => j.info.chainRoot)).Nodup := by
  have := roots_nodup path skip grid13 rfl (fun _ => true) (by rw [List.filter_true]; exact nodup_code places13)
  rwa [List.filter_true] at this

example : (pairs groups15).length = 375 ∧ (pairs groups13).length = 97 := by decide +kernel

/-- data of the runs that are there twice -/
def sharedTags : List Str := [c!"plikHM_TT_lowl", c!"plikHM_TTTEEE_lowl", c!"CamSpecHM_TT_lowl", c!"CamSpecHM_TTTEEE_lowl"]

/-- **C252**: the base model is there twice for each of the four data sets -/
theorem shared_twice : ∀ t ∈ sharedTags, (pairs groups18).count ([], t) = 2 := by decide +kernel

/-- **C252 fails**: two runs of the grid of 2018 have the same root, so that the chains of one replace those of the other: the base model with
`plikHM_TT_lowl` is in the group `nopoltau` and again in the group `Alens` (settings_planck_2018.py:223-226, 461-469) -/
theorem runs_distinct_18_fails (path : Str) : ¬ ((makeItems path [] grid18).map (fun j => j.info.chainRoot)).Nodup := by
  intro h
  obtain ⟨-, h2, h3⟩ := make_pairs path [] grid18 rfl
  have e : (makeItems path [] grid18).map (fun j => j.info.chainRoot) = ((makeItems path [] grid18).map pairOf).map (fun c => path ++ place c) := by
    rw [List.map_map]
    apply List.map_congr_left
    intro j hm
    exact h3 j hm
  rw [e, h2 rfl] at h
  have hn := List.nodup_iff_count_le_one.mp (List.Nodup.of_map _ h) ([], c!"plikHM_TT_lowl")
  have h2 : (pairs grid18.groups).count ([], c!"plikHM_TT_lowl") = 2 := shared_twice _ (by decide +kernel)
  rw [h2] at hn
  omega

/-- a run that is there once -/
def single (c : List Str × Str) : Bool := !(c.1.isEmpty && sharedTags.contains c.2)

theorem places18 : fresh 0 ((((pairs groups18).filter single).map place).map code) = true := by decide +kernel

/-- **C252**: all others have roots of their own (missing: the base model with the four data sets above, which is there twice) -/
theorem runs_distinct_18_partial (path : Str) (skip : List Str) :
    (((makeItems path skip grid18).filter (fun j => single (pairOf j))).map (fun j => j.info.chainRoot)).Nodup ∧
    (∀ j ∈ makeItems path skip grid18, single (pairOf j) = false → j.info.params = [] ∧ j.info.datatag ∈ sharedTags) := by
  refine ⟨roots_nodup path skip grid18 rfl single (nodup_code places18), ?_⟩
  intro j _ h
  unfold single pairOf at h
  rw [Bool.not_eq_false', Bool.and_eq_true, List.isEmpty_iff, List.contains_eq_mem, decide_eq_true_eq] at h
  exact h

/-! ## Run files -/

theorem jobIni_ok (g : GridOpts) (j : Info) (jobExtra : Option (Dict Str (Dict Str Str))) (jobOpts : Option (Dict Str Str)) (cov : Dict Str Str)
    (h1 : j.params.all (fun p => g.params.has p) = true) (h2 : plainL j.data.params = true) : ∃ ini, jobIni g j jobExtra jobOpts cov = .ok ini := by
  unfold jobIni
  rw [paramOpts_spec, if_pos h1]
  simp only []
  rw [updItems_spec, if_pos h2]
  exact ⟨_, rfl⟩

/-- parameters have ranges, data only files and options -/
def ready (params : Dict Str Str) (gs : List Group) : Bool :=
  gs.all (fun g => g.datasets.all (fun d => plainL d.params) && g.params.all (fun ps => ps.all (fun p => params.has p)))

theorem ready_runs (path : Str) (skip : List Str) (s : Settings) (hj : s.jobItems = []) (g : GridOpts) (hr : ready g.params s.groups = true)
    (j : Job) (hm : j ∈ makeItems path skip s) (jobExtra : Option (Dict Str (Dict Str Str))) (jobOpts : Option (Dict Str Str)) (cov : Dict Str Str) :
    ∃ ini, jobIni g j.info jobExtra jobOpts cov = .ok ini := by
  have h := (makeItems_spec path skip s).1
  rw [hj, List.map_nil, List.append_nil] at h
  have : j.info ∈ (makeItems path skip s).map Job.info := List.mem_map_of_mem hm
  rw [h] at this
  have hc := (List.mem_filter.mp this).1
  unfold combos at hc
  simp only [List.mem_map, List.mem_flatMap] at hc
  obtain ⟨c, ⟨gr, hg, d, hd, ps, hps, rfl⟩, e⟩ := hc
  unfold ready at hr
  have h1 := List.all_eq_true.mp hr gr hg
  rw [Bool.and_eq_true] at h1
  rw [← e]
  exact jobIni_ok _ _ _ _ _ (List.all_eq_true.mp h1.2 ps hps) (List.all_eq_true.mp h1.1 d hd)

/-- **C253**: the file of every run of the supplied grids can be made: all varied parameters have ranges, and the data are files and options -/
theorem inis_made (path common : Str) (skip : List Str) (j : Job) (jobExtra : Option (Dict Str (Dict Str Str))) (jobOpts : Option (Dict Str Str))
    (cov : Dict Str Str) :
    (j ∈ makeItems path skip grid18 → ∃ ini, jobIni (opts18 common) j.info jobExtra jobOpts cov = .ok ini) ∧
    (j ∈ makeItems path skip grid15 → ∃ ini, jobIni (opts15 common) j.info jobExtra jobOpts cov = .ok ini) ∧
    (j ∈ makeItems path skip grid13 → ∃ ini, jobIni (opts13 common) j.info jobExtra jobOpts cov = .ok ini) := by
  have h18 : ready params18 groups18 = true := by decide +kernel
  have h15 : ready params15 groups15 = true := by decide +kernel
  have h13 : ready paramsDefault groups13 = true := by decide +kernel
  exact ⟨fun h => ready_runs path skip grid18 rfl (opts18 common) h18 j h _ _ _, fun h => ready_runs path skip grid15 rfl (opts15 common) h15 j h _ _ _,
    fun h => ready_runs path skip grid13 rfl (opts13 common) h13 j h _ _ _⟩

/-- the options that go with a parameter are there when it is varied, and its range unless another parameter sets it -/
def extrasHold (g : GridOpts) (extra : Dict Str (Dict Str Str)) (ps : List Str) : Bool :=
  match paramOpts g none ps [] with
  | .error _ => false
  | .ok d => ps.all (fun p => ((extra.get? p).getD []).all (fun e => decide (d.get? e.1 = some e.2)))

theorem paramOpts_path (g : GridOpts) (c : Str) (e : Option (Dict Str (Dict Str Str))) (ps : List Str) (d : Dict Str Str) :
    paramOpts { g with commonPath := c } e ps d = paramOpts g e ps d := by
  rw [paramOpts_spec, paramOpts_spec]
  rfl

/-- **C253**: in all of them the options that go with a varied parameter are set, together with all parameters of the run: sterile neutrinos keep
their lower limit on the number of neutrinos although that is varied too -/
theorem extras_hold (common : Str) :
    (∀ g ∈ groups18, ∀ ps ∈ g.params, extrasHold (opts18 common) extra18 ps = true) ∧
    (∀ g ∈ groups15, ∀ ps ∈ g.params, extrasHold (opts15 common) extra15 ps = true) ∧
    (∀ g ∈ groups13, ∀ ps ∈ g.params, extrasHold (opts13 common) extra18 ps = true) := by
  have h18 : ∀ g ∈ groups18, ∀ ps ∈ g.params, extrasHold (opts18 []) extra18 ps = true := by decide +kernel
  have h15 : ∀ g ∈ groups15, ∀ ps ∈ g.params, extrasHold (opts15 []) extra15 ps = true := by decide +kernel
  have h13 : ∀ g ∈ groups13, ∀ ps ∈ g.params, extrasHold (opts13 []) extra18 ps = true := by decide +kernel
  have e : ∀ (g : GridOpts) (x : Dict Str (Dict Str Str)) (ps : List Str), extrasHold { g with commonPath := common } x ps = extrasHold g x ps := by
    intro g x ps
    unfold extrasHold
    rw [paramOpts_path]
  refine ⟨fun g hg ps hps => ?_, fun g hg ps hps => ?_, fun g hg ps hps => ?_⟩
  · exact (e (opts18 []) extra18 ps).trans (h18 g hg ps hps)
  · exact (e (opts15 []) extra15 ps).trans (h15 g hg ps hps)
  · exact (e (opts13 []) extra18 ps).trans (h13 g hg ps hps)

/-- **C253**: a run with sterile neutrinos has `3.1 3.046 10 0.05 0.05` for the number of neutrinos and a fixed mass of the others -/
theorem sterile_range (common : Str) (ps : List Str) (h : extrasHold (opts18 common) extra18 ps = true) (hs : c!"meffsterile" ∈ ps) :
    ∃ d, paramOpts (opts18 common) none ps [] = .ok d ∧ d.get? c!"param[nnu]" = some c!"3.1 3.046 10 0.05 0.05" ∧
      d.get? c!"param[mnu]" = some c!"0.06" := by
  unfold extrasHold at h
  cases hp : paramOpts (opts18 common) none ps [] with
  | error e => rw [hp] at h; exact absurd h (by simp)
  | ok d =>
    rw [hp] at h
    have h1 := List.all_eq_true.mp h _ hs
    have hx : (extra18.get? c!"meffsterile").getD [] = [(c!"param[mnu]", c!"0.06"), (c!"param[nnu]", c!"3.1 3.046 10 0.05 0.05"),
      (c!"num_massive_neutrinos", c!"1"), (c!"accuracy_level", c!"1.2")] := by decide +kernel
    rw [hx] at h1
    have h2 := List.all_eq_true.mp h1
    refine ⟨d, rfl, ?_, ?_⟩
    · exact of_decide_eq_true (h2 (c!"param[nnu]", c!"3.1 3.046 10 0.05 0.05") (by simp only [List.mem_cons, true_or, or_true]))
    · exact of_decide_eq_true (h2 (c!"param[mnu]", c!"0.06") (by simp only [List.mem_cons, true_or]))

example : [c!"nnu", c!"meffsterile"] ∈ groups18.flatMap (fun g => g.params) ∧ extrasHold (opts18 []) extra18 [c!"nnu", c!"meffsterile"] = true := by
  decide +kernel

/-! ## What is not as meant -/

/-- **C254 fails**: with the parameters in the other order the limit that goes with sterile neutrinos is replaced by the usual range of the number
of neutrinos (gridconfig.py:118-123: the range of a later parameter replaces an option of an earlier one) -/
theorem sterile_order_fails : ∃ d, paramOpts (opts18 []) none [c!"meffsterile", c!"nnu"] [] = .ok d ∧
    d.get? c!"param[nnu]" = some c!"3.046 0.05 10 0.05 0.05" ∧ extrasHold (opts18 []) extra18 [c!"meffsterile", c!"nnu"] = false := by
  refine ⟨((match paramOpts (opts18 []) none [c!"meffsterile", c!"nnu"] [] with | .ok d => d | .error _ => [])), ?_, ?_, ?_⟩
  · rfl
  · decide +kernel
  · decide +kernel

/-- **C254 fails**: lensing data are meant for runs with a Planck likelihood, and lensing alone is not added to the run with WMAP data of 2015; but
together with baryon oscillations it is, since that run has another filter (settings_planck_2015.py:142, 516) -/
theorem lensing_wmap_fails : ∃ g ∈ groups15, ∃ d ∈ g.datasets, ∃ i, i = mkItem [] [] d c!"base" ∧ isPlanck i = false ∧
    g.importanceRuns.map (fun r => (r.names, r.applies i)) = [([c!"BAO"], true), ([c!"lensing"], false), ([c!"BAO", c!"lensing"], true)] := by
  have hg : (groups15[22]?).isSome = true := by decide +kernel
  obtain ⟨g, e⟩ := Option.isSome_iff_exists.mp hg
  have hgm : g ∈ groups15 := List.mem_of_getElem? e
  have e2 : g = group c!"WMAP" [[]] [postBAO, postLensing, postLensingBAO] [mkData [c!"WMAP"] (some [.file c!"WMAP.ini"])] := by
    have : groups15[22]? = some (group c!"WMAP" [[]] [postBAO, postLensing, postLensingBAO] [mkData [c!"WMAP"] (some [.file c!"WMAP.ini"])]) := rfl
    rw [this] at e
    exact (Option.some.inj e).symm
  subst e2
  refine ⟨_, hgm, mkData [c!"WMAP"] (some [.file c!"WMAP.ini"]), List.mem_cons_self, _, rfl, by decide +kernel, by decide +kernel⟩

/-- **C254 fails**: the correction of the lensing window is meant to be left alone for data that are marginalised over the CMB, but the test looks for
`CMBmarged` in the name of the variant and not in the tag of the data, so the variants `ptt` and `pttagr2` get the option
(settings_planck_2018.py:404-405) -/
theorem fix_cl_fails : ∃ v ∈ lensVars, v.1 = c!"ptt" ∧ contains c!"CMBmarged" v.2.1 = true ∧ (lensOpts v.1 v.2.1 v.2.2).get? fixKey = some c!"TT" :=
  ⟨(c!"ptt", c!"dclpttptt_p_teb_consext8_CMBmarged", []), by decide +kernel, rfl, by decide +kernel, by decide +kernel⟩

/-- **C254 fails**: a run of the sample for CamSpec cannot be found by the tag of its data, since the name of the likelihood has underscores
(settings_sample_camspec.py:26, batchjob.py:524-525) -/
theorem camspec_tag_fails : c!"CamSpec_v12_5_HM_cln_TT_tauP" ∈ (makeItems [] [] gridCam).map (fun j => j.info.datatag) ∧
    (resolveName [] (makeItems [] [] gridCam) [] c!"CamSpec_v12_5_HM_cln_TT_tauP" c!"base" true true).toOption = none := by
  decide +kernel

/-- **C254**: no other variant of the lensing data has the option, all have the file of their tag, and the options given are kept (missing: the
variants `ptt`) -/
theorem fix_cl_partial : ∀ v ∈ lensVars, (contains c!"ptt" v.1 = false → (lensOpts v.1 v.2.1 v.2.2).get? fixKey = none) ∧
    (lensOpts v.1 v.2.1 v.2.2).get? c!"cmb_dataset[lensing]" = some (lensFile v.2.1) ∧
    ∀ e ∈ v.2.2, (lensOpts v.1 v.2.1 v.2.2).get? e.1 = some e.2 := by decide +kernel

end Verif.PlanckGrids
