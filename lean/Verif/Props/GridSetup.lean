import Verif.Model.GridSetup
import Verif.Lemmas.Str
import Verif.Py.Replace

/-!
# Setting up and opening a grid (C208–C211)
-/

namespace Verif.GridSetup
open Verif.Py Verif.Batch

set_option linter.unusedSectionVars false
set_option linter.unusedVariables false

/-! ## The proposal matrix -/

/-- the files looked for under the names of the job and the matrices named in the settings, best first -/
def firstFiles (base : Str) (c : CovCfg) (j : Info) : List Str :=
  let dir := Path.join base c.covDir
  [inDir dir j.name, inDir dir (normed j c.mappings)] ++ (c.mappings.toList.map (fun m => inDir dir (mapped m j.name))) ++
  (c.dataCov.toList.flatMap (fun f => [base ++ f, Path.join dir f])) ++ (c.setCov.toList.flatMap (fun f => [base ++ f, Path.join dir f]))

/-- `x` is the result of looking for the first file of `l` -/
def Found (ex : Str → Bool) (l : List Str) (x : Str) : Prop := (ex x = true → l.find? ex = some x) ∧ (ex x = false → l.find? ex = none)

theorem found_nil_append {ex : Str → Bool} {l m : List Str} {x : Str} (h : Found ex l x) (hx : ex x = true) : Found ex (l ++ m) x := by
  refine ⟨fun _ => ?_, fun e => by rw [hx] at e; cases e⟩
  rw [List.find?_append, h.1 hx]; rfl

theorem found_append {ex : Str → Bool} {l m : List Str} {x y : Str} (h : Found ex l x) (hx : ex x = false) (hm : Found ex m y) :
    Found ex (l ++ m) y := by
  refine ⟨fun e => ?_, fun e => ?_⟩
  · rw [List.find?_append, h.2 hx, hm.1 e]; rfl
  · rw [List.find?_append, h.2 hx, hm.2 e]; rfl

theorem found_one (ex : Str → Bool) (x : Str) : Found ex [x] x := by
  refine ⟨fun e => ?_, fun e => ?_⟩ <;> simp [e]

theorem found_named (ex : Str → Bool) (base dir f : Str) : Found ex [base ++ f, Path.join dir f] (named ex base dir f) := by
  unfold named
  cases h : ex (base ++ f) with
  | true => rw [if_pos rfl]; exact ⟨fun _ => by simp [h], fun e => by rw [h] at e; cases e⟩
  | false =>
    rw [if_neg (by simp)]
    exact ⟨fun e => by simp [h, e], fun e => by simp [h, e]⟩

theorem found_orNamed {ex : Str → Bool} {l : List Str} {x : Str} (base dir : Str) (c : Option Str) (h : Found ex l x) :
    Found ex (l ++ c.toList.flatMap (fun f => [base ++ f, Path.join dir f])) (orNamed ex base dir c x) := by
  unfold orNamed
  cases hx : ex x with
  | true => rw [if_pos rfl]; exact found_nil_append h hx
  | false =>
    rw [if_neg (by simp)]
    cases c with
    | none => simpa using h
    | some f => simpa using found_append h hx (found_named ex base dir f)

theorem found_orMapped {ex : Str → Bool} {l : List Str} {x : Str} (dir name : Str) (m : Option (Dict Str Str)) (h : Found ex l x) :
    Found ex (l ++ m.toList.map (fun m => inDir dir (mapped m name))) (orMapped ex dir name m x) := by
  unfold orMapped
  cases hx : ex x with
  | true => rw [if_pos rfl]; exact found_nil_append h hx
  | false =>
    rw [if_neg (by simp)]
    cases m with
    | none => simpa using h
    | some d => simpa using found_append h hx (found_one ex (inDir dir (mapped d name)))

theorem firstCov_found (ex : Str → Bool) (base : Str) (c : CovCfg) (j : Info) : Found ex (firstFiles base c j) (firstCov ex base c j) := by
  unfold firstCov firstFiles
  dsimp only
  cases h : ex (inDir (Path.join base c.covDir) j.name) with
  | true =>
    rw [if_pos rfl]
    refine ⟨fun _ => ?_, fun e => by rw [h] at e; cases e⟩
    simp [h]
  | false =>
    rw [if_neg (by simp)]
    apply found_orNamed
    apply found_orNamed
    apply found_orMapped
    exact ⟨fun e => by simp [h, e], fun e => by simp [h, e]⟩

/-- **C208** The proposal matrix is the first existing file of: the name of the job, its ordered name, its mapped name, the matrix of the data
set, the one of the settings, then the names to try.  The proposal is learnt from the start (`MPI_Max_R_ProposeUpdate`) if the settings
say so or none of the first group exists. -/
theorem search_spec (ex : Str → Bool) (base : Str) (c : CovCfg) (j : Info) :
    (search ex base c j).1 = (firstFiles base c j ++ (tries c j).map (fallbackPath base c)).find? ex ∧
    ((search ex base c j).2 = true ↔ c.newCovmats = true ∨ ∀ f ∈ firstFiles base c j, ex f = false) := by
  have hf := firstCov_found ex base c j
  unfold search
  dsimp only
  cases h : ex (firstCov ex base c j) with
  | true =>
    rw [if_pos rfl]
    refine ⟨?_, ?_⟩
    · rw [List.find?_append, hf.1 h]; rfl
    · constructor
      · exact fun e => .inl e
      · rintro (e | e)
        · exact e
        · have : (firstFiles base c j).find? ex = none := List.find?_eq_none.mpr (fun x hx => by simp [e x hx])
          rw [hf.1 h] at this; cases this
  | false =>
    rw [if_neg (by simp)]
    refine ⟨?_, ?_⟩
    · rw [List.find?_append, hf.2 h]; rfl
    · constructor
      · intro _
        refine .inr (fun f hm => ?_)
        have := List.find?_eq_none.mp (hf.2 h) f hm
        simpa using this
      · exact fun _ => rfl

example : search (fun f => f = c!"/code/covs/mine.covmat") c!"/code/" { covDir := c!"covs/", setCov := some c!"mine.covmat", newCovmats := false }
    (mkItem c!"/grid/" [c!"mnu"] (mkData [c!"plik", c!"BAO"] none) c!"base") = (some c!"/code/covs/mine.covmat", false) := by decide

/-- **C208** A matrix that is used exists; the one with the name of the job is always taken; without any file no matrix is set. -/
theorem search_sound (ex : Str → Bool) (base : Str) (c : CovCfg) (j : Info) :
    (∀ f, (search ex base c j).1 = some f → ex f = true) ∧
    (ex (inDir (Path.join base c.covDir) j.name) = true → (search ex base c j).1 = some (inDir (Path.join base c.covDir) j.name)) ∧
    ((∀ f, ex f = false) → search ex base c j = (none, true)) := by
  obtain ⟨h1, h2⟩ := search_spec ex base c j
  refine ⟨fun f hf => ?_, fun h => ?_, fun h => ?_⟩
  · rw [h1] at hf
    exact List.find?_some hf
  · rw [h1]; unfold firstFiles; simp [h]
  · refine Prod.ext ?_ (h2.mpr (.inr (fun f _ => h f)))
    rw [h1]
    exact List.find?_eq_none.mpr (fun x _ => by simp [h x])

example : search (fun f => f = c!"/code/covs/base_mnu_plik_BAO.covmat" || f = c!"/code/covs/other.covmat") c!"/code/" { covDir := c!"covs/", dataCov := some c!"other.covmat" }
    (mkItem c!"/grid/" [c!"mnu"] (mkData [c!"plik", c!"BAO"] none) c!"base") = (some c!"/code/covs/base_mnu_plik_BAO.covmat", true) := by decide

/-! names to try -/

theorem cut_spec (sub : Str) : ∀ (s : Str),
    (∀ a b, cut sub s = some (a, b) → s = a ++ sub ++ b ∧ ∀ a' b', s = a' ++ sub ++ b' → a.length ≤ a'.length) ∧
    (cut sub s = none → contains sub s = false)
  | [] => by
    unfold cut contains
    by_cases h : sub = []
    · subst h
      refine ⟨fun a b e => ?_, fun e => ?_⟩
      · simp at e; obtain ⟨rfl, rfl⟩ := e; simp
      · simp at e
    · rw [if_neg h]
      refine ⟨fun a b e => by simp at e, fun _ => ?_⟩
      cases sub with
      | nil => exact absurd rfl h
      | cons x xs => rfl
  | c :: cs => by
    have ih := cut_spec sub cs
    unfold cut
    cases hs : startsWith sub (c :: cs) with
    | true =>
      rw [if_pos rfl]
      obtain ⟨t, ht⟩ := startsWith_iff.mp hs
      refine ⟨fun a b e => ?_, fun e => by simp at e⟩
      simp only [Option.some.injEq, Prod.mk.injEq] at e
      obtain ⟨rfl, rfl⟩ := e
      refine ⟨?_, fun a' b' _ => by simp⟩
      rw [ht]; simp
    | false =>
      rw [if_neg (by simp)]
      refine ⟨fun a b e => ?_, fun e => ?_⟩
      · cases hc : cut sub cs with
        | none => rw [hc] at e; simp at e
        | some r =>
          obtain ⟨u, v⟩ := r
          rw [hc] at e
          simp only [Option.map_some, Option.some.injEq, Prod.mk.injEq] at e
          obtain ⟨rfl, rfl⟩ := e
          obtain ⟨h1, h2⟩ := ih.1 u v hc
          refine ⟨by rw [h1]; simp, fun a' b' hh => ?_⟩
          cases a' with
          | nil =>
            exfalso
            have : startsWith sub (c :: cs) = true := startsWith_iff.mpr ⟨b', by simpa using hh⟩
            rw [hs] at this; cases this
          | cons x xs =>
            simp only [List.cons_append, List.cons.injEq] at hh
            have := h2 xs b' hh.2
            simp; omega
      · cases hc : cut sub cs with
        | some r => rw [hc] at e; simp at e
        | none =>
          have := ih.2 hc
          unfold contains
          rw [this, Bool.or_false]
          unfold startsWith at hs
          exact hs

/-- **C208** `replace(old, new, 1)` replaces the first occurrence and nothing else. -/
theorem replace1_spec (old new s : Str) :
    (contains old s = true → ∃ a b, s = a ++ old ++ b ∧ replace1 old new s = a ++ new ++ b ∧ ∀ a' b', s = a' ++ old ++ b' → a.length ≤ a'.length) ∧
    (contains old s = false → replace1 old new s = s) := by
  obtain ⟨h1, h2⟩ := cut_spec old s
  unfold replace1
  cases hc : cut old s with
  | none => exact ⟨fun e => (by rw [h2 hc] at e; cases e), fun _ => rfl⟩
  | some r =>
    obtain ⟨a, b⟩ := r
    obtain ⟨h3, h4⟩ := h1 a b hc
    refine ⟨fun _ => ⟨a, b, h3, rfl, h4⟩, fun e => ?_⟩
    have : contains old s = true := contains_iff.mpr ⟨a, b, h3⟩
    rw [e] at this; cases this

example : replace1 c!"TT" c!"EE" c!"plikTT_TT" = c!"plikEE_TT" ∧ replace1 c!"TE" c!"EE" c!"plikTT" = c!"plikTT" := by decide

/-- **C208** The names to try include those from the renames of the settings, applied to the name of the job. -/
theorem renames_tried (c : CovCfg) (j : Info) (r : List (Str × Str)) (hr : c.renames = some r) (old new : Str) (h : (old, new) ∈ r)
    (hc : contains old j.name = true) : replace1 old new j.name ∈ tries c j := by
  unfold tries
  dsimp only
  rw [hr]
  apply List.mem_append_left
  apply List.mem_append_right
  apply List.mem_append_left
  unfold renamesFor renameTry
  apply List.mem_append_left
  exact List.mem_map.mpr ⟨(old, new), List.mem_filter.mpr ⟨h, hc⟩, rfl⟩

example : tries { renames := some [(c!"plik", c!"CamSpec")] } (mkItem c!"/grid/" [c!"mnu"] (mkData [c!"plik", c!"BAO"] none) c!"base") =
    [c!"base_mnu_CamSpec_BAO", c!"base_mnu_BAO_CamSpec"] := by decide

/-- the ordered name of the job without some of its data -/
def dropNames (j : Info) (q : List Str) : Str :=
  normedNameOf j.base j.params { j.data with names := j.data.names.filter (fun n => n ∉ q) } none

theorem get_all_empty {removes : Dict Str Str} (h : ∀ k v, removes.get? k = some v → v = []) (names : List Str) :
    names.flatMap (replaceName removes) = names.filter (fun n => n ∉ removes.keys) := by
  induction names with
  | nil => rfl
  | cons n ns ih =>
    rw [List.flatMap_cons, ih]
    unfold replaceName
    cases hg : removes.get? n with
    | none =>
      have := Dict.get?_eq_none.mp hg
      simp [this]
    | some v =>
      have hv := h n v hg
      subst hv
      have : n ∈ removes.keys := by
        apply Classical.byContradiction
        intro hn
        rw [Dict.get?_eq_none.mpr hn] at hg; cases hg
      simp [this]

theorem normed_drop (j : Info) {removes : Dict Str Str} (h : ∀ k v, removes.get? k = some v → v = []) :
    normed j (some removes) = dropNames j removes.keys := by
  unfold normed dropNames normedNameOf DS.normedTag DS.namesReplacing
  dsimp only
  rw [get_all_empty h]

theorem set_empty {removes : Dict Str Str} (h : ∀ k v, removes.get? k = some v → v = []) (n : Str) :
    ∀ k v, (removes.set n []).get? k = some v → v = [] := by
  intro k v e
  rw [Dict.get?_set] at e
  by_cases hk : k = n
  · rw [if_pos hk] at e; cases e; rfl
  · rw [if_neg hk] at e; exact h k v e

theorem dropNames_congr (j : Info) {p q : List Str} (h : ∀ n ∈ j.data.names, n ∈ p ↔ n ∈ q) : dropNames j p = dropNames j q := by
  unfold dropNames
  rw [show j.data.names.filter (fun n => decide (n ∉ p)) = j.data.names.filter (fun n => decide (n ∉ q)) from
    List.filter_congr (fun n hn => by simp [h n hn])]

theorem withoutLoop_sub (j : Info) : ∀ (ns : List Str) (removes : Dict Str Str), (∀ k v, removes.get? k = some v → v = []) →
    ∀ x ∈ withoutLoop j removes ns, ∃ q, (∀ n ∈ q, n ∈ removes.keys ∨ n ∈ ns) ∧ x = dropNames j q
  | [], _, _, x, hx => by unfold withoutLoop at hx; cases hx
  | n :: ns, removes, h, x, hx => by
    unfold withoutLoop at hx
    by_cases hn : n ∈ j.data.names
    · rw [if_pos hn] at hx
      rcases List.mem_cons.mp hx with rfl | hx
      · refine ⟨[n], fun m hm => ?_, ?_⟩
        · simp at hm; subst hm; exact .inr (List.mem_cons_self ..)
        · rw [normed_drop j (removes := [(n, [])]) (fun k v e => by
            rw [Dict.get?_cons] at e
            by_cases hk : n = k
            · rw [if_pos hk] at e; cases e; rfl
            · rw [if_neg hk] at e; cases e)]
          rfl
      · rcases List.mem_cons.mp hx with rfl | hx
        · refine ⟨(removes.set n []).keys, fun m hm => ?_, normed_drop j (set_empty h n)⟩
          rcases Dict.mem_keys_set.mp hm with rfl | hm
          · exact .inr (List.mem_cons_self ..)
          · exact .inl hm
        · obtain ⟨q, hq, e⟩ := withoutLoop_sub j ns _ (set_empty h n) x hx
          refine ⟨q, fun m hm => ?_, e⟩
          rcases hq m hm with hm | hm
          · rcases Dict.mem_keys_set.mp hm with rfl | hm
            · exact .inr (List.mem_cons_self ..)
            · exact .inl hm
          · exact .inr (List.mem_cons_of_mem _ hm)
    · rw [if_neg hn] at hx
      obtain ⟨q, hq, e⟩ := withoutLoop_sub j ns removes h x hx
      refine ⟨q, fun m hm => ?_, e⟩
      rcases hq m hm with hm | hm
      · exact .inl hm
      · exact .inr (List.mem_cons_of_mem _ hm)

theorem withoutLoop_mem (j : Info) : ∀ (ns : List Str) (removes : Dict Str Str), (∀ k v, removes.get? k = some v → v = []) →
    ∀ pre n post, ns = pre ++ n :: post → n ∈ j.data.names →
      dropNames j [n] ∈ withoutLoop j removes ns ∧ dropNames j (removes.keys ++ pre ++ [n]) ∈ withoutLoop j removes ns
  | [], _, _, pre, n, post, hp, _ => by simp at hp
  | m :: ns, removes, h, pre, n, post, hp, hn => by
    unfold withoutLoop
    cases pre with
    | nil =>
      simp only [List.nil_append, List.cons.injEq] at hp
      obtain ⟨rfl, rfl⟩ := hp
      rw [if_pos hn]
      refine ⟨?_, ?_⟩
      · rw [normed_drop j (removes := [(m, [])]) (fun k v e => by
            rw [Dict.get?_cons] at e
            by_cases hk : m = k
            · rw [if_pos hk] at e; cases e; rfl
            · rw [if_neg hk] at e; cases e)]
        exact List.mem_cons_self ..
      · rw [normed_drop j (set_empty h m)]
        have : dropNames j (removes.keys ++ [] ++ [m]) = dropNames j (removes.set m []).keys := by
          apply dropNames_congr
          intro x _
          rw [Dict.mem_keys_set]
          simp [or_comm]
        rw [this]
        exact List.mem_cons_of_mem _ (List.mem_cons_self ..)
    | cons m' pre =>
      simp only [List.cons_append, List.cons.injEq] at hp
      obtain ⟨rfl, hp⟩ := hp
      by_cases hm : m ∈ j.data.names
      · rw [if_pos hm]
        obtain ⟨a, b⟩ := withoutLoop_mem j ns _ (set_empty h m) pre n post hp hn
        refine ⟨List.mem_cons_of_mem _ (List.mem_cons_of_mem _ a), List.mem_cons_of_mem _ (List.mem_cons_of_mem _ ?_)⟩
        have : dropNames j (removes.keys ++ (m :: pre) ++ [n]) = dropNames j ((removes.set m []).keys ++ pre ++ [n]) := by
          apply dropNames_congr
          intro x _
          simp only [List.mem_append, List.mem_cons, Dict.mem_keys_set, List.not_mem_nil, or_false]
          constructor
          · rintro ((h | h | h) | h)
            · exact .inl (.inl (.inr h))
            · exact .inl (.inl (.inl h))
            · exact .inl (.inr h)
            · exact .inr h
          · rintro (((h | h) | h) | h)
            · exact .inl (.inr (.inl h))
            · exact .inl (.inl h)
            · exact .inl (.inr (.inr h))
            · exact .inr h
        rw [this]
        exact b
      · rw [if_neg hm]
        obtain ⟨a, b⟩ := withoutLoop_mem j ns _ h pre n post hp hn
        refine ⟨a, ?_⟩
        have : dropNames j (removes.keys ++ (m :: pre) ++ [n]) = dropNames j (removes.keys ++ pre ++ [n]) := by
          apply dropNames_congr
          intro x hx
          have : x ≠ m := fun e => hm (e ▸ hx)
          simp [this]
        rw [this]
        exact b

/-- **C208** With `covWithoutNameOrder` and no mappings, matrices for the same job with less data are tried: without each name of the list,
and without the name and all names before it; and only such. -/
theorem without_spec (j : Info) (ns : List Str) :
    (∀ pre n post, ns = pre ++ n :: post → n ∈ j.data.names →
      dropNames j [n] ∈ withoutLoop j [] ns ∧ dropNames j (pre ++ [n]) ∈ withoutLoop j [] ns) ∧
    ∀ x ∈ withoutLoop j [] ns, ∃ q, (∀ n ∈ q, n ∈ ns) ∧ x = dropNames j q := by
  have he : ∀ (k : Str) (v : Str), Dict.get? ([] : Dict Str Str) k = some v → v = [] := fun k v e => by cases e
  refine ⟨fun pre n post hp hn => ?_, fun x hx => ?_⟩
  · have := withoutLoop_mem j ns [] he pre n post hp hn
    simpa using this
  · obtain ⟨q, hq, e⟩ := withoutLoop_sub j ns [] he x hx
    exact ⟨q, fun n hn => (hq n hn).resolve_left (by simp), e⟩

def exJob : Info := mkItem c!"/grid/" [c!"mnu"] (mkData [c!"plik", c!"TT", c!"BAO"] none) c!"base"

example : withoutLoop exJob [] [c!"lensing", c!"BAO", c!"TT"] =
    [c!"base_mnu_TT_plik", c!"base_mnu_TT_plik", c!"base_mnu_BAO_plik", c!"base_mnu_plik"] := by decide
example : search (fun f => f = c!"/code/covs/base_mnu_TT_plik.covmat") c!"/code/" { covDir := c!"covs/", without := some [c!"BAO"] } exJob =
    (some c!"/code/covs/base_mnu_TT_plik.covmat", true) := by decide

/-- the names to try are looked for in the directory of the matrices -/
def FallbackDir : Prop := ∀ (base : Str) (c : CovCfg) (name : Str), fallbackPath base c name = inDir (Path.join base (c.fallback.getD c.covDir)) name

theorem join_abs {a b : Str} (h : startsWith ['/'] b = true) : Path.join a b = b := by
  unfold Path.join
  rw [if_pos h]

/-- **C209 (partial)** True if the directory of the code is an absolute path. -/
theorem fallback_dir_partial (b : Str) (c : CovCfg) (name : Str) :
    fallbackPath ('/' :: b) c name = inDir (Path.join ('/' :: b) (c.fallback.getD c.covDir)) name := by
  have h : startsWith ['/'] (Path.join ('/' :: b) (c.fallback.getD c.covDir)) = true := by
    generalize c.fallback.getD c.covDir = d
    unfold Path.join
    by_cases h1 : startsWith ['/'] d = true
    · rw [if_pos h1]; exact h1
    · rw [if_neg h1]
      split
      · rfl
      · rfl
  unfold fallbackPath
  congr 1
  exact join_abs h

example : fallbackPath c!"/code" { fallback := some c!"old_covs" } c!"base_plik" = c!"/code/old_covs/base_plik.covmat" := by decide

/-- **C209 fails**: with a relative path of the code (`python` started in its directory) the directory is put before the name twice
(`os.path.join(batch.basePath, covdir2, …)`, gridconfig.py:179-181, where `covdir2` has it already), so no such matrix is found. -/
theorem fallback_dir_fails : ¬ FallbackDir := by
  intro h
  exact absurd (h c!"code/" {} c!"x") (by decide)

/-- data mapped to nothing do not appear in the mapped name -/
def MappedAway : Prop := ∀ (dic : Dict Str Str) (l : List Str), (∀ x ∈ l, x ≠ [] ∧ '_' ∉ x) →
  mapped dic (join us l) = join us (l.flatMap (replaceName dic))

/-- **C209 fails**: a name mapped to the empty text, as suggested in settings_sample.py:69 (`'TT': ''`), leaves two underscores (gridconfig.py:139-141), so
the matrix is not found under its mapped name. -/
theorem mapped_away_fails : ¬ MappedAway := by
  intro h
  exact absurd (h [(c!"TT", [])] [c!"base", c!"TT", c!"lowl"] (by decide)) (by decide)

theorem splitChar_no (ch : Char) : ∀ (t : Str), ch ∉ t → splitChar ch t = [t]
  | [], _ => rfl
  | c :: cs, h => by
    simp only [List.mem_cons, not_or] at h
    unfold splitChar
    rw [if_neg (by simpa using fun e : c = ch => h.1 e.symm), splitChar_no ch cs h.2]

theorem splitChar_cons (ch : Char) : ∀ (t rest : Str), ch ∉ t → splitChar ch (t ++ ch :: rest) = t :: splitChar ch rest
  | [], rest, _ => by simp [splitChar]
  | c :: cs, rest, h => by
    simp only [List.mem_cons, not_or] at h
    rw [List.cons_append]
    conv => lhs; unfold splitChar
    rw [if_neg (by simpa using fun e : c = ch => h.1 e.symm), splitChar_cons ch cs rest h.2]

theorem splitChar_join (l : List Str) (h : ∀ x ∈ l, '_' ∉ x) (hne : l ≠ []) : splitChar '_' (join us l) = l := by
  induction l with
  | nil => exact absurd rfl hne
  | cons a l ih =>
    cases l with
    | nil => exact splitChar_no '_' a (h a (List.mem_cons_self ..))
    | cons b l =>
      rw [join_cons2]
      have : a ++ us ++ join us (b :: l) = a ++ '_' :: join us (b :: l) := by simp [us]
      rw [this, splitChar_cons '_' a _ (h a (List.mem_cons_self ..)), ih (fun x hx => h x (List.mem_cons_of_mem _ hx)) (by simp)]

/-- **C209 (partial)** Other mappings replace each part of the name. -/
theorem mapped_partial (dic : Dict Str Str) (l : List Str) (h : ∀ x ∈ l, '_' ∉ x) (hne : l ≠ []) (hv : ∀ x ∈ l, dic.get? x ≠ some []) :
    mapped dic (join us l) = join us (l.flatMap (replaceName dic)) := by
  unfold mapped
  rw [splitChar_join l h hne]
  congr 1
  have : ∀ (l : List Str), (∀ x ∈ l, dic.get? x ≠ some []) → l.map (fun x => (dic.get? x).getD x) = l.flatMap (replaceName dic) := by
    intro l
    induction l with
    | nil => intro _; rfl
    | cons a l ih =>
      intro hv
      rw [List.map_cons, List.flatMap_cons, ih (fun x hx => hv x (List.mem_cons_of_mem _ hx))]
      have ha := hv a (List.mem_cons_self ..)
      unfold replaceName
      cases hg : dic.get? a with
      | none => rfl
      | some v =>
        rw [hg] at ha
        have : v ≠ [] := fun e => ha (by rw [e])
        simp [this]
  exact this l hv

example : mapped [(c!"plik", c!"planck")] c!"base_plik_BAO" = c!"base_planck_BAO" := by decide

/-- upper and lower case do not matter for `covRenamer` -/
def RenamerIgnoresCase : Prop := ∀ a b : Str, a.map Char.toLower = b.map Char.toLower → (covRenamer a = [] ↔ covRenamer b = [])

/-- **C209 fails**: `re.sub(pattern, text, name, re.I)` gives the flag as the number of replacements (settings_planck_2015.py:607-611), so
`_camspec` is not recognised. -/
theorem renamer_case_fails : ¬ RenamerIgnoresCase := by
  intro h
  exact absurd (h c!"base_CamSpecHM_TT" c!"base_camspechm_tt" (by decide)) (by decide)

/-- **C208** `covRenamer` on the names of the CamSpec runs -/
theorem renamer_camspec (a b : Str) (h : contains c!"_v" (a ++ c!"_CamSpec" ++ b) = false) (hw : contains c!"wa_" (a ++ c!"_CamSpec" ++ b) = false)
    (hf : ∀ a' b', a ++ c!"_CamSpec" ++ b = a' ++ c!"_CamSpec" ++ b' → a.length ≤ a'.length) :
    covRenamer (a ++ c!"_CamSpec" ++ b) = [a ++ c!"_planck_lowl_lowLike"] := by
  have e1 : subBetween c!"_v" c!"_highL" c!"_planck_lowl_lowLike_highL" (a ++ c!"_CamSpec" ++ b) = a ++ c!"_CamSpec" ++ b := by
    unfold subBetween
    cases hc : cut c!"_v" (a ++ c!"_CamSpec" ++ b) with
    | none => rfl
    | some r =>
      exfalso
      have := ((cut_spec c!"_v" (a ++ c!"_CamSpec" ++ b)).1 r.1 r.2 hc).1
      have := contains_iff.mpr ⟨r.1, r.2, this⟩
      rw [h] at this; cases this
  have e2 : subToEnd c!"_CamSpec" c!"_planck_lowl_lowLike" (a ++ c!"_CamSpec" ++ b) = a ++ c!"_planck_lowl_lowLike" := by
    unfold subToEnd
    cases hc : cut c!"_CamSpec" (a ++ c!"_CamSpec" ++ b) with
    | none =>
      exfalso
      have := (cut_spec c!"_CamSpec" (a ++ c!"_CamSpec" ++ b)).2 hc
      have h2 : contains c!"_CamSpec" (a ++ c!"_CamSpec" ++ b) = true := contains_iff.mpr ⟨a, b, rfl⟩
      rw [this] at h2; cases h2
    | some r =>
      obtain ⟨h1, h2⟩ := (cut_spec c!"_CamSpec" (a ++ c!"_CamSpec" ++ b)).1 r.1 r.2 hc
      have l1 := h2 a b rfl
      have l2 := hf r.1 r.2 h1
      have : r.1 = a := by
        rw [List.append_assoc, List.append_assoc] at h1
        exact (List.append_inj h1 (by omega)).1.symm
      dsimp only
      rw [this]
  unfold covRenamer
  dsimp only
  rw [if_neg (show ¬ contains c!"wa_" (a ++ c!"_CamSpec" ++ b) = true by rw [hw]; exact Bool.false_ne_true), e1, e2, if_neg]
  intro e
  rw [List.append_assoc] at e
  have e' := List.append_cancel_left e
  have := congrArg (fun l : Str => l[1]?) e'
  change some 'p' = some 'C' at this
  exact absurd this (by decide)

example : covRenamer c!"base_mnu_CamSpecHM_TT" = [c!"base_mnu_planck_lowl_lowLike"] := by decide

/-! ## The stored grid -/

section
variable {S J : Type} (items : S → List J)

/-- **C210** After a grid is made, every script sees all its jobs, in order, whether or not chains exist, and reading does not change anything. -/
theorem made_then_read (w : World S J) (s : S) (hc : w.dirExists w.code = true) :
    read items (makeNew items w s).1 = ((makeNew items w s).1, .ok (some ⟨w.code, items s⟩)) := by
  change (if w.dirExists w.code = true then _ else _) = _
  rw [if_pos hc]

/-- **C210** A directory with neither a stored grid nor settings is no grid; nothing is written. -/
theorem read_nothing (w : World S J) (h1 : w.cache = none) (h2 : w.config = none) : read items w = (w, .ok none) := by
  unfold read pathIsGrid
  rw [h1, h2]
  rfl

/-- **C210** If the stored object is missing, unreadable or from code that has moved, the grid is made again from the stored settings: the jobs
that have chains; and it is stored. -/
theorem read_again (w : World S J) (s : S) (h : w.config = some s)
    (hu : w.cache = none ∨ w.cache = some none ∨ ∃ g, w.cache = some (some g) ∧ w.dirExists g.base = false) :
    read items w = ({ w with cache := some (some ⟨w.code, (items s).filter w.chain⟩) }, .ok (some ⟨w.code, (items s).filter w.chain⟩)) := by
  obtain ⟨cache, config, chain, code, de⟩ := w
  dsimp only at h hu
  subst h
  rcases hu with hu | hu | ⟨g, hu, hd⟩
  · subst hu; rfl
  · subst hu; rfl
  · subst hu
    unfold read
    dsimp only
    rw [if_neg (by simp [hd])]
    rfl

/-- **C210** Reading twice gives the same grid and changes nothing more. -/
theorem read_twice (w : World S J) (hc : w.dirExists w.code = true) (g : Grid J) (h : (read items w).2 = .ok (some g)) :
    read items (read items w).1 = ((read items w).1, .ok (some g)) := by
  cases hca : w.cache with
  | none =>
    cases hs : w.config with
    | none => rw [read_nothing items w hca hs] at h; cases h
    | some s =>
      have e := read_again items w s hs (.inl hca)
      rw [e] at h ⊢
      cases h
      change (if w.dirExists w.code = true then _ else _) = _
      rw [if_pos hc]
  | some o =>
    cases o with
    | none =>
      cases hs : w.config with
      | none =>
        unfold read readAgain pathIsGrid reset at h
        rw [hca] at h
        dsimp only at h
        rw [hs] at h
        cases h
      | some s =>
        have e := read_again items w s hs (.inr (.inl hca))
        rw [e] at h ⊢
        cases h
        change (if w.dirExists w.code = true then _ else _) = _
        rw [if_pos hc]
    | some g' =>
      cases hd : w.dirExists g'.base with
      | true =>
        have e : read items w = (w, .ok (some g')) := by
          unfold read
          rw [hca]
          dsimp only
          rw [if_pos hd]
        rw [e] at h ⊢
        rw [e]
        cases h; rfl
      | false =>
        cases hs : w.config with
        | none =>
          unfold read readAgain pathIsGrid reset at h
          rw [hca] at h
          dsimp only at h
          rw [hd, hs] at h
          cases h
        | some s =>
          have e := read_again items w s hs (.inr (.inr ⟨g', hca, hd⟩))
          rw [e] at h ⊢
          cases h
          change (if w.dirExists w.code = true then _ else _) = _
          rw [if_pos hc]

example : (read (S := List Nat) (J := Nat) id { config := some [1, 5], chain := fun n => n < 2, code := c!"/code", dirExists := fun _ => true }).2 = .ok (some ⟨c!"/code", [1]⟩) ∧
    (read (S := List Nat) (J := Nat) id (read (S := List Nat) (J := Nat) id { config := some [1, 5], chain := fun n => n < 2, code := c!"/code", dirExists := fun _ => true }).1).2 =
      .ok (some ⟨c!"/code", [1]⟩) := by decide

end

/-- settings are lists of jobs -/
abbrev W := World (List Nat) Nat

def exW : W := { chain := fun n => n < 2, code := c!"/code", dirExists := fun _ => true }

/-- a grid that is read has the jobs of its settings that have chains -/
def ReadFresh : Prop := ∀ (w : W) (s : List Nat) (g : Grid Nat), w.config = some s → (read id w).2 = .ok (some g) →
  ∀ n ∈ s, w.chain n = true → n ∈ g.items

/-- **C211 fails**: chains that were run after the grid was configured from existing chains (`makeGrid.py --readOnly`, or any script when there is no
stored object) are never seen: the stored object is used as it is (batchjob.py:47-53). -/
theorem new_chains_fails : ¬ ReadFresh := by
  intro h
  exact absurd (h { (read id { exW with config := some [0, 1, 2] }).1 with chain := fun _ => true } [0, 1, 2] ⟨c!"/code", [0, 1]⟩ rfl (by rfl) 2 (by decide) rfl) (by decide)

/-- **C211 fails** likewise when the settings stored in `config` are changed. -/
theorem new_settings_fails : ¬ ReadFresh := by
  intro h
  exact absurd (h { (makeNew id exW [0]).1 with config := some [0, 1] } [0, 1] ⟨c!"/code", [0]⟩ rfl (by rfl) 1 (by decide) (by rfl)) (by decide)

/-- removing the stored object loses nothing -/
def ResetHarmless : Prop := ∀ (w : W) (s : List Nat), read id (reset (makeNew id w s).1) = read id (makeNew id w s).1

/-- **C211 fails**: a stored object that cannot be read (another version of python) or was removed is replaced by the grid of existing chains, so
jobs that have not been run yet are gone for `runbatch.py` and all other scripts (batchjob.py:37-38, 56-57: `readOnly=True`). -/
theorem reset_harmless_fails : ¬ ResetHarmless := by
  intro h
  have := congrArg (fun r => match r.2 with | .ok (some g) => g.items | _ => []) (h exW [0, 1, 2])
  exact absurd this (by decide)

/-- a second attempt to read fails in the same way -/
def ErrorKept : Prop := ∀ (w : W) (e : Err), (read id w).2 = .error e → (read id (read id w).1).2 = .error e

/-- **C211 fails**: for a grid without stored settings an unreadable object is deleted (batchjob.py:56) before the exception is raised again, so the next
attempt says that there is no grid. -/
theorem error_kept_fails : ¬ ErrorKept := by
  intro h
  have := h { exW with cache := some none } .pickle (by rfl)
  exact absurd this (by
    intro e
    have : (read id (read id ({ exW with cache := some none } : W)).1).2 = .ok none := by rfl
    rw [this] at e; cases e)

/-! ## Options -/

section
variable {J : Type} (rd : Str → Except Err (Option (Grid J)))

/-- **C210** Scripts with a directory argument and no plots get the grid in that directory or an error that says there is none, and then have all
options that the selection of jobs uses. -/
theorem parse_spec (o : Opts) (extra : List Str) (h1 : o.noBatchPath = false) (h2 : o.plots = false) (h3 : o.importance = true) (p : Str) :
    (∀ g, parse o extra rd (some p) = .ok (some g) ↔ rd p = .ok (some g)) ∧ (rd p = .ok none → parse o extra rd (some p) = .error .exception) ∧
    (parse o extra rd none = if o.batchPathOptional then .ok none else .error .exit) ∧ ∀ a ∈ needed, a ∈ attrs o extra := by
  have hb : c!"batchPath" ∈ attrs o extra := by
    unfold attrs opt
    rw [h1]
    simp only [Bool.not_false, if_true, List.append_assoc]
    exact List.mem_append_left _ (List.mem_cons_self ..)
  refine ⟨fun g => ?_, fun e => ?_, ?_, ?_⟩
  · unfold parse
    rw [if_neg (by simp), if_neg (by simpa using hb)]
    dsimp only
    cases rd p with
    | error e => simp
    | ok r =>
      cases r with
      | none => simp
      | some g' => simp [h2]
  · unfold parse
    rw [if_neg (by simp), if_neg (by simpa using hb)]
    dsimp only
    rw [e]
  · unfold parse
    cases ho : o.batchPathOptional with
    | true => rw [if_neg (by simp), if_neg (by simpa using hb)]; rfl
    | false => rw [if_pos ⟨rfl, h1, rfl⟩]; rfl
  · intro a ha
    unfold attrs opt
    rw [h3]
    simp only [if_true, List.mem_append]
    left; left; left; left
    have : a ∈ [c!"noimportance", c!"importance", c!"importancetag"] ∨ a ∈ [c!"name", c!"param", c!"paramtag", c!"data", c!"datatag",
        c!"musthave_data", c!"skip_data", c!"skip_param", c!"group", c!"skip_group"] := by
      revert a; decide
    rcases this with h | h
    · left; right; exact h
    · right; exact h

example : (parse (J := Nat) {} [] (fun _ => .ok (some ⟨c!"/g", [1, 2]⟩)) (some c!"/g") = .ok (some ⟨c!"/g", [1, 2]⟩)) ∧
    (parse (J := Nat) {} [] (fun _ => .ok none) (some c!"/g") = .error .exception) ∧ (parse (J := Nat) {} [] (fun _ => .ok none) none = .error .exit) := by decide

end

/-- plotting scripts get their grid -/
def PlotsParsed : Prop := ∀ (extra : List Str) (g : Grid Nat) (p : Str), c!"paramList" ∉ extra →
  parse { plots := true, converge := true } extra (fun _ => .ok (some g)) (some p) = .ok (some g)

/-- **C211 fails**: `makePlots.py` stops with an `AttributeError` for every grid: the option is `--param_list`, the attribute read is `paramList`
(batchjob_args.py:73, 88). -/
theorem plots_fails : ¬ PlotsParsed := by
  intro h
  exact absurd (h [c!"out_dir"] ⟨[], []⟩ c!"g" (by decide)) (by decide)

/-- **C211 (partial)** and so for all of them -/
theorem plots_always {J : Type} (o : Opts) (h : o.plots = true) (extra : List Str) (he : c!"paramList" ∉ extra) (rd : Str → Except Err (Option (Grid J))) (p : Str)
    (g : Grid J) : parse o extra rd (some p) ≠ .ok (some g) := by
  have hn : c!"paramList" ∉ attrs o extra := by
    have hb : ∀ (b : Bool) (xs : List Str), c!"paramList" ∉ xs → c!"paramList" ∉ opt b xs := by
      intro b xs hx
      unfold opt
      cases b
      · simp
      · exact hx
    unfold attrs
    simp only [List.mem_append, not_or]
    exact ⟨⟨⟨⟨⟨⟨⟨hb _ _ (by decide), hb _ _ (by decide)⟩, hb _ _ (by decide)⟩, by decide⟩, hb _ _ (by decide)⟩, hb _ _ (by decide)⟩, hb _ _ (by decide)⟩, he⟩
  unfold parse
  rw [if_neg (by simp)]
  by_cases hp : c!"batchPath" ∉ attrs o extra
  · rw [if_pos hp]; simp
  · rw [if_neg hp]
    dsimp only
    cases rd p with
    | error e => simp
    | ok r =>
      cases r with
      | none => simp
      | some g' =>
        dsimp only
        rw [if_pos ⟨h, hn⟩]; simp

example : parse (J := Nat) { plots := true } [] (fun _ => .ok (some ⟨c!"/g", [1, 2]⟩)) (some c!"/g") = .error .attribute := by decide

/-- scripts without a directory argument can be parsed -/
def NoPathParsed : Prop := ∀ (rd : Str → Except Err (Option (Grid Nat))), parse { noBatchPath := true } [] rd none = .ok none

/-- **C211 fails**: with `noBatchPath=True` there is no attribute `batchPath`, which is read nevertheless (batchjob_args.py:81). -/
theorem no_path_fails : ¬ NoPathParsed := by
  intro h
  exact absurd (h (fun _ => .ok none)) (by decide)

/-- jobs can be selected without the options for importance sampling -/
def SelectWithout : Prop := ∀ (o : Opts), ∀ a ∈ needed, a ∈ attrs o []

/-- **C211 fails**: with `importance=False` the attributes `noimportance` and `importance` are missing, which the selection reads
(batchjob_args.py:105, 137). -/
theorem select_without_fails : ¬ SelectWithout := by
  intro h
  exact absurd (h { importance := false } c!"noimportance" (by decide)) (by decide)

end Verif.GridSetup
