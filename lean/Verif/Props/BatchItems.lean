import Verif.Props.BatchTags
import Mathlib.Data.List.Nodup
import Mathlib.Data.List.Forall2

/-!
# The runs of a grid (C34)
-/

namespace Verif.Batch
open Verif.Py Verif.IniFile Verif.JobQueue

/-! ## Which runs are made -/

/-- **C34**: the importance runs made from a run are those wanted for it that add new data, in order, after the existing ones -/
theorem makeImportance_spec : ∀ (rs : List ImpRun) (j : Job),
    makeImportance j rs = .node j.info j.uid (j.children ++
      (rs.filter (fun r => r.applies j.info)).map (fun r => Job.node (impInfo j.info r) 0 []))
  | [], .node i u cs => by simp [makeImportance, Job.info, Job.uid, Job.children]
  | r :: rs, j => by
    rw [makeImportance]
    by_cases h : r.applies j.info = true
    · rw [if_pos h, makeImportance_spec rs, List.filter_cons_of_pos (p := fun r : ImpRun => r.applies j.info) (a := r) (l := rs) h]
      simp [Job.info, Job.uid, Job.children]
    · rw [if_neg h, makeImportance_spec rs, List.filter_cons_of_neg (p := fun r : ImpRun => r.applies j.info) (a := r) (l := rs) h]

/-- a run applies when it is wanted and shares no data with the parent -/
theorem applies_iff (r : ImpRun) (i : Info) :
    r.applies i = true ↔ r.want i = true ∧ ∀ n ∈ r.names, n ∉ i.data.names := by
  unfold ImpRun.applies
  simp

/-- the full run of a group, a data set and a set of parameters -/
def fullRun (path : Str) (g : Group) (d : DS) (ps : List Str) : Info := { mkItem path ps d c!"base" with group := g.name }

/-- every combination, groups first, then data sets, then parameter sets -/
def combos (path : Str) (gs : List Group) : List (Group × Info) :=
  gs.flatMap (fun g => g.datasets.flatMap (fun d => g.params.map (fun ps => (g, fullRun path g d ps))))

theorem addItem_fold (path : Str) (skip : List Str) (allImp : List ImpRun) (g : Group) (d : DS) : ∀ (pss : List (List Str)) (acc : List Job),
    pss.foldl (addItem path skip allImp g d) acc = acc ++
      ((pss.map (fullRun path g d)).filter (fun i => decide (i.name ∉ skip))).map (fun i =>
        makeImportance (makeImportance (.node i 0 []) g.importanceRuns) allImp)
  | [], acc => by simp
  | ps :: pss, acc => by
    rw [List.foldl_cons, addItem_fold path skip allImp g d pss]
    unfold addItem
    rw [List.map_cons]
    by_cases h : (fullRun path g d ps).name ∈ skip
    · rw [List.filter_cons_of_neg (by simpa using h)]
      dsimp only
      rw [if_pos (show (mkItem path ps d c!"base").name ∈ skip from h)]
    · rw [List.filter_cons_of_pos (by simpa using h)]
      dsimp only
      rw [if_neg (show ¬ (mkItem path ps d c!"base").name ∈ skip from h)]
      simp [fullRun]

theorem foldl_append {α β : Type} (F : β → List α) : ∀ (l : List β) (acc : List α),
    l.foldl (fun a b => a ++ F b) acc = acc ++ l.flatMap F
  | [], acc => by simp
  | b :: l, acc => by rw [List.foldl_cons, foldl_append F l]; simp

/-- **C34**: the runs made: one for every combination not in the skip list, in order, with the importance runs of its group and the
common ones that apply; then the extra runs with the common importance runs -/
theorem groupItems_spec (path : Str) (skip : List Str) (s : Settings) :
    groupItems path skip s =
      ((combos path s.groups).filter (fun c => decide (c.2.name ∉ skip))).map (fun c => Job.node c.2 0
        (((c.1.importanceRuns ++ s.importanceRuns).filter (fun r => r.applies c.2)).map (fun r => Job.node (impInfo c.2 r) 0 []))) ++
      s.jobItems.map (fun j => Job.node j.info j.uid (j.children ++
        (s.importanceRuns.filter (fun r => r.applies j.info)).map (fun r => Job.node (impInfo j.info r) 0 []))) := by
  unfold groupItems
  dsimp only
  have h1 : ∀ (g : Group) (acc : List Job), g.datasets.foldl (fun items d => g.params.foldl (addItem path skip s.importanceRuns g d) items) acc =
      acc ++ g.datasets.flatMap (fun d => ((g.params.map (fullRun path g d)).filter (fun i => decide (i.name ∉ skip))).map (fun i =>
        makeImportance (makeImportance (.node i 0 []) g.importanceRuns) s.importanceRuns)) := by
    intro g acc
    rw [← foldl_append]
    congr 1
    funext a d
    exact addItem_fold _ _ _ _ _ _ _
  rw [show (fun (items : List Job) (g : Group) => g.datasets.foldl (fun items d => g.params.foldl (addItem path skip s.importanceRuns g d) items) items) =
    fun items g => items ++ g.datasets.flatMap (fun d => ((g.params.map (fullRun path g d)).filter (fun i => decide (i.name ∉ skip))).map (fun i =>
        makeImportance (makeImportance (.node i 0 []) g.importanceRuns) s.importanceRuns)) from by funext a g; exact h1 g a]
  rw [foldl_append, foldl_append, List.nil_append]
  congr 1
  · unfold combos
    rw [List.filter_flatMap, List.map_flatMap]
    congr 1; funext g
    rw [List.filter_flatMap, List.map_flatMap]
    congr 1; funext d
    rw [List.filter_map, List.filter_map, List.map_map, List.map_map]
    congr 1
    funext ps
    simp only [Function.comp_apply]
    rw [makeImportance_spec, makeImportance_spec]
    simp [Job.info, Job.uid, Job.children]
  · rw [← List.map_eq_flatMap]
    apply List.map_congr_left
    intro j _
    exact makeImportance_spec _ _

/-! ## Trees of jobs -/

def key (j : Job) : Nat × Info := (j.uid, j.info)

/-- identity and description of the importance jobs below a job -/
def K (j : Job) : List (Nat × Info) := (imps j).map key

theorem impsL_eq : ∀ l : List Job, impsL l = l.flatMap imps
  | [] => by simp [impsL]
  | c :: cs => by rw [impsL, impsL_eq cs]; simp

theorem K_node (i : Info) (u : Nat) (cs : List Job) : K (.node i u cs) = cs.map key ++ cs.flatMap K := by
  unfold K
  rw [imps, impsL_eq, List.map_append, List.map_flatMap]

theorem flatMap_sublist {α β : Type} (f : α → List β) {l m : List α} (h : l.Sublist m) : (l.flatMap f).Sublist (m.flatMap f) := by
  induction h with
  | slnil => simp
  | cons a _ ih => rw [List.flatMap_cons]; exact ih.trans (List.sublist_append_right _ _)
  | cons_cons a _ ih => rw [List.flatMap_cons, List.flatMap_cons]; exact (List.Sublist.refl _).append ih

theorem sublist_flatMap_of_mem {α β : Type} {f : α → List β} : ∀ {l : List α} {a : α}, a ∈ l → (f a).Sublist (l.flatMap f)
  | b :: l, a, h => by
    rw [List.flatMap_cons]
    rcases List.mem_cons.mp h with rfl | h
    · exact List.sublist_append_left _ _
    · exact (sublist_flatMap_of_mem h).trans (List.sublist_append_right _ _)

theorem key_rm (u : Nat) : ∀ j : Job, key (rm u j) = key j
  | .node i v cs => by rw [rm]; split <;> rfl

theorem rmL_map_key (u : Nat) : ∀ l : List Job, (rmL u l).map key = l.map key
  | [] => by simp [rmL]
  | c :: cs => by rw [rmL, List.map_cons, List.map_cons, key_rm, rmL_map_key u cs]

mutual
/-- removing only removes -/
theorem rm_sublist (u : Nat) : ∀ j : Job, (K (rm u j)).Sublist (K j)
  | .node i v cs => by
    rw [rm]
    split
    · rw [K_node, K_node]
      have : (cs.eraseP (fun c => c.uid == u)).Sublist cs := List.eraseP_sublist
      exact (this.map key).append (flatMap_sublist K this)
    · rw [K_node, K_node, rmL_map_key]
      exact (List.Sublist.refl _).append (rmL_sublist u cs)
theorem rmL_sublist (u : Nat) : ∀ l : List Job, ((rmL u l).flatMap K).Sublist (l.flatMap K)
  | [] => by simp [rmL]
  | c :: cs => by rw [rmL, List.flatMap_cons, List.flatMap_cons]; exact (rm_sublist u c).append (rmL_sublist u cs)
end

theorem nodup_append_K {i : Info} {v : Nat} {cs : List Job} (h : ((K (.node i v cs)).map Prod.fst).Nodup) :
    (cs.map Job.uid).Nodup ∧ (∀ c ∈ cs, ((K c).map Prod.fst).Nodup) ∧
      (∀ c ∈ cs, ∀ k ∈ K c, k.1 ∉ cs.map Job.uid) := by
  rw [K_node, List.map_append, List.nodup_append] at h
  have e : (cs.map key).map Prod.fst = cs.map Job.uid := by rw [List.map_map]; rfl
  rw [e] at h
  refine ⟨h.1, ?_, ?_⟩
  · intro c hc
    refine h.2.1.sublist ?_
    rw [List.map_flatMap]
    exact sublist_flatMap_of_mem (f := fun a => (K a).map Prod.fst) hc
  · intro c hc k hk hm
    refine h.2.2 k.1 hm k.1 ?_ rfl
    exact List.mem_map.mpr ⟨k, List.mem_flatMap.mpr ⟨c, hc, hk⟩, rfl⟩

mutual
/-- a removed job is gone -/
theorem rm_gone (u : Nat) : ∀ j : Job, ((K j).map Prod.fst).Nodup → ∀ k ∈ K (rm u j), k.1 ≠ u
  | .node i v cs, h, k, hk, e => by
    obtain ⟨h1, h2, h3⟩ := nodup_append_K h
    rw [rm] at hk
    split at hk
    · rename_i hu
      rw [K_node, List.mem_append] at hk
      rcases hk with hk | hk
      · obtain ⟨c, hc, rfl⟩ := List.mem_map.mp hk
        have : c.uid = u := e
        have h4 : ((cs.eraseP (fun c => c.uid == u)).map Job.uid) = (cs.map Job.uid).erase u := by
          rw [List.erase_eq_eraseP', List.eraseP_map]; rfl
        have h5 : c.uid ∈ (cs.map Job.uid).erase u := by rw [← h4]; exact List.mem_map.mpr ⟨c, hc, rfl⟩
        rw [this] at h5
        exact (h1.not_mem_erase) h5
      · obtain ⟨c, hc, hk⟩ := List.mem_flatMap.mp hk
        have hc' := List.eraseP_sublist.subset hc
        exact h3 c hc' k hk (e ▸ hu)
    · rename_i hu
      rw [K_node, List.mem_append, rmL_map_key] at hk
      rcases hk with hk | hk
      · obtain ⟨c, hc, rfl⟩ := List.mem_map.mp hk
        exact hu (List.mem_map.mpr ⟨c, hc, e⟩)
      · exact rmL_gone u cs h2 k hk e
theorem rmL_gone (u : Nat) : ∀ l : List Job, (∀ c ∈ l, ((K c).map Prod.fst).Nodup) → ∀ k ∈ (rmL u l).flatMap K, k.1 ≠ u
  | [], _, k, hk => by simp [rmL] at hk
  | c :: cs, h, k, hk => by
    rw [rmL, List.flatMap_cons, List.mem_append] at hk
    rcases hk with hk | hk
    · exact rm_gone u c (h c List.mem_cons_self) k hk
    · exact rmL_gone u cs (fun c hc => h c (List.mem_cons_of_mem _ hc)) k hk
end

/-! ## Removing duplicates -/

/-- the jobs of `l'` are those of `l`, with some importance jobs removed -/
def Rel (l' l : List Job) : Prop := List.Forall₂ (fun a b => key a = key b ∧ (K a).Sublist (K b)) l' l

theorem Rel.refl (l : List Job) : Rel l l := List.forall₂_same.mpr (fun _ _ => ⟨rfl, List.Sublist.refl _⟩)
theorem Rel.trans {a b c : List Job} (h1 : Rel a b) (h2 : Rel b c) : Rel a c := by
  unfold Rel at *
  induction h1 generalizing c with
  | nil => cases h2; exact .nil
  | cons h t ih => cases h2 with
    | cons h' t' => exact .cons ⟨h.1.trans h'.1, h.2.trans h'.2⟩ (ih t')

theorem Rel.modify (u : Nat) : ∀ (l : List Job) (k : Nat), Rel (l.modify k (rm u)) l
  | [], k => by simp only [List.modify_nil]; exact .nil
  | j :: l, 0 => by rw [List.modify_zero_cons]; exact .cons ⟨key_rm u j, rm_sublist u j⟩ (Rel.refl l)
  | j :: l, k + 1 => by rw [List.modify_succ_cons]; exact .cons ⟨rfl, List.Sublist.refl _⟩ (Rel.modify u l k)

theorem Rel.get {l' l : List Job} (h : Rel l' l) (k : Nat) : (l'[k]? = none ∧ l[k]? = none) ∨
    ∃ a b, l'[k]? = some a ∧ l[k]? = some b ∧ key a = key b ∧ (K a).Sublist (K b) := by
  unfold Rel at h
  induction h generalizing k with
  | nil => simp
  | cons h t ih =>
    cases k with
    | zero => exact .inr ⟨_, _, rfl, rfl, h.1, h.2⟩
    | succ k => simpa using ih k

/-- the jobs that count: full runs, and if asked the importance runs not skipped -/
def V (skip : List Str) (want : Bool) (l : List Job) : List (Nat × Info) := (items skip want l).map key

theorem mem_V {skip : List Str} {want : Bool} {l : List Job} {y : Nat × Info} : y ∈ V skip want l ↔
    ∃ j ∈ l, y = key j ∨ want = true ∧ y ∈ K j ∧ y.2.name ∉ skip := by
  unfold V items
  cases want with
  | false => simp [eq_comm]
  | true =>
    simp only [if_true, itemsImp, List.map_flatMap, List.mem_flatMap, List.map_cons, List.mem_cons, List.mem_map, List.mem_filter,
      Bool.not_eq_true', true_and, K]
    constructor
    · rintro ⟨j, hj, h | ⟨x, ⟨h1, h2⟩, rfl⟩⟩
      · exact ⟨j, hj, .inl h⟩
      · refine ⟨j, hj, .inr ⟨⟨x, h1, rfl⟩, ?_⟩⟩
        intro hm
        rw [show (key x).2 = x.info from rfl, ← List.contains_iff_mem] at hm
        rw [h2] at hm; cases hm
    · rintro ⟨j, hj, h | ⟨⟨x, h1, rfl⟩, h2⟩⟩
      · exact ⟨j, hj, .inl h⟩
      · refine ⟨j, hj, .inr ⟨x, ⟨h1, ?_⟩, rfl⟩⟩
        rw [Bool.eq_false_iff, ne_eq, List.contains_iff_mem]; exact h2

theorem V_mono {skip : List Str} {want : Bool} {l' l : List Job} (h : Rel l' l) {y : Nat × Info} (hy : y ∈ V skip want l') :
    y ∈ V skip want l := by
  rw [mem_V] at hy ⊢
  obtain ⟨j, hj, hy⟩ := hy
  obtain ⟨k, hk⟩ := List.getElem?_of_mem hj
  rcases h.get k with ⟨h1, -⟩ | ⟨a, b, ha, hb, he, hs⟩
  · rw [hk] at h1; cases h1
  · rw [hk] at ha; cases ha
    refine ⟨b, List.mem_of_getElem? hb, ?_⟩
    rcases hy with hy | ⟨h1, h2, h3⟩
    · exact .inl (hy.trans he)
    · exact .inr ⟨h1, hs.subset h2, h3⟩

/-- job `x` repeats another one -/
def Dup (skip : List Str) (want : Bool) (l : List Job) (x : Nat × Info) : Prop :=
  ∃ y ∈ V skip want l, y.2.normedName = x.2.normedName ∧ (want = true → y.1 ≠ x.1)

theorem Dup.mono {skip : List Str} {want : Bool} {l' l : List Job} (h : Rel l' l) {x : Nat × Info} (hd : Dup skip want l' x) :
    Dup skip want l x := by
  obtain ⟨y, hy, h2⟩ := hd
  exact ⟨y, V_mono h hy, h2⟩

theorem isSome_iff (skip : List Str) (want : Bool) (l : List Job) (x : Job) :
    (normedItem skip l x.info.normedName want (if want then some x.uid else none)).isSome = true ↔ Dup skip want l (key x) := by
  constructor
  · intro h
    obtain ⟨y, hy⟩ := Option.isSome_iff_exists.mp h
    obtain ⟨h1, h2, h3⟩ := normedItem_some hy
    refine ⟨key y, List.mem_map.mpr ⟨y, h1, rfl⟩, h2, ?_⟩
    intro hw e
    rw [if_pos hw] at h3
    exact h3 (congrArg some e)
  · rintro ⟨y, hy, h2, h3⟩
    obtain ⟨z, hz, rfl⟩ := List.mem_map.mp hy
    cases hn : normedItem skip l x.info.normedName want (if want then some x.uid else none) with
    | some _ => rfl
    | none =>
      have := normedItem_none.mp hn z hz h2
      cases want with
      | false => simp at this
      | true =>
        simp only [if_true, Option.some.injEq] at this
        exact absurd this (h3 rfl)

/-- each item has importance jobs that can be told apart -/
def UniqJ (l : List Job) : Prop := ∀ j ∈ l, ((K j).map Prod.fst).Nodup

theorem UniqJ.mono {l' l : List Job} (h : Rel l' l) (hu : UniqJ l) : UniqJ l' := by
  intro j hj
  obtain ⟨k, hk⟩ := List.getElem?_of_mem hj
  rcases h.get k with ⟨h1, -⟩ | ⟨a, b, ha, hb, he, hs⟩
  · rw [hk] at h1; cases h1
  · rw [hk] at ha; cases ha
    exact (hu b (List.mem_of_getElem? hb)).sublist (hs.map _)

theorem sweep_spec (skip : List Str) (want : Bool) (k : Nat) : ∀ (xs l : List Job), UniqJ l →
    Rel (sweep skip want k l xs) l ∧ ∀ x ∈ xs, ∀ j, (sweep skip want k l xs)[k]? = some j → key x ∈ K j →
      ¬ Dup skip want (sweep skip want k l xs) (key x)
  | [], l, _ => ⟨Rel.refl l, by simp⟩
  | x :: xs, l, hu => by
    rw [sweep]
    by_cases hd : (normedItem skip l x.info.normedName want (if want then some x.uid else none)).isSome = true
    · rw [if_pos hd]
      have hr : Rel (rmAt l k x.uid) l := Rel.modify _ l k
      obtain ⟨h1, h2⟩ := sweep_spec skip want k xs (rmAt l k x.uid) (hu.mono hr)
      refine ⟨h1.trans hr, ?_⟩
      intro z hz j hj hk
      rcases List.mem_cons.mp hz with rfl | hz
      · exfalso
        rcases h1.get k with ⟨h3, -⟩ | ⟨a, b, ha, hb, he, hs⟩
        · rw [hj] at h3; cases h3
        · rw [hj] at ha; cases ha
          unfold rmAt at hb
          rw [List.getElem?_modify] at hb
          simp only [if_true, Option.map_eq_map] at hb
          cases hl : l[k]? with
          | none => rw [hl] at hb; cases hb
          | some c =>
            rw [hl] at hb
            cases hb
            exact rm_gone z.uid c (hu c (List.mem_of_getElem? hl)) _ (hs.subset hk) rfl
      · exact h2 z hz j hj hk
    · rw [if_neg hd]
      obtain ⟨h1, h2⟩ := sweep_spec skip want k xs l hu
      refine ⟨h1, ?_⟩
      intro z hz j hj hk
      rcases List.mem_cons.mp hz with rfl | hz
      · intro hdup
        exact hd ((isSome_iff skip want l z).mpr (hdup.mono h1))
      · exact h2 z hz j hj hk

theorem sweepAll_spec (skip : List Str) (want : Bool) : ∀ (ks : List Nat) (l : List Job), UniqJ l →
    Rel (sweepAll skip want l ks) l ∧ ∀ k ∈ ks, ∀ j, (sweepAll skip want l ks)[k]? = some j → ∀ x ∈ K j,
      ¬ Dup skip want (sweepAll skip want l ks) x
  | [], l, _ => ⟨Rel.refl l, by simp⟩
  | k :: ks, l, hu => by
    rw [sweepAll]
    cases hk : l[k]? with
    | none =>
      simp only []
      obtain ⟨h1, h2⟩ := sweepAll_spec skip want ks l hu
      refine ⟨h1, ?_⟩
      intro k' hk' j hj
      rcases List.mem_cons.mp hk' with rfl | hk'
      · rcases h1.get k' with ⟨h3, -⟩ | ⟨a, b, ha, hb, -⟩
        · rw [hj] at h3; cases h3
        · rw [hk] at hb; cases hb
      · exact h2 k' hk' j hj
    | some j0 =>
      simp only []
      obtain ⟨s1, s2⟩ := sweep_spec skip want k (imps j0) l hu
      obtain ⟨h1, h2⟩ := sweepAll_spec skip want ks _ (hu.mono s1)
      refine ⟨h1.trans s1, ?_⟩
      intro k' hk' j hj x hx
      by_cases hm : k' ∈ ks
      · exact h2 k' hm j hj x hx
      · have hkk : k' = k := (List.mem_cons.mp hk').resolve_right hm
        subst hkk
        intro hd
        rcases h1.get k' with ⟨h3, -⟩ | ⟨a, b, ha, hb, -, hs⟩
        · rw [hj] at h3; cases h3
        · rw [hj] at ha; cases ha
          have hxb := hs.subset hx
          rcases s1.get k' with ⟨h3, -⟩ | ⟨a', b', ha', hb', -, hs'⟩
          · rw [hb] at h3; cases h3
          · rw [hb] at ha'; cases ha'
            rw [hk] at hb'; cases hb'
            obtain ⟨y, hy, rfl⟩ := List.mem_map.mp (hs'.subset hxb)
            exact s2 y hy b hb hxb (hd.mono h1)

/-- all jobs of the forest, told apart by their numbers -/
def Uniq (l : List Job) : Prop := ((l.flatMap (fun j => key j :: K j)).map Prod.fst).Nodup

theorem Uniq.uniqJ {l : List Job} (h : Uniq l) : UniqJ l := by
  intro j hj
  unfold Uniq at h
  rw [List.map_flatMap] at h
  have h2 : ((key j :: K j).map Prod.fst).Nodup :=
    h.sublist (sublist_flatMap_of_mem (f := fun j => (key j :: K j).map Prod.fst) hj)
  rw [List.map_cons, List.nodup_cons] at h2
  exact h2.2

theorem Uniq.mono {l' l : List Job} (h : Rel l' l) (hu : Uniq l) : Uniq l' := by
  unfold Uniq at *
  refine hu.sublist (List.Sublist.map _ ?_)
  clear hu
  unfold Rel at h
  induction h with
  | nil => exact List.Sublist.refl _
  | cons h t ih =>
    rw [List.flatMap_cons, List.flatMap_cons, h.1]
    exact (h.2.cons_cons _).append ih

theorem dedupe_rel (skip : List Str) (l : List Job) (hu : Uniq l) : Rel (dedupe skip l) l := by
  obtain ⟨h1, -⟩ := sweepAll_spec skip false (List.range l.length) l hu.uniqJ
  obtain ⟨h3, -⟩ := sweepAll_spec skip true (List.range (sweepAll skip false l (List.range l.length)).length) _ (hu.mono h1).uniqJ
  exact h3.trans h1

/-- the importance runs of a grid that are not skipped -/
def impRuns (skip : List Str) (l : List Job) : List Job := (l.flatMap imps).filter (fun x => !skip.contains x.info.name)

/-- **C34**: removing duplicates keeps every full run and the order, only removes importance runs, and afterwards no importance run
has the normalised name of a full run, and no two importance runs (not skipped) have the same normalised name -/
theorem dedupe_spec (skip : List Str) (l : List Job) (hu : Uniq l) :
    (dedupe skip l).map Job.info = l.map Job.info ∧
    ((((dedupe skip l).flatMap imps).map key).Sublist ((l.flatMap imps).map key)) ∧
    (∀ x ∈ (dedupe skip l).flatMap imps, ∀ y ∈ dedupe skip l, x.info.normedName ≠ y.info.normedName) ∧
    ((impRuns skip (dedupe skip l)).map (fun x => x.info.normedName)).Nodup := by
  have hrel := dedupe_rel skip l hu
  have hu' := hu.mono hrel
  have hsubs : ∀ {a b : List Job}, Rel a b → ((a.flatMap imps).map key).Sublist ((b.flatMap imps).map key) := by
    intro a b h
    rw [List.map_flatMap, List.map_flatMap]
    unfold Rel at h
    induction h with
    | nil => exact List.Sublist.refl _
    | cons h t ih => rw [List.flatMap_cons, List.flatMap_cons]; exact List.Sublist.append h.2 ih
  obtain ⟨h1, h2⟩ := sweepAll_spec skip false (List.range l.length) l hu.uniqJ
  obtain ⟨h3, h4⟩ := sweepAll_spec skip true (List.range (sweepAll skip false l (List.range l.length)).length) _ (hu.mono h1).uniqJ
  have hlen : ∀ {a b : List Job}, Rel a b → a.length = b.length := fun h => h.length_eq
  have keep : ∀ {a b : List Job}, Rel a b → a.map Job.info = b.map Job.info := by
    intro a b h
    unfold Rel at h
    induction h with
    | nil => rfl
    | @cons a b _ _ h t ih => rw [List.map_cons, List.map_cons, ih, show a.info = b.info from congrArg Prod.snd h.1]
  have hdd : dedupe skip l = sweepAll skip true (sweepAll skip false l (List.range l.length))
      (List.range (sweepAll skip false l (List.range l.length)).length) := rfl
  refine ⟨keep hrel, hsubs hrel, ?_, ?_⟩
  · intro x hx y hy e
    obtain ⟨j, hj, hx⟩ := List.mem_flatMap.mp hx
    obtain ⟨k, hk⟩ := List.getElem?_of_mem hj
    rw [hdd] at hk hy
    rcases h3.get k with ⟨h5, -⟩ | ⟨a, b, ha, hb, -, hs⟩
    · rw [hk] at h5; cases h5
    · rw [hk] at ha; cases ha
      have hkl : k ∈ List.range l.length := by
        rw [List.mem_range, ← hlen h1]
        exact (List.getElem?_eq_some_iff.mp hb).1
      refine h2 k hkl b hb (key x) (hs.subset (List.mem_map.mpr ⟨x, hx, rfl⟩)) ?_
      exact ⟨key y, V_mono h3 (mem_V.mpr ⟨y, hy, .inl rfl⟩), e.symm, by simp⟩
  · have hnd : ((impRuns skip (dedupe skip l)).map Job.uid).Nodup := by
      unfold Uniq at hu'
      refine hu'.sublist ?_
      have : (impRuns skip (dedupe skip l)).map Job.uid = ((impRuns skip (dedupe skip l)).map key).map Prod.fst := by
        rw [List.map_map]; rfl
      rw [this]
      refine List.Sublist.map _ (List.Sublist.trans (List.filter_sublist.map key) ?_)
      rw [List.map_flatMap]
      clear hu' hrel
      induction dedupe skip l with
      | nil => exact List.Sublist.refl _
      | cons a t ih => rw [List.flatMap_cons, List.flatMap_cons]; exact ((List.Sublist.refl _).cons _).append ih
    rw [List.nodup_map_iff_inj_on (List.Nodup.of_map _ hnd)]
    intro x hx y hy e
    have hxy : x.uid = y.uid := by
      by_contra hne
      have hx' := List.mem_filter.mp hx
      have hy' := List.mem_filter.mp hy
      obtain ⟨j, hj, hxj⟩ := List.mem_flatMap.mp hx'.1
      obtain ⟨j2, hj2, hyj⟩ := List.mem_flatMap.mp hy'.1
      obtain ⟨k, hk⟩ := List.getElem?_of_mem hj
      rw [hdd] at hk
      refine h4 k ?_ j hk (key x) (List.mem_map.mpr ⟨x, hxj, rfl⟩) ?_
      · rw [List.mem_range, ← hlen h3]
        exact (List.getElem?_eq_some_iff.mp hk).1
      · refine ⟨key y, ?_, e.symm, fun _ h => hne h.symm⟩
        rw [mem_V]
        rw [hdd] at hj2
        refine ⟨j2, hj2, .inr ⟨rfl, List.mem_map.mpr ⟨y, hyj, rfl⟩, ?_⟩⟩
        have := hy'.2
        intro hm
        rw [Bool.not_eq_true', Bool.eq_false_iff] at this
        exact this (List.contains_iff_mem.mpr hm)
    exact (List.nodup_map_iff_inj_on (List.Nodup.of_map _ hnd)).mp hnd x hx y hy hxy

/-! ## Numbering -/

mutual
theorem number_uids (n : Nat) : ∀ j : Job, ((key (number n j) :: K (number n j)).map Prod.fst).Perm (List.range' n (size j))
  | .node i v cs => by
    rw [number, size, K_node, Nat.add_comm 1 (sizeL cs), List.range'_succ, List.map_cons]
    refine List.Perm.cons _ ?_
    refine List.Perm.trans ?_ (numberL_uids (n + 1) cs)
    rw [List.map_append, List.map_flatMap, List.map_flatMap]
    generalize numberL (n + 1) cs = L
    induction L with
    | nil => simp
    | cons a L ih =>
      simp only [List.map_cons, List.flatMap_cons, List.cons_append]
      refine List.Perm.cons _ ?_
      refine List.Perm.trans ?_ (List.Perm.append_left _ ih)
      rw [← List.append_assoc, ← List.append_assoc]
      exact List.Perm.append_right _ List.perm_append_comm
theorem numberL_uids (n : Nat) : ∀ l : List Job,
    (((numberL n l).flatMap (fun j => key j :: K j)).map Prod.fst).Perm (List.range' n (sizeL l))
  | [] => by simp [numberL, sizeL]
  | c :: cs => by
    rw [numberL, sizeL, List.flatMap_cons, List.map_append, ← List.range'_append_1]
    exact (number_uids n c).append (numberL_uids (n + size c) cs)
end

theorem uniq_numberL (l : List Job) : Uniq (numberL 0 l) := (numberL_uids 0 l).nodup_iff.mpr List.nodup_range'

mutual
theorem number_infos (n : Nat) : ∀ j : Job, (number n j).info = j.info ∧ (imps (number n j)).map Job.info = (imps j).map Job.info
  | .node i v cs => by
    rw [number]
    refine ⟨rfl, ?_⟩
    rw [imps, imps, List.map_append, List.map_append, (numberL_infos (n + 1) cs).1, (numberL_infos (n + 1) cs).2]
theorem numberL_infos (n : Nat) : ∀ l : List Job,
    (numberL n l).map Job.info = l.map Job.info ∧ (impsL (numberL n l)).map Job.info = (impsL l).map Job.info
  | [] => ⟨rfl, rfl⟩
  | c :: cs => by
    rw [numberL]
    refine ⟨?_, ?_⟩
    · rw [List.map_cons, List.map_cons, (number_infos n c).1, (numberL_infos (n + size c) cs).1]
    · rw [impsL, impsL, List.map_append, List.map_append, (number_infos n c).2, (numberL_infos (n + size c) cs).2]
end

theorem applyFilters_info (f : Option (List ImpRun)) (l : List Job) : (applyFilters f l).map Job.info = l.map Job.info := by
  cases f with
  | none => rfl
  | some fs =>
    unfold applyFilters
    rw [List.map_map]
    apply List.map_congr_left
    intro j _
    simp only [Function.comp_apply]
    rw [makeImportance_spec]; rfl

/-- **C34**: a grid has exactly one full run per combination of a data set and a parameter set of each group that is not skipped, in
order, followed by the extra runs given; no importance run repeats a full run or another importance run -/
theorem makeItems_spec (path : Str) (skip : List Str) (s : Settings) :
    (makeItems path skip s).map Job.info =
      ((combos path s.groups).map Prod.snd).filter (fun i => decide (i.name ∉ skip)) ++ s.jobItems.map Job.info ∧
    (∀ x ∈ (makeItems path skip s).flatMap imps, ∀ y ∈ makeItems path skip s, x.info.normedName ≠ y.info.normedName) ∧
    ((impRuns skip (makeItems path skip s)).map (fun x => x.info.normedName)).Nodup := by
  obtain ⟨h1, -, h3, h4⟩ := dedupe_spec skip _ (uniq_numberL (applyFilters s.filters (groupItems path skip s)))
  refine ⟨?_, h3, h4⟩
  unfold makeItems
  rw [h1, (numberL_infos 0 _).1, applyFilters_info, groupItems_spec, List.map_append, List.map_map, List.map_map, List.filter_map]
  congr 1

/-! ## Nothing is lost -/

/-- importance runs have no importance runs of their own -/
def Leafy (l : List Job) : Prop := ∀ j ∈ l, ∀ c ∈ j.children, c.children = []

theorem K_leafy {j : Job} (h : ∀ c ∈ j.children, c.children = []) : K j = j.children.map key := by
  cases j with
  | node i u cs =>
    rw [K_node]
    have : cs.flatMap K = [] := by
      rw [List.flatMap_eq_nil_iff]
      intro c hc
      have := h c hc
      cases c with
      | node a b d =>
        cases (show d = [] from this)
        rw [K_node]; rfl
    rw [this, List.append_nil]; rfl

theorem rm_leafy {j : Job} (u : Nat) (h : ∀ c ∈ j.children, c.children = []) :
    (∀ c ∈ (rm u j).children, c.children = []) ∧ ∀ k ∈ K j, k.1 ≠ u → k ∈ K (rm u j) := by
  cases j with
  | node i v cs =>
    have hch : ∀ c ∈ cs, c.children = [] := h
    have hrm : ∀ c ∈ cs, rm u c = c := by
      intro c hc
      have := hch c hc
      cases c with
      | node a b d => cases (show d = [] from this); rw [rm]; simp [rmL]
    have hrmL : rmL u cs = cs := by
      clear h hch
      induction cs with
      | nil => rfl
      | cons c cs ih => rw [rmL, hrm c List.mem_cons_self, ih (fun c hc => hrm c (List.mem_cons_of_mem _ hc))]
    rw [rm]
    split
    · have h1 : ∀ c ∈ (Job.node i v (cs.eraseP (fun c => c.uid == u))).children, c.children = [] :=
        fun c hc => hch c (List.eraseP_sublist.subset hc)
      refine ⟨h1, ?_⟩
      intro k hk hne
      rw [K_leafy h] at hk
      rw [K_leafy h1]
      obtain ⟨c, hc, rfl⟩ := List.mem_map.mp hk
      refine List.mem_map.mpr ⟨c, ?_, rfl⟩
      refine (List.mem_eraseP_of_neg ?_).mpr hc
      simpa using show ¬ c.uid = u from hne
    · rw [hrmL]; exact ⟨h, fun k hk _ => hk⟩

/-- names of all jobs that count -/
def Names (skip : List Str) (l : List Job) (n : Str) : Prop := ∃ y ∈ V skip true l, y.2.normedName = n

theorem rmAt_leafy {skip : List Str} {l : List Job} (k u : Nat) (h : Leafy l) :
    Leafy (rmAt l k u) ∧ ∀ y ∈ V skip true l, y.1 ≠ u → y ∈ V skip true (rmAt l k u) := by
  unfold rmAt
  refine ⟨?_, ?_⟩
  · intro j hj
    obtain ⟨m, hm⟩ := List.getElem?_of_mem hj
    rw [List.getElem?_modify] at hm
    cases hl : l[m]? with
    | none => rw [hl] at hm; cases hm
    | some c =>
      rw [hl] at hm
      simp only [Option.map_eq_map, Option.map_some, Option.some.injEq] at hm
      subst hm
      split
      · exact (rm_leafy u (h c (List.mem_of_getElem? hl))).1
      · exact h c (List.mem_of_getElem? hl)
  · intro y hy hne
    rw [mem_V] at hy ⊢
    obtain ⟨j, hj, hy⟩ := hy
    obtain ⟨m, hm⟩ := List.getElem?_of_mem hj
    by_cases hmk : k = m
    · subst hmk
      refine ⟨rm u j, List.mem_of_getElem? (i := k) (by rw [List.getElem?_modify, hm]; simp), ?_⟩
      rcases hy with hy | ⟨h1, h2, h3⟩
      · exact .inl (by rw [key_rm]; exact hy)
      · exact .inr ⟨h1, (rm_leafy u (h j hj)).2 y h2 hne, h3⟩
    · exact ⟨j, List.mem_of_getElem? (i := m) (by rw [List.getElem?_modify, hm]; simp [hmk]), hy⟩

theorem top_ne_imp : ∀ (L : List Job), Uniq L → ∀ j ∈ L, ∀ j2 ∈ L, j.uid ∉ (K j2).map Prod.fst := by
  intro L
  unfold Uniq
  induction L with
  | nil => intro _ j hj; cases hj
  | cons a L ih =>
    intro hL j hj j2 hj2 hm
    rw [List.flatMap_cons, List.map_append, List.nodup_append] at hL
    have hin : ∀ j ∈ L, j.uid ∈ (L.flatMap (fun j => key j :: K j)).map Prod.fst := fun j hj =>
      List.mem_map.mpr ⟨key j, List.mem_flatMap.mpr ⟨j, hj, by simp⟩, rfl⟩
    have hin2 : ∀ j ∈ L, ∀ v ∈ (K j).map Prod.fst, v ∈ (L.flatMap (fun j => key j :: K j)).map Prod.fst := by
      intro j hj v hv
      obtain ⟨w, hw, rfl⟩ := List.mem_map.mp hv
      exact List.mem_map.mpr ⟨w, List.mem_flatMap.mpr ⟨j, hj, by simp [hw]⟩, rfl⟩
    have ha := hL.1
    rw [List.map_cons, List.nodup_cons] at ha
    rcases List.mem_cons.mp hj with rfl | hjL
    · rcases List.mem_cons.mp hj2 with rfl | hj2
      · exact ha.1 hm
      · exact hL.2.2 _ (by simp [key]) _ (hin2 j2 hj2 _ hm) rfl
    · rcases List.mem_cons.mp hj2 with rfl | hj2
      · exact hL.2.2 j.uid (by rw [List.map_cons]; exact List.mem_cons_of_mem _ hm) _ (hin j hjL) rfl
      · exact ih hL.2.1 j hjL j2 hj2 hm

theorem V_key_inj {skip : List Str} {l : List Job} (hu : Uniq l) {j : Job} (hj : j ∈ l) {x : Nat × Info} (hx : x ∈ K j)
    {y : Nat × Info} (hy : y ∈ V skip true l) (e : y.1 = x.1) : y = x := by
  unfold Uniq at hu
  have hx' : x ∈ l.flatMap (fun j => key j :: K j) := List.mem_flatMap.mpr ⟨j, hj, by simp [hx]⟩
  have hy' : y ∈ l.flatMap (fun j => key j :: K j) := by
    rw [mem_V] at hy
    obtain ⟨j2, hj2, hy⟩ := hy
    refine List.mem_flatMap.mpr ⟨j2, hj2, ?_⟩
    rcases hy with rfl | ⟨-, h, -⟩
    · simp
    · simp [h]
  exact (List.nodup_map_iff_inj_on (List.Nodup.of_map _ hu)).mp hu y hy' x hx' e

theorem Rel.top {l' l : List Job} (h : Rel l' l) {j : Job} (hj : j ∈ l') : ∃ b ∈ l, key j = key b ∧ (K j).Sublist (K b) := by
  obtain ⟨k, hk⟩ := List.getElem?_of_mem hj
  rcases h.get k with ⟨h1, -⟩ | ⟨a, b, ha, hb, he, hs⟩
  · rw [hk] at h1; cases h1
  · rw [hk] at ha; cases ha
    exact ⟨b, List.mem_of_getElem? hb, he, hs⟩

theorem sweep_leafy (skip : List Str) (want : Bool) (k : Nat) : ∀ (xs l : List Job), Leafy l →
    (∀ x ∈ xs, ∀ j ∈ l, j.uid ≠ x.uid) → (∀ x ∈ xs, ∀ y ∈ V skip true l, y.1 = x.uid → y = key x) →
    Leafy (sweep skip want k l xs) ∧ ∀ n, Names skip l n → Names skip (sweep skip want k l xs) n
  | [], l, h, _, _ => ⟨h, fun _ h => h⟩
  | x :: xs, l, h, hx, hk => by
    rw [sweep]
    by_cases hd : (normedItem skip l x.info.normedName want (if want then some x.uid else none)).isSome = true
    · rw [if_pos hd]
      have hr : Rel (rmAt l k x.uid) l := Rel.modify _ l k
      obtain ⟨h1, h2⟩ := rmAt_leafy (skip := skip) k x.uid h
      have hother : ∀ n, Names skip l n → Names skip (rmAt l k x.uid) n := by
        rintro n ⟨y, hy, rfl⟩
        by_cases hyu : y.1 = x.uid
        · have hyx := hk x List.mem_cons_self y hy hyu
          obtain ⟨z, hz, hz1, hz2⟩ := (isSome_iff skip want l x).mp hd
          have hzV : z ∈ V skip true l ∧ z.1 ≠ x.uid := by
            cases want with
            | true => exact ⟨hz, hz2 rfl⟩
            | false =>
              rw [mem_V] at hz ⊢
              obtain ⟨j, hj, hz⟩ := hz
              rcases hz with rfl | ⟨hf, -⟩
              · exact ⟨⟨j, hj, .inl rfl⟩, hx x List.mem_cons_self j hj⟩
              · cases hf
          exact ⟨z, h2 z hzV.1 hzV.2, by rw [hz1, hyx]⟩
        · exact ⟨y, h2 y hy hyu, rfl⟩
      obtain ⟨h3, h4⟩ := sweep_leafy skip want k xs (rmAt l k x.uid) h1 (by
          intro x' hx' j hj
          obtain ⟨b, hb, he, -⟩ := hr.top hj
          rw [show j.uid = b.uid from congrArg Prod.fst he]
          exact hx x' (List.mem_cons_of_mem _ hx') b hb)
        (fun x' hx' y hy e => hk x' (List.mem_cons_of_mem _ hx') y (V_mono hr hy) e)
      exact ⟨h3, fun n hn => h4 n (hother n hn)⟩
    · rw [if_neg hd]
      exact sweep_leafy skip want k xs l h (fun x' hx' => hx x' (List.mem_cons_of_mem _ hx'))
        (fun x' hx' => hk x' (List.mem_cons_of_mem _ hx'))

theorem sweepAll_leafy (skip : List Str) (want : Bool) : ∀ (ks : List Nat) (l : List Job), Uniq l → Leafy l →
    Leafy (sweepAll skip want l ks) ∧ ∀ n, Names skip l n → Names skip (sweepAll skip want l ks) n
  | [], l, _, h => ⟨h, fun _ h => h⟩
  | k :: ks, l, hu, h => by
    rw [sweepAll]
    cases hk : l[k]? with
    | none => exact sweepAll_leafy skip want ks l hu h
    | some j =>
      simp only []
      have hj := List.mem_of_getElem? hk
      have hm : ∀ x ∈ imps j, key x ∈ K j := fun x hx => List.mem_map.mpr ⟨x, hx, rfl⟩
      obtain ⟨h1, h2⟩ := sweep_leafy skip want k (imps j) l h
        (fun x hx j2 hj2 e => top_ne_imp l hu j2 hj2 j hj (e ▸ List.mem_map.mpr ⟨key x, hm x hx, rfl⟩))
        (fun x hx y hy e => V_key_inj hu hj (hm x hx) hy e)
      obtain ⟨h3, h4⟩ := sweepAll_leafy skip want ks _ (hu.mono (sweep_spec skip want k (imps j) l hu.uniqJ).1) h1
      exact ⟨h3, fun n hn => h4 n (h2 n hn)⟩

/-- **C34**: without nested importance runs, removing duplicates loses no combination: every normalised name that was there still is -/
theorem dedupe_keeps (skip : List Str) (l : List Job) (hu : Uniq l) (hl : Leafy l) (n : Str)
    (h : n ∈ (itemsImp skip l).map (fun j => j.info.normedName)) :
    n ∈ (itemsImp skip (dedupe skip l)).map (fun j => j.info.normedName) := by
  have hN : ∀ L : List Job, n ∈ (itemsImp skip L).map (fun j => j.info.normedName) ↔ Names skip L n := by
    intro L
    unfold Names V items
    simp only [if_true, List.mem_map]
    constructor
    · rintro ⟨j, hj, e⟩; exact ⟨key j, ⟨j, hj, rfl⟩, e⟩
    · rintro ⟨_, ⟨j, hj, rfl⟩, e⟩; exact ⟨j, hj, e⟩
  rw [hN] at h ⊢
  obtain ⟨h1, -⟩ := sweepAll_spec skip false (List.range l.length) l hu.uniqJ
  obtain ⟨h2, h3⟩ := sweepAll_leafy skip false (List.range l.length) l hu hl
  obtain ⟨-, h5⟩ := sweepAll_leafy skip true (List.range (sweepAll skip false l (List.range l.length)).length) _ (hu.mono h1) h2
  exact h5 n (h3 n h)

theorem numberL_children (n : Nat) : ∀ (l : List Job), Leafy l → Leafy (numberL n l)
  | [], _ => by intro j hj; simp [numberL] at hj
  | .node i u cs :: l, h => by
    intro j hj
    rw [numberL, List.mem_cons] at hj
    rcases hj with rfl | hj
    · rw [number]
      have hcs := h _ List.mem_cons_self
      change ∀ c ∈ numberL (n + 1) cs, c.children = []
      change ∀ c ∈ cs, c.children = [] at hcs
      clear h
      generalize n + 1 = m
      induction cs generalizing m with
      | nil => intro c hc; simp [numberL] at hc
      | cons c cs ih =>
        intro d hd
        rw [numberL, List.mem_cons] at hd
        rcases hd with rfl | hd
        · have := hcs c List.mem_cons_self
          cases c with
          | node a b e => cases (show e = [] from this); rfl
        · exact ih (fun c hc => hcs c (List.mem_cons_of_mem _ hc)) _ d hd
    · exact numberL_children _ l (fun j hj => h j (List.mem_cons_of_mem _ hj)) j hj

/-- **C34**: with no filters and no extra runs, every combination and every importance run that applies to it (neither skipped) is in
the grid under its normalised name -/
theorem makeItems_complete_partial (path : Str) (skip : List Str) (s : Settings) (hf : s.filters = none) (hj : s.jobItems = [])
    (c : Group × Info) (hc : c ∈ combos path s.groups) (hs : c.2.name ∉ skip) (r : ImpRun)
    (hr : r ∈ c.1.importanceRuns ++ s.importanceRuns) (hap : r.applies c.2 = true) (hsr : (impInfo c.2 r).name ∉ skip) :
    (impInfo c.2 r).normedName ∈ (itemsImp skip (makeItems path skip s)).map (fun j => j.info.normedName) := by
  have hgi := groupItems_spec path skip s
  rw [hj, List.map_nil, List.append_nil] at hgi
  have hleaf : Leafy (groupItems path skip s) := by
    intro j hjm d hd
    rw [hgi] at hjm
    obtain ⟨c', -, rfl⟩ := List.mem_map.mp hjm
    obtain ⟨r', -, rfl⟩ := List.mem_map.mp hd
    rfl
  unfold makeItems
  rw [hf]
  apply dedupe_keeps skip _ (uniq_numberL _) (numberL_children 0 _ hleaf)
  have hinf : (itemsImp skip (numberL 0 (groupItems path skip s))).map (fun j => j.info) =
      (itemsImp skip (groupItems path skip s)).map (fun j => j.info) := by
    unfold itemsImp
    generalize groupItems path skip s = L
    generalize 0 = n
    induction L generalizing n with
    | nil => rfl
    | cons a L ih =>
      rw [numberL, List.flatMap_cons, List.flatMap_cons, List.map_append, List.map_append, ih]
      congr 1
      rw [List.map_cons, List.map_cons, (number_infos n a).1]
      congr 1
      have h2 := (number_infos n a).2
      have hflt : ∀ l : List Job, (l.filter (fun x => !skip.contains x.info.name)).map (fun j => j.info) =
          (l.map Job.info).filter (fun i => !skip.contains i.name) := by
        intro l; rw [List.filter_map]; rfl
      rw [hflt, hflt, h2]
  have : ∀ L : List Job, L.map (fun j => j.info.normedName) = (L.map (fun j => j.info)).map Info.normedName := by
    intro L; rw [List.map_map]; rfl
  rw [this, hinf]
  refine List.mem_map.mpr ⟨impInfo c.2 r, ?_, rfl⟩
  rw [hgi]
  refine List.mem_map.mpr ⟨.node (impInfo c.2 r) 0 [], ?_, rfl⟩
  unfold itemsImp
  rw [List.mem_flatMap]
  refine ⟨_, List.mem_map.mpr ⟨c, List.mem_filter.mpr ⟨hc, by simpa using hs⟩, rfl⟩, ?_⟩
  refine List.mem_cons_of_mem _ (List.mem_filter.mpr ⟨?_, ?_⟩)
  · rw [imps]
    refine List.mem_append_left _ (List.mem_map.mpr ⟨r, List.mem_filter.mpr ⟨hr, hap⟩, rfl⟩)
  · rw [Bool.not_eq_true', Bool.eq_false_iff, ne_eq, List.contains_iff_mem]; exact hsr

/-- with nested importance runs (filters) a combination can be lost: the run that carries it is removed because another run has
its normalised name, although that other run does not have the nested run -/
theorem dedupe_loses_fails : ∃ (A B : Info) (l : List Job), A = mkItem c!"/g/" [] (mkData [c!"a"] none) c!"base" ∧
    B = mkItem c!"/g/" [] (mkData [c!"a", c!"b"] none) c!"base" ∧
    l = [.node A 0 [.node (impInfo A ⟨[c!"b"], [], fun _ => true⟩) 1
      [.node (impInfo (impInfo A ⟨[c!"b"], [], fun _ => true⟩) ⟨[c!"z"], [], fun _ => true⟩) 2 []]], .node B 3 []] ∧
    (itemsImp [] l).map (fun j => j.info.normedName) = [c!"base_a", c!"base_a_b", c!"base_a_b_z", c!"base_a_b"] ∧
    (itemsImp [] (dedupe [] l)).map (fun j => j.info.normedName) = [c!"base_a", c!"base_a_b"] :=
  ⟨_, _, _, rfl, rfl, rfl, by decide +kernel, by decide +kernel⟩

/-! ## Names -/

/-- **C34**: full runs of different combinations have different names, if no name contains the separator and no name is used both for a
parameter and a data set (otherwise `name_collision_fails`) -/
theorem name_inj {path base : Str} {ps ps' ns ns' : List Str} {p p' : Option (List PItem)}
    (hs : ∀ n ∈ base :: (ps ++ ps' ++ ns ++ ns'), '_' ∉ n) (hdis : ∀ n ∈ ps ++ ps', n ∉ ns ++ ns') (hn : ns ≠ []) (hn' : ns' ≠ [])
    (e : (mkItem path ps (mkData ns p) base).name = (mkItem path ps' (mkData ns' p') base).name) : ps = ps' ∧ ns = ns' := by
  have e1 : join us (base :: ps) ++ us ++ join us ns = join us (base :: ps') ++ us ++ join us ns' := e
  rw [← join_append (by simp) hn, ← join_append (by simp) hn'] at e1
  have e2 := join_inj (by simp) (by simp) (by
    intro n h
    apply hs n
    simp only [List.cons_append, List.mem_cons, List.mem_append] at h ⊢
    tauto) (by
    intro n h
    apply hs n
    simp only [List.cons_append, List.mem_cons, List.mem_append] at h ⊢
    tauto) e1
  rw [List.cons_append, List.cons_append, List.cons.injEq] at e2
  have e3 := e2.2
  have hf : ∀ a b : List Str, (∀ x ∈ a, x ∈ ps ++ ps') → (∀ x ∈ b, x ∈ ns ++ ns') →
      (a ++ b).takeWhile (fun x => decide (x ∈ ps ++ ps')) = a ∧ (a ++ b).dropWhile (fun x => decide (x ∈ ps ++ ps')) = b := by
    intro a b ha hb
    induction a with
    | nil =>
      cases b with
      | nil => simp
      | cons c b =>
        have hc : ¬ c ∈ ps ++ ps' := fun h => hdis c h (hb c List.mem_cons_self)
        rw [List.nil_append, List.takeWhile_cons, List.dropWhile_cons]
        rw [decide_eq_false hc]; exact ⟨rfl, rfl⟩
    | cons c a ih =>
      have hc := ha c List.mem_cons_self
      obtain ⟨h1, h2⟩ := ih (fun x hx => ha x (List.mem_cons_of_mem _ hx))
      rw [List.cons_append, List.takeWhile_cons, List.dropWhile_cons, decide_eq_true hc]
      simp only [if_true]
      rw [h1, h2]; exact ⟨rfl, rfl⟩
  have h1 := hf ps ns (by intro x hx; simp [hx]) (by intro x hx; simp [hx])
  have h2 := hf ps' ns' (by intro x hx; simp [hx]) (by intro x hx; simp [hx])
  rw [e3] at h1
  exact ⟨h1.1.symm.trans h2.1, h1.2.symm.trans h2.2⟩

/-- **C34**: so a list of distinct combinations gives distinct run names and distinct ini files -/
theorem names_nodup (path base : Str) (cs : List (List Str × List Str)) (hnd : cs.Nodup) (hb : '_' ∉ base)
    (hs : ∀ c ∈ cs, c.2 ≠ [] ∧ ∀ n ∈ c.1 ++ c.2, '_' ∉ n) (hdis : ∀ c ∈ cs, ∀ c' ∈ cs, ∀ n ∈ c.1, n ∉ c'.2) :
    (cs.map (fun c => (mkItem path c.1 (mkData c.2 none) base).iniFile [])).Nodup := by
  rw [List.nodup_map_iff_inj_on hnd]
  intro c hc c' hc' e
  have e1 : (mkItem path c.1 (mkData c.2 none) base).name = (mkItem path c'.1 (mkData c'.2 none) base).name := by
    unfold Info.iniFile at e
    have h1 : (mkItem path c.1 (mkData c.2 none) base).isImp = false := rfl
    have h2 : (mkItem path c'.1 (mkData c'.2 none) base).isImp = false := rfl
    have h3 : (mkItem path c.1 (mkData c.2 none) base).batchPath = path := rfl
    have h4 : (mkItem path c'.1 (mkData c'.2 none) base).batchPath = path := rfl
    rw [h1, h2, h3, h4] at e
    simpa using e
  obtain ⟨h1, h2⟩ := name_inj (by
    intro n hn
    simp only [List.mem_cons, List.mem_append] at hn
    rcases hn with rfl | ((h | h) | h) | h
    · exact hb
    · exact (hs c hc).2 n (by simp [h])
    · exact (hs c' hc').2 n (by simp [h])
    · exact (hs c hc).2 n (by simp [h])
    · exact (hs c' hc').2 n (by simp [h])) (by
    intro n hn
    simp only [List.mem_append, not_or] at hn ⊢
    rcases hn with h | h
    · exact ⟨hdis c hc c hc n h, hdis c hc c' hc' n h⟩
    · exact ⟨hdis c' hc' c hc n h, hdis c' hc' c' hc' n h⟩) (hs c hc).1 (hs c' hc').1 e1
  exact Prod.ext h1 h2

/-- a grid: two parameter sets, one data combination, an importance run that a full run replaces, one that is kept -/
def exSettings : Settings where
  groups := [⟨[[], [c!"w"]], some c!"main", [⟨[c!"lens"], [], fun _ => true⟩], [mkData [c!"plik"] none]⟩,
    ⟨[[]], some c!"extra", [], [mkData [c!"lens", c!"plik"] none, mkData [c!"BAO"] none]⟩]
  importanceRuns := [⟨[c!"BAO"], [], fun _ => true⟩]
  jobItems := []
  filters := none

example : (itemsImp [c!"base_BAO"] (makeItems c!"/g/" [c!"base_BAO"] exSettings)).map (fun j => j.info.name) =
    [c!"base_plik", c!"base_plik_post_BAO", c!"base_w_plik", c!"base_w_plik_post_lens", c!"base_w_plik_post_BAO",
     c!"base_lens_plik", c!"base_lens_plik_post_BAO"] := by decide +kernel

/-- giving the data sets to the constructor of a group leaves the group without any attribute: the grid cannot be made -/
theorem mkGroup_fails (name : Str) (p : Option (List (List Str))) (i : Option (List ImpRun)) (d : List DS) :
    mkGroup name p i (some d) = none ∧ (mkGroup name p i none).isSome = true := ⟨rfl, rfl⟩

end Verif.Batch
