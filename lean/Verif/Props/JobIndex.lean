import Verif.Model.JobQueue

/-!
# The index of submitted jobs: consistency (C28), saving (C29), cancelling jobs (C63) and the queue listing (C64)
-/

namespace Verif.JobQueue
open Verif.Py

/-! ## Consistency of the index -/

/-- no two live jobs share an id, a name or a run name, and no job lists a run name twice -/
def Distinct (live : List Job) : Prop :=
  live.Pairwise (fun a b => a.id ≠ b.id ∧ a.name ≠ b.name ∧ ∀ n ∈ a.names, n ∉ b.names) ∧ ∀ j ∈ live, j.names.Nodup

/-- the index finds exactly the live jobs: by id, by name and by run name -/
structure Rep (x : Index) (live : List Job) : Prop where
  byId : ∀ i j, x.jobs.get? i = some j ↔ j ∈ live ∧ j.id = i
  byName : ∀ n i, x.jobNames.get? n = some i ↔ ∃ j ∈ live, j.name = n ∧ j.id = i
  byRun : ∀ n i, x.rootNames.get? n = some i ↔ ∃ j ∈ live, n ∈ j.names ∧ j.id = i
  order : x.seq = live.map Job.id

inductive Op
  | add (j : Job)
  | del (id : Str)

/-- the live jobs after a history: added and not deleted since -/
def liveAfter (live : List Job) : List Op → List Job
  | [] => live
  | .add j :: ops => liveAfter (live ++ [j]) ops
  | .del i :: ops => liveAfter (live.filter (fun j => j.id ≠ i)) ops

/-- every job added differs from the jobs live at that moment -/
def FreshAdds (live : List Job) : List Op → Prop
  | [] => True
  | .add j :: ops => Distinct (live ++ [j]) ∧ FreshAdds (live ++ [j]) ops
  | .del i :: ops => FreshAdds (live.filter (fun j => j.id ≠ i)) ops

def runOps (x : Index) (ops : List Op) : Except QErr Index :=
  ops.foldlM (fun x o => match o with
    | .add j => .ok (addJob x j)
    | .del i => delId x i) x

theorem get_foldl_set (v : Str) (names : List Str) : ∀ (d : Dict Str Str) (n : Str),
    (names.foldl (fun d m => d.set m v) d).get? n = if n ∈ names then some v else d.get? n := by
  induction names with
  | nil => intro d n; simp
  | cons m names ih =>
    intro d n
    rw [List.foldl_cons, ih, Dict.get?_set]
    by_cases h1 : n ∈ names <;> by_cases h2 : n = m <;> simp [h1, h2]

theorem del_ok {ν : Type} {d : Dict Str ν} {k : Str} {v : ν} (h : d.get? k = some v) : del d k = .ok (d.erase k) := by
  unfold del Dict.has; rw [h]; rfl

theorem foldlM_del : ∀ (names : List Str) (d : Dict Str Str), names.Nodup → (∀ n ∈ names, ∃ v, d.get? n = some v) →
    ∃ d', names.foldlM del d = .ok d' ∧ ∀ n, d'.get? n = if n ∈ names then none else d.get? n
  | [], d, _, _ => ⟨d, rfl, fun n => by simp⟩
  | m :: names, d, hn, hk => by
    obtain ⟨v, hv⟩ := hk m List.mem_cons_self
    rw [List.nodup_cons] at hn
    obtain ⟨d', h1, h2⟩ := foldlM_del names (d.erase m) hn.2 (by
      intro n hn'
      obtain ⟨w, hw⟩ := hk n (List.mem_cons_of_mem _ hn')
      refine ⟨w, ?_⟩
      rw [Dict.get?_erase, if_neg (by rintro rfl; exact hn.1 hn'), hw])
    refine ⟨d', ?_, ?_⟩
    · rw [List.foldlM_cons, del_ok hv]; exact h1
    · intro n
      rw [h2, Dict.get?_erase]
      by_cases a : n ∈ names <;> by_cases b : n = m <;> simp [a, b]

theorem distinct_prefix {live : List Job} {j : Job} (h : Distinct (live ++ [j])) :
    Distinct live ∧ (∀ a ∈ live, a.id ≠ j.id ∧ a.name ≠ j.name ∧ ∀ n ∈ a.names, n ∉ j.names) ∧ j.names.Nodup := by
  obtain ⟨h1, h2⟩ := h
  rw [List.pairwise_append] at h1
  exact ⟨⟨h1.1, fun a ha => h2 a (by simp [ha])⟩, fun a ha => h1.2.2 a ha j (by simp), h2 j (by simp)⟩

theorem distinct_filter {live : List Job} (p : Job → Bool) (h : Distinct live) : Distinct (live.filter p) :=
  ⟨h.1.sublist List.filter_sublist, fun j hj => h.2 j (List.mem_filter.mp hj).1⟩

/-- two live jobs sharing anything are the same -/
theorem distinct_eq : ∀ {live : List Job}, Distinct live → ∀ {a b : Job}, a ∈ live → b ∈ live →
    (a.id = b.id ∨ a.name = b.name ∨ ∃ n, n ∈ a.names ∧ n ∈ b.names) → a = b
  | [], _, _, _, ha, _, _ => absurd ha (by simp)
  | j :: live, ⟨hp, hn⟩, a, b, ha, hb, hs => by
    rw [List.pairwise_cons] at hp
    rcases List.mem_cons.mp ha with rfl | ha' <;> rcases List.mem_cons.mp hb with rfl | hb'
    · rfl
    · obtain ⟨h1, h2, h3⟩ := hp.1 b hb'
      rcases hs with h | h | ⟨n, h, h'⟩
      · exact absurd h h1
      · exact absurd h h2
      · exact absurd h' (h3 n h)
    · obtain ⟨h1, h2, h3⟩ := hp.1 a ha'
      rcases hs with h | h | ⟨n, h, h'⟩
      · exact absurd h.symm h1
      · exact absurd h.symm h2
      · exact absurd h (h3 n h')
    · exact distinct_eq ⟨hp.2, fun j hj => hn j (List.mem_cons_of_mem _ hj)⟩ ha' hb' hs

theorem rep_add {x : Index} {live : List Job} {j : Job} (h : Rep x live) (hd : Distinct (live ++ [j])) :
    Rep (addJob x j) (live ++ [j]) := by
  obtain ⟨_, hf, _⟩ := distinct_prefix hd
  constructor
  · intro i a
    show (x.jobs.set j.id j).get? i = some a ↔ _
    rw [Dict.get?_set]
    by_cases hi : i = j.id
    · subst hi
      simp only [if_true, Option.some.injEq, List.mem_append, List.mem_singleton]
      constructor
      · rintro rfl; exact ⟨Or.inr rfl, rfl⟩
      · rintro ⟨ha | ha, he⟩
        · exact absurd he (hf a ha).1
        · exact ha.symm
    · rw [if_neg hi, h.byId]
      simp only [List.mem_append, List.mem_singleton]
      constructor
      · rintro ⟨a1, a2⟩; exact ⟨Or.inl a1, a2⟩
      · rintro ⟨a1 | rfl, a2⟩
        · exact ⟨a1, a2⟩
        · exact absurd a2.symm hi
  · intro n i
    show (x.jobNames.set j.name j.id).get? n = some i ↔ _
    rw [Dict.get?_set]
    by_cases hi : n = j.name
    · subst hi
      simp only [if_true, Option.some.injEq, List.mem_append, List.mem_singleton]
      constructor
      · rintro rfl; exact ⟨j, Or.inr rfl, rfl, rfl⟩
      · rintro ⟨a, ha | rfl, e1, e2⟩
        · exact absurd e1 (hf a ha).2.1
        · exact e2
    · rw [if_neg hi, h.byName]
      simp only [List.mem_append, List.mem_singleton]
      constructor
      · rintro ⟨a, a1, a2⟩; exact ⟨a, Or.inl a1, a2⟩
      · rintro ⟨a, a1 | rfl, a2⟩
        · exact ⟨a, a1, a2⟩
        · exact absurd a2.1.symm hi
  · intro n i
    show (j.names.foldl (fun d m => d.set m j.id) x.rootNames).get? n = some i ↔ _
    rw [get_foldl_set]
    by_cases hi : n ∈ j.names
    · simp only [if_pos hi, Option.some.injEq, List.mem_append, List.mem_singleton]
      constructor
      · rintro rfl; exact ⟨j, Or.inr rfl, hi, rfl⟩
      · rintro ⟨a, ha | rfl, e1, e2⟩
        · exact absurd hi ((hf a ha).2.2 n e1)
        · exact e2
    · rw [if_neg hi, h.byRun]
      simp only [List.mem_append, List.mem_singleton]
      constructor
      · rintro ⟨a, a1, a2⟩; exact ⟨a, Or.inl a1, a2⟩
      · rintro ⟨a, a1 | rfl, a2⟩
        · exact ⟨a, a1, a2⟩
        · exact absurd a2.1 hi
  · show x.seq ++ [j.id] = _
    rw [h.order]; simp

theorem rep_del {x : Index} {live : List Job} (i0 : Str) (h : Rep x live) (hd : Distinct live) :
    ∃ x', delId x i0 = .ok x' ∧ Rep x' (live.filter (fun j => j.id ≠ i0)) := by
  cases hj : x.jobs.get? i0 with
  | none =>
    refine ⟨x, by unfold delId; rw [hj], ?_⟩
    have : live.filter (fun j => j.id ≠ i0) = live := by
      rw [List.filter_eq_self]
      intro a ha
      simp only [ne_eq, decide_eq_true_eq]
      intro e
      rw [(h.byId i0 a).mpr ⟨ha, e⟩] at hj; cases hj
    rw [this]; exact h
  | some j0 =>
    obtain ⟨hl, he⟩ := (h.byId i0 j0).mp hj
    obtain ⟨d', h1, h2⟩ := foldlM_del j0.names x.rootNames (hd.2 j0 hl) (fun n hn => ⟨i0, (h.byRun n i0).mpr ⟨j0, hl, hn, he⟩⟩)
    refine ⟨{ jobs := x.jobs.erase i0, jobNames := x.jobNames.erase j0.name, rootNames := d'
              seq := x.seq.filter (fun s => s ≠ i0) }, ?_, ?_⟩
    · unfold delId
      rw [hj]
      dsimp only
      rw [h1, del_ok hj, del_ok ((h.byName j0.name i0).mpr ⟨j0, hl, rfl, he⟩)]
      rfl
    · have same : ∀ a ∈ live, a.id = i0 → a = j0 := fun a ha e => distinct_eq hd ha hl (Or.inl (e.trans he.symm))
      constructor
      · intro i j
        show (x.jobs.erase i0).get? i = some j ↔ _
        rw [Dict.get?_erase]
        simp only [List.mem_filter, ne_eq, decide_eq_true_eq]
        by_cases hi : i = i0
        · subst hi
          simp only [if_true]
          constructor
          · intro e; cases e
          · rintro ⟨⟨_, e1⟩, e2⟩; exact absurd e2 e1
        · rw [if_neg hi, h.byId]
          constructor
          · rintro ⟨a1, a2⟩; exact ⟨⟨a1, by rw [a2]; exact hi⟩, a2⟩
          · rintro ⟨⟨a1, _⟩, a2⟩; exact ⟨a1, a2⟩
      · intro n i
        show (x.jobNames.erase j0.name).get? n = some i ↔ _
        rw [Dict.get?_erase]
        simp only [List.mem_filter, ne_eq, decide_eq_true_eq]
        by_cases hi : n = j0.name
        · subst hi
          simp only [if_true]
          constructor
          · intro e; cases e
          · rintro ⟨a, ⟨a1, a2⟩, a3, a4⟩
            have := distinct_eq hd a1 hl (Or.inr (Or.inl a3))
            subst this; exact absurd he a2
        · rw [if_neg hi, h.byName]
          constructor
          · rintro ⟨a, a1, a2, a3⟩
            refine ⟨a, ⟨a1, fun e => hi ?_⟩, a2, a3⟩
            rw [← a2, same a a1 e]
          · rintro ⟨a, ⟨a1, _⟩, a2⟩; exact ⟨a, a1, a2⟩
      · intro n i
        show d'.get? n = some i ↔ _
        rw [h2]
        simp only [List.mem_filter, ne_eq, decide_eq_true_eq]
        by_cases hi : n ∈ j0.names
        · simp only [if_pos hi]
          constructor
          · intro e; cases e
          · rintro ⟨a, ⟨a1, a2⟩, a3, a4⟩
            have := distinct_eq hd a1 hl (Or.inr (Or.inr ⟨n, a3, hi⟩))
            subst this; exact absurd he a2
        · rw [if_neg hi, h.byRun]
          constructor
          · rintro ⟨a, a1, a2, a3⟩
            refine ⟨a, ⟨a1, fun e => hi ?_⟩, a2, a3⟩
            rw [← same a a1 e]; exact a2
          · rintro ⟨a, ⟨a1, _⟩, a2⟩; exact ⟨a, a1, a2⟩
      · show x.seq.filter (fun s => s ≠ i0) = _
        rw [h.order, List.filter_map]; rfl

theorem rep_empty : Rep {} [] := by
  constructor <;> simp

/-- **C28** for histories in which a job added shares no id, job name or run name with a live job: no step fails and the index
finds exactly the live jobs. -/
theorem history_partial : ∀ (ops : List Op) (x : Index) (live : List Job), Rep x live → Distinct live → FreshAdds live ops →
    ∃ x', runOps x ops = .ok x' ∧ Rep x' (liveAfter live ops) ∧ Distinct (liveAfter live ops)
  | [], x, live, h, hd, _ => ⟨x, rfl, h, hd⟩
  | .add j :: ops, x, live, h, _, hf => history_partial ops (addJob x j) (live ++ [j]) (rep_add h hf.1) hf.1 hf.2
  | .del i :: ops, x, live, h, hd, hf => by
    obtain ⟨x', h1, h2⟩ := rep_del i h hd
    obtain ⟨x2, h3, h4⟩ := history_partial ops x' _ h2 (distinct_filter _ hd) hf
    refine ⟨x2, ?_, h4⟩
    unfold runOps at *
    rw [List.foldlM_cons]
    dsimp only
    rw [h1]
    exact h3

/-- two jobs added, the first deleted -/
example : ∃ x', runOps {} [.add ⟨c!"1", c!"a-b", [c!"a", c!"b"]⟩, .add ⟨c!"2", c!"c", [c!"c"]⟩, .del c!"1"] = .ok x' ∧
    Rep x' [⟨c!"2", c!"c", [c!"c"]⟩] := by
  obtain ⟨x', h1, h2, _⟩ := history_partial [.add ⟨c!"1", c!"a-b", [c!"a", c!"b"]⟩, .add ⟨c!"2", c!"c", [c!"c"]⟩, .del c!"1"] {} []
    rep_empty ⟨by simp, by simp⟩ ⟨⟨by simp, by decide⟩, ⟨by decide, by decide⟩, trivial⟩
  exact ⟨x', h1, h2⟩

/-- **C28 is false of the code**: a run that is submitted a second time (same job name, same run name, new id) and whose first
job is then deleted can no longer be found by job name or run name, although the second job is still in the index; deleting the second
job raises a `KeyError`. -/
theorem resubmit_fails (x : Index) (i1 i2 name run : Str) (hi : i1 ≠ i2) :
    ∃ x', delId (addJob (addJob x ⟨i1, name, [run]⟩) ⟨i2, name, [run]⟩) i1 = .ok x' ∧
      x'.jobs.get? i2 = some ⟨i2, name, [run]⟩ ∧ x'.jobNames.get? name = none ∧ x'.rootNames.get? run = none ∧
      delId x' i2 = .error .keyError := by
  have hj : (addJob (addJob x ⟨i1, name, [run]⟩) ⟨i2, name, [run]⟩).jobs.get? i1 = some ⟨i1, name, [run]⟩ := by
    show ((x.jobs.set i1 _).set i2 _).get? i1 = _
    rw [Dict.get?_set, if_neg hi, Dict.get?_set_self]
  have hn : ((x.jobNames.set name i1).set name i2).get? name = some i2 := Dict.get?_set_self _ _ _
  have hr : ((x.rootNames.set run i1).set run i2).get? run = some i2 := Dict.get?_set_self _ _ _
  refine ⟨{ jobs := ((x.jobs.set i1 ⟨i1, name, [run]⟩).set i2 ⟨i2, name, [run]⟩).erase i1
            jobNames := ((x.jobNames.set name i1).set name i2).erase name
            rootNames := ((x.rootNames.set run i1).set run i2).erase run
            seq := ((x.seq ++ [i1]) ++ [i2]).filter (fun s => s ≠ i1) }, ?_, ?_, ?_, ?_, ?_⟩
  · unfold delId
    rw [hj]
    show (do let rootNames ← [run].foldlM del ((x.rootNames.set run i1).set run i2)
             let jobs ← del ((x.jobs.set i1 ⟨i1, name, [run]⟩).set i2 ⟨i2, name, [run]⟩) i1
             let jobNames ← del ((x.jobNames.set name i1).set name i2) name
             pure (Index.mk jobs jobNames rootNames _)) = _
    rw [List.foldlM_cons, del_ok hr, show del ((x.jobs.set i1 ⟨i1, name, [run]⟩).set i2 ⟨i2, name, [run]⟩) i1 = _ from del_ok hj, del_ok hn]
    rfl
  · show (Dict.erase _ i1).get? i2 = _
    rw [Dict.get?_erase, if_neg (Ne.symm hi), Dict.get?_set_self]
  · show (Dict.erase _ name).get? name = _
    rw [Dict.get?_erase, if_pos rfl]
  · show (Dict.erase _ run).get? run = _
    rw [Dict.get?_erase, if_pos rfl]
  · have h2 : (((x.jobs.set i1 ⟨i1, name, [run]⟩).set i2 ⟨i2, name, [run]⟩).erase i1).get? i2 = some ⟨i2, name, [run]⟩ := by
      rw [Dict.get?_erase, if_neg (Ne.symm hi), Dict.get?_set_self]
    unfold delId
    dsimp only
    rw [h2]
    dsimp only
    have : del (((x.rootNames.set run i1).set run i2).erase run) run = .error .keyError := by
      unfold del Dict.has
      rw [Dict.get?_erase, if_pos rfl]; rfl
    rw [List.foldlM_cons, this]
    rfl

/-- a job with two runs of the same name (from different directories) can never be deleted -/
theorem same_run_twice_fails : delId (addJob {} ⟨c!"1", c!"a-a", [c!"a", c!"a"]⟩) c!"1" = .error .keyError := by decide +kernel

/-! ## Saving the index -/

/-- a completed save is what the next load reads -/
theorem load_save (x : Index) (d : Disk) : load (save x d) = .ok x := rfl

/-- adding jobs one after another: the file holds all of them -/
theorem addJobIndex_all : ∀ (js : List Job) (d : Disk) (x : Index), load d = .ok x →
    ∃ d', js.foldlM addJobIndex d = .ok d' ∧ load d' = .ok (js.foldl addJob x)
  | [], d, x, h => ⟨d, rfl, h⟩
  | j :: js, d, x, h => by
    obtain ⟨d', h1, h2⟩ := addJobIndex_all js (save (addJob x j) d) (addJob x j) (load_save _ _)
    refine ⟨d', ?_, h2⟩
    rw [List.foldlM_cons]
    unfold addJobIndex at h1 ⊢
    rw [h]
    exact h1

example : ∃ d', [⟨c!"1", c!"a", [c!"a"]⟩, ⟨c!"2", c!"b", [c!"b"]⟩].foldlM addJobIndex {} = .ok d' ∧
    (load d').map (fun x => x.seq) = .ok [c!"1", c!"2"] := ⟨_, rfl, rfl⟩

/-- **C29** except for one moment: a crash at any other point of the save leaves the old or the new index, and so does any crash of
the first save -/
theorem crash_partial (x old : Index) (d : Disk) (k : Nat) (h : load d = .ok old) (hk : k ≠ 3 ∨ d.file = none) :
    load (crashSave x d k) = .ok old ∨ load (crashSave x d k) = .ok x := by
  match k, hk with
  | 0, _ => left; exact h
  | 1, _ => left; exact h
  | 2, _ => left; exact h
  | 3, .inl hk => exact absurd rfl hk
  | 3, .inr hf =>
    left
    have : load d = .ok {} := by unfold load; rw [hf]
    rw [this] at h
    rw [← h]; rfl
  | k + 4, _ =>
    right
    unfold crashSave
    rw [List.take_of_length_le (by show 4 ≤ k + 4; omega)]
    exact load_save x d

/-- **C29 is false of the code**: a crash between removing the old file and renaming the new one leaves no index; the next load
returns an empty index without any error, and the next job added is then the only one in the file -/
theorem crash_fails (x : Index) (d : Disk) (j : Job) :
    load (crashSave x d 3) = .ok {} ∧ (addJobIndex (crashSave x d 3) j).bind load = .ok (addJob {} j) := ⟨rfl, rfl⟩

example : load (crashSave (addJob (addJob {} ⟨c!"1", c!"a", [c!"a"]⟩) ⟨c!"2", c!"b", [c!"b"]⟩) (save (addJob {} ⟨c!"1", c!"a", [c!"a"]⟩) {}) 3)
    = .ok {} := rfl

/-- whatever a crash left behind does not disturb the next save -/
theorem save_after_crash (x y : Index) (d : Disk) (k : Nat) : load (save y (crashSave x d k)) = .ok y := rfl

/-- two submissions at the same time: if both load before either saves, the job saved first is lost -/
theorem concurrent_add_fails (d : Disk) (x : Index) (j1 j2 : Job) (h : load d = .ok x) (hne : j1.id ≠ j2.id)
    (hnew : x.jobs.get? j1.id = none) :
    ∃ x', load (save (addJob x j2) (save (addJob x j1) d)) = .ok x' ∧ x'.jobs.get? j1.id = none ∧ load d = .ok x := by
  refine ⟨addJob x j2, rfl, ?_, h⟩
  show (x.jobs.set j2.id j2).get? j1.id = none
  rw [Dict.get?_set, if_neg hne, hnew]

/-! ## Cancelling jobs -/

/-- the job is one of those asked for -/
def Selected (s : Select) (num : Str → Nat) (j : Job) : Prop :=
  PyId.str j.id ∈ s.ids ∨ (∃ n ∈ j.names, n ∈ s.roots) ∨ j.name ∈ s.names ∨
    (∃ a b, s.minmax = some (a, b) ∧ a ≤ num j.id ∧ (num j.id : Int) ≤ b) ∨ (∃ a, s.min = some a ∧ a ≤ (num j.id : Int))

theorem mem_addNew {l : List PyId} {a b : PyId} : a ∈ addNew l b ↔ a ∈ l ∨ a = b := by
  unfold addNew
  split
  · rename_i h
    constructor
    · exact Or.inl
    · rintro (h' | rfl)
      · exact h'
      · exact h
  · simp

theorem mem_foldl_addNew {α : Type} (f : α → PyId) (a : PyId) : ∀ (l : List α) (acc : List PyId),
    a ∈ l.foldl (fun acc n => addNew acc (f n)) acc ↔ a ∈ acc ∨ ∃ n ∈ l, f n = a
  | [], acc => by simp
  | n :: l, acc => by
    rw [List.foldl_cons, mem_foldl_addNew f a l, mem_addNew]
    simp only [List.mem_cons, exists_eq_or_imp, or_assoc]
    rw [@eq_comm _ (f n) a]

theorem ofGet_str {o : Option Str} {i : Str} : ofGet o = .str i ↔ o = some i := by
  cases o <;> simp [ofGet]

theorem inRange_iff (mm : Option (Int × Int)) (m : Option Int) (n : Nat) : inRange mm m n = true ↔
    (∃ a b, mm = some (a, b) ∧ a ≤ n ∧ (n : Int) ≤ b) ∨ (∃ a, m = some a ∧ a ≤ (n : Int)) := by
  unfold inRange
  rw [Bool.or_eq_true]
  apply or_congr
  · cases mm with
    | none => simp
    | some p =>
      obtain ⟨a, b⟩ := p
      simp only [Option.some.injEq, Prod.mk.injEq, Bool.and_eq_true, decide_eq_true_eq]
      constructor
      · intro h; exact ⟨a, b, ⟨rfl, rfl⟩, h⟩
      · rintro ⟨_, _, ⟨rfl, rfl⟩, h⟩; exact h
  · cases m <;> simp

theorem foldlM_range (mm : Option (Int × Int)) (m : Option Int) (num : Str → Nat) : ∀ (keys : List Str) (acc : List PyId),
    (∀ i ∈ keys, idNumber i = .ok (num i)) →
    ∃ r, keys.foldlM (fun l id => (do
        let n ← idNumber id
        pure (if inRange mm m n then addNew l (.str id) else l) : Except QErr (List PyId))) acc = .ok r ∧
      ∀ a, a ∈ r ↔ a ∈ acc ∨ ∃ i ∈ keys, inRange mm m (num i) = true ∧ PyId.str i = a
  | [], acc, _ => ⟨acc, rfl, by simp⟩
  | k :: keys, acc, h => by
    obtain ⟨r, h1, h2⟩ := foldlM_range mm m num keys (if inRange mm m (num k) then addNew acc (.str k) else acc)
      (fun i hi => h i (List.mem_cons_of_mem _ hi))
    refine ⟨r, ?_, ?_⟩
    · rw [List.foldlM_cons, h k List.mem_cons_self]
      exact h1
    · intro a
      rw [h2]
      simp only [List.mem_cons, exists_eq_or_imp, ← or_assoc]
      apply or_congr_left
      by_cases hr : inRange mm m (num k) = true
      · rw [if_pos hr, mem_addNew]; simp [hr, eq_comm]
      · rw [if_neg hr]; simp [hr]

theorem mem_keys_iff {x : Index} {live : List Job} (h : Rep x live) (i : Str) : i ∈ x.jobs.keys ↔ ∃ j ∈ live, j.id = i := by
  constructor
  · intro hk
    cases hg : x.jobs.get? i with
    | none => exact absurd hk (Dict.get?_eq_none.mp hg)
    | some j => exact ⟨j, (h.byId i j).mp hg⟩
  · rintro ⟨j, hj⟩
    apply Classical.byContradiction
    intro hk
    have := Dict.get?_eq_none.mpr hk
    rw [(h.byId i j).mpr hj] at this
    cases this

theorem selectIds_spec {x : Index} {live : List Job} (h : Rep x live) (hd : Distinct live) (s : Select) (num : Str → Nat)
    (hnum : (s.minmax.isSome ∨ s.min.isSome) → ∀ j ∈ live, idNumber j.id = .ok (num j.id)) :
    ∃ ids, selectIds x s = .ok ids ∧ ∀ j ∈ live, PyId.str j.id ∈ ids ↔ Selected s num j := by
  have base : ∀ j ∈ live, PyId.str j.id ∈ s.names.foldl (fun l n => addNew l (ofGet (x.jobNames.get? n)))
      (s.roots.foldl (fun l n => addNew l (ofGet (x.rootNames.get? n))) s.ids) ↔
      (PyId.str j.id ∈ s.ids ∨ (∃ n ∈ j.names, n ∈ s.roots)) ∨ j.name ∈ s.names := by
    intro j hj
    rw [mem_foldl_addNew (fun n => ofGet (x.jobNames.get? n)), mem_foldl_addNew (fun n => ofGet (x.rootNames.get? n))]
    apply or_congr
    · apply or_congr_right
      constructor
      · rintro ⟨n, hn, e⟩
        obtain ⟨a, a1, a2, a3⟩ := (h.byRun n j.id).mp (ofGet_str.mp e)
        have := distinct_eq hd a1 hj (Or.inl a3)
        subst this
        exact ⟨n, a2, hn⟩
      · rintro ⟨n, hn, hr⟩
        exact ⟨n, hr, ofGet_str.mpr ((h.byRun n j.id).mpr ⟨j, hj, hn, rfl⟩)⟩
    · constructor
      · rintro ⟨n, hn, e⟩
        obtain ⟨a, a1, a2, a3⟩ := (h.byName n j.id).mp (ofGet_str.mp e)
        have := distinct_eq hd a1 hj (Or.inl a3)
        subst this
        rw [a2]; exact hn
      · intro hn
        exact ⟨j.name, hn, ofGet_str.mpr ((h.byName j.name j.id).mpr ⟨j, hj, rfl, rfl⟩)⟩
  unfold selectIds
  dsimp only
  by_cases hr : s.minmax.isSome ∨ s.min.isSome
  · rw [if_pos hr]
    obtain ⟨r, h1, h2⟩ := foldlM_range s.minmax s.min num x.jobs.keys _ (by
      intro i hi
      obtain ⟨j, hj, rfl⟩ := (mem_keys_iff h i).mp hi
      exact hnum hr j hj)
    refine ⟨r, h1, ?_⟩
    intro j hj
    rw [h2, base j hj]
    unfold Selected
    rw [or_assoc, or_assoc]
    apply or_congr_right
    apply or_congr_right
    apply or_congr_right
    rw [← inRange_iff]
    constructor
    · rintro ⟨i, _, hi, e⟩; cases e; exact hi
    · intro hi; exact ⟨j.id, (mem_keys_iff h j.id).mpr ⟨j, hj, rfl⟩, hi, rfl⟩
  · rw [if_neg hr]
    refine ⟨_, rfl, ?_⟩
    intro j hj
    rw [base j hj]
    have e1 : s.minmax = none := by cases hm : s.minmax <;> simp [hm] at hr ⊢
    have e2 : s.min = none := by cases hm : s.min <;> simp [hm] at hr ⊢
    unfold Selected
    rw [e1, e2, or_assoc]
    simp

theorem deleteLoop (valid : List Str) : ∀ (ids : List PyId) (x : Index) (live : List Job) (done : List Str), Rep x live →
    Distinct live → ∃ c x', ids.foldlM (deleteStep valid) (done, x) = .ok (done ++ c, x') ∧
      Rep x' (live.filter (fun j => PyId.str j.id ∉ ids)) ∧ c.Nodup ∧
      ∀ i, i ∈ c ↔ i ∈ valid ∧ ∃ j ∈ live, j.id = i ∧ PyId.str i ∈ ids
  | [], x, live, done, h, _ => ⟨[], x, by simp; rfl, by
      have : live.filter (fun j => decide (PyId.str j.id ∉ ([] : List PyId))) = live := by
        rw [List.filter_eq_self]; intro a _; simp
      rw [this]; exact h, by simp, by simp⟩
  | p :: ids, x, live, done, h, hd => by
    have skip : deleteStep valid (done, x) p = .ok (done, x) → (∀ j ∈ live, PyId.str j.id ≠ p) →
        ∃ c x', (p :: ids).foldlM (deleteStep valid) (done, x) = .ok (done ++ c, x') ∧
          Rep x' (live.filter (fun j => PyId.str j.id ∉ p :: ids)) ∧ c.Nodup ∧
          ∀ i, i ∈ c ↔ i ∈ valid ∧ ∃ j ∈ live, j.id = i ∧ PyId.str i ∈ p :: ids := by
      intro hs hp
      obtain ⟨c, x', h1, h2, h3, h4⟩ := deleteLoop valid ids x live done h hd
      refine ⟨c, x', ?_, ?_, h3, ?_⟩
      · rw [List.foldlM_cons, hs]; exact h1
      · have : live.filter (fun j => decide (PyId.str j.id ∉ p :: ids)) = live.filter (fun j => decide (PyId.str j.id ∉ ids)) := by
          apply List.filter_congr
          intro j hj
          simp only [List.mem_cons, not_or, hp j hj, not_false_eq_true, true_and]
        rw [this]; exact h2
      · intro i
        rw [h4]
        apply and_congr_right
        intro _
        constructor
        · rintro ⟨j, a, b, d⟩; exact ⟨j, a, b, List.mem_cons_of_mem _ d⟩
        · rintro ⟨j, a, b, d⟩
          rcases List.mem_cons.mp d with d | d
          · exact absurd (b ▸ d) (hp j a)
          · exact ⟨j, a, b, d⟩
    cases p with
    | int n => exact skip rfl (by intro j _ e; cases e)
    | none => exact skip rfl (by intro j _ e; cases e)
    | str i0 =>
      cases hj : x.jobs.get? i0 with
      | none =>
        apply skip
        · unfold deleteStep; dsimp only; rw [hj]
        · intro j hjl e
          injection e with e
          rw [(h.byId i0 j).mpr ⟨hjl, e⟩] at hj; cases hj
      | some j0 =>
        obtain ⟨hl, he⟩ := (h.byId i0 j0).mp hj
        obtain ⟨x1, h1, h2⟩ := rep_del i0 h hd
        obtain ⟨c, x', h3, h4, h5, h6⟩ := deleteLoop valid ids x1 _ (if i0 ∈ valid then done ++ [i0] else done) h2 (distinct_filter _ hd)
        have hstep : (PyId.str i0 :: ids).foldlM (deleteStep valid) (done, x) =
            ids.foldlM (deleteStep valid) (if i0 ∈ valid then done ++ [i0] else done, x1) := by
          rw [List.foldlM_cons]
          have : deleteStep valid (done, x) (.str i0) = .ok (if i0 ∈ valid then done ++ [i0] else done, x1) := by
            unfold deleteStep
            dsimp only
            rw [hj]
            dsimp only
            rw [h1]
            rfl
          rw [this]; rfl
        have hfil : (live.filter (fun j => j.id ≠ i0)).filter (fun j => PyId.str j.id ∉ ids) =
            live.filter (fun j => PyId.str j.id ∉ PyId.str i0 :: ids) := by
          rw [List.filter_filter]
          apply List.filter_congr
          intro j _
          simp only [List.mem_cons, not_or, PyId.str.injEq]
          by_cases a : j.id = i0 <;> by_cases b : PyId.str j.id ∈ ids <;> simp [a, b]
        have hc : ∀ i, i ∈ c → i ≠ i0 := by
          intro i hi e
          obtain ⟨_, j, a, b, _⟩ := (h6 i).mp hi
          rw [List.mem_filter] at a
          simp only [ne_eq, decide_eq_true_eq] at a
          exact a.2 (b.trans e)
        rw [hfil] at h4
        by_cases hv : i0 ∈ valid
        · rw [if_pos hv] at hstep h3
          refine ⟨i0 :: c, x', ?_, h4, ?_, ?_⟩
          · rw [hstep, h3]; simp
          · exact List.nodup_cons.mpr ⟨fun hm => hc i0 hm rfl, h5⟩
          · intro i
            rw [List.mem_cons]
            constructor
            · rintro (rfl | hi)
              · exact ⟨hv, j0, hl, he, List.mem_cons_self⟩
              · obtain ⟨a, j, b, d, e⟩ := (h6 i).mp hi
                exact ⟨a, j, (List.mem_filter.mp b).1, d, List.mem_cons_of_mem _ e⟩
            · rintro ⟨a, j, b, d, e⟩
              by_cases hi : i = i0
              · exact Or.inl hi
              · right
                rcases List.mem_cons.mp e with e | e
                · injection e with e; exact absurd e hi
                · exact (h6 i).mpr ⟨a, j, List.mem_filter.mpr ⟨b, by simp [d, hi]⟩, d, e⟩
        · rw [if_neg hv] at hstep h3
          refine ⟨c, x', by rw [hstep, h3], h4, h5, ?_⟩
          intro i
          constructor
          · intro hi
            obtain ⟨a, j, b, d, e⟩ := (h6 i).mp hi
            exact ⟨a, j, (List.mem_filter.mp b).1, d, List.mem_cons_of_mem _ e⟩
          · rintro ⟨a, j, b, d, e⟩
            have hi : i ≠ i0 := by rintro rfl; exact hv a
            rcases List.mem_cons.mp e with e | e
            · injection e with e; exact absurd e hi
            · exact (h6 i).mpr ⟨a, j, List.mem_filter.mpr ⟨b, by simp [d, hi]⟩, d, e⟩

open Classical in
/-- **C63**: on an index as described in C28 `deleteJobs` removes exactly the selected jobs and cancels exactly those of them that
are in the queue, each once. -/
theorem deleteJobs_spec {x : Index} {live : List Job} (h : Rep x live) (hd : Distinct live) (s : Select) (valid : List Str)
    (num : Str → Nat) (hnum : (s.minmax.isSome ∨ s.min.isSome) → ∀ j ∈ live, idNumber j.id = .ok (num j.id)) :
    ∃ c x', deleteJobs x s valid true = .ok (c, x') ∧ Rep x' (live.filter (fun j => ¬ Selected s num j)) ∧ c.Nodup ∧
      ∀ i, i ∈ c ↔ i ∈ valid ∧ ∃ j ∈ live, j.id = i ∧ Selected s num j := by
  obtain ⟨ids, h1, h2⟩ := selectIds_spec h hd s num hnum
  obtain ⟨c, x', h3, h4, h5, h6⟩ := deleteLoop valid ids x live [] h hd
  refine ⟨c, x', ?_, ?_, h5, ?_⟩
  · unfold deleteJobs
    rw [h1]
    exact h3
  · have : live.filter (fun j => decide (¬ Selected s num j)) = live.filter (fun j => decide (PyId.str j.id ∉ ids)) := by
      apply List.filter_congr
      intro j hj
      rw [decide_eq_decide, h2 j hj]
    rw [this]; exact h4
  · intro i
    rw [h6]
    apply and_congr_right
    intro _
    constructor
    · rintro ⟨j, a, rfl, b⟩; exact ⟨j, a, rfl, (h2 j a).mp b⟩
    · rintro ⟨j, a, rfl, b⟩; exact ⟨j, a, rfl, (h2 j a).mpr b⟩

/-- without `--confirm` nothing is cancelled or removed -/
theorem deleteJobs_dry (x : Index) (s : Select) (valid : List Str) (r : List Str × Index)
    (h : deleteJobs x s valid false = .ok r) : r = ([], x) := by
  unfold deleteJobs at h
  cases hs : selectIds x s with
  | error e => rw [hs] at h; cases h
  | ok ids => rw [hs] at h; cases h; rfl

example : (deleteJobs (addJob (addJob {} ⟨c!"12.head", c!"a", [c!"a"]⟩) ⟨c!"13.head", c!"b", [c!"b"]⟩)
    { minmax := some (10, 12) } [c!"12.head", c!"13.head"] true).map (fun r => (r.1, r.2.seq)) = .ok ([c!"12.head"], [c!"13.head"]) := by
  decide +kernel

/-- **C63 is false of the script**: `--delete_ids` never deletes or cancels anything, because the numbers are compared with the
texts in the index -/
theorem delete_ids_fails (x : Index) (l : List Int) (items : List Str) (valid : List Str) :
    scriptCalls { ids := some l } items = [{ ids := l.map PyId.int }] ∧
    deleteJobs x { ids := l.map PyId.int } valid true = .ok ([], x) := by
  refine ⟨rfl, ?_⟩
  have : ∀ l : List Int, (l.map PyId.int).foldlM (deleteStep valid) (([] : List Str), x) = .ok ([], x) := by
    intro l
    induction l with
    | nil => rfl
    | cons n l ih => rw [List.map_cons, List.foldlM_cons]; exact ih
  exact this l

/-- **C63 is false of the script**: `--delete_id_range` on its own also deletes every job of the (filtered) batch -/
theorem delete_range_fails (a b : Int) (items : List Str) :
    scriptCalls { idRange := some (a, b) } items =
      [{ minmax := some (a, b) }, { roots := items ++ items.map (· ++ c!"_minimize") }] := rfl

/-- an example: the range holds no job at all, still the running job 20 of the batch is cancelled -/
example : ((scriptCalls { idRange := some (1, 5) } [c!"base"]).foldlM
    (fun (st : List Str × Index) s => (deleteJobs st.2 s [c!"20"] true).map (fun r => (st.1 ++ r.1, r.2)))
    ([], addJob {} ⟨c!"20", c!"base", [c!"base"]⟩)).map (fun r => (r.1, r.2.seq)) = .ok ([c!"20"], []) := by decide +kernel

/-- `--delete_id_min` alone and no option at all make the one call asked for -/
theorem script_calls (m : Int) (items : List Str) : scriptCalls { idMin := some m } items = [{ min := some m }] ∧
    scriptCalls {} items = [{ roots := items ++ items.map (· ++ c!"_minimize") }] := ⟨rfl, rfl⟩

/-! ## The queue listing -/

theorem splitChar_none {ch : Char} : ∀ {s : Str}, ch ∉ s → splitChar ch s = [s]
  | [], _ => rfl
  | c :: cs, h => by
    rw [splitChar, splitChar_none (fun hc => h (List.mem_cons_of_mem _ hc))]
    have : (c == ch) = false := by
      rw [beq_eq_false_iff_ne]; rintro rfl; exact h List.mem_cons_self
    rw [this]; rfl

theorem splitChar_append {ch : Char} : ∀ {a b : Str}, ch ∉ a → splitChar ch (a ++ ch :: b) = a :: splitChar ch b
  | [], b, _ => by simp [splitChar]
  | c :: a, b, h => by
    have : (c == ch) = false := by
      rw [beq_eq_false_iff_ne]; rintro rfl; exact h List.mem_cons_self
    rw [List.cons_append, splitChar, splitChar_append (fun hc => h (List.mem_cons_of_mem _ hc)), this]; rfl

/-- **C64**: a job is recognised in the listing by its full id -/
theorem lineId_full (x : Index) (id : Str) (h : id ∈ x.jobs.keys) : lineId x id = some id := by
  unfold lineId
  rw [if_pos (Dict.has_iff.mpr h)]

/-- **C64**: a job filed under its number is recognised when the listing adds the server name -/
theorem lineId_server (x : Index) (id server : Str) (n : Nat) (hn : intStr id = some n) (h : id ∈ x.jobs.keys)
    (hf : id ++ '.' :: server ∉ x.jobs.keys) : lineId x (id ++ '.' :: server) = some id := by
  have hd : id ≠ [] ∧ id.all Char.isDigit = true := by
    unfold intStr at hn
    split at hn
    · assumption
    · cases hn
  have hdot : '.' ∉ id := by
    intro hm
    have := List.all_eq_true.mp hd.2 '.' hm
    simp at this
  have hp : idPart (id ++ '.' :: server) = id := by
    unfold idPart
    rw [splitChar_append hdot]
    exact if_pos (Or.inr (by rw [List.headD_cons, hn]; rfl))
  unfold lineId
  rw [if_neg (show ¬ x.jobs.has (id ++ '.' :: server) = true by rw [Dict.has_iff]; exact hf), hp, splitChar_append hdot, List.headD_cons,
    if_neg, if_pos (Dict.has_iff.mpr h)]
  intro e
  cases id with
  | nil => exact hd.1 rfl
  | cons c cs =>
    have hc := List.all_eq_true.mp hd.2 c List.mem_cons_self
    rw [List.map_cons] at e
    injection e with e1 _
    have : c.toUpper = c := by
      unfold Char.toUpper
      simp only [Char.isDigit, Bool.and_eq_true, decide_eq_true_eq] at hc
      rw [dif_neg]
      rintro ⟨h1, _⟩
      have := hc.2
      have h2 : (97 : UInt32) ≤ c.val := h1
      have h3 : c.val ≤ 57 := this
      exact absurd (UInt32.le_trans h2 h3) (by decide)
    rw [this] at e1
    rw [e1] at hc
    exact absurd hc (by decide)

/-- ids found belong to the index -/
theorem lineId_mem (x : Index) (first id : Str) (h : lineId x first = some id) : id ∈ x.jobs.keys := by
  unfold lineId at h
  split at h
  · rename_i hk; cases h; exact Dict.has_iff.mp hk
  · split at h
    · cases h
    · split at h
      · rename_i hk; cases h; exact Dict.has_iff.mp hk
      · cases h

theorem queueLoop (x : Index) : ∀ (ls : List Str) (acc : List Str), (∀ l ∈ ls, splitWs l ≠ []) →
    ls.foldlM (collect x) acc = .ok (acc ++ ls.filterMap (fun l => lineId x ((splitWs l).headD [])))
  | [], acc, _ => by simp; rfl
  | l :: ls, acc, h => by
    rw [List.foldlM_cons]
    cases hs : splitWs l with
    | nil => exact absurd hs (h l List.mem_cons_self)
    | cons f r =>
      have hc : collect x acc l = .ok (acc ++ (lineId x f).toList) := by unfold collect; rw [hs]
      rw [hc]
      have ih := queueLoop x ls (acc ++ (lineId x f).toList) (fun l hl => h l (List.mem_cons_of_mem _ hl))
      refine Eq.trans ih ?_
      rw [List.filterMap_cons, hs, List.headD_cons]
      cases lineId x f <;> simp

/-- **C64**: the ids are those of the lines after the two header lines that mention the user and have the wanted status, in the order
of the listing, as far as they belong to the index -/
theorem queueIds_spec (x : Index) (user txt : Str) (running queued : Bool) (h1 h2 : Str) (ls : List Str)
    (hn : '\n' ∉ h1 ∧ '\n' ∉ h2 ∧ ∀ l ∈ ls, '\n' ∉ l) (res : Str) (hres : strip res = join ['\n'] (h1 :: h2 :: ls))
    (hw : ∀ l ∈ ls, wantLine user txt running queued l = true → splitWs l ≠ []) :
    queueIds x user txt running queued res =
      .ok ((ls.filter (wantLine user txt running queued)).filterMap (fun l => lineId x ((splitWs l).headD []))) := by
  have split_join : ∀ (l : Str) (ls : List Str), '\n' ∉ l → (∀ l ∈ ls, '\n' ∉ l) → splitChar '\n' (join ['\n'] (l :: ls)) = l :: ls := by
    intro l ls
    induction ls generalizing l with
    | nil => intro h _; exact splitChar_none h
    | cons a ls ih =>
      intro h hl
      rw [join_cons2, List.append_assoc]
      rw [show ['\n'] ++ join ['\n'] (a :: ls) = '\n' :: join ['\n'] (a :: ls) from rfl, splitChar_append h,
        ih a (hl a List.mem_cons_self) (fun l hl' => hl l (List.mem_cons_of_mem _ hl'))]
  unfold queueIds
  rw [hres, split_join h1 (h2 :: ls) hn.1 (by
    intro l hl
    rcases List.mem_cons.mp hl with rfl | hl
    · exact hn.2.1
    · exact hn.2.2 l hl)]
  have := queueLoop x (ls.filter (wantLine user txt running queued)) [] (by
    intro l hl
    rw [List.mem_filter] at hl
    exact hw l hl.1 hl.2)
  rw [List.nil_append] at this
  exact this

/-- does the text occur in the line, up to upper and lower case -/
def Mentions (txt line : Str) : Prop := ∃ a b, line.map Char.toLower = a ++ txt.map Char.toLower ++ b

/-- **C64**: the lines looked at are those with the user name between blanks whose status is wanted: running jobs mention the running
text, queued jobs do not -/
theorem wantLine_iff (user txt line : Str) (running queued : Bool) : wantLine user txt running queued line = true ↔
    (∃ a b, line = a ++ (' ' :: user ++ [' ']) ++ b) ∧
      (queued = true ∧ ¬ Mentions txt line ∨ running = true ∧ Mentions txt line) := by
  have hm : searchNoCase txt line = true ↔ Mentions txt line := contains_iff
  unfold wantLine
  rw [Bool.and_eq_true, contains_iff, Bool.or_eq_true, Bool.and_eq_true, Bool.and_eq_true, hm]
  rw [show (!searchNoCase txt line) = true ↔ ¬ Mentions txt line by rw [← hm]; simp]

example : wantLine c!"bob" c!" R " true false c!"12 bob R 3" = true ∧ wantLine c!"bob" c!" R " false true c!"12 bob R 3" = false ∧ wantLine c!"bo" c!" R " true false c!"12 bob R 3" = false := by decide

example : queueIds (addJob (addJob {} ⟨c!"12", c!"a", [c!"a"]⟩) ⟨c!"13", c!"b", [c!"b"]⟩) c!"me" c!" r " true false
    c!"id user s\n--\n12.head me R x\n13.head me Q x\n14 me r x\n" = .ok [c!"12"] := by decide +kernel

/-- jobs of other users are left out, also when their name is part of the user's -/
example : queueIds (addJob (addJob {} ⟨c!"12", c!"a", [c!"a"]⟩) ⟨c!"13", c!"b", [c!"b"]⟩) c!"me" c!" r " true true
    c!"id user s\n--\n12.head mel R x\n13.head me Q x\n" = .ok [c!"13"] := by decide +kernel

theorem nl_escByte (q c : Char) (hq : q ≠ '\n') : '\n' ∉ escByte q c := by
  unfold escByte
  split
  · rename_i h
    rcases h with rfl | rfl
    · simp
    · simp [Ne.symm hq]
  · split
    · simp
    · split
      · simp
      · split
        · simp
        · rename_i h _ _; simp [Ne.symm h]

theorem nl_bytesStr (b : Str) : '\n' ∉ bytesStr b := by
  unfold bytesStr
  have hq : (if '\'' ∈ b ∧ '"' ∉ b then '"' else '\'') ≠ '\n' := by split <;> decide
  simp only [List.mem_cons, List.mem_append, List.mem_flatMap, List.not_mem_nil, or_false, not_or]
  refine ⟨by decide, Ne.symm hq, ?_, Ne.symm hq⟩
  rintro ⟨c, _, hc⟩
  exact nl_escByte _ c hq hc

theorem mem_strip {c : Char} {s : Str} (h : c ∈ strip s) : c ∈ s := by
  unfold strip rstrip lstrip at h
  rw [List.mem_reverse] at h
  have := (List.dropWhile_suffix (p := isWs) (l := (s.dropWhile isWs).reverse)).subset h
  rw [List.mem_reverse] at this
  exact (List.dropWhile_suffix (p := isWs) (l := s)).subset this

/-- **C64 is false of the code under python 3**: `str` of the bytes printed by the queue program has no line breaks, so the listing is
always found empty -/
theorem py3_listing_fails (x : Index) (user txt : Str) (running queued : Bool) (out : Str) :
    queueIds x user txt running queued (bytesStr out) = .ok [] ∧ queueNames x user txt running queued (bytesStr out) = .ok [] := by
  have : queueIds x user txt running queued (bytesStr out) = .ok [] := by
    unfold queueIds
    rw [splitChar_none (fun h => nl_bytesStr out (mem_strip h))]
    rfl
  refine ⟨this, ?_⟩
  unfold queueNames
  rw [this]
  rfl

/-- the same listing as above, as python 3 sees it -/
example : queueIds (addJob {} ⟨c!"12", c!"a", [c!"a"]⟩) c!"me" c!" r " true false
    (bytesStr c!"id user s\n--\n12.head me R x\n") = .ok [] := by decide +kernel

/-- under python 3 `deleteJobs` therefore removes the selected jobs from the index but cancels none of them -/
theorem py3_delete_fails (x : Index) (s : Select) (user txt : Str) (running queued : Bool) (out : Str) (valid c : List Str) (x' : Index)
    (hv : queueIds x user txt running queued (bytesStr out) = .ok valid) (h : deleteJobs x s valid true = .ok (c, x')) : c = [] := by
  rw [(py3_listing_fails x user txt running queued out).1] at hv
  cases hv
  have : ∀ (ids : List PyId) (x : Index) (r : List Str × Index), ids.foldlM (deleteStep []) ([], x) = .ok r → r.1 = [] := by
    intro ids
    induction ids with
    | nil => intro x r h; cases h; rfl
    | cons i ids ih =>
      intro x r h
      rw [List.foldlM_cons] at h
      cases hs : deleteStep [] ([], x) i with
      | error e => rw [hs] at h; cases h
      | ok st =>
        rw [hs] at h
        have h0 : st.1 = [] := by
          unfold deleteStep at hs
          split at hs
          · split at hs
            · cases hs; rfl
            · dsimp only at hs
              rename_i id _ _ _
              cases hd : delId x id with
              | error e => rw [hd] at hs; cases hs
              | ok y => rw [hd] at hs; cases hs; simp
          · cases hs; rfl
        have : st = ([], st.2) := by rw [← h0]
        rw [this] at h
        exact ih _ _ h
  unfold deleteJobs at h
  cases hsel : selectIds x s with
  | error e => rw [hsel] at h; cases h
  | ok ids =>
    rw [hsel] at h
    exact this ids x (c, x') h

/-- and the id of a job submitted under python 3 is not a number: a range of ids raises a `ValueError` -/
theorem py3_range_fails : selectIds (addJob {} ⟨strip (bytesStr c!"123\n"), c!"a", [c!"a"]⟩) { minmax := some (1, 500) } =
    .error .valueError := by decide +kernel

end Verif.JobQueue
