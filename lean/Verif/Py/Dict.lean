/-!
# Python dictionaries as insertion-ordered association lists
-/

namespace Verif.Py

set_option linter.unusedSectionVars false

abbrev Dict (κ ν : Type) := List (κ × ν)

namespace Dict
variable {κ ν : Type} [DecidableEq κ]

/-- `d.get(k)` / `d[k]` (none = KeyError) -/
def get? (d : Dict κ ν) (k : κ) : Option ν :=
  match d with
  | [] => none
  | (k', v) :: d => if k' = k then some v else get? d k

/-- `k in d` -/
def has (d : Dict κ ν) (k : κ) : Bool := (get? d k).isSome

/-- `d[k] = v`: update in place, or append at the end. -/
def set (d : Dict κ ν) (k : κ) (v : ν) : Dict κ ν :=
  match d with
  | [] => [(k, v)]
  | (k', v') :: d => if k' = k then (k', v) :: d else (k', v') :: set d k v

/-- `d.pop(k, None)` / `del d[k]` (the code's guards decide which) -/
def erase (d : Dict κ ν) (k : κ) : Dict κ ν := d.filter (fun e => e.1 ≠ k)

/-- `list(d.keys())` -/
def keys (d : Dict κ ν) : List κ := d.map (·.1)

/-- `d.update(d2)` -/
def update (d d2 : Dict κ ν) : Dict κ ν := d2.foldl (fun d e => set d e.1 e.2) d

/-- a well formed dictionary has distinct keys -/
def WF (d : Dict κ ν) : Prop := (keys d).Nodup

@[simp] theorem get?_nil (k : κ) : get? ([] : Dict κ ν) k = none := rfl
theorem get?_cons (k' : κ) (v : ν) (d : Dict κ ν) (k : κ) :
    get? ((k', v) :: d) k = if k' = k then some v else get? d k := rfl
@[simp] theorem keys_nil : keys ([] : Dict κ ν) = [] := rfl
@[simp] theorem keys_cons (e : κ × ν) (d : Dict κ ν) : keys (e :: d) = e.1 :: keys d := rfl

theorem get?_eq_none {d : Dict κ ν} {k : κ} : get? d k = none ↔ k ∉ keys d := by
  induction d with
  | nil => simp
  | cons e d ih =>
    obtain ⟨k', v⟩ := e
    simp only [get?_cons, keys_cons, List.mem_cons, not_or]
    split
    · rename_i h; subst h; simp
    · rename_i h; rw [ih]; constructor
      · intro h2; exact ⟨fun e => h e.symm, h2⟩
      · intro h2; exact h2.2

theorem has_iff {d : Dict κ ν} {k : κ} : has d k = true ↔ k ∈ keys d := by
  unfold has
  by_cases h : k ∈ keys d
  · simp only [h, iff_true]
    cases hg : get? d k with
    | none => exact absurd h (get?_eq_none.mp hg)
    | some v => rfl
  · simp [h, get?_eq_none.mpr h]

theorem mem_of_get? {d : Dict κ ν} {k : κ} {v : ν} (h : get? d k = some v) : (k, v) ∈ d := by
  induction d with
  | nil => simp at h
  | cons e d ih =>
    obtain ⟨k', v'⟩ := e
    rw [get?_cons] at h
    split at h
    · rename_i hk; subst hk; cases h; simp
    · exact List.mem_cons_of_mem _ (ih h)

theorem get?_of_mem {d : Dict κ ν} {k : κ} {v : ν} (hw : WF d) (h : (k, v) ∈ d) : get? d k = some v := by
  induction d with
  | nil => simp at h
  | cons e d ih =>
    obtain ⟨k', v'⟩ := e
    rw [get?_cons]
    simp only [WF, keys_cons, List.nodup_cons] at hw
    rcases List.mem_cons.mp h with h | h
    · cases h; simp
    · have : k ∈ keys d := List.mem_map.mpr ⟨(k, v), h, rfl⟩
      rw [if_neg]
      · exact ih hw.2 h
      · intro e; subst e; exact hw.1 this

theorem get?_set_self (d : Dict κ ν) (k : κ) (v : ν) : get? (set d k v) k = some v := by
  induction d with
  | nil => simp [set, get?_cons]
  | cons e d ih =>
    obtain ⟨k', v'⟩ := e
    simp only [set]
    split
    · rename_i h; subst h; simp [get?_cons]
    · rename_i h; simp [get?_cons, h, ih]

theorem get?_set_of_ne (d : Dict κ ν) {k k2 : κ} (v : ν) (h : k2 ≠ k) : get? (set d k v) k2 = get? d k2 := by
  induction d with
  | nil => simp [set, get?_cons, Ne.symm h]
  | cons e d ih =>
    obtain ⟨k', v'⟩ := e
    simp only [set]
    split
    · rename_i h'; subst h'; simp [get?_cons, Ne.symm h]
    · simp [get?_cons, ih]

theorem get?_set (d : Dict κ ν) (k k2 : κ) (v : ν) :
    get? (set d k v) k2 = if k2 = k then some v else get? d k2 := by
  split
  · rename_i h; subst h; exact get?_set_self _ _ _
  · rename_i h; exact get?_set_of_ne _ _ h

theorem keys_set_of_mem {d : Dict κ ν} {k : κ} (v : ν) (h : k ∈ keys d) : keys (set d k v) = keys d := by
  induction d with
  | nil => simp at h
  | cons e d ih =>
    obtain ⟨k', v'⟩ := e
    simp only [set]
    split
    · rfl
    · rename_i hne
      simp only [keys_cons]
      rw [ih]
      rcases List.mem_cons.mp h with h | h
      · exact absurd h.symm hne
      · exact h

theorem set_of_not_mem {d : Dict κ ν} {k : κ} (v : ν) (h : k ∉ keys d) : set d k v = d ++ [(k, v)] := by
  induction d with
  | nil => rfl
  | cons e d ih =>
    obtain ⟨k', v'⟩ := e
    simp only [keys_cons, List.mem_cons, not_or] at h
    simp only [set, if_neg (fun e : k' = k => h.1 e.symm), ih h.2, List.cons_append]

@[simp] theorem keys_append (d d2 : Dict κ ν) : keys (d ++ d2) = keys d ++ keys d2 := by
  simp [keys]

theorem mem_keys_set {d : Dict κ ν} {k k2 : κ} {v : ν} : k2 ∈ keys (set d k v) ↔ k2 = k ∨ k2 ∈ keys d := by
  by_cases h : k ∈ keys d
  · rw [keys_set_of_mem v h]
    constructor
    · exact Or.inr
    · rintro (h2 | h2)
      · subst h2; exact h
      · exact h2
  · rw [set_of_not_mem v h]; simp [or_comm]

theorem WF_nil : WF ([] : Dict κ ν) := by simp [WF]

theorem WF_set {d : Dict κ ν} (k : κ) (v : ν) (h : WF d) : WF (set d k v) := by
  unfold WF at *
  by_cases hk : k ∈ keys d
  · rw [keys_set_of_mem v hk]; exact h
  · rw [set_of_not_mem v hk, keys_append]
    refine List.nodup_append.mpr ⟨h, by simp, ?_⟩
    intro a ha b hb
    simp at hb; subst hb; intro e; subst e; exact hk ha

theorem mem_keys_erase {d : Dict κ ν} {k k2 : κ} : k2 ∈ keys (erase d k) ↔ k2 ≠ k ∧ k2 ∈ keys d := by
  simp only [keys, erase, List.mem_map, List.mem_filter]
  constructor
  · rintro ⟨a, ⟨h1, h2⟩, rfl⟩
    exact ⟨by simpa using h2, a, h1, rfl⟩
  · rintro ⟨h1, a, h2, rfl⟩
    exact ⟨a, ⟨h2, by simpa using h1⟩, rfl⟩

theorem WF_erase {d : Dict κ ν} (k : κ) (h : WF d) : WF (erase d k) := by
  unfold WF keys erase at *
  exact h.sublist (List.Sublist.map _ List.filter_sublist)

theorem get?_erase (d : Dict κ ν) (k k2 : κ) :
    get? (erase d k) k2 = if k2 = k then none else get? d k2 := by
  induction d with
  | nil => simp [erase]
  | cons e d ih =>
    obtain ⟨k', v'⟩ := e
    have he : erase ((k', v') :: d) k = if k' = k then erase d k else (k', v') :: erase d k := by
      by_cases hk : k' = k <;> simp [erase, hk]
    rw [he]
    by_cases hk : k' = k
    · rw [if_pos hk, ih]
      by_cases h2 : k2 = k
      · simp [h2]
      · rw [if_neg h2, if_neg h2, get?_cons, if_neg]
        intro e; exact h2 (e ▸ hk)
    · rw [if_neg hk, get?_cons, get?_cons, ih]
      by_cases h2 : k' = k2
      · subst h2; simp [hk]
      · simp [h2]

end Dict
end Verif.Py
