import Verif.Model.MergeRenames
import Verif.Props.ParamNames

/-!
# C09, C53: merging alias declarations
-/

namespace Verif.ParamNames
open Verif.Py

/-- Specification: `a` and `b` are linked by a chain of alias declarations.  Each dictionary entry `k: v` declares
all of `k :: v` to be the same parameter. -/
inductive Conn (dicts : List Renames) : Str → Str → Prop
  | edge {dic : Renames} {k : Str} {v : List Str} {a b : Str} :
      dic ∈ dicts → (k, v) ∈ dic → a ∈ k :: v → b ∈ k :: v → Conn dicts a b
  | trans {a b c : Str} : Conn dicts a b → Conn dicts b c → Conn dicts a c

theorem Conn.symm {dicts : List Renames} {a b : Str} (h : Conn dicts a b) : Conn dicts b a := by
  induction h with
  | edge h1 h2 h3 h4 => exact .edge h1 h2 h4 h3
  | trans _ _ h1 h2 => exact .trans h2 h1

/-- connectedness for a list of sets -/
inductive SConn (sets : List (List Str)) : Str → Str → Prop
  | edge {s : List Str} {a b : Str} : s ∈ sets → a ∈ s → b ∈ s → SConn sets a b
  | trans {a b c : Str} : SConn sets a b → SConn sets b c → SConn sets a c

theorem mem_toSet {l : List Str} {a : Str} : a ∈ toSet l ↔ a ∈ l := by
  induction l with
  | nil => simp [toSet]
  | cons b l ih =>
    unfold toSet
    split
    · rename_i h
      rw [ih, List.mem_cons]
      constructor
      · exact Or.inr
      · rintro (rfl | h')
        · rw [← ih]; simpa using h
        · exact h'
    · rw [List.mem_cons, ih, List.mem_cons]

theorem nodup_toSet (l : List Str) : (toSet l).Nodup := by
  induction l with
  | nil => simp [toSet]
  | cons b l ih =>
    unfold toSet
    split
    · exact ih
    · rename_i h
      exact List.nodup_cons.mpr ⟨by simpa using h, ih⟩

theorem sconn_iff_conn (dicts : List Renames) (a b : Str) : SConn (aliasSets dicts) a b ↔ Conn dicts a b := by
  constructor
  · intro h
    induction h with
    | edge hs ha hb =>
      obtain ⟨dic, hd, hs⟩ := List.mem_flatMap.mp hs
      obtain ⟨⟨k, v⟩, he, rfl⟩ := List.mem_map.mp hs
      exact .edge hd he (mem_toSet.mp ha) (mem_toSet.mp hb)
    | trans _ _ h1 h2 => exact .trans h1 h2
  · intro h
    induction h with
    | edge hd he ha hb =>
      exact .edge (List.mem_flatMap.mpr ⟨_, hd, List.mem_map.mpr ⟨_, he, rfl⟩⟩) (mem_toSet.mpr ha) (mem_toSet.mpr hb)
    | trans _ _ h1 h2 => exact .trans h1 h2

theorem meets_iff {s t : List Str} : meets s t = true ↔ ∃ a, a ∈ s ∧ a ∈ t := by
  simp [meets]

theorem mem_union {s t : List Str} {a : Str} : a ∈ union s t ↔ a ∈ s ∨ a ∈ t := by
  unfold union
  simp only [List.mem_append, List.mem_filter, Bool.not_eq_true', List.contains_eq_mem, decide_eq_false_iff_not]
  by_cases h : a ∈ s <;> simp [h]

theorem nodup_union {s t : List Str} (hs : s.Nodup) (ht : t.Nodup) : (union s t).Nodup := by
  unfold union
  refine List.nodup_append.mpr ⟨hs, ht.sublist List.filter_sublist, ?_⟩
  intro a ha b hb e
  subst e
  simp [List.mem_filter] at hb
  exact hb.2 ha

theorem absorb_none {s : List Str} {ts : List (List Str)} (h : absorb s ts = none) :
    ∀ t ∈ ts, ∀ a, a ∈ s → a ∉ t := by
  induction ts with
  | nil => simp
  | cons t ts ih =>
    unfold absorb at h
    split at h
    · simp at h
    · rename_i hm
      cases ha : absorb s ts with
      | none =>
        intro t' ht' a has hat
        rcases List.mem_cons.mp ht' with rfl | ht'
        · exact hm (meets_iff.mpr ⟨a, has, hat⟩)
        · exact ih ha t' ht' a has hat
      | some x => rw [ha] at h; simp at h

theorem absorb_some {s u : List Str} {ts r : List (List Str)} (h : absorb s ts = some (u, r)) :
    ∃ t pre post, ts = pre ++ t :: post ∧ r = pre ++ post ∧ u = union s t ∧ ∃ a, a ∈ s ∧ a ∈ t := by
  induction ts generalizing r with
  | nil => simp [absorb] at h
  | cons t ts ih =>
    unfold absorb at h
    split at h
    · rename_i hm
      simp at h
      exact ⟨t, [], ts, rfl, h.2.symm, h.1.symm, meets_iff.mp hm⟩
    · cases ha : absorb s ts with
      | none => rw [ha] at h; simp at h
      | some x =>
        obtain ⟨u', r'⟩ := x
        rw [ha] at h
        simp at h
        obtain ⟨rfl, rfl⟩ := h
        obtain ⟨t', pre, post, h1, h2, h3, h4⟩ := ih ha
        exact ⟨t', t :: pre, post, by rw [h1]; rfl, by rw [h2]; rfl, h3, h4⟩

theorem SConn.mem {sets : List (List Str)} {a b : Str} (h : SConn sets a b) : ∃ s ∈ sets, b ∈ s := by
  induction h with
  | edge hs _ hb => exact ⟨_, hs, hb⟩
  | trans _ _ _ h2 => exact h2

theorem SConn.mono {s1 s2 : List (List Str)} (h : ∀ s ∈ s1, ∃ t ∈ s2, ∀ a ∈ s, a ∈ t) {a b : Str}
    (hc : SConn s1 a b) : SConn s2 a b := by
  induction hc with
  | edge hs ha hb =>
    obtain ⟨t, ht, hst⟩ := h _ hs
    exact .edge ht (hst _ ha) (hst _ hb)
  | trans _ _ h1 h2 => exact .trans h1 h2

/-- the joined list of sets has the same connected names -/
theorem sconn_absorb {s u : List Str} {ts r : List (List Str)} (h : absorb s ts = some (u, r)) (a b : Str) :
    SConn (u :: r) a b ↔ SConn (s :: ts) a b := by
  obtain ⟨t, pre, post, h1, h2, h3, x, hxs, hxt⟩ := absorb_some h
  subst h1 h2 h3
  constructor
  · intro hc
    induction hc with
    | @edge w a b hw ha hb =>
      rcases List.mem_cons.mp hw with rfl | hw
      · have key : ∀ c, c ∈ union s t → SConn (s :: (pre ++ t :: post)) c x := by
          intro c hc
          rcases mem_union.mp hc with hc | hc
          · exact .edge (by simp) hc hxs
          · exact .edge (s := t) (by simp) hc hxt
        have key2 : ∀ c, c ∈ union s t → SConn (s :: (pre ++ t :: post)) x c := by
          intro c hc
          rcases mem_union.mp hc with hc | hc
          · exact .edge (by simp) hxs hc
          · exact .edge (s := t) (by simp) hxt hc
        exact .trans (key _ ha) (key2 _ hb)
      · have : w ∈ s :: (pre ++ t :: post) := by
          rcases List.mem_append.mp hw with h | h <;> simp [h]
        exact .edge this ha hb
    | trans _ _ h1 h2 => exact .trans h1 h2
  · intro hc
    refine SConn.mono ?_ hc
    intro w hw
    simp only [List.mem_cons, List.mem_append] at hw
    rcases hw with rfl | hw | rfl | hw
    · exact ⟨_, List.mem_cons_self, fun a ha => mem_union.mpr (Or.inl ha)⟩
    · exact ⟨w, by simp [hw], fun a ha => ha⟩
    · exact ⟨_, List.mem_cons_self, fun a ha => mem_union.mpr (Or.inr ha)⟩
    · exact ⟨w, by simp [hw], fun a ha => ha⟩

theorem sconn_disjoint {s : List Str} {ts : List (List Str)} (h : ∀ t ∈ ts, ∀ a, a ∈ s → a ∉ t) (a b : Str) :
    SConn (s :: ts) a b ↔ (a ∈ s ∧ b ∈ s) ∨ SConn ts a b := by
  constructor
  · intro hc
    induction hc with
    | edge hw ha hb =>
      rcases List.mem_cons.mp hw with rfl | hw
      · exact Or.inl ⟨ha, hb⟩
      · exact Or.inr (.edge hw ha hb)
    | @trans a b c hab hbc h1 h2 =>
      rcases h1 with h1 | h1 <;> rcases h2 with h2 | h2
      · exact Or.inl ⟨h1.1, h2.2⟩
      · exfalso
        have hsym : SConn ts c b := by
          clear h1 hab hbc
          induction h2 with
          | edge hs ha hb => exact .edge hs hb ha
          | trans _ _ h1 h2 => exact .trans h2 h1
        obtain ⟨t, ht, hbt⟩ := hsym.mem
        exact h t ht b h1.2 hbt
      · exfalso
        obtain ⟨t, ht, hbt⟩ := h1.mem
        exact h t ht b h2.1 hbt
      · exact Or.inr (.trans h1 h2)
  · rintro (⟨ha, hb⟩ | hc)
    · exact .edge List.mem_cons_self ha hb
    · exact SConn.mono (fun s hs => ⟨s, List.mem_cons_of_mem _ hs, fun _ h => h⟩) hc

/-- the loop computes the connected components -/
theorem components_spec (n : Nat) (sets : List (List Str)) (hn : sets.length ≤ n)
    (hnd : ∀ s ∈ sets, s.Nodup ∧ s ≠ []) :
    (components n sets).Pairwise (fun s t => ∀ a, a ∈ s → a ∉ t) ∧
    (∀ s ∈ components n sets, s.Nodup ∧ s ≠ []) ∧
    (∀ a b, SConn sets a b ↔ ∃ s ∈ components n sets, a ∈ s ∧ b ∈ s) := by
  induction n generalizing sets with
  | zero =>
    have : sets = [] := List.length_eq_zero_iff.mp (by omega)
    subst this
    refine ⟨by simp [components], by simp [components], ?_⟩
    intro a b
    constructor
    · intro h; obtain ⟨s, hs, _⟩ := h.mem; simp at hs
    · simp [components]
  | succ n ih =>
    cases sets with
    | nil =>
      refine ⟨by simp [components], by simp [components], ?_⟩
      intro a b
      constructor
      · intro h; obtain ⟨s, hs, _⟩ := h.mem; simp at hs
      · simp [components]
    | cons s ts =>
      simp only [List.length_cons] at hn
      unfold components
      cases ha : absorb s ts with
      | some x =>
        obtain ⟨u, r⟩ := x
        simp only
        have hab := absorb_some ha
        obtain ⟨t, pre, post, h1, h2, h3, _⟩ := hab
        have hlen : (u :: r).length ≤ n := by
          rw [h1] at hn; rw [h2]; simp at hn ⊢; omega
        have hnd' : ∀ w ∈ u :: r, w.Nodup ∧ w ≠ [] := by
          intro w hw
          rcases List.mem_cons.mp hw with rfl | hw
          · rw [h3]
            refine ⟨nodup_union (hnd s (by simp)).1 (hnd t (by rw [h1]; simp)).1, ?_⟩
            unfold union
            intro he
            exact (hnd s (by simp)).2 (List.append_eq_nil_iff.mp he).1
          · apply hnd
            rw [h2] at hw; rw [h1]
            rcases List.mem_append.mp hw with h | h <;> simp [h]
        obtain ⟨g1, g2, g3⟩ := ih (u :: r) hlen hnd'
        exact ⟨g1, g2, fun a b => (sconn_absorb ha a b).symm.trans (g3 a b)⟩
      | none =>
        simp only
        have hdis := absorb_none ha
        obtain ⟨g1, g2, g3⟩ := ih ts (by omega) (fun w hw => hnd w (List.mem_cons_of_mem _ hw))
        refine ⟨?_, ?_, ?_⟩
        · rw [List.pairwise_cons]
          refine ⟨?_, g1⟩
          intro w hw a has haw
          have : SConn ts a a := (g3 a a).mpr ⟨w, hw, haw, haw⟩
          obtain ⟨t, ht, hat⟩ := this.mem
          exact hdis t ht a has hat
        · intro w hw
          rcases List.mem_cons.mp hw with rfl | hw
          · exact hnd _ (by simp)
          · exact g2 w hw
        · intro a b
          rw [sconn_disjoint hdis, g3]
          simp only [List.mem_cons, exists_eq_or_imp]

theorem aliasSets_ok (dicts : List Renames) : ∀ s ∈ aliasSets dicts, s.Nodup ∧ s ≠ [] := by
  intro s hs
  obtain ⟨dic, _, hs⟩ := List.mem_flatMap.mp hs
  obtain ⟨⟨k, v⟩, _, rfl⟩ := List.mem_map.mp hs
  refine ⟨nodup_toSet _, ?_⟩
  have : k ∈ toSet (k :: v) := mem_toSet.mpr (by simp)
  intro h; simp only [h] at this; simp at this

theorem pairwise_disjoint_eq {l : List (List Str)} (h : l.Pairwise (fun s t => ∀ a, a ∈ s → a ∉ t))
    {s t : List Str} (hs : s ∈ l) (ht : t ∈ l) {a : Str} (has : a ∈ s) (hat : a ∈ t) : s = t := by
  induction l with
  | nil => simp at hs
  | cons x l ih =>
    rw [List.pairwise_cons] at h
    rcases List.mem_cons.mp hs with h1 | h1 <;> rcases List.mem_cons.mp ht with h2 | h2
    · rw [h1, h2]
    · exact absurd hat (h.1 t h2 a (h1 ▸ has))
    · exact absurd has (h.1 s h1 a (h2 ▸ hat))
    · exact ih h.2 h1 h2

/-- the components of the declared aliases -/
def classes (dicts : List Renames) : List (List Str) := components (aliasSets dicts).length (aliasSets dicts)

theorem classes_spec (dicts : List Renames) :
    (classes dicts).Pairwise (fun s t => ∀ a, a ∈ s → a ∉ t) ∧
    (∀ s ∈ classes dicts, s.Nodup ∧ s ≠ []) ∧
    (∀ a b, Conn dicts a b ↔ ∃ s ∈ classes dicts, a ∈ s ∧ b ∈ s) := by
  obtain ⟨h1, h2, h3⟩ := components_spec _ _ (Nat.le_refl _) (aliasSets_ok dicts)
  exact ⟨h1, h2, fun a b => (sconn_iff_conn dicts a b).symm.trans (h3 a b)⟩

theorem chooseKey_mem {pick : List Str → Str} (hp : ∀ l, l ≠ [] → pick l ∈ l) {keep : Bool} {params : List Str}
    {dicts : List Renames} {key : Str} (h : chooseKey pick keep params dicts = some key) :
    key ∈ params ∧ ∃ pre dic post, dicts = pre ++ dic :: post ∧ key ∈ dic.keys ∧
      (keep = true ∨ ∃ x ∈ params, x ∉ dic.keys) ∧
      ∀ d ∈ pre, (∀ x ∈ params, x ∉ d.keys) ∨ (keep = false ∧ ∀ x ∈ params, x ∈ d.keys) := by
  induction dicts with
  | nil => simp [chooseKey] at h
  | cons dic dicts ih =>
    unfold chooseKey at h
    simp only at h
    split at h
    · rename_i hc
      simp only [Option.some.injEq] at h
      have := hp _ hc.1
      rw [h] at this
      have hm := List.mem_filter.mp this
      refine ⟨hm.1, [], dic, dicts, rfl, by simpa using hm.2, ?_, by simp⟩
      rcases hc.2 with hl | hk
      · right
        by_contra hcon
        apply hl
        have : params.filter (fun a => dic.keys.contains a) = params := by
          rw [List.filter_eq_self]
          intro a ha
          by_contra hna
          exact hcon ⟨a, ha, by simpa using hna⟩
        rw [this]
      · exact Or.inl hk
    · rename_i hc
      obtain ⟨h1, pre, d, post, h2, h3, h4, h5⟩ := ih h
      refine ⟨h1, dic :: pre, d, post, by rw [h2]; rfl, h3, h4, ?_⟩
      intro d' hd'
      rcases List.mem_cons.mp hd' with rfl | hd'
      · by_cases he : params.filter (fun a => d'.keys.contains a) = []
        · left
          intro x hx hxk
          have : x ∈ params.filter (fun a => d'.keys.contains a) := List.mem_filter.mpr ⟨hx, by simpa using hxk⟩
          rw [he] at this; simp at this
        · right
          have hk : ¬ (params.filter (fun a => d'.keys.contains a)).length ≠ params.length ∧ ¬ keep = true := by
            constructor
            · intro hl; exact hc ⟨he, Or.inl hl⟩
            · intro hk; exact hc ⟨he, Or.inr hk⟩
          refine ⟨by simpa using hk.2, ?_⟩
          intro x hx
          have hl : (params.filter (fun a => d'.keys.contains a)).length = params.length := not_not.mp hk.1
          have := (List.filter_sublist (l := params) (p := fun a => d'.keys.contains a)).eq_of_length hl
          rw [List.filter_eq_self] at this
          simpa using this x hx
      · exact h5 d' hd'

theorem chooseKey_none {pick : List Str → Str} {keep : Bool} {params : List Str}
    {dicts : List Renames} (h : chooseKey pick keep params dicts = none) :
    ∀ d ∈ dicts, (∀ x ∈ params, x ∉ d.keys) ∨ (keep = false ∧ ∀ x ∈ params, x ∈ d.keys) := by
  induction dicts with
  | nil => simp
  | cons dic dicts ih =>
    unfold chooseKey at h
    simp only at h
    split at h
    · simp at h
    · rename_i hc
      intro d' hd'
      rcases List.mem_cons.mp hd' with rfl | hd'
      · by_cases he : params.filter (fun a => d'.keys.contains a) = []
        · left
          intro x hx hxk
          have : x ∈ params.filter (fun a => d'.keys.contains a) := List.mem_filter.mpr ⟨hx, by simpa using hxk⟩
          rw [he] at this; simp at this
        · right
          have hk : ¬ (params.filter (fun a => d'.keys.contains a)).length ≠ params.length ∧ ¬ keep = true := by
            constructor
            · intro hl; exact hc ⟨he, Or.inl hl⟩
            · intro hk; exact hc ⟨he, Or.inr hk⟩
          refine ⟨by simpa using hk.2, ?_⟩
          intro x hx
          have hl : (params.filter (fun a => d'.keys.contains a)).length = params.length := not_not.mp hk.1
          have := (List.filter_sublist (l := params) (p := fun a => d'.keys.contains a)).eq_of_length hl
          rw [List.filter_eq_self] at this
          simpa using this x hx
      · exact ih h d' hd'

/-- the second loop: one entry per class that has an acceptable key -/
theorem mergeOut_eq (pick : List Str → Str) (hp : ∀ l, l ≠ [] → pick l ∈ l) (keep : Bool) (dicts : List Renames)
    (out : List (List Str)) (hdis : out.Pairwise (fun s t => ∀ a, a ∈ s → a ∉ t)) (merged : Renames)
    (hk : ∀ s ∈ out, ∀ a ∈ s, a ∉ merged.keys) :
    mergeOut pick keep dicts out merged = merged ++
      out.filterMap (fun s => (chooseKey pick keep s dicts).map (fun key => (key, s.filter (· ≠ key)))) := by
  induction out generalizing merged with
  | nil => simp [mergeOut]
  | cons s out ih =>
    rw [List.pairwise_cons] at hdis
    unfold mergeOut
    cases hc : chooseKey pick keep s dicts with
    | none =>
      simp only
      rw [ih hdis.2 merged (fun t ht => hk t (List.mem_cons_of_mem _ ht))]
      simp [hc]
    | some key =>
      simp only
      have hkm := (chooseKey_mem hp hc).1
      have hnk : key ∉ merged.keys := hk s (by simp) key hkm
      rw [Dict.set_of_not_mem _ hnk, ih hdis.2]
      · simp [hc]
      · intro t ht a ha
        rw [Dict.keys_append, List.mem_append, not_or]
        refine ⟨hk t (List.mem_cons_of_mem _ ht) a ha, ?_⟩
        simp only [Dict.keys_cons, Dict.keys_nil, List.mem_cons, List.not_mem_nil, or_false]
        rintro rfl
        exact hdis.1 t ht _ hkm ha

theorem mergeRenames_eq (pick : List Str → Str) (hp : ∀ l, l ≠ [] → pick l ∈ l) (keep : Bool) (dicts : List Renames) :
    mergeRenames pick keep dicts =
      (classes dicts).filterMap (fun s => (chooseKey pick keep s dicts).map (fun key => (key, s.filter (· ≠ key)))) := by
  have := mergeOut_eq pick hp keep dicts _ (classes_spec dicts).1 [] (by simp)
  exact this

theorem mem_key_cons {s : List Str} {key a : Str} (hk : key ∈ s) : a ∈ key :: s.filter (· ≠ key) ↔ a ∈ s := by
  simp only [List.mem_cons, List.mem_filter, decide_eq_true_eq, ne_eq]
  constructor
  · rintro (rfl | h)
    · exact hk
    · exact h.1
  · intro h
    by_cases e : a = key
    · exact Or.inl e
    · exact Or.inr ⟨h, e⟩

/-- **C09a** (both modes) Every merged entry is one whole alias class; entries are disjoint; no name is listed twice in
an entry; the key comes from the first input dictionary that has a key in the class (in the mode without
`keep_names_1st`: that in addition does not have the whole class as keys). -/
theorem mergeRenames_sound (pick : List Str → Str) (hp : ∀ l, l ≠ [] → pick l ∈ l) (keep : Bool)
    (dicts : List Renames) (k : Str) (v : List Str) (h : (k, v) ∈ mergeRenames pick keep dicts) :
    (∀ a, a ∈ k :: v ↔ Conn dicts k a) ∧ (k :: v).Nodup ∧
    (∀ k' v', (k', v') ∈ mergeRenames pick keep dicts → ∀ a, a ∈ k :: v → a ∈ k' :: v' → k' = k ∧ v' = v) ∧
    ∃ pre dic post, dicts = pre ++ dic :: post ∧ k ∈ dic.keys ∧ (keep = true ∨ ∃ x ∈ k :: v, x ∉ dic.keys) ∧
      ∀ d ∈ pre, (∀ x ∈ k :: v, x ∉ d.keys) ∨ (keep = false ∧ ∀ x ∈ k :: v, x ∈ d.keys) := by
  obtain ⟨c1, c2, c3⟩ := classes_spec dicts
  have hent : ∀ k v, (k, v) ∈ mergeRenames pick keep dicts →
      ∃ s ∈ classes dicts, chooseKey pick keep s dicts = some k ∧ v = s.filter (· ≠ k) ∧ k ∈ s := by
    intro k v h
    rw [mergeRenames_eq pick hp] at h
    obtain ⟨s, hs, he⟩ := List.mem_filterMap.mp h
    cases hc : chooseKey pick keep s dicts with
    | none => rw [hc] at he; simp at he
    | some key =>
      rw [hc] at he
      simp only [Option.map_some, Option.some.injEq, Prod.mk.injEq] at he
      obtain ⟨rfl, rfl⟩ := he
      exact ⟨s, hs, hc, rfl, (chooseKey_mem hp hc).1⟩
  obtain ⟨s, hs, hc, hv, hks⟩ := hent k v h
  have hmem : ∀ a, a ∈ k :: v ↔ a ∈ s := by intro a; rw [hv]; exact mem_key_cons hks
  have huniq : ∀ s ∈ classes dicts, ∀ t ∈ classes dicts, ∀ a, a ∈ s → a ∈ t → s = t := by
    intro s hs t ht a has hat
    by_contra hne
    exact hne (pairwise_disjoint_eq c1 hs ht has hat)
  refine ⟨?_, ?_, ?_, ?_⟩
  · intro a
    rw [hmem, c3]
    constructor
    · intro ha; exact ⟨s, hs, hks, ha⟩
    · rintro ⟨t, ht, hkt, hat⟩
      rw [huniq s hs t ht k hks hkt]; exact hat
  · rw [hv, List.nodup_cons]
    exact ⟨by simp, (c2 s hs).1.sublist List.filter_sublist⟩
  · intro k' v' h' a ha ha'
    obtain ⟨t, ht, hc', hv', hkt⟩ := hent k' v' h'
    have : a ∈ t := by rw [hv'] at ha'; exact (mem_key_cons hkt).mp ha'
    have hst := huniq s hs t ht a ((hmem a).mp ha) this
    subst hst
    rw [hc] at hc'
    simp only [Option.some.injEq] at hc'
    subst hc'
    exact ⟨rfl, by rw [hv, hv']⟩
  · obtain ⟨_, pre, dic, post, h1, h2, h3, h4⟩ := chooseKey_mem hp hc
    refine ⟨pre, dic, post, h1, h2, ?_, ?_⟩
    · rcases h3 with h3 | ⟨x, hx, hxk⟩
      · exact Or.inl h3
      · exact Or.inr ⟨x, (hmem x).mpr hx, hxk⟩
    · intro d hd
      rcases h4 d hd with h | ⟨hk, h⟩
      · exact Or.inl (fun x hx => h x ((hmem x).mp hx))
      · exact Or.inr ⟨hk, fun x hx => h x ((hmem x).mp hx)⟩

/-- **C09b** With `keep_names_1st`, two names are in the same merged entry exactly when they are linked by alias
declarations; in particular no declared name is lost. -/
theorem mergeRenames_complete (pick : List Str → Str) (hp : ∀ l, l ≠ [] → pick l ∈ l) (dicts : List Renames)
    (a b : Str) :
    Conn dicts a b ↔ ∃ k v, (k, v) ∈ mergeRenames pick true dicts ∧ a ∈ k :: v ∧ b ∈ k :: v := by
  obtain ⟨c1, c2, c3⟩ := classes_spec dicts
  constructor
  · intro h
    obtain ⟨s, hs, has, hbs⟩ := (c3 a b).mp h
    cases hc : chooseKey pick true s dicts with
    | some key =>
      have hk := (chooseKey_mem hp hc).1
      refine ⟨key, s.filter (· ≠ key), ?_, (mem_key_cons hk).mpr has, (mem_key_cons hk).mpr hbs⟩
      rw [mergeRenames_eq pick hp]
      exact List.mem_filterMap.mpr ⟨s, hs, by rw [hc]; rfl⟩
    | none =>
      exfalso
      have hn := chooseKey_none hc
      -- some key of some dictionary is in the class
      have hkey : ∃ d ∈ dicts, ∃ x ∈ d.keys, Conn dicts a x := by
        clear hs has hbs
        induction h with
        | @edge dic k v a b hd he ha hb =>
          exact ⟨dic, hd, k, List.mem_map.mpr ⟨(k, v), he, rfl⟩, .edge hd he ha (by simp)⟩
        | trans _ _ h1 _ => exact h1
      obtain ⟨d, hd, x, hx, hax⟩ := hkey
      have hxs : x ∈ s := by
        obtain ⟨t, ht, hat, hxt⟩ := (c3 a x).mp hax
        have : s = t := by
          by_contra hne
          exact hne (pairwise_disjoint_eq c1 hs ht has hat)
        rw [this]; exact hxt
      rcases hn d hd with h | ⟨h, _⟩
      · exact h x hxs hx
      · simp at h
  · rintro ⟨k, v, h, ha, hb⟩
    have := (mergeRenames_sound pick hp true dicts k v h).1
    exact .trans ((this a).mp ha).symm ((this b).mp hb)

/-- the choice used in examples -/
def pickHead (l : List Str) : Str := l.headD []

theorem pickHead_mem : ∀ l, l ≠ [] → pickHead l ∈ l := by
  intro l hl
  cases l with
  | nil => exact absurd rfl hl
  | cons a l => simp [pickHead]

/-- chains of aliases across three dictionaries are merged -/
example : mergeRenames pickHead true
    [[(c!"a", [c!"b"]), (c!"z", [])], [(c!"d", [c!"c"])], [(c!"c", [c!"b"]), (c!"y", [c!"x"])]] =
    [(c!"a", [c!"b", c!"c", c!"d"]), (c!"z", []), (c!"y", [c!"x"])] := by decide

/-- **C09 without `keep_names_1st`**: a whole alias class is dropped when its names are all keys of the inputs, e.g.
`mergeRenames({'a': 'b', 'b': 'a'})` is empty although `a` and `b` are declared aliases. -/
theorem mergeRenames_drops_fails :
    Conn [[(c!"a", [c!"b"]), (c!"b", [c!"a"])]] c!"a" c!"b" ∧
    mergeRenames pickHead false [[(c!"a", [c!"b"]), (c!"b", [c!"a"])]] = [] := by
  refine ⟨.edge (dic := [(c!"a", [c!"b"]), (c!"b", [c!"a"])]) (k := c!"a") (v := [c!"b"]) ?_ ?_ ?_ ?_, ?_⟩ <;> decide

/-- ... and the key is then not taken from the left-most input that knows the class. -/
theorem mergeRenames_leftmost_fails :
    mergeRenames pickHead false [[(c!"a", [c!"b"]), (c!"b", [])], [(c!"b", [])]] = [(c!"b", [c!"a"])] ∧
    mergeRenames pickHead true [[(c!"a", [c!"b"]), (c!"b", [])], [(c!"b", [])]] = [(c!"a", [c!"b"])] := by decide

/-- **C09c** Without `keep_names_1st` a class is dropped only in that situation: each input either has no name of the
class as a key or has all of them. -/
theorem mergeRenames_dropped_partial (pick : List Str → Str) (hp : ∀ l, l ≠ [] → pick l ∈ l) (dicts : List Renames)
    (a : Str) (ha : Conn dicts a a)
    (h : ¬ ∃ k v, (k, v) ∈ mergeRenames pick false dicts ∧ a ∈ k :: v) :
    ∀ d ∈ dicts, (∀ x, Conn dicts a x → x ∉ d.keys) ∨ (∀ x, Conn dicts a x → x ∈ d.keys) := by
  obtain ⟨c1, c2, c3⟩ := classes_spec dicts
  obtain ⟨s, hs, has, _⟩ := (c3 a a).mp ha
  have hcl : ∀ x, Conn dicts a x → x ∈ s := by
    intro x hx
    obtain ⟨t, ht, hat, hxt⟩ := (c3 a x).mp hx
    have : s = t := by
      by_contra hne
      exact hne (pairwise_disjoint_eq c1 hs ht has hat)
    rw [this]; exact hxt
  cases hc : chooseKey pick false s dicts with
  | some key =>
    exfalso
    apply h
    have hk := (chooseKey_mem hp hc).1
    refine ⟨key, s.filter (· ≠ key), ?_, (mem_key_cons hk).mpr has⟩
    rw [mergeRenames_eq pick hp]
    exact List.mem_filterMap.mpr ⟨s, hs, by rw [hc]; rfl⟩
  | none =>
    intro d hd
    rcases chooseKey_none hc d hd with h | ⟨_, h⟩
    · exact Or.inl (fun x hx => h x (hcl x hx))
    · exact Or.inr (fun x hx => h x (hcl x hx))

/-! ## C53 updateRenames -/

theorem getRenames_eq (ps : List Info) (hn : (ps.map (·.name)).Nodup) :
    getRenames ps = ps.map (fun p => (p.name, p.renames)) := by
  have aux : ∀ (ps : List Info) (d : Renames), (ps.map (·.name)).Nodup → (∀ p ∈ ps, p.name ∉ d.keys) →
      ps.foldl (fun d p => d.set p.name p.renames) d = d ++ ps.map (fun p => (p.name, p.renames)) := by
    intro ps
    induction ps with
    | nil => intro d _ _; simp
    | cons p ps ih =>
      intro d hn hd
      simp only [List.map_cons, List.nodup_cons] at hn
      simp only [List.foldl_cons]
      rw [Dict.set_of_not_mem _ (hd p (by simp)), ih _ hn.2]
      · simp
      · intro q hq
        rw [Dict.keys_append, List.mem_append, not_or]
        refine ⟨hd q (List.mem_cons_of_mem _ hq), ?_⟩
        simp only [Dict.keys_cons, Dict.keys_nil, List.mem_cons, List.not_mem_nil, or_false]
        intro e
        exact hn.1 (List.mem_map.mpr ⟨q, hq, e⟩)
  unfold getRenames
  rw [aux ps [] hn (by simp)]
  simp

/-- `updateFirst` on a list with distinct names where only one entry can match -/
theorem updateFirst_unique (ps : List Info) (name : Str) (rename : List Str)
    (hmatch : ∀ p ∈ ps, matchesName name [] p = true ↔ p.name = name) (hn : (ps.map (·.name)).Nodup) :
    updateFirst (fun p => { p with renames := rename }) (matchesName name []) ps =
      ps.map (fun p => if p.name = name then { p with renames := rename } else p) := by
  induction ps with
  | nil => rfl
  | cons p ps ih =>
    simp only [List.map_cons, List.nodup_cons] at hn
    unfold updateFirst
    by_cases hp : p.name = name
    · rw [if_pos ((hmatch p (by simp)).mpr hp), List.map_cons, if_pos hp]
      congr 1
      symm
      have : ∀ q ∈ ps, (if q.name = name then { q with renames := rename } else q) = q := by
        intro q hq
        rw [if_neg]
        intro e
        exact hn.1 (List.mem_map.mpr ⟨q, hq, by rw [e, hp]⟩)
      rw [List.map_congr_left this, List.map_id']
    · have : ¬ matchesName name [] p = true := fun h => hp ((hmatch p (by simp)).mp h)
      rw [if_neg this, List.map_cons, if_neg hp, ih (fun q hq => hmatch q (by simp [hq])) hn.2]

theorem matchesName_plain (name : Str) (p : Info) :
    matchesName name [] p = true ↔ p.name = name ∨ name ∈ p.renames := by
  rw [matchesName_iff]
  unfold Means KnownAs
  simp only [Dict.get?_nil]
  constructor
  · rintro ⟨n, h1 | ⟨_, h, _⟩, h2⟩
    · subst h1
      rcases h2 with h2 | h2 | ⟨_, h, _⟩
      · exact Or.inl h2.symm
      · exact Or.inr h2
      · simp at h
    · simp at h
  · rintro (h | h)
    · exact ⟨name, Or.inl rfl, Or.inl h.symm⟩
    · exact ⟨name, Or.inl rfl, Or.inr (Or.inl h)⟩

/-- **C53** If no two parameters of the list are declared to be the same, then after updating the aliases every
parameter keeps its place, name, label, comment and derived flag, and its aliases are exactly the other names linked
to it by any chain of declarations (old aliases and the new table). -/
theorem updateRenames_spec (pick : List Str → Str) (hp : ∀ l, l ≠ [] → pick l ∈ l) (ps : List Info) (renames : Renames)
    (hn : (ps.map (·.name)).Nodup)
    (hsep : ∀ p ∈ ps, ∀ q ∈ ps, Conn [getRenames ps, renames] p.name q.name → p.name = q.name) :
    ∃ f : Info → List Str, updateRenames pick ps renames = ps.map (fun p => { p with renames := f p }) ∧
      ∀ p ∈ ps, ∀ x, x ∈ f p ↔ Conn [getRenames ps, renames] p.name x ∧ x ≠ p.name := by
  let dicts := [getRenames ps, renames]
  let m := mergeRenames pick true dicts
  have hself : ∀ p ∈ ps, ∀ x ∈ p.renames, Conn dicts p.name x := by
    intro p hp x hx
    refine .edge (dic := getRenames ps) (k := p.name) (v := p.renames) (by simp [dicts]) ?_ (by simp)
      (List.mem_cons_of_mem _ hx)
    rw [getRenames_eq ps hn]
    exact List.mem_map.mpr ⟨p, hp, rfl⟩
  have hrefl : ∀ p ∈ ps, Conn dicts p.name p.name := by
    intro p hp
    refine .edge (dic := getRenames ps) (k := p.name) (v := p.renames) (by simp [dicts]) ?_ (by simp) (by simp)
    rw [getRenames_eq ps hn]
    exact List.mem_map.mpr ⟨p, hp, rfl⟩
  have hgk : (getRenames ps).keys = ps.map (·.name) := by
    rw [getRenames_eq ps hn]; simp [Dict.keys, Function.comp_def]
  -- each parameter name is a key of the merged table
  have hkey : ∀ p ∈ ps, ∃ v, (p.name, v) ∈ m := by
    intro p hpm
    obtain ⟨k, v, hkv, ha, _⟩ := (mergeRenames_complete pick hp dicts p.name p.name).mp (hrefl p hpm)
    obtain ⟨s1, _, _, pre, dic, post, h1, h2, _, h4⟩ := mergeRenames_sound pick hp true dicts k v hkv
    have hpre : pre = [] := by
      cases pre with
      | nil => rfl
      | cons d pre =>
        exfalso
        simp only [dicts, List.cons_append, List.cons.injEq] at h1
        rcases h4 d (by simp) with h | ⟨h, _⟩
        · apply h p.name ha
          rw [← h1.1, hgk]
          exact List.mem_map.mpr ⟨p, hpm, rfl⟩
        · simp at h
    subst hpre
    simp only [dicts, List.nil_append, List.cons.injEq] at h1
    rw [← h1.1, hgk] at h2
    obtain ⟨q, hq, hqk⟩ := List.mem_map.mp h2
    have hqk : q.name = k := hqk
    have : Conn dicts k p.name := (s1 p.name).mp ha
    rw [← hqk] at this
    have := hsep q hq p hpm this
    exact ⟨v, by rw [← this, hqk]; exact hkv⟩
  -- the loop
  have hloop : ∀ (items : List (Str × List Str)) (qs : List Info) (g : Info → List Str),
      (∀ e ∈ items, e ∈ m) → qs = ps.map (fun p => { p with renames := g p }) →
      (∀ p ∈ ps, ∀ x ∈ g p, Conn dicts p.name x) →
      ∃ f : Info → List Str, applyRenames (ps.map (·.name)) items qs = ps.map (fun p => { p with renames := f p }) ∧
        (∀ p ∈ ps, (∀ v, (p.name, v) ∉ items) → f p = g p) ∧ (∀ p ∈ ps, ∀ v, (p.name, v) ∈ items → (p.name, f p) ∈ items) := by
    intro items
    induction items with
    | nil => intro qs g _ hqs _; exact ⟨g, hqs, fun _ _ _ => rfl, by simp⟩
    | cons e items ih =>
      intro qs g hm hqs hg
      obtain ⟨name, rename⟩ := e
      unfold applyRenames
      by_cases hk : (ps.map (·.name)).contains name = true
      · rw [if_pos hk]
        have hem : (name, rename) ∈ m := hm _ (by simp)
        have hcl := (mergeRenames_sound pick hp true dicts name rename hem).1
        have hnm : name ∈ ps.map (·.name) := by simpa using hk
        obtain ⟨p0, hp0, hp0n⟩ := List.mem_map.mp hnm
        have hp0n : p0.name = name := hp0n
        have hmatch : ∀ q ∈ qs, matchesName name [] q = true ↔ q.name = name := by
          intro q hq
          rw [hqs] at hq
          obtain ⟨p, hpm, rfl⟩ := List.mem_map.mp hq
          rw [matchesName_plain]
          simp only
          constructor
          · rintro (h | h)
            · exact h
            · have := hg p hpm name h
              rw [← hp0n] at this
              rw [hsep p hpm p0 hp0 this, hp0n]
          · exact Or.inl
        have hqn : (qs.map (·.name)).Nodup := by
          rw [hqs, List.map_map]; exact hn
        rw [updateFirst_unique qs name rename hmatch hqn]
        obtain ⟨f, h1, h2, h3⟩ := ih (qs.map (fun (p : Info) => if p.name = name then { p with renames := rename } else p))
          (fun (p : Info) => if p.name = name then rename else g p) (fun e he => hm e (List.mem_cons_of_mem _ he))
          (by
            rw [hqs, List.map_map]
            apply List.map_congr_left
            intro p _
            simp only [Function.comp_apply]
            split <;> rfl)
          (by
            intro p hpm x hx
            split at hx
            · rename_i hpn
              rw [hpn]
              exact (hcl x).mp (List.mem_cons_of_mem _ hx)
            · exact hg p hpm x hx)
        refine ⟨f, h1, ?_, ?_⟩
        · intro p hpm hno
          rw [h2 p hpm (fun v hv => hno v (List.mem_cons_of_mem _ hv))]
          rw [if_neg]
          rintro rfl
          exact hno rename (by simp)
        · intro p hpm v hv
          by_cases hin : ∃ v', (p.name, v') ∈ items
          · obtain ⟨v', hv'⟩ := hin
            exact List.mem_cons_of_mem _ (h3 p hpm v' hv')
          · rcases List.mem_cons.mp hv with he | he
            · have hfp := h2 p hpm (fun v' hv' => hin ⟨v', hv'⟩)
              simp only [Prod.mk.injEq] at he
              rw [if_pos he.1] at hfp
              rw [hfp, he.1]; simp
            · exact absurd ⟨v, he⟩ hin
      · rw [if_neg hk]
        obtain ⟨f, h1, h2, h3⟩ := ih qs g (fun e he => hm e (List.mem_cons_of_mem _ he)) hqs hg
        refine ⟨f, h1, fun p hpm hno => h2 p hpm (fun v hv => hno v (List.mem_cons_of_mem _ hv)), ?_⟩
        intro p hpm v hv
        rcases List.mem_cons.mp hv with he | he
        · exfalso
          simp only [Prod.mk.injEq] at he
          apply hk
          rw [← he.1]
          simpa using ⟨p, hpm, rfl⟩
        · exact List.mem_cons_of_mem _ (h3 p hpm v he)
  obtain ⟨f, h1, _, h3⟩ := hloop m ps (fun p => p.renames) (fun e he => he)
    (by simp) hself
  refine ⟨f, h1, ?_⟩
  intro p hpm x
  obtain ⟨v, hv⟩ := hkey p hpm
  have hfm := h3 p hpm v hv
  obtain ⟨s1, s2, _, _⟩ := mergeRenames_sound pick hp true dicts p.name (f p) hfm
  rw [List.nodup_cons] at s2
  constructor
  · intro hx
    exact ⟨(s1 x).mp (List.mem_cons_of_mem _ hx), fun e => s2.1 (e ▸ hx)⟩
  · rintro ⟨hx, hne⟩
    rcases List.mem_cons.mp ((s1 x).mpr hx) with h | h
    · exact absurd h hne
    · exact h

example : updateRenames pickHead [{ name := c!"a", renames := [c!"b"] }, { name := c!"d" }]
    [(c!"b", [c!"e"]), (c!"q", [c!"d"])] =
    [{ name := c!"a", renames := [c!"b", c!"e"] }, { name := c!"d", renames := [c!"q"] }] := by decide

end Verif.ParamNames
