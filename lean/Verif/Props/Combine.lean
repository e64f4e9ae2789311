import Verif.Model.Combine
import Verif.Props.ChainGrid
import Mathlib.Data.Rat.Floor
import Mathlib.Algebra.BigOperators.Group.List.Basic
import Mathlib.Algebra.BigOperators.Ring.List
import Mathlib.Algebra.Order.BigOperators.Group.List
import Mathlib.Data.List.Basic
import Mathlib.Data.List.Nodup
import Mathlib.Tactic.Ring
import Mathlib.Tactic.FieldSimp
import Mathlib.Tactic.Linarith

set_option linter.unusedSectionVars false

/-!
# Parameter objects and combined samples (C46, C73)
-/

namespace Verif.Combine
open Verif.Py Verif.Samples Verif.Chains

section attrs
variable {K : Type}

/-! ## Attribute paths -/

theorem join_split (ch : Char) : ∀ s : Str, join [ch] (splitChar ch s) = s ∧ splitChar ch s ≠ []
  | [] => ⟨rfl, by simp [splitChar]⟩
  | c :: cs => by
    obtain ⟨h1, h2⟩ := join_split ch cs
    unfold splitChar
    by_cases hc : c = ch
    · subst hc
      rw [if_pos (by simp)]
      refine ⟨?_, by simp⟩
      cases hs : splitChar c cs with
      | nil => exact absurd hs h2
      | cons t ts => rw [hs] at h1; show [] ++ [c] ++ join [c] (t :: ts) = _; rw [h1]; rfl
    · rw [if_neg (by simpa using hc)]
      cases hs : splitChar ch cs with
      | nil => exact absurd hs h2
      | cons t ts =>
        rw [hs] at h1
        refine ⟨?_, by simp⟩
        cases ts with
        | nil => show c :: t = _; rw [← h1]; rfl
        | cons t' ts => show (c :: t) ++ [ch] ++ join [ch] (t' :: ts) = _; rw [← h1]; rfl

theorem pathOf_inj {a b : Str} (h : pathOf a = pathOf b) : a = b := by
  rw [← (join_split '.' a).1, ← (join_split '.' b).1]; unfold pathOf at h; rw [h]

theorem pathOf_plain {a : Str} (h : '.' ∉ a) : pathOf a = [a] := by
  have := ChainGrid.splitChar_join_gen (ch := '.') (l := [a]) (by simp) (by simpa using h)
  simpa [join, pathOf] using this

/-- proper parts of a path that are objects -/
def IsNode (cols : List (Str × List K)) (q : List Str) : Prop := ∃ p ∈ cols, ∃ k, 1 ≤ k ∧ k < (pathOf p.1).length ∧ q = (pathOf p.1).take k

theorem ensureL_get (L : List (List Str)) : ∀ (d : Attrs K) (q : List Str),
    Dict.get? (L.foldl (fun d q => if Dict.has d q then d else Dict.set d q .node) d) q =
      match Dict.get? d q with
      | some v => some v
      | none => if q ∈ L then some .node else none := by
  induction L with
  | nil => intro d q; cases h : Dict.get? d q <;> simp [h]
  | cons x L ih =>
    intro d q
    rw [List.foldl_cons, ih]
    by_cases hx : Dict.has d x = true
    · rw [if_pos hx]
      cases h : Dict.get? d q with
      | some v => rfl
      | none =>
        have : q ≠ x := by rintro rfl; unfold Dict.has at hx; rw [h] at hx; simp at hx
        simp [this]
    · rw [if_neg hx, Dict.get?_set]
      by_cases hq : q = x
      · subst hq
        have : Dict.get? d q = none := by unfold Dict.has at hx; simpa using hx
        simp [this]
      · rw [if_neg hq]
        cases h : Dict.get? d q with
        | some v => rfl
        | none => simp [hq]

theorem mem_prefixes {path q : List Str} : q ∈ (List.range' 1 (path.length - 1)).map (fun k => path.take k) ↔ ∃ k, 1 ≤ k ∧ k < path.length ∧ q = path.take k := by
  rw [List.mem_map]
  constructor
  · rintro ⟨k, hk, rfl⟩
    rw [List.mem_range'_1] at hk
    exact ⟨k, by omega, by omega, rfl⟩
  · rintro ⟨k, h1, h2, rfl⟩
    exact ⟨k, by rw [List.mem_range'_1]; omega, rfl⟩

open Classical in
theorem pass1_get : ∀ (cols : List (Str × List K)) (d : Attrs K) (q : List Str),
    Dict.get? (cols.foldl (fun d p => ensure d (pathOf p.1)) d) q =
      match Dict.get? d q with
      | some v => some v
      | none => if IsNode cols q then some .node else none
  | [], d, q => by
    have : ¬ IsNode ([] : List (Str × List K)) q := by rintro ⟨p, hp, _⟩; simp at hp
    simp only [List.foldl_nil, if_neg this]
    cases Dict.get? d q <;> rfl
  | p :: cols, d, q => by
    rw [List.foldl_cons, pass1_get cols]
    unfold ensure
    rw [ensureL_get]
    have hiff : IsNode (p :: cols) q ↔ (∃ k, 1 ≤ k ∧ k < (pathOf p.1).length ∧ q = (pathOf p.1).take k) ∨ IsNode cols q := by
      unfold IsNode; simp
    cases h : Dict.get? d q with
    | some v => rfl
    | none =>
      simp only []
      by_cases h1 : ∃ k, 1 ≤ k ∧ k < (pathOf p.1).length ∧ q = (pathOf p.1).take k
      · rw [if_pos (mem_prefixes.mpr h1), if_pos (hiff.mpr (Or.inl h1))]
      · rw [if_neg (fun h => h1 (mem_prefixes.mp h))]
        by_cases h2 : IsNode cols q
        · rw [if_pos h2, if_pos (hiff.mpr (Or.inr h2))]
        · rw [if_neg h2, if_neg (fun h => (hiff.mp h).elim h1 h2)]

open Classical in
/-- where the samples of a name go -/
noncomputable def target (N : List Str → Prop) (n : Str) : List Str := if N (pathOf n) then pathOf n ++ [valueAttr] else pathOf n

theorem pass2_get (N : List Str → Prop) : ∀ (l : List (Str × List K)) (d : Attrs K), (∀ q, N q ↔ Dict.get? d q = some .node) →
    (∀ p ∈ l, ∀ q, (∃ k, 1 ≤ k ∧ k < (pathOf p.1).length ∧ q = (pathOf p.1).take k) → N q) →
    (l.map (fun p => target N p.1)).Nodup → (∀ p ∈ l, ¬ N (target N p.1)) →
    (∀ p ∈ l, Dict.get? (l.foldl (fun d p => place (ensure d (pathOf p.1)) (pathOf p.1) p.2) d) (target N p.1) = some (.arr p.2)) ∧
    (∀ q, q ∉ l.map (fun p => target N p.1) → Dict.get? (l.foldl (fun d p => place (ensure d (pathOf p.1)) (pathOf p.1) p.2) d) q = Dict.get? d q)
  | [], d, _, _, _, _ => ⟨by simp, fun q _ => rfl⟩
  | p :: l, d, hN, hpre, hnd, ht => by
    have hens : ∀ q, Dict.get? (ensure d (pathOf p.1)) q = Dict.get? d q := by
      intro q
      unfold ensure
      rw [ensureL_get]
      cases h : Dict.get? d q with
      | some v => rfl
      | none =>
        simp only []
        rw [if_neg]
        intro hq
        have := (hN q).mp (hpre p List.mem_cons_self q (mem_prefixes.mp hq))
        rw [h] at this; simp at this
    have hplace : ∀ q, Dict.get? (place (ensure d (pathOf p.1)) (pathOf p.1) p.2) q = if q = target N p.1 then some (.arr p.2) else Dict.get? d q := by
      intro q
      unfold place target
      rw [hens]
      by_cases hn : N (pathOf p.1)
      · rw [(hN _).mp hn, if_pos hn]
        simp only []
        rw [Dict.get?_set, hens]
      · rw [if_neg hn]
        have hne : Dict.get? d (pathOf p.1) ≠ some .node := fun h => hn ((hN _).mpr h)
        cases hg : Dict.get? d (pathOf p.1) with
        | none => simp only []; rw [Dict.get?_set, hens]
        | some v =>
          cases v with
          | node => exact absurd hg hne
          | arr v => simp only []; rw [Dict.get?_set, hens]
    rw [List.map_cons, List.nodup_cons] at hnd
    obtain ⟨h1, h2⟩ := pass2_get N l (place (ensure d (pathOf p.1)) (pathOf p.1) p.2) (by
      intro q
      rw [hplace]
      by_cases hq : q = target N p.1
      · rw [if_pos hq]
        constructor
        · intro h; rw [hq] at h; exact absurd h (ht p List.mem_cons_self)
        · intro h; simp at h
      · rw [if_neg hq]; exact hN q)
      (fun p hp => hpre p (List.mem_cons_of_mem _ hp)) hnd.2 (fun p hp => ht p (List.mem_cons_of_mem _ hp))
    rw [List.foldl_cons]
    refine ⟨?_, ?_⟩
    · intro p' hp'
      rcases List.mem_cons.mp hp' with rfl | hp'
      · rw [h2 _ hnd.1, hplace, if_pos rfl]
      · exact h1 p' hp'
    · intro q hq
      rw [List.map_cons, List.mem_cons, not_or] at hq
      rw [h2 q hq.2, hplace, if_neg hq.1]

/-- names that can be used together: all different, and `value` is not a part after the first -/
structure Clean (cols : List (Str × List K)) : Prop where
  nodup : (cols.map (·.1)).Nodup
  value : ∀ p ∈ cols, valueAttr ∉ (pathOf p.1).tail

theorem target_not_node {cols : List (Str × List K)} (h : Clean cols) (n : Str) : ¬ IsNode cols (target (IsNode cols) n) := by
  unfold target
  split
  · rename_i hn
    rintro ⟨p, hp, k, h1, h2, e⟩
    apply h.value p hp
    have hl : (pathOf n) ≠ [] := (join_split '.' n).2
    have : valueAttr ∈ ((pathOf p.1).take k).tail := by
      rw [← e]
      cases hp : pathOf n with
      | nil => exact absurd hp hl
      | cons x xs => simp
    exact (List.take_sublist k _).tail.subset this
  · assumption

theorem target_inj {cols : List (Str × List K)} (h : Clean cols) {a b : Str × List K} (ha : a ∈ cols) (hb : b ∈ cols)
    (e : target (IsNode cols) a.1 = target (IsNode cols) b.1) : a.1 = b.1 := by
  have hval : ∀ x y : Str × List K, y ∈ cols → pathOf x.1 ++ [valueAttr] ≠ pathOf y.1 := by
    intro x y hy e
    apply h.value y hy
    rw [← e]
    cases hp : pathOf x.1 with
    | nil => exact absurd hp (join_split '.' x.1).2
    | cons z zs => simp
  unfold target at e
  split at e
  · split at e
    · exact pathOf_inj (List.append_cancel_right e)
    · exact absurd e (hval a b hb)
  · split at e
    · exact absurd e.symm (hval b a ha)
    · exact pathOf_inj e

/-- **C73**: in a parameter object the samples of every name are at its path, or at `value` below it when there are names below; nothing else
is set except the objects on the way -/
theorem setParams_spec {cols : List (Str × List K)} (h : Clean cols) :
    (∀ p ∈ cols, ¬ IsNode cols (pathOf p.1) → Dict.get? (setParams cols) (pathOf p.1) = some (.arr p.2)) ∧
    (∀ p ∈ cols, IsNode cols (pathOf p.1) → Dict.get? (setParams cols) (pathOf p.1 ++ [valueAttr]) = some (.arr p.2)) ∧
    (∀ q, Dict.get? (setParams cols) q = some .node ↔ IsNode cols q) ∧
    (∀ q v, Dict.get? (setParams cols) q = some (.arr v) → ∃ p ∈ cols, p.2 = v ∧ (q = pathOf p.1 ∨ q = pathOf p.1 ++ [valueAttr])) := by
  have h1 := pass1_get cols []
  simp only [Dict.get?_nil] at h1
  have hN : ∀ q, IsNode cols q ↔ Dict.get? (cols.foldl (fun (d : Attrs K) p => ensure d (pathOf p.1)) []) q = some .node := by
    intro q
    rw [h1]
    split <;> simp_all
  have hnd : (cols.map (fun p => target (IsNode cols) p.1)).Nodup := by
    have := h.nodup
    rw [List.Nodup, List.pairwise_map] at this ⊢
    exact this.imp_of_mem (fun {a b} ha hb hab e => hab (target_inj h ha hb e))
  obtain ⟨g1, g2⟩ := pass2_get (IsNode cols) cols _ hN (fun p hp q hq => ⟨p, hp, hq⟩) hnd (fun p _ => target_not_node h p.1)
  have hS : setParams cols = cols.foldl (fun d p => place (ensure d (pathOf p.1)) (pathOf p.1) p.2) (cols.foldl (fun d p => ensure d (pathOf p.1)) []) := rfl
  rw [← hS] at g1 g2
  refine ⟨?_, ?_, ?_, ?_⟩
  · intro p hp hn
    have := g1 p hp
    unfold target at this
    rwa [if_neg hn] at this
  · intro p hp hn
    have := g1 p hp
    unfold target at this
    rwa [if_pos hn] at this
  · intro q
    by_cases hq : q ∈ cols.map (fun p => target (IsNode cols) p.1)
    · obtain ⟨p, hp, rfl⟩ := List.mem_map.mp hq
      rw [g1 p hp]
      have := target_not_node h p.1
      simp [this]
    · rw [g2 q hq]; exact (hN q).symm
  · intro q v hv
    by_cases hq : q ∈ cols.map (fun p => target (IsNode cols) p.1)
    · obtain ⟨p, hp, rfl⟩ := List.mem_map.mp hq
      rw [g1 p hp] at hv
      simp only [Option.some.injEq, Val.arr.injEq] at hv
      refine ⟨p, hp, hv, ?_⟩
      unfold target
      split
      · right; rfl
      · left; rfl
    · rw [g2 q hq, h1] at hv
      split at hv <;> simp at hv

example : Dict.get? (setParams [(c!"a.b", [1]), (c!"a", [2]), (c!"c", [(3 : Nat)])]) [c!"a", c!"value"] = some (.arr [2]) ∧
    Dict.get? (setParams [(c!"a.b", [1]), (c!"a", [2]), (c!"c", [(3 : Nat)])]) [c!"a", c!"b"] = some (.arr [1]) := by decide +kernel

/-- a parameter called `a.value` besides `a` and `a.b` is lost -/
theorem value_name_fails : let d := setParams [(c!"a.value", [1]), (c!"a.b", [5]), (c!"a", [(2 : Nat)])]
    Dict.get? d [c!"a", c!"value"] = some (.arr [2]) ∧ ¬ ∃ e ∈ d, e.2 = .arr [1] := by decide +kernel

theorem keys_plain (cols : List (Str × List K)) : ∀ q ∈ Dict.keys (setParams cols), ∀ x ∈ q, '.' ∉ x := by
  have hens : ∀ (d : Attrs K) (n : Str), (∀ q ∈ Dict.keys d, ∀ x ∈ q, '.' ∉ x) → ∀ q ∈ Dict.keys (ensure d (pathOf n)), ∀ x ∈ q, '.' ∉ x := by
    intro d n hd q hq
    unfold ensure at hq
    have hL : ∀ y ∈ (List.range' 1 ((pathOf n).length - 1)).map (fun k => (pathOf n).take k), ∀ x ∈ y, '.' ∉ x := by
      intro y hy x hx
      obtain ⟨k, _, rfl⟩ := List.mem_map.mp hy
      exact ChainGrid.not_mem_splitChar (List.mem_of_mem_take hx)
    revert hq hd hL
    generalize (List.range' 1 ((pathOf n).length - 1)).map (fun k => (pathOf n).take k) = L
    induction L generalizing d with
    | nil => intro hd hq _; exact hd q hq
    | cons y L ih =>
      intro hd hq hL
      rw [List.foldl_cons] at hq
      refine ih _ ?_ hq (fun z hz => hL z (List.mem_cons_of_mem _ hz))
      intro z hz
      split at hz
      · exact hd z hz
      · rcases Dict.mem_keys_set.mp hz with rfl | hz
        · exact hL _ List.mem_cons_self
        · exact hd z hz
  have hplace : ∀ (d : Attrs K) (n : Str) (v : List K), (∀ q ∈ Dict.keys d, ∀ x ∈ q, '.' ∉ x) → ∀ q ∈ Dict.keys (place d (pathOf n) v), ∀ x ∈ q, '.' ∉ x := by
    intro d n v hd q hq x hx
    have hp : ∀ x ∈ pathOf n, '.' ∉ x := fun x hx => ChainGrid.not_mem_splitChar hx
    have : q = pathOf n ++ [valueAttr] ∨ q = pathOf n ∨ q ∈ Dict.keys d := by
      unfold place at hq
      split at hq
      · rcases Dict.mem_keys_set.mp hq with rfl | hq
        · left; rfl
        · right; right; exact hq
      · rcases Dict.mem_keys_set.mp hq with rfl | hq
        · right; left; rfl
        · right; right; exact hq
    rcases this with rfl | rfl | hq
    · rcases List.mem_append.mp hx with hx | hx
      · exact hp x hx
      · rw [List.mem_singleton] at hx; subst hx; decide
    · exact hp x hx
    · exact hd q hq x hx
  have h1 : ∀ (l : List (Str × List K)) (d : Attrs K), (∀ q ∈ Dict.keys d, ∀ x ∈ q, '.' ∉ x) →
      ∀ q ∈ Dict.keys (l.foldl (fun d p => ensure d (pathOf p.1)) d), ∀ x ∈ q, '.' ∉ x := by
    intro l
    induction l with
    | nil => intro d hd; exact hd
    | cons p l ih => intro d hd; rw [List.foldl_cons]; exact ih _ (hens d p.1 hd)
  have h2 : ∀ (l : List (Str × List K)) (d : Attrs K), (∀ q ∈ Dict.keys d, ∀ x ∈ q, '.' ∉ x) →
      ∀ q ∈ Dict.keys (l.foldl (fun d p => place (ensure d (pathOf p.1)) (pathOf p.1) p.2) d), ∀ x ∈ q, '.' ∉ x := by
    intro l
    induction l with
    | nil => intro d hd; exact hd
    | cons p l ih => intro d hd; rw [List.foldl_cons]; exact ih _ (hplace _ p.1 p.2 (hens d p.1 hd))
  exact h2 cols _ (h1 cols [] (by simp))

end attrs

/-! ## Combined samples -/

section combine
variable {K : Type} [Field K] [LinearOrder K] [IsStrictOrderedRing K] [FloorRing K]

/-- the columns of a sample by name -/
def named (s : MC K) : List (Str × List K) := s.names.zipIdx.map (fun p => (p.1.name, s.samples.col p.2))

/-- the samples of a parameter can be reached by its name -/
def Reach (s : MC K) (n : Str) : Prop := '.' ∉ n ∧ ¬ IsNode (named s) [n]

theorem named_mem {s : MC K} {i : Nat} {p : ParamNames.Info} (h : s.names[i]? = some p) : (p.name, s.samples.col i) ∈ named s := by
  unfold named
  rw [List.mem_map]
  exact ⟨(p, i), List.mem_zipIdx_iff_getElem?.mpr h, rfl⟩

theorem getArr_spec {s : MC K} (h : Clean (named s)) {i : Nat} {p : ParamNames.Info} (hi : s.names[i]? = some p) (hr : Reach s p.name) :
    getArr (getParams s) p.name = .ok (s.samples.col i) := by
  have := (setParams_spec h).1 _ (named_mem hi)
  dsimp only at this
  rw [pathOf_plain hr.1] at this
  unfold getArr getParams
  rw [show setParams (s.names.zipIdx.map (fun p => (p.1.name, s.samples.col p.2))) = setParams (named s) from rfl, this hr.2]

theorem joinCols_spec {d1 d2 : Attrs K} {f g : Str → List K} : ∀ {ns : List Str}, (∀ n ∈ ns, getArr d1 n = .ok (f n) ∧ getArr d2 n = .ok (g n)) →
    joinCols d1 d2 ns = .ok (ns.map (fun n => f n ++ g n))
  | [], _ => rfl
  | n :: ns, h => by
    obtain ⟨h1, h2⟩ := h n List.mem_cons_self
    unfold joinCols
    rw [h1]; simp only []; rw [h2]; simp only []
    rw [joinCols_spec (fun n hn => h n (List.mem_cons_of_mem _ hn))]
    rfl

theorem joinCols_error {d1 d2 : Attrs K} : ∀ {ns : List Str}, (∃ n ∈ ns, ∃ e, getArr d1 n = .error e) → ∃ e, joinCols d1 d2 ns = .error e
  | [], h => by obtain ⟨n, hn, _⟩ := h; simp at hn
  | n :: ns, h => by
    unfold joinCols
    cases h1 : getArr d1 n with
    | error e => exact ⟨e, rfl⟩
    | ok a =>
      simp only []
      cases h2 : getArr d2 n with
      | error e => exact ⟨e, rfl⟩
      | ok b =>
        simp only []
        have : ∃ n ∈ ns, ∃ e, getArr d1 n = .error e := by
          obtain ⟨m, hm, e, he⟩ := h
          rcases List.mem_cons.mp hm with rfl | hm
          · rw [h1] at he; simp at he
          · exact ⟨m, hm, e, he⟩
        obtain ⟨e, he⟩ := joinCols_error (d2 := d2) this
        rw [he]; exact ⟨e, rfl⟩

theorem transpose_col {n : Nat} {cols : List (List K)} {j : Nat} {c : List K} (hj : cols[j]? = some c) (hc : c.length = n) : (transpose n cols).col j = c := by
  unfold transpose Arr2.col
  simp only [List.map_map]
  apply List.ext_getElem?
  intro i
  rw [List.getElem?_map]
  by_cases hi : i < n
  · rw [List.getElem?_range hi, Option.map_some]
    simp only [Function.comp_apply]
    rw [List.getD_eq_getElem?_getD, List.getElem?_map, hj, Option.map_some, Option.getD_some, List.getD_eq_getElem?_getD,
      List.getElem?_eq_getElem (by omega), Option.getD_some]
  · rw [List.getElem?_eq_none (by simp; omega), List.getElem?_eq_none (by omega)]; rfl

theorem col_length (a : Arr2 K) (i : Nat) : (a.col i).length = a.rows.length := by unfold Arr2.col; simp

theorem exists_index {l : List ParamNames.Info} {n : Str} (h : n ∈ l.map (·.name)) : ∃ (i : Nat) (p : ParamNames.Info), l[i]? = some p ∧ p.name = n := by
  obtain ⟨p, hp, rfl⟩ := List.mem_map.mp h
  obtain ⟨i, hi, e⟩ := List.mem_iff_getElem.mp hp
  exact ⟨i, p, by rw [List.getElem?_eq_getElem hi, e], rfl⟩

/-- samples that can be combined -/
structure Ready (s1 s2 : MC K) : Prop where
  clean1 : Clean (named s1)
  clean2 : Clean (named s2)
  reach : ∀ n, n ∈ s1.names.map (·.name) → n ∈ s2.names.map (·.name) → Reach s1 n ∧ Reach s2 n
  common : ∃ n, n ∈ s1.names.map (·.name) ∧ n ∈ s2.names.map (·.name)

/-- **C46**: the combination has exactly the common parameters, in the order of the second sample, and their columns are those of the two
samples one after the other, found by name -/
theorem combine_rows {s1 s2 : MC K} (h : Ready s1 s2) (sw : Option (K × K)) : ∃ m, combine s1 s2 sw = .ok m ∧
    m.names.map (·.name) = (s2.names.map (·.name)).filter (fun n => (s1.names.map (·.name)).contains n) ∧
    m.samples.rows.length = s1.samples.rows.length + s2.samples.rows.length ∧
    m.weights = combinedWeights s1.weights s2.weights sw ∧
    (∀ a b, s1.loglikes = some a → s2.loglikes = some b → m.loglikes = some (a ++ b)) ∧
    ∀ (i1 i2 j : Nat) (p1 p2 p : ParamNames.Info), s1.names[i1]? = some p1 → s2.names[i2]? = some p2 → m.names[j]? = some p → p1.name = p.name → p2.name = p.name →
      m.samples.col j = s1.samples.col i1 ++ s2.samples.col i2 ∧ p.label = p2.label ∧ p.isDerived = p2.isDerived := by
  have hnames : (commonNames s1 s2).map (·.name) = (s2.names.map (·.name)).filter (fun n => (s1.names.map (·.name)).contains n) := by
    unfold commonNames
    rw [List.map_map, List.filter_map]
    rfl
  -- columns by name
  let f : MC K → Str → List K := fun s n => match getArr (getParams s) n with | .ok v => v | .error _ => []
  have hget : ∀ n ∈ (commonNames s1 s2).map (·.name), getArr (getParams s1) n = .ok (f s1 n) ∧ getArr (getParams s2) n = .ok (f s2 n) := by
    intro n hn
    rw [hnames, List.mem_filter, List.contains_iff_mem] at hn
    obtain ⟨r1, r2⟩ := h.reach n hn.2 hn.1
    obtain ⟨i1, p1, h1, e1⟩ := exists_index hn.2
    obtain ⟨i2, p2, h2, e2⟩ := exists_index hn.1
    have g1 := getArr_spec h.clean1 h1 (by rw [e1]; exact r1)
    have g2 := getArr_spec h.clean2 h2 (by rw [e2]; exact r2)
    rw [e1] at g1
    rw [e2] at g2
    exact ⟨by simp only [f, g1], by simp only [f, g2]⟩
  have hj := joinCols_spec hget
  have hne : ((commonNames s1 s2).map (·.name)).map (fun n => f s1 n ++ f s2 n) ≠ [] := by
    obtain ⟨n, n1, n2⟩ := h.common
    have : n ∈ (commonNames s1 s2).map (·.name) := by
      rw [hnames, List.mem_filter, List.contains_iff_mem]; exact ⟨n2, n1⟩
    intro e
    rw [List.map_eq_nil_iff] at e
    rw [e] at this; simp at this
  refine ⟨_, by unfold combine; simp only []; rw [hj]; simp only []; rw [if_neg hne], hnames, by unfold transpose; simp, rfl, ?_, ?_⟩
  · intro a b ha hb; simp only [ha, hb]
  · intro i1 i2 j p1 p2 p h1 h2 hp e1 e2
    have hpm : p.name ∈ (commonNames s1 s2).map (·.name) := by
      have hpl : p ∈ commonNames s1 s2 := List.mem_of_getElem? hp
      exact List.mem_map.mpr ⟨p, hpl, rfl⟩
    have hpm' := hpm
    rw [hnames, List.mem_filter, List.contains_iff_mem] at hpm'
    obtain ⟨r1, r2⟩ := h.reach _ hpm'.2 hpm'.1
    have g1 := getArr_spec h.clean1 h1 (by rw [e1]; exact r1)
    have g2 := getArr_spec h.clean2 h2 (by rw [e2]; exact r2)
    rw [e1] at g1
    rw [e2] at g2
    have f1 : f s1 p.name = s1.samples.col i1 := by simp only [f, g1]
    have f2 : f s2 p.name = s2.samples.col i2 := by simp only [f, g2]
    refine ⟨?_, ?_⟩
    · refine transpose_col ?_ (by simp [col_length])
      rw [List.getElem?_map, List.getElem?_map, hp, Option.map_some, Option.map_some, f1, f2]
    · have hmem := List.mem_of_getElem? hp
      unfold commonNames at hmem
      obtain ⟨p', hp', rfl⟩ := List.mem_map.mp hmem
      have hp'2 := (List.mem_filter.mp hp').1
      -- names of the second sample are distinct
      have hnd : (s2.names.map (·.name)).Nodup := by
        have := h.clean2.nodup
        unfold named at this
        rw [List.map_map] at this
        have e : (List.map ((fun x : Str × List K => x.1) ∘ fun p : ParamNames.Info × Nat => (p.1.name, s2.samples.col p.2)) s2.names.zipIdx) = s2.names.map (·.name) := by
          rw [show ((fun x : Str × List K => x.1) ∘ fun p : ParamNames.Info × Nat => (p.1.name, s2.samples.col p.2)) = (fun p : ParamNames.Info => p.name) ∘ Prod.fst from rfl,
            ← List.map_map, List.zipIdx_map_fst]
        rwa [e] at this
      have hpp : p2 = p' := List.inj_on_of_nodup_map hnd (List.mem_of_getElem? h2) hp'2 e2
      subst hpp
      exact ⟨rfl, rfl⟩

theorem sum_map_mul (l : List K) (a : K) : (l.map (· * a)).sum = l.sum * a := by
  have := List.sum_map_mul_right l (fun x => x) a
  simpa using this

/-- **C46**: the two samples have the requested shares of the total weight -/
theorem combined_shares {w1 w2 : List K} {a b : K} (h2 : w2.sum ≠ 0) :
    combinedWeights w1 w2 (some (a, b)) = w1.map (· * a) ++ w2.map (fun w => w * b * (w1.sum / w2.sum)) ∧
    ((combinedWeights w1 w2 (some (a, b))).take w1.length).sum = a * w1.sum ∧ ((combinedWeights w1 w2 (some (a, b))).drop w1.length).sum = b * w1.sum := by
  have hl : (w1.map (· * a)).length = w1.length := by simp
  refine ⟨rfl, ?_, ?_⟩
  · unfold combinedWeights
    simp only []
    rw [List.take_left' hl, sum_map_mul, mul_comm]
  · unfold combinedWeights
    simp only []
    rw [List.drop_left' hl]
    have : (fun w : K => w * b * (w1.sum / w2.sum)) = (fun w => w * (b * (w1.sum / w2.sum))) := by funext w; ring
    rw [this, sum_map_mul]
    field_simp

example : combinedWeights [1, 3] [2, (2 : ℚ)] (some (1 / 4, 3 / 4)) = [1 / 4, 3 / 4, 3 / 2, 3 / 2] := by decide +kernel

/-- without weights the samples are appended unchanged -/
theorem combined_plain (w1 w2 : List K) : combinedWeights w1 w2 none = w1 ++ w2 := by
  unfold combinedWeights; simp

example : combinedWeights [1, 3] [2, (5 : ℚ)] none = [1, 3, 2, 5] := by decide +kernel

/-- weighted mean of a column -/
def mean (w c : List K) : K := (List.zipWith (· * ·) w c).sum / w.sum

theorem dot_scale (w c : List K) (t : K) : (List.zipWith (· * ·) (w.map (· * t)) c).sum = t * (List.zipWith (· * ·) w c).sum := by
  induction w generalizing c with
  | nil => simp
  | cons x w ih =>
    cases c with
    | nil => simp
    | cons y c => simp only [List.map_cons, List.zipWith_cons_cons, List.sum_cons, ih]; ring

/-- **C46**: the mean of every parameter is the mean of the two means with the requested weights, whatever the sizes of the samples -/
theorem combined_mean {w1 w2 c1 c2 : List K} {a b : K} (hl : w1.length = c1.length) (h1 : w1.sum ≠ 0) (h2 : w2.sum ≠ 0) (hab : a + b ≠ 0) :
    mean (combinedWeights w1 w2 (some (a, b))) (c1 ++ c2) = (a * mean w1 c1 + b * mean w2 c2) / (a + b) := by
  have e : (fun w : K => w * b * (w1.sum / w2.sum)) = (fun w => w * (b * (w1.sum / w2.sum))) := by funext w; ring
  have hz : (List.zipWith (· * ·) (combinedWeights w1 w2 (some (a, b))) (c1 ++ c2)).sum =
      a * (List.zipWith (· * ·) w1 c1).sum + b * (w1.sum / w2.sum) * (List.zipWith (· * ·) w2 c2).sum := by
    unfold combinedWeights
    simp only []
    rw [List.zipWith_append (by simpa using hl), List.sum_append, dot_scale, e, dot_scale]
  have hs : (combinedWeights w1 w2 (some (a, b))).sum = (a + b) * w1.sum := by
    unfold combinedWeights
    simp only []
    rw [List.sum_append, e, sum_map_mul, sum_map_mul]
    field_simp
  unfold mean
  rw [hz, hs]
  field_simp

example : mean (combinedWeights [1, 3] [2, 2] (some (1 / 4, 3 / 4))) ([0, 4] ++ [1, 3]) = (1 / 4 * 3 + 3 / 4 * 2 : ℚ) / (1 / 4 + 3 / 4) := by decide +kernel

/-- the constructor keeps all rows when no weight is below the ratio -/
theorem build_keeps {m : MC K} {ratio : Option K} (h : ∀ r, ratio = some r → ∀ w ∈ m.weights, ∀ v ∈ m.weights, v * r ≤ w) (h0 : m.weights ≠ []) :
    ∃ c, build ratio m = .ok c ∧ c.ws.weights = some m.weights ∧ c.ws.samples = some m.samples ∧ c.ws.loglikes = m.loglikes ∧ c.names = m.names := by
  have hmax : ∃ mx, Np.max? m.weights = .ok mx ∧ mx ∈ m.weights := by
    cases hw : m.weights with
    | nil => exact absurd hw h0
    | cons x l =>
      refine ⟨l.foldl max x, rfl, ?_⟩
      clear h0 hw h
      induction l generalizing x with
      | nil => simp
      | cons y l ih =>
        rw [List.foldl_cons]
        rcases List.mem_cons.mp (ih (max x y)) with h | h
        · rcases max_choice x y with h' | h'
          · rw [h, h']; simp
          · rw [h, h']; simp
        · exact List.mem_cons_of_mem _ (List.mem_cons_of_mem _ h)
  have hmin : ∃ mn, Np.min? m.weights = .ok mn ∧ mn ∈ m.weights := by
    cases hw : m.weights with
    | nil => exact absurd hw h0
    | cons x l =>
      refine ⟨l.foldl min x, rfl, ?_⟩
      clear h0 hw h hmax
      induction l generalizing x with
      | nil => simp
      | cons y l ih =>
        rw [List.foldl_cons]
        rcases List.mem_cons.mp (ih (min x y)) with h | h
        · rcases min_choice x y with h' | h'
          · rw [h, h']; simp
          · rw [h, h']; simp
        · exact List.mem_cons_of_mem _ (List.mem_cons_of_mem _ h)
  obtain ⟨mx, hx1, hx2⟩ := hmax
  obtain ⟨mn, hn1, hn2⟩ := hmin
  unfold build loadSingle Chains.setSamples
  cases ratio with
  | none => exact ⟨_, rfl, rfl, rfl, rfl, rfl⟩
  | some r =>
    have hle := h r rfl mn hn2 mx hx2
    refine ⟨{ ws := weightsChanged (assign { minWeightRatio := some r } m.samples (some m.weights) m.loglikes), names := m.names }, ?_, rfl, rfl, rfl, rfl⟩
    by_cases hr : 0 ≤ r
    · have key : ∀ c : CH K, c.ws.weights = some m.weights → Chains.setMinWeightRatio c r = .ok c := by
        intro c hc
        unfold Chains.setMinWeightRatio
        rw [hc]
        simp only [if_pos hr, hx1, hn1, bind, Except.bind, if_neg (not_lt.mpr hle), pure, Except.pure]
      simp only [assign, if_pos hr]
      rw [key _ rfl]
      rfl
    · simp only [assign, if_neg hr, bind, Except.bind, pure, Except.pure]

/-- samples with a common parameter whose name has a dot cannot be combined -/
theorem dotted_fails {s1 s2 : MC K} {n : Str} (h1 : n ∈ s1.names.map (·.name)) (h2 : n ∈ s2.names.map (·.name)) (hd : '.' ∈ n) (sw : Option (K × K)) :
    ∃ e, combine s1 s2 sw = .error e := by
  have hnames : (commonNames s1 s2).map (·.name) = (s2.names.map (·.name)).filter (fun n => (s1.names.map (·.name)).contains n) := by
    unfold commonNames
    rw [List.map_map, List.filter_map]
    rfl
  have hg : getArr (getParams s1) n = .error .attributeError := by
    have : Dict.get? (getParams s1) [n] = none := by
      rw [Dict.get?_eq_none]
      intro hk
      exact keys_plain _ _ hk n (by simp) hd
    unfold getArr; rw [this]
  have hm : n ∈ (commonNames s1 s2).map (·.name) := by
    rw [hnames, List.mem_filter, List.contains_iff_mem]; exact ⟨h2, h1⟩
  obtain ⟨e, he⟩ := joinCols_error (d2 := getParams s2) ⟨n, hm, _, hg⟩
  refine ⟨e, ?_⟩
  unfold combine
  simp only [he]

def exA : MC ℚ := ⟨[{ name := c!"x" }, { name := c!"y" }], ⟨2, [[1, 2], [3, 4]]⟩, [1, 1], some [0, 1]⟩
def exB : MC ℚ := ⟨[{ name := c!"z" }, { name := c!"y", label := c!"Y" }, { name := c!"x" }], ⟨3, [[0, 5, 6]]⟩, [4], none⟩

example : (combine exA exB (some (1, 3))).toOption.map (fun m => (m.names.map (·.name), m.samples, m.weights, m.loglikes)) =
    some ([c!"y", c!"x"], ⟨2, [[2, 1], [4, 3], [5, 6]]⟩, [1, 1, 6], none) := by decide +kernel

end combine

end Verif.Combine
