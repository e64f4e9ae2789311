import Verif.Model.SampleDict
import Verif.Props.Bounds
import Verif.Props.Combine
import Verif.Props.BatchArgs
import Mathlib.Data.List.Nodup
import Mathlib.Tactic.Ring
import Mathlib.Tactic.FieldSimp
import Mathlib.Algebra.BigOperators.Group.List.Basic
import Mathlib.Algebra.BigOperators.Ring.List

/-!
# Parameter objects and dictionaries of samples, joined samples, saved metadata
-/

namespace Verif.SampleDict
set_option linter.unusedSimpArgs false
set_option linter.unusedSectionVars false
open Verif.Py Verif.ParamNames

/-! ## Objects with attributes -/

theorem has_iff {κ ν : Type} [DecidableEq κ] (d : Dict κ ν) (k : κ) : d.has k = true ↔ ∃ v, d.get? k = some v := by
  unfold Dict.has
  exact Option.isSome_iff_exists

/-- only objects so far -/
def AllObj (t : Tree) : Prop := ∀ q e, t.get? q = some e → e = .obj

/-- a proper beginning of a path -/
def Begins (a path : Path) : Prop := a ≠ [] ∧ ∃ b, b ≠ [] ∧ path = a ++ b

theorem makeObjs_spec : ∀ (path : Path) (t : Tree) (pre : Path), AllObj t → AllObj (makeObjs t pre path) ∧
    ∀ q, (makeObjs t pre path).get? q = some .obj ↔ t.get? q = some .obj ∨ ∃ a, Begins a path ∧ q = pre ++ a
  | [], t, pre, h => ⟨h, fun q => by
      simp only [makeObjs]
      constructor
      · exact Or.inl
      · rintro (h | ⟨a, ⟨ha, b, hb, he⟩, _⟩)
        · exact h
        · simp at he; exact absurd he.1 ha⟩
  | [p], t, pre, h => ⟨h, fun q => by
      simp only [makeObjs]
      constructor
      · exact Or.inl
      · rintro (h | ⟨a, ⟨ha, b, hb, he⟩, _⟩)
        · exact h
        · have := congrArg List.length he
          simp at this
          have h1 := List.length_pos_of_ne_nil ha
          have h2 := List.length_pos_of_ne_nil hb
          omega⟩
  | p :: p2 :: rest, t, pre, h => by
    have h1 : AllObj (if t.has (pre ++ [p]) then t else t.set (pre ++ [p]) .obj) := by
      split
      · exact h
      · intro q e hq
        by_cases hk : q = pre ++ [p]
        · subst hk; rw [Dict.get?_set_self] at hq; cases hq; rfl
        · rw [Dict.get?_set_of_ne _ _ hk] at hq; exact h q e hq
    have h2 : ∀ q, (if t.has (pre ++ [p]) then t else t.set (pre ++ [p]) .obj).get? q = some .obj ↔ t.get? q = some .obj ∨ q = pre ++ [p] := by
      intro q
      split
      · rename_i hh
        constructor
        · exact Or.inl
        · rintro (h | rfl)
          · exact h
          · obtain ⟨v, hv⟩ := (has_iff _ _).mp hh
            rw [hv, h _ _ hv]
      · by_cases hk : q = pre ++ [p]
        · subst hk; simp [Dict.get?_set_self]
        · rw [Dict.get?_set_of_ne _ _ hk]; simp [hk]
    obtain ⟨i1, i2⟩ := makeObjs_spec (p2 :: rest) _ (pre ++ [p]) h1
    refine ⟨i1, fun q => ?_⟩
    rw [makeObjs, i2, h2]
    constructor
    · rintro ((h | h) | ⟨a, ⟨ha, b, hb, he⟩, rfl⟩)
      · exact Or.inl h
      · exact Or.inr ⟨[p], ⟨by simp, p2 :: rest, by simp, rfl⟩, h⟩
      · exact Or.inr ⟨p :: a, ⟨by simp, b, hb, by rw [he]; rfl⟩, by simp⟩
    · rintro (h | ⟨a, ⟨ha, b, hb, he⟩, rfl⟩)
      · exact Or.inl (Or.inl h)
      · cases a with
        | nil => exact absurd rfl ha
        | cons x a =>
          simp only [List.cons_append, List.cons.injEq] at he
          obtain ⟨rfl, he⟩ := he
          cases a with
          | nil => exact Or.inl (Or.inr rfl)
          | cons y a => exact Or.inr ⟨y :: a, ⟨by simp, b, hb, he⟩, by simp⟩

/-- **First pass**: an object for every proper beginning of a name. -/
theorem pass1_spec (names : List Str) (t : Tree) (h : AllObj t) : AllObj (pass1 t names) ∧
    ∀ q, (pass1 t names).get? q = some .obj ↔ t.get? q = some .obj ∨ ∃ n ∈ names, Begins q (pathOf n) := by
  induction names generalizing t with
  | nil => exact ⟨h, fun q => by simp [pass1]⟩
  | cons n names ih =>
    obtain ⟨h1, h2⟩ := makeObjs_spec (pathOf n) t [] h
    obtain ⟨h3, h4⟩ := ih (makeObjs t [] (pathOf n)) h1
    refine ⟨h3, fun q => ?_⟩
    have e : pass1 t (n :: names) = pass1 (makeObjs t [] (pathOf n)) names := rfl
    rw [e, h4, h2]
    simp only [List.nil_append, List.exists_mem_cons_iff]
    constructor
    · rintro ((h | ⟨a, ha, rfl⟩) | h)
      · exact Or.inl h
      · exact Or.inr (Or.inl ha)
      · exact Or.inr (Or.inr h)
    · rintro (h | h | h)
      · exact Or.inl (Or.inl h)
      · exact Or.inl (Or.inr ⟨q, h, rfl⟩)
      · exact Or.inr h

theorem reach_iff : ∀ (path pre : Path) (t : Tree), reach t pre path = true ↔ ∀ a, Begins a path → t.get? (pre ++ a) = some .obj
  | [], pre, t => by
    simp only [reach, true_iff]
    rintro a ⟨ha, b, hb, he⟩
    simp at he; exact absurd he.1 ha
  | [p], pre, t => by
    simp only [reach, true_iff]
    rintro a ⟨ha, b, hb, he⟩
    have := congrArg List.length he
    simp at this
    have h1 := List.length_pos_of_ne_nil ha
    have h2 := List.length_pos_of_ne_nil hb
    omega
  | p :: p2 :: rest, pre, t => by
    rw [reach, Bool.and_eq_true, reach_iff (p2 :: rest) (pre ++ [p]) t, beq_iff_eq]
    constructor
    · rintro ⟨h1, h2⟩ a ⟨ha, b, hb, he⟩
      cases a with
      | nil => exact absurd rfl ha
      | cons x a =>
        simp only [List.cons_append, List.cons.injEq] at he
        obtain ⟨rfl, he⟩ := he
        cases a with
        | nil => exact h1
        | cons y a =>
          have := h2 (y :: a) ⟨by simp, b, hb, he⟩
          simpa using this
    · intro h
      refine ⟨h [p] ⟨by simp, p2 :: rest, by simp, rfl⟩, ?_⟩
      rintro a ⟨ha, b, hb, he⟩
      have := h (p :: a) ⟨by simp, b, hb, by rw [he]; rfl⟩
      simpa using this

/-- a name that is the beginning of another one -/
def Inner (names : List Str) (n : Str) : Prop := ∃ m ∈ names, Begins (pathOf n) (pathOf m)

/-- where the vector of a parameter should be: at its name, or, if there are parameters below it, at `value` there -/
def Target (names : List Str) (n : Str) (q : Path) : Prop := (Inner names n ∧ q = pathOf n ++ [c!"value"]) ∨ (¬ Inner names n ∧ q = pathOf n)

/-- no name uses `value` below another one that needs it -/
def NoValue (names : List Str) : Prop := ∀ n ∈ names, Inner names n → ∀ m ∈ names, ¬ (pathOf n ++ [c!"value"]) <+: pathOf m

theorem pathOf_ne (n : Str) : pathOf n ≠ [] := (Combine.join_split '.' n).2
theorem pathOf_inj {n m : Str} (h : pathOf n = pathOf m) : n = m := by
  have h1 := (Combine.join_split '.' n).1
  have h2 := (Combine.join_split '.' m).1
  unfold pathOf at h
  rw [h] at h1
  rw [← h1, h2]

theorem pass2_spec (names : List Str) (hv : NoValue names) : ∀ (l : List (Str × Nat)) (t : Tree), (∀ p ∈ l, p.1 ∈ names) → (l.map (·.1)).Nodup →
    (∀ q, t.get? q = some .obj ↔ ∃ n ∈ names, Begins q (pathOf n)) →
    ∃ t', pass2 t l = .ok t' ∧ (∀ q, t'.get? q = some .obj ↔ ∃ n ∈ names, Begins q (pathOf n)) ∧
      (∀ p ∈ l, ∀ q, Target names p.1 q → t'.get? q = some (.vec p.2)) ∧ (∀ q, (∀ p ∈ l, ¬ Target names p.1 q) → t'.get? q = t.get? q)
  | [], t, _, _, h => ⟨t, rfl, h, by simp, fun q _ => rfl⟩
  | (n, i) :: l, t, hn, hnd, h => by
    have hnn : n ∈ names := hn (n, i) (by simp)
    rw [List.map_cons, List.nodup_cons] at hnd
    -- the place of this one
    obtain ⟨T, hT, hplace, hnot⟩ : ∃ T, Target names n T ∧ place t (pathOf n) i = .ok (t.set T (.vec i)) ∧ ¬ ∃ m ∈ names, Begins T (pathOf m) := by
      have hr : reach t [] (pathOf n) = true := by
        rw [reach_iff]
        intro a ha
        rw [List.nil_append, h]
        exact ⟨n, hnn, ha⟩
      by_cases hin : Inner names n
      · refine ⟨pathOf n ++ [c!"value"], Or.inl ⟨hin, rfl⟩, ?_, ?_⟩
        · unfold place
          rw [if_pos hr, (h (pathOf n)).mpr hin]
        · rintro ⟨m, hm, _, b, hb, he⟩
          exact hv n hnn hin m hm ⟨b, he.symm⟩
      · refine ⟨pathOf n, Or.inr ⟨hin, rfl⟩, ?_, hin⟩
        unfold place
        rw [if_pos hr]
        have : t.get? (pathOf n) ≠ some .obj := fun he => hin ((h _).mp he)
        split
        · rename_i he; exact absurd he this
        · rfl
    have hobj : ∀ q, (t.set T (.vec i)).get? q = some .obj ↔ ∃ n ∈ names, Begins q (pathOf n) := by
      intro q
      by_cases hq : q = T
      · subst hq
        rw [Dict.get?_set_self]
        simp only [Option.some.injEq, reduceCtorEq, false_iff]
        exact hnot
      · rw [Dict.get?_set_of_ne _ _ hq]; exact h q
    obtain ⟨t', h1, h2, h3, h4⟩ := pass2_spec names hv l (t.set T (.vec i)) (fun p hp => hn p (by simp [hp])) hnd.2 hobj
    have huniq : ∀ q, Target names n q → q = T := by
      intro q hq
      rcases hq with ⟨a, b⟩ | ⟨a, b⟩ <;> rcases hT with ⟨c, d⟩ | ⟨c, d⟩
      · rw [b, d]
      · exact absurd a c
      · exact absurd c a
      · rw [b, d]
    have hdiff : ∀ p ∈ l, ¬ Target names p.1 T := by
      intro p hp ht
      have hpn : p.1 ∈ names := hn p (by simp [hp])
      have hne : p.1 ≠ n := fun he => hnd.1 (List.mem_map.mpr ⟨p, hp, he⟩)
      rcases ht with ⟨a, b⟩ | ⟨a, b⟩ <;> rcases hT with ⟨c, d⟩ | ⟨c, d⟩
      · rw [b] at d
        exact hne (pathOf_inj (List.append_cancel_right d))
      · rw [b] at d
        exact hv p.1 hpn a n hnn ⟨[], by rw [List.append_nil]; exact d⟩
      · rw [b] at d
        exact hv n hnn c p.1 hpn ⟨[], by rw [List.append_nil]; exact d.symm⟩
      · rw [b] at d
        exact hne (pathOf_inj d)
    refine ⟨t', ?_, h2, ?_, ?_⟩
    · rw [pass2, hplace]; exact h1
    · intro p hp q hq
      rcases List.mem_cons.mp hp with rfl | hp
      · have := huniq q hq
        subst this
        rw [h4 q hdiff, Dict.get?_set_self]
      · exact h3 p hp q hq
    · intro q hq
      rw [h4 q (fun p hp => hq p (by simp [hp])), Dict.get?_set_of_ne]
      intro he
      subst he
      exact hq (n, i) (by simp) hT

theorem getParams_tree (names : List Str) (hnd : names.Nodup) (hv : NoValue names) : ∃ t, getParams names = .ok t ∧
    (∀ q, t.get? q = some .obj ↔ ∃ n ∈ names, Begins q (pathOf n)) ∧ ∀ (i : Nat) (n : Str), names[i]? = some n → ∀ q, Target names n q → t.get? q = some (.vec i) := by
  have h1 := pass1_spec names [] (fun q e h => by simp [Dict.get?] at h)
  have hl : (names.zipIdx.map (·.1)) = names := by
    rw [List.zipIdx_map_fst]
  obtain ⟨t, a, b, c, _⟩ := pass2_spec names hv names.zipIdx (pass1 [] names) (by
      intro p hp
      exact (List.mem_of_getElem? (List.mem_zipIdx_iff_getElem?.mp (show (p.1, p.2) ∈ names.zipIdx from hp)))) (by rw [hl]; exact hnd) (by
      intro q
      rw [h1.2]
      simp [Dict.get?])
  exact ⟨t, a, b, fun i n hi q hq => c (n, i) (List.mem_zipIdx_iff_getElem?.mpr hi) q hq⟩

/-- **Parameters as attributes**: every parameter is found under its name, `obj.a.b` for the name `a.b`; if there are also parameters below the name, at
`value` there. -/
theorem getParams_spec (names : List Str) (hnd : names.Nodup) (hv : NoValue names) : ∃ t, getParams names = .ok t ∧ ∀ (i : Nat) (n : Str), names[i]? = some n →
    (¬ Inner names n → getPath t (pathOf n) = .ok (.vec i)) ∧ (Inner names n → getPath t (pathOf n ++ [c!"value"]) = .ok (.vec i)) := by
  obtain ⟨t, h1, h2, h3⟩ := getParams_tree names hnd hv
  refine ⟨t, h1, fun i n hi => ⟨fun hin => ?_, fun hin => ?_⟩⟩
  · have hr : reach t [] (pathOf n) = true := by
      rw [reach_iff]
      intro a ha
      rw [List.nil_append, h2]
      exact ⟨n, List.mem_of_getElem? hi, ha⟩
    unfold getPath
    rw [if_pos hr, h3 i n hi _ (Or.inr ⟨hin, rfl⟩)]
  · have hr : reach t [] (pathOf n ++ [c!"value"]) = true := by
      rw [reach_iff]
      rintro a ⟨ha, b, hb, he⟩
      rw [List.nil_append, h2]
      obtain ⟨x, b', rfl⟩ : ∃ x b', b = b' ++ [x] := ⟨b.getLast hb, b.dropLast, (List.dropLast_append_getLast hb).symm⟩
      rw [← List.append_assoc] at he
      have he2 := List.append_inj_left' he rfl
      cases b' with
      | nil =>
        rw [List.append_nil] at he2
        rw [← he2]
        exact hin
      | cons y b' => exact ⟨n, List.mem_of_getElem? hi, ha, y :: b', by simp, he2⟩
    unfold getPath
    rw [if_pos hr, h3 i n hi _ (Or.inl ⟨hin, rfl⟩)]

example : (getParams [c!"H0", c!"Omega.b", c!"Omega", c!"Omega.c"]).toOption.map (fun t => (getPath t [c!"Omega", c!"c"], getPath t [c!"Omega", c!"value"], getPath t [c!"H0"])) =
    some (.ok (.vec 3), .ok (.vec 2), .ok (.vec 0)) := by decide +kernel

/-- the full statement: every parameter is found -/
def AllFound : Prop := ∀ names : List Str, names.Nodup → ∃ t, getParams names = .ok t ∧ ∀ (i : Nat) (n : Str), names[i]? = some n →
  (¬ Inner names n → getPath t (pathOf n) = .ok (.vec i)) ∧ (Inner names n → getPath t (pathOf n ++ [c!"value"]) = .ok (.vec i))

/-- A parameter `a` and a parameter `a.value` have the same place: only the later one is found (chains.py:1243-1246). -/
theorem value_fails : ¬ AllFound := by
  intro h
  obtain ⟨t, h1, h2⟩ := h [c!"a", c!"a.value"] (by decide)
  have ht : t = [([c!"a"], .obj), ([c!"a", c!"value"], .vec 1)] := by
    have e : getParams [c!"a", c!"a.value"] = .ok [([c!"a"], .obj), ([c!"a", c!"value"], .vec 1)] := by decide +kernel
    rw [e] at h1
    cases h1
    rfl
  have := (h2 0 c!"a" rfl).2 ⟨c!"a.value", by simp, by decide, [c!"value"], by decide, by decide⟩
  subst ht
  revert this
  decide +kernel

/-! ### names without dots -/

theorem pathOf_plain {n : Str} (h : '.' ∉ n) : pathOf n = [n] := by
  unfold pathOf
  induction n with
  | nil => rfl
  | cons c n ih =>
    have hc : (c == '.') = false := by simpa using fun e : c = '.' => h (by simp [e])
    rw [splitChar, hc, ih (fun hh => h (by simp [hh]))]
    rfl

theorem plain_inner {names : List Str} (h : ∀ n ∈ names, '.' ∉ n) (n : Str) : ¬ Inner names n := by
  rintro ⟨m, hm, _, b, hb, he⟩
  rw [pathOf_plain (h m hm)] at he
  have := congrArg List.length he
  have h1 := List.length_pos_of_ne_nil (pathOf_ne n)
  have h2 := List.length_pos_of_ne_nil hb
  simp at this
  omega

theorem getAttr_plain {names : List Str} (hnd : names.Nodup) (h : ∀ n ∈ names, '.' ∉ n) : ∃ t, getParams names = .ok t ∧ ∀ (i : Nat) (n : Str), names[i]? = some n → getAttr t n = .ok (.vec i) := by
  obtain ⟨t, h1, _, h3⟩ := getParams_tree names hnd (fun n _ hin => absurd hin (plain_inner h n))
  refine ⟨t, h1, fun i n hi => ?_⟩
  have := h3 i n hi [n] (Or.inr ⟨plain_inner h n, (pathOf_plain (h n (List.mem_of_getElem? hi))).symm⟩)
  unfold getAttr
  rw [this]

/-! ## Dictionaries -/

section dicts
variable {K : Type}

theorem addParams_spec (wd : Bool) (ix : Nat) : ∀ (ps : List (Info × List K)) (d d' : Dict Str K), addParams wd ix d ps = .ok d' → (ps.map (·.1.name)).Nodup →
    (∀ p ∈ ps, (wd = true ∨ p.1.isDerived = false) → ∃ v, p.2[ix]? = some v ∧ d'.get? p.1.name = some v) ∧
    (∀ k, (∀ p ∈ ps, p.1.name = k → wd = false ∧ p.1.isDerived = true) → d'.get? k = d.get? k)
  | [], d, d', h, _ => by cases h; exact ⟨by simp, fun k _ => rfl⟩
  | p :: ps, d, d', h, hnd => by
    rw [List.map_cons, List.nodup_cons] at hnd
    unfold addParams at h
    cases ha : addParam wd ix d p with
    | error e => rw [ha] at h; cases h
    | ok d1 =>
      rw [ha] at h
      obtain ⟨h1, h2⟩ := addParams_spec wd ix ps d1 d' h hnd.2
      have hp : d'.get? p.1.name = d1.get? p.1.name := h2 _ (fun q hq he => absurd (List.mem_map.mpr ⟨q, hq, he⟩) hnd.1)
      unfold addParam at ha
      refine ⟨?_, ?_⟩
      · intro q hq hw
        rcases List.mem_cons.mp hq with rfl | hq
        · rw [if_pos (by rcases hw with h | h <;> simp [h])] at ha
          cases hv : q.2[ix]? with
          | none => rw [hv] at ha; cases ha
          | some v =>
            rw [hv] at ha
            cases ha
            exact ⟨v, rfl, by rw [hp, Dict.get?_set_self]⟩
        · exact h1 q hq hw
      · intro k hk
        rw [h2 k (fun q hq => hk q (by simp [hq]))]
        split at ha
        · rename_i hw
          split at ha
          · cases ha
            refine Dict.get?_set_of_ne _ _ ?_
            rintro rfl
            obtain ⟨a, b⟩ := hk p (by simp) rfl
            simp [a, b] at hw
          · cases ha
        · cases ha; rfl

/-- **The dictionary of a sample** has its weight and likelihood and the values of all parameters, without the derived ones if they are not wanted. -/
theorem sampleDict_spec (s : Samps K) (ix : Nat) (wd : Bool) (d : Dict Str K) (h : sampleDict s ix wd = .ok d) (hl : s.names.length = s.cols.length)
    (hnd : (s.names.map (·.name)).Nodup) (hw : c!"weight" ∉ s.names.map (·.name)) (hll : c!"loglike" ∉ s.names.map (·.name)) :
    d.get? c!"weight" = s.weights[ix]? ∧ (∃ l, s.loglikes = some l ∧ d.get? c!"loglike" = l[ix]?) ∧
    (∀ (i : Nat) (p : Info) (c : List K), s.names[i]? = some p → s.cols[i]? = some c → d.get? p.name = if wd = true ∨ p.isDerived = false then c[ix]? else none) ∧
    ∀ k, k ≠ c!"weight" → k ≠ c!"loglike" → k ∉ s.names.map (·.name) → d.get? k = none := by
  unfold sampleDict at h
  cases hwt : s.weights[ix]? with
  | none => rw [hwt] at h; cases h
  | some w =>
    rw [hwt] at h
    simp only at h
    cases hls : s.loglikes with
    | none => rw [hls] at h; cases h
    | some l =>
      rw [hls] at h
      simp only at h
      cases hx : l[ix]? with
      | none => rw [hx] at h; cases h
      | some x =>
        rw [hx] at h
        simp only at h
        have hz : ((s.names.zip s.cols).map (·.1.name)) = s.names.map (·.name) := by
          have : (s.names.zip s.cols).map (·.1) = s.names := List.map_fst_zip (le_of_eq hl)
          conv_rhs => rw [← this]
          rw [List.map_map]; rfl
        obtain ⟨h1, h2⟩ := addParams_spec wd ix _ _ _ h (by rw [hz]; exact hnd)
        have hmem : ∀ k, k ∉ s.names.map (·.name) → ∀ p ∈ s.names.zip s.cols, p.1.name ≠ k := by
          intro k hk p hp he
          exact hk (by rw [← hz]; exact List.mem_map.mpr ⟨p, hp, he⟩)
        have hlw : (c!"weight" : Str) ≠ c!"loglike" := by decide
        refine ⟨?_, ⟨l, rfl, ?_⟩, ?_, ?_⟩
        · rw [h2 _ (fun p hp he => absurd he (hmem _ hw p hp)), Dict.get?_set_of_ne _ _ hlw, Dict.get?_set_self]
        · rw [h2 _ (fun p hp he => absurd he (hmem _ hll p hp)), Dict.get?_set_self]
          exact hx.symm
        · intro i p c hp hc
          have hpc : (p, c) ∈ s.names.zip s.cols := by
            refine List.mem_of_getElem? (i := i) ?_
            rw [List.getElem?_zip_eq_some]
            exact ⟨hp, hc⟩
          by_cases hwd : wd = true ∨ p.isDerived = false
          · obtain ⟨v, hv, hg⟩ := h1 (p, c) hpc hwd
            rw [if_pos hwd, hg]
            exact hv.symm
          · rw [if_neg hwd]
            have hpn : p.name ∈ s.names.map (·.name) := List.mem_map.mpr ⟨p, List.mem_of_getElem? hp, rfl⟩
            rw [h2 p.name ?_, Dict.get?_set_of_ne, Dict.get?_set_of_ne]
            · rfl
            · rintro e; exact hw (e ▸ hpn)
            · rintro e; exact hll (e ▸ hpn)
            · intro q hq he
              have hqp : q.1 = p := by
                obtain ⟨j, hj⟩ := List.mem_iff_getElem?.mp hq
                rw [show q = (q.1, q.2) from rfl, List.getElem?_zip_eq_some] at hj
                have hji : j = i := by
                  have a1 : (s.names.map (·.name))[j]? = some q.1.name := by rw [List.getElem?_map, hj.1]; rfl
                  have a2 : (s.names.map (·.name))[i]? = some p.name := by rw [List.getElem?_map, hp]; rfl
                  rw [he] at a1
                  have hjl : j < (s.names.map (·.name)).length := (List.getElem?_eq_some_iff.mp a1).1
                  exact (List.getElem?_inj hjl hnd).mp (a1.trans a2.symm)
                subst hji
                rw [hp] at hj
                exact (Option.some.inj hj.1).symm
              rw [hqp]
              simp only [not_or, Bool.not_eq_true, Bool.not_eq_false] at hwd
              exact hwd
        · intro k h3 h4 h5
          rw [h2 k (fun p hp he => absurd he (hmem _ h5 p hp)), Dict.get?_set_of_ne _ _ h4, Dict.get?_set_of_ne _ _ h3]
          rfl

variable [Field K] [LinearOrder K]

theorem fixedDict_wf (b : Bounds.ParamBounds K) : (Bounds.fixedValueDict b).WF := by
  unfold Bounds.fixedValueDict
  have : ∀ (l : List Str) (d : Dict Str K), d.WF → (l.foldl (fun d n => Bounds.store d n (Bounds.fixedValue b n)) d).WF := by
    intro l
    induction l with
    | nil => intro d h; exact h
    | cons n l ih =>
      intro d h
      refine ih _ ?_
      show (Bounds.store d n (Bounds.fixedValue b n)).WF
      unfold Bounds.store
      split
      · exact h
      · exact Dict.WF_set _ _ h
  exact this _ _ Dict.WF_nil

theorem get?_update' {κ ν : Type} [DecidableEq κ] {e : Dict κ ν} (he : e.WF) (d : Dict κ ν) (k : κ) : (d.update e).get? k = (e.get? k).or (d.get? k) := by
  induction e generalizing d with
  | nil => rfl
  | cons p e ih =>
    obtain ⟨a, v⟩ := p
    have hw2 : a ∉ Dict.keys e ∧ (Dict.keys e).Nodup := List.nodup_cons.mp he
    rw [show Dict.update d ((a, v) :: e) = Dict.update (Dict.set d a v) e from rfl, ih hw2.2, Dict.get?_set, Dict.get?_cons]
    by_cases hk : k = a
    · subst hk
      rw [Dict.get?_eq_none.mpr hw2.1]
      simp
    · simp [hk, Ne.symm hk]

/-- **Fixed parameters** are in the dictionary with their fixed values, if they are wanted; the rest stays. -/
theorem sampleDictMC_spec [IsStrictOrderedRing K] [FloorRing K] (s : Samps K) (ix : Nat) (wd wf : Bool) (d : Dict Str K) (h : sampleDictMC s ix wd wf = .ok d) : ∃ d0, sampleDict s ix wd = .ok d0 ∧
    ∀ k, d.get? k = if wf = true then (if k ∈ s.ranges.names then (Bounds.fixedValue s.ranges k).or (d0.get? k) else d0.get? k) else d0.get? k := by
  unfold sampleDictMC at h
  cases hs : sampleDict s ix wd with
  | error e => rw [hs] at h; cases h
  | ok d0 =>
    rw [hs] at h
    cases h
    refine ⟨d0, rfl, fun k => ?_⟩
    unfold addFixed
    cases wf with
    | false => rfl
    | true =>
      simp only [if_true]
      rw [get?_update' (fixedDict_wf _), Bounds.fixedValueDict_get]
      by_cases hk : k ∈ s.ranges.names <;> simp [hk]

/-- `argmin` is the position of the first smallest value -/
theorem argmin_spec : ∀ (l : List K), l ≠ [] → ∃ v, l[argmin l]? = some v ∧ (∀ x ∈ l, v ≤ x) ∧ ∀ (j : Nat) (x : K), j < argmin l → l[j]? = some x → v < x
  | [], h => absurd rfl h
  | [x], _ => ⟨x, rfl, by simp, by intro j y hj; simp [argmin] at hj⟩
  | x :: y :: l, _ => by
    obtain ⟨v, h1, h2, h3⟩ := argmin_spec (y :: l) (by simp)
    unfold argmin
    dsimp only
    have hd : (y :: l).getD (argmin (y :: l)) x = v := by rw [List.getD_eq_getElem?_getD, h1]; rfl
    rw [hd]
    split
    · rename_i hx
      refine ⟨x, rfl, ?_, by intro j y hj; simp at hj⟩
      intro z hz
      rcases List.mem_cons.mp hz with rfl | hz
      · exact le_refl _
      · exact le_trans hx (h2 z hz)
    · rename_i hx
      refine ⟨v, by simpa using h1, ?_, ?_⟩
      · intro z hz
        rcases List.mem_cons.mp hz with rfl | hz
        · exact le_of_lt (not_le.mp hx)
        · exact h2 z hz
      · intro j z hj hz
        cases j with
        | zero =>
          simp at hz
          subst hz
          exact not_le.mp hx
        | succ j =>
          exact h3 j z (by omega) (by simpa using hz)

/-- **The best sample** is the one with the smallest minus log likelihood. -/
theorem best_sample (s : Samps K) (wd wf : Bool) (files : Str → Option (Best K)) (l : List K) (hl : s.loglikes = some l) (hne : l ≠ []) :
    ∃ ix v, l[ix]? = some v ∧ (∀ x ∈ l, v ≤ x) ∧ bestFitDict s true wd wf true files = sampleDictMC s ix true true := by
  obtain ⟨v, h1, h2, _⟩ := argmin_spec l hne
  exact ⟨argmin l, v, h1, h2, by simp [bestFitDict, hl, hne]⟩

theorem bestDict_spec (b : Best K) (incl : Bool) (hnd : (b.pars.map (·.1)).Nodup) (hw : c!"weight" ∉ b.pars.map (·.1)) (hl : c!"loglike" ∉ b.pars.map (·.1)) :
    (bestDict b incl).get? c!"weight" = some 1 ∧ (bestDict b incl).get? c!"loglike" = some b.logLike ∧
    ∀ p ∈ b.pars, (bestDict b incl).get? p.1 = if incl = true ∨ p.2.1 = false then some p.2.2 else none := by
  have key : ∀ (ps : List (Str × Bool × K)) (d : Dict Str K), (ps.map (·.1)).Nodup →
      (∀ p ∈ ps, (ps.foldl (addBest incl) d).get? p.1 = if incl = true ∨ p.2.1 = false then some p.2.2 else d.get? p.1) ∧
      ∀ k, k ∉ ps.map (·.1) → (ps.foldl (addBest incl) d).get? k = d.get? k := by
    intro ps
    induction ps with
    | nil => intro d _; exact ⟨by simp, fun k _ => rfl⟩
    | cons q ps ih =>
      intro d hn
      rw [List.map_cons, List.nodup_cons] at hn
      obtain ⟨h1, h2⟩ := ih (addBest incl d q) hn.2
      have hq : ∀ k, (addBest incl d q).get? k = if k = q.1 ∧ (incl = true ∨ q.2.1 = false) then some q.2.2 else d.get? k := by
        intro k
        unfold addBest
        by_cases hc : incl = true ∨ q.2.1 = false
        · rw [if_pos (by rcases hc with h | h <;> simp [h])]
          by_cases hk : k = q.1
          · subst hk; rw [Dict.get?_set_self, if_pos ⟨rfl, hc⟩]
          · rw [Dict.get?_set_of_ne _ _ hk, if_neg (fun h => hk h.1)]
        · rw [if_neg (c := k = q.1 ∧ (incl = true ∨ q.2.1 = false)) (fun h => hc h.2), if_neg]
          simp only [not_or] at hc
          simp [hc.1, hc.2]
      refine ⟨?_, ?_⟩
      · intro p hp
        rw [List.foldl_cons]
        rcases List.mem_cons.mp hp with rfl | hp
        · rw [h2 _ hn.1, hq]
          by_cases hc : incl = true ∨ p.2.1 = false <;> simp [hc]
        · rw [h1 p hp, hq]
          have : p.1 ≠ q.1 := fun he => hn.1 (he ▸ List.mem_map.mpr ⟨p, hp, rfl⟩)
          simp [this]
      · intro k hk
        rw [List.map_cons, List.mem_cons, not_or] at hk
        rw [List.foldl_cons, h2 k hk.2, hq, if_neg (fun h => hk.1 h.1)]
  obtain ⟨h1, -⟩ := key b.pars [] hnd
  have hlw : (c!"weight" : Str) ≠ c!"loglike" := by decide
  refine ⟨?_, ?_, ?_⟩
  · unfold bestDict
    rw [Dict.get?_set_of_ne _ _ hlw, Dict.get?_set_self]
  · unfold bestDict
    rw [Dict.get?_set_self]
  · intro p hp
    have hpn : p.1 ∈ b.pars.map (·.1) := List.mem_map.mpr ⟨p, hp, rfl⟩
    unfold bestDict
    rw [Dict.get?_set_of_ne, Dict.get?_set_of_ne, h1 p hp]
    · rfl
    · rintro e; exact hw (e ▸ hpn)
    · rintro e; exact hl (e ▸ hpn)

/-- **The best fit of a minimisation** is read from the file for what was maximised: each value is the fixed one of the ranges if there is one and it is wanted,
else the one in the file; without the file the error says so. -/
theorem best_file [IsStrictOrderedRing K] [FloorRing K] (s : Samps K) (wd wf mp : Bool) (files : Str → Option (Best K)) (r : Str) (hr : s.root = some r) :
    (files (r ++ if mp = true then c!".minimum" else c!".bestfit") = none → bestFitDict s false wd wf mp files = .error .noBestFit) ∧
    ∀ b, files (r ++ if mp = true then c!".minimum" else c!".bestfit") = some b → ∃ d, bestFitDict s false wd wf mp files = .ok d ∧
      ∀ k, d.get? k = if wf = true ∧ k ∈ s.ranges.names then (Bounds.fixedValue s.ranges k).or ((bestDict b wd).get? k) else (bestDict b wd).get? k := by
  constructor
  · intro h
    simp only [bestFitDict, getBestFit, hr, h, Bool.false_eq_true, if_false]
  · intro b h
    refine ⟨addFixed s wf (bestDict b wd), by simp only [bestFitDict, getBestFit, hr, h, Bool.false_eq_true, if_false], fun k => ?_⟩
    unfold addFixed
    cases wf with
    | false => simp
    | true =>
      simp only [if_true, true_and]
      rw [get?_update' (fixedDict_wf _), Bounds.fixedValueDict_get]
      by_cases hk : k ∈ s.ranges.names <;> simp [hk]

end dicts

/-- an example: two samples, one derived and one fixed parameter -/
def ex : Samps ℚ where
  names := [⟨c!"h", [], [], false, []⟩, ⟨c!"age", [], [], true, []⟩]
  cols := [[7 / 10, 6 / 10], [13, 14]]
  weights := [1, 2]
  loglikes := some [5, 4]
  ranges := { names := [c!"tau"], lower := [(c!"tau", 1 / 10)], upper := [(c!"tau", 1 / 10)] }

example : sampleDictMC ex 1 true true = .ok [(c!"weight", 2), (c!"loglike", 4), (c!"h", 6 / 10), (c!"age", 14), (c!"tau", 1 / 10)] := by decide +kernel

/-- the full statement: the best sample comes without derived and fixed parameters if they are not wanted -/
def BestWanted : Prop := ∀ (s : Samps ℚ) (files : Str → Option (Best ℚ)) (d : Dict Str ℚ), bestFitDict s true false false true files = .ok d →
  (∀ p ∈ s.names, p.isDerived = true → d.get? p.name = none) ∧ ∀ n ∈ s.ranges.names, n ∉ s.names.map (·.name) → d.get? n = none

/-- With `best_sample=True` the arguments `want_derived` and `want_fixed` are ignored (mcsamples.py:2349). -/
theorem best_wanted_fails : ¬ BestWanted := by
  intro h
  have e : bestFitDict ex true false false true (fun _ => none) = .ok [(c!"weight", 2), (c!"loglike", 4), (c!"h", 6 / 10), (c!"age", 14), (c!"tau", 1 / 10)] := by decide +kernel
  have := (h _ _ _ e).1 ⟨c!"age", [], [], true, []⟩ (by decide) rfl
  revert this
  decide +kernel

/-- the full statement: samples without likelihoods have dictionaries too -/
def DictAlways : Prop := ∀ (s : Samps ℚ) (ix : Nat), ix < s.weights.length → (∀ c ∈ s.cols, ix < c.length) → ∃ d, sampleDict s ix true = .ok d

/-- For samples made without likelihoods, the dictionary of a sample fails (chains.py:1270), as does the best sample. -/
theorem no_loglike_fails : ¬ DictAlways := by
  intro h
  obtain ⟨d, hd⟩ := h { ex with loglikes := none } 0 (by decide) (by decide)
  have e : sampleDict { ex with loglikes := none } 0 true = .error .type := by decide +kernel
  rw [e] at hd
  cases hd

/-- the full statement: a best fit that is not there is reported as such -/
def BestReported : Prop := ∀ (s : Samps ℚ) (maxPost : Bool) (e : Err), getBestFit s maxPost (fun _ => none) = .error e → e = .noBestFit

/-- For samples not loaded from files the root is `None` and the best fit fails with a `TypeError`, not with the message meant for it (mcsamples.py:2103). -/
theorem no_root_fails : ¬ BestReported := by
  intro h
  have := h ex true .type rfl
  cases this

/-! ## Joined samples -/

section join
variable {K : Type} [Field K] [LinearOrder K]

/-- samples as they should be -/
structure OK (s : Samps K) : Prop where
  nodup : (s.names.map (·.name)).Nodup
  cols : s.cols.length = s.names.length
  plain : ∀ p ∈ s.names, '.' ∉ p.name

theorem column_ok (s : Samps K) (h : OK s) : ∃ t, getParams (s.names.map (·.name)) = .ok t ∧ ∀ (i : Nat) (p : Info), s.names[i]? = some p → ∃ c, s.cols[i]? = some c ∧ column s t p.name = .ok c := by
  obtain ⟨t, h1, h2⟩ := getAttr_plain h.nodup (by
    intro n hn
    obtain ⟨p, hp, rfl⟩ := List.mem_map.mp hn
    exact h.plain p hp)
  refine ⟨t, h1, fun i p hi => ?_⟩
  have hil : i < s.names.length := (List.getElem?_eq_some_iff.mp hi).1
  refine ⟨s.cols[i]'(by rw [h.cols]; exact hil), List.getElem?_eq_getElem _, ?_⟩
  unfold column
  rw [h2 i p.name (by rw [List.getElem?_map, hi]; rfl)]
  simp only
  rw [List.getElem?_eq_getElem (by rw [h.cols]; exact hil)]

theorem joinCols_spec (s s2 : Samps K) (t t2 : Tree) : ∀ (ns : List Str), (∀ n ∈ ns, ∃ a b, column s t n = .ok a ∧ column s2 t2 n = .ok b) →
    ∃ r, joinCols s s2 t t2 ns = .ok r ∧ r.length = ns.length ∧ ∀ (j : Nat) (n : Str), ns[j]? = some n → ∃ a b, column s t n = .ok a ∧ column s2 t2 n = .ok b ∧ r[j]? = some (a ++ b)
  | [], _ => ⟨[], rfl, rfl, by simp⟩
  | n :: ns, h => by
    obtain ⟨a, b, ha, hb⟩ := h n (by simp)
    obtain ⟨r, h1, h2, h3⟩ := joinCols_spec s s2 t t2 ns (fun m hm => h m (by simp [hm]))
    refine ⟨(a ++ b) :: r, by rw [joinCols, ha, hb, h1], by simp [h2], ?_⟩
    intro j m hj
    cases j with
    | zero => simp at hj; subst hj; exact ⟨a, b, ha, hb, rfl⟩
    | succ j => simp at hj; simpa using h3 j m hj

/-- **Joined samples**: the parameters in common, in the order and with the labels of the second; each has the samples of the first and then of the second;
likelihoods are joined if both have them. -/
theorem combined_partial (s s2 : Samps K) (h : OK s) (h2 : OK s2) (w : Option (K × K)) : ∃ r, combined s s2 w = .ok r ∧
    r.names.map (fun p => (p.name, p.label, p.isDerived)) = (s2.names.filter (fun p => decide (p.name ∈ s.names.map (·.name)))).map (fun p => (p.name, p.label, p.isDerived)) ∧
    (∀ (j i k : Nat) (p q1 q2 : Info), r.names[j]? = some p → s.names[i]? = some q1 → q1.name = p.name → s2.names[k]? = some q2 → q2.name = p.name →
      ∃ a b, s.cols[i]? = some a ∧ s2.cols[k]? = some b ∧ r.cols[j]? = some (a ++ b)) ∧
    r.loglikes = (match s.loglikes, s2.loglikes with | some x, some y => some (x ++ y) | _, _ => none) := by
  obtain ⟨t, ht, hc⟩ := column_ok s h
  obtain ⟨t2, ht2, hc2⟩ := column_ok s2 h2
  have hex : ∀ n ∈ (common s s2).map (·.name), ∃ a b, column s t n = .ok a ∧ column s2 t2 n = .ok b := by
    intro n hn
    obtain ⟨p, hp, rfl⟩ := List.mem_map.mp hn
    obtain ⟨q, hq, rfl⟩ := List.mem_map.mp hp
    rw [List.mem_filter] at hq
    obtain ⟨q1, hq1, he⟩ := List.mem_map.mp (of_decide_eq_true hq.2)
    obtain ⟨i, hi⟩ := List.mem_iff_getElem?.mp hq1
    obtain ⟨k, hk⟩ := List.mem_iff_getElem?.mp hq.1
    obtain ⟨a, _, ha⟩ := hc i q1 hi
    obtain ⟨b, _, hb⟩ := hc2 k q hk
    rw [he] at ha
    exact ⟨a, b, ha, hb⟩
  obtain ⟨cols, h3, h4, h5⟩ := joinCols_spec s s2 t t2 _ hex
  refine ⟨_, by unfold combined; rw [ht, ht2]; simp only; rw [h3], ?_, ?_, ?_⟩
  · simp [common]
  · intro j i k p q1 q2 hj hi e1 hk e2
    obtain ⟨a, b, ha, hb, hr⟩ := h5 j p.name (by rw [List.getElem?_map, hj]; rfl)
    obtain ⟨a', ha', hca⟩ := hc i q1 hi
    obtain ⟨b', hb', hcb⟩ := hc2 k q2 hk
    rw [e1, ha] at hca
    rw [e2, hb] at hcb
    cases hca
    cases hcb
    exact ⟨a, b, ha', hb', hr⟩
  · unfold joinLikes
    rfl

theorem combined_weights (s s2 r : Samps K) (w : Option (K × K)) (h : combined s s2 w = .ok r) :
    r.weights = s.weights.map (· * (w.getD (1, 1)).1) ++ s2.weights.map (fun x => x * (w.getD (1, 1)).2 * facOf s s2 w) := by
  unfold combined at h
  split at h
  · split at h
    · cases h
    · cases h; rfl
  · cases h
  · cases h

theorem sum_map_mul (l : List K) (c : K) : (l.map (· * c)).sum = l.sum * c := by
  rw [List.sum_map_mul_right, List.map_id']

theorem sum_map_mul2 (l : List K) (c d : K) : (l.map (fun x => x * c * d)).sum = l.sum * c * d := by
  induction l with
  | nil => simp
  | cons x l ih => simp only [List.map_cons, List.sum_cons, ih]; ring

/-- **The two sets of samples have the masses asked for**, whatever their sizes: the first `a`, the second `b` times the weight of the first. -/
theorem combined_mass (s s2 r : Samps K) (a b : K) (h : combined s s2 (some (a, b)) = .ok r) (h2 : s2.weights.sum ≠ 0) :
    (r.weights.take s.weights.length).sum = a * s.weights.sum ∧ (r.weights.drop s.weights.length).sum = b * s.weights.sum := by
  rw [combined_weights s s2 r _ h]
  have hl : s.weights.length = (s.weights.map (· * ((some (a, b) : Option (K × K)).getD (1, 1)).1)).length := by simp
  rw [hl, List.take_left, List.drop_left]
  simp only [Option.getD_some, facOf]
  rw [sum_map_mul, sum_map_mul2]
  constructor
  · ring
  · field_simp

/-- weighted sum -/
def wsum (w x : List K) : K := (List.zipWith (· * ·) w x).sum

theorem wsum_append {w1 w2 x1 x2 : List K} (h : w1.length = x1.length) : wsum (w1 ++ w2) (x1 ++ x2) = wsum w1 x1 + wsum w2 x2 := by
  unfold wsum
  rw [List.zipWith_append h, List.sum_append]

theorem wsum_scale (c : K) : ∀ (w x : List K), wsum (w.map (· * c)) x = c * wsum w x
  | [], x => by simp [wsum]
  | _ :: _, [] => by simp [wsum]
  | a :: w, b :: x => by
    have := wsum_scale c w x
    unfold wsum at this ⊢
    simp only [List.map_cons, List.zipWith_cons_cons, List.sum_cons]
    rw [this]; ring

/-- **The mean of joined samples** is the mean of the two means with the weights asked for. -/
theorem combined_mean (s s2 r : Samps K) (a b : K) (h : combined s s2 (some (a, b)) = .ok r) (h1 : s.weights.sum ≠ 0) (h2 : s2.weights.sum ≠ 0) (hab : a + b ≠ 0) (x y : List K)
    (hx : x.length = s.weights.length) :
    wsum r.weights (x ++ y) / r.weights.sum = (a * (wsum s.weights x / s.weights.sum) + b * (wsum s2.weights y / s2.weights.sum)) / (a + b) := by
  have hw := combined_weights s s2 r _ h
  simp only [Option.getD_some, facOf] at hw
  have e2 : s2.weights.map (fun x => x * b * (s.weights.sum / s2.weights.sum)) = s2.weights.map (· * (b * (s.weights.sum / s2.weights.sum))) := by
    refine List.map_congr_left fun z _ => ?_
    ring
  rw [e2] at hw
  rw [hw, wsum_append (by simp [hx]), wsum_scale, wsum_scale, List.sum_append, sum_map_mul, sum_map_mul]
  have hS : s.weights.sum * a + s2.weights.sum * (b * (s.weights.sum / s2.weights.sum)) = s.weights.sum * (a + b) := by
    field_simp
  rw [hS]
  field_simp

end join

/-- the other set of samples -/
def ex2 : Samps ℚ where
  names := [⟨c!"age", c!"t", [], true, []⟩, ⟨c!"ns", [], [], false, []⟩, ⟨c!"h", c!"h", [], false, []⟩]
  cols := [[12], [1], [5 / 10]]
  weights := [4]
  loglikes := some [3]
  ranges := {}

example : (combined ex ex2 (some (1, 1))).toOption.map (fun r => (r.names.map (·.name), r.cols, r.weights, r.loglikes)) =
    some ([c!"age", c!"h"], [[13, 14, 12], [7 / 10, 6 / 10, 5 / 10]], [1, 2, 3], some [5, 4, 3]) := by decide +kernel

/-- the full statement: samples can be joined whatever their parameters are called -/
def JoinAlways : Prop := ∀ s s2 : Samps ℚ, (s.names.map (·.name)).Nodup → s.cols.length = s.names.length → (s2.names.map (·.name)).Nodup → s2.cols.length = s2.names.length →
  ∃ r, combined s s2 none = .ok r

/-- Names with dots are split into objects by `getParams` but looked up as one attribute (mcsamples.py:2395): samples with such a parameter in common cannot
be joined. -/
theorem dotted_fails : ¬ JoinAlways := by
  intro h
  let s : Samps ℚ := { ex with names := [⟨c!"Omega.b", [], [], false, []⟩], cols := [[1, 2]] }
  obtain ⟨r, hr⟩ := h s s (by decide) rfl (by decide) rfl
  have e : (combined s s none).isOk = false := by decide +kernel
  rw [hr] at e
  cases e

/-! ## Files -/

/-- **Saved properties**: what is given to the call, else the label, else the properties of the samples, else what the file had. -/
theorem saveProps_spec (old : Option Props) (own : Props) (label : Option Str) (given : Option Props) (ho : own.WF) (hg : ∀ g, given = some g → g.WF) (d : Props)
    (h : saveProps old own label given = some d) (k : Str) :
    d.get? k = ((given.getD []).get? k).or (if k = c!"label" ∧ label.getD [] ≠ [] then some (label.getD []) else (own.get? k).or ((old.getD []).get? k)) := by
  unfold saveProps at h
  split at h
  · cases h
    have hgw : (given.getD []).WF := by
      cases given with
      | none => exact Dict.WF_nil
      | some g => exact hg g rfl
    rw [get?_update' hgw]
    congr 1
    by_cases hl : label.getD [] ≠ []
    · rw [if_pos hl]
      by_cases hk : k = c!"label"
      · subst hk; rw [Dict.get?_set_self, if_pos ⟨rfl, hl⟩]
      · rw [Dict.get?_set_of_ne _ _ hk, if_neg (fun h => hk h.1), get?_update' ho]
    · rw [if_neg hl, if_neg (fun h => hl h.2), get?_update' ho]
  · cases h

/-- **With nothing to save**, the file is removed. -/
theorem saveProps_none (old : Option Props) : saveProps old [] none none = none := rfl

/-- the full statement: what is saved is about these samples only -/
def PropsOwn : Prop := ∀ (old : Option Props) (own : Props) (label : Option Str) (given : Option Props) (d : Props), saveProps old own label given = some d → ∀ k v, d.get? k = some v →
  (own.get? k = some v) ∨ ((given.getD []).get? k = some v) ∨ (k = c!"label" ∧ label = some v)

/-- A properties file of other samples under the same root is kept and added to (mcsamples.py:2411-2412): e.g. `burn_removed` of old chains then holds for the new
ones, and no burn in is removed on loading. -/
theorem stale_props_fails : ¬ PropsOwn := by
  intro h
  have := h (some [(c!"burn_removed", c!"T")]) [] (some c!"new") none [(c!"burn_removed", c!"T"), (c!"label", c!"new")] (by decide) c!"burn_removed" c!"T" (by decide)
  revert this
  decide

theorem beforeLast_spec (a b : Str) (h : '_' ∉ b) : beforeLast (a ++ '_' :: b) = a := by
  unfold beforeLast
  have e : (a ++ '_' :: b).reverse = b.reverse ++ '_' :: a.reverse := by simp
  rw [e]
  have : (b.reverse ++ '_' :: a.reverse).dropWhile (· != '_') = '_' :: a.reverse := by
    have hb : ∀ c ∈ b.reverse, (c != '_') = true := by
      intro c hc
      simp only [bne_iff_ne]
      rintro rfl
      exact h (by simpa using hc)
    have aux : ∀ l : Str, (∀ c ∈ l, (c != '_') = true) → (l ++ '_' :: a.reverse).dropWhile (· != '_') = '_' :: a.reverse := by
      intro l
      induction l with
      | nil => intro _; rfl
      | cons c l ih =>
        intro hl
        rw [List.cons_append, List.dropWhile_cons, if_pos (hl c (by simp))]
        exact ih (fun x hx => hl x (by simp [hx]))
    exact aux _ hb
  rw [this]
  simp

/-- **The root of the chains in a directory** is found when the chains are the only text files with an underscore. -/
theorem rootFileName_spec (root : Str) (nums : List Str) (hn : nums ≠ []) (hu : ∀ n ∈ nums, '_' ∉ n) (files : List Str) (hf : files.Perm (nums.map (fun n => root ++ '_' :: (n ++ c!".txt")))) :
    rootFileName files = root := by
  cases files with
  | nil =>
    have := hf.length_eq
    simp at this
    exact absurd (List.eq_nil_of_length_eq_zero this.symm) hn
  | cons f fs =>
    have hm : f ∈ nums.map (fun n => root ++ '_' :: (n ++ c!".txt")) := hf.mem_iff.mp (by simp)
    obtain ⟨n, hn', rfl⟩ := List.mem_map.mp hm
    refine beforeLast_spec _ _ ?_
    rw [List.mem_append, not_or]
    exact ⟨hu n hn', by decide⟩

example : rootFileName [c!"dir/my_chain_1.txt", c!"dir/my_chain_2.txt"] = c!"dir/my_chain" := by decide

/-- the full statement: chains are found among other files -/
def RootAmong : Prop := ∀ (root : Str) (files : List Str), root ++ c!"_1.txt" ∈ files → rootFileName files = root

/-- Any other text file with an underscore in its name that sorts first is taken for a chain (mcsamples.py:2547-2551). -/
theorem other_text_fails : ¬ RootAmong := by
  intro h
  have := h c!"d/chain" [c!"d/aa_notes.txt", c!"d/chain_1.txt"] (by decide)
  revert this
  decide

end Verif.SampleDict
