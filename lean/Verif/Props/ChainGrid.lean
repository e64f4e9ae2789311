import Verif.Model.ChainGrid
import Verif.Props.BatchTags

/-!
# Grids made of folders of chains (C36, C66)
-/

namespace Verif.ChainGrid
open Verif.Py Verif.Batch

/-! ## Splitting paths -/

theorem not_mem_splitChar {ch : Char} : ∀ {s : Str} {c : Str}, c ∈ splitChar ch s → ch ∉ c
  | [], c, h => by simp [splitChar] at h; subst h; simp
  | a :: s, c, h => by
    rw [splitChar] at h
    by_cases ha : (a == ch) = true
    · rw [if_pos ha, List.mem_cons] at h
      rcases h with rfl | h
      · simp
      · exact not_mem_splitChar h
    · rw [if_neg ha] at h
      have hne : ch ≠ a := fun e => ha (by simp [e])
      cases hs : splitChar ch s with
      | nil => rw [hs] at h; simp at h; subst h; simp [hne]
      | cons t ts =>
        rw [hs] at h
        rcases List.mem_cons.mp h with rfl | h
        · have := not_mem_splitChar (s := s) (c := t) (by rw [hs]; simp)
          simp [hne, this]
        · exact not_mem_splitChar (s := s) (c := c) (by rw [hs]; simp [h])

theorem splitChar_join_gen {ch : Char} : ∀ {l : List Str}, l ≠ [] → (∀ n ∈ l, ch ∉ n) → splitChar ch (join [ch] l) = l
  | [], h, _ => absurd rfl h
  | [n], _, h => by rw [join]; exact Verif.JobQueue.splitChar_none (h n List.mem_cons_self)
  | n :: m :: l, _, h => by
    rw [join_cons2, List.append_assoc, List.singleton_append, Verif.JobQueue.splitChar_append (h n List.mem_cons_self),
      splitChar_join_gen (by simp) (fun x hx => h x (List.mem_cons_of_mem _ hx))]

/-- a path in reversed order: the root, then the folders from the inside out -/
def rev (x : Item) : List Str := (splitChar '/' x.chainRoot).reverse

theorem rev_free {x : Item} {c : Str} (h : c ∈ rev x) : '/' ∉ c := not_mem_splitChar (List.mem_reverse.mp h)

theorem tailName_split {r : List Str} {i : Nat} (hf : ∀ c ∈ r, '/' ∉ c) (hr : r ≠ []) (hi : 0 < i) :
    splitChar '/' (tailName r i) = (r.take i).reverse := by
  unfold tailName
  refine splitChar_join_gen ?_ (fun n hn => hf n (List.mem_of_mem_take (List.mem_reverse.mp hn)))
  cases r with
  | nil => exact absurd rfl hr
  | cons a r => cases i with
    | zero => omega
    | succ i => simp

/-! ## How many folders are needed to tell two chains apart -/

/-- the paths differ in some folder, counted from the inside -/
def Diff (p q : List Str) : Prop := ∃ m a b, 1 ≤ m ∧ p[m]? = some a ∧ q[m]? = some b ∧ a ≠ b

theorem depth_pair {p q : List Str} : ∀ (fuel i : Nat), (∃ m a b, i - 1 ≤ m ∧ m < i - 1 + fuel ∧ p[m]? = some a ∧ q[m]? = some b ∧ a ≠ b) →
    1 ≤ i → ∃ i', depth p [q] fuel i = .ok i' ∧ i ≤ i' ∧ ∃ a b, p[i' - 1]? = some a ∧ q[i' - 1]? = some b ∧ a ≠ b
  | 0, i, h, _ => by obtain ⟨m, a, b, h1, h2, -⟩ := h; omega
  | fuel + 1, i, h, hi => by
    obtain ⟨m, a, b, h1, h2, h3, h4, h5⟩ := h
    have hp : i - 1 < p.length := by have := (List.getElem?_eq_some_iff.mp h3).1; omega
    have hq : i - 1 < q.length := by have := (List.getElem?_eq_some_iff.mp h4).1; omega
    have hpe := List.getElem?_eq_getElem hp
    have hqe := List.getElem?_eq_getElem hq
    by_cases he : q[i - 1] = p[i - 1]
    · have hstep : depth p [q] (fuel + 1) i = depth p [q] fuel (i + 1) := by
        rw [depth, allSame, back, back, hpe, hqe]
        simp only [he, if_true, allSame]
      have hm : m ≠ i - 1 := by
        rintro rfl
        rw [hpe] at h3; rw [hqe] at h4
        cases h3; cases h4
        exact h5 he.symm
      rw [hstep]
      obtain ⟨i', g1, g2, g3⟩ := depth_pair fuel (i + 1) ⟨m, a, b, by omega, by omega, h3, h4, h5⟩ (by omega)
      exact ⟨i', g1, by omega, g3⟩
    · refine ⟨i, ?_, Nat.le_refl _, _, _, hpe, hqe, fun e => he e.symm⟩
      rw [depth, allSame, back, back, hpe, hqe]
      simp only [he, if_false]

/-! ## Making the names unique -/

/-- what is expected of the chains found under one root name: one, or two in different folders -/
inductive Grp (root : Str) : List Item → Prop
  | single (x : Item) : Grp root [x]
  | pair (x y : Item) (a b : List Str) : rev x = root :: a → rev y = root :: b → Diff (root :: a) (root :: b) → Grp root [x, y]

/-- the names under which the chains of a root are found at the end -/
def Final (root : Str) (R : Dict Str Ent) (l : List Item) (names : List Str) : Prop :=
  names.length = l.length ∧ names.Nodup ∧
  (∀ p ∈ names.zip l, ∃ x, Dict.get? R p.1 = some (.one x) ∧ x.chainRoot = p.2.chainRoot ∧ x.name = (if l.length = 1 then p.2.name else p.1)) ∧
  ∀ n ∈ names, (splitChar '/' n).getLast? = some root

theorem step_ok (st : Dict Str Ent × Dict Str (List Item)) (root : Str) (l : List Item) (hg : Grp root l)
    (hr : '/' ∉ root) (h : Dict.get? st.1 root = some (.many l)) :
    ∃ R names, uniqueStep st root = .ok (R, Dict.set st.2 (normedName root) ((Dict.get? st.2 (normedName root)).getD [] ++ l)) ∧
      Final root R l names ∧ (∀ q, q ≠ root → q ∉ names → Dict.get? R q = Dict.get? st.1 q) ∧
      (root ∈ names ↔ l.length = 1) ∧ (l.length ≠ 1 → Dict.get? R root = none) := by
  unfold uniqueStep
  rw [h]
  cases hg with
  | single x =>
    refine ⟨Dict.set st.1 root (.one x), [root], rfl, ⟨rfl, by simp, ?_, ?_⟩, ?_, by simp, by simp⟩
    · intro p hp
      simp only [List.zip_cons_cons, List.zip_nil_right, List.mem_singleton] at hp
      subst hp
      exact ⟨x, Dict.get?_set_self _ _ _, rfl, by simp⟩
    · intro n hn
      rw [List.mem_singleton] at hn; subst hn
      rw [Verif.JobQueue.splitChar_none hr]; rfl
    · intro q hq _
      exact Dict.get?_set_of_ne _ _ hq
  | pair x y a b hx hy hd =>
    simp only []
    obtain ⟨m, c, d, hm, h1, h2, h3⟩ := hd
    have hlen : m < (root :: a).length := (List.getElem?_eq_some_iff.mp h1).1
    obtain ⟨i, hi, hi2, a', b', h4, h5, h6⟩ := depth_pair (p := root :: a) (q := root :: b) ((root :: a).length + 1) 2
      ⟨m, c, d, by omega, by omega, h1, h2, h3⟩ (by omega)
    have hia : i - 1 < (root :: a).length := (List.getElem?_eq_some_iff.mp h4).1
    have hib : i - 1 < (root :: b).length := (List.getElem?_eq_some_iff.mp h5).1
    have fa : ∀ c ∈ root :: a, '/' ∉ c := fun c hc => rev_free (x := x) (by rw [hx]; exact hc)
    have fb : ∀ c ∈ root :: b, '/' ∉ c := fun c hc => rev_free (x := y) (by rw [hy]; exact hc)
    have sx := tailName_split (i := i) fa (by simp) (by omega)
    have sy := tailName_split (i := i) fb (by simp) (by omega)
    have lastx : (splitChar '/' (tailName (root :: a) i)).getLast? = some root := by
      rw [sx, List.getLast?_reverse]
      cases i with
      | zero => omega
      | succ i => simp
    have lasty : (splitChar '/' (tailName (root :: b) i)).getLast? = some root := by
      rw [sy, List.getLast?_reverse]
      cases i with
      | zero => omega
      | succ i => simp
    have hxy : tailName (root :: a) i ≠ tailName (root :: b) i := by
      intro e
      have e2 := congrArg (splitChar '/') e
      rw [sx, sy] at e2
      have e3 := List.reverse_injective e2
      have e4 : ((root :: a).take i)[i - 1]? = ((root :: b).take i)[i - 1]? := by rw [e3]
      rw [List.getElem?_take_of_lt (by omega), List.getElem?_take_of_lt (by omega), h4, h5] at e4
      exact h6 (Option.some.inj e4)
    have hne : ∀ r : List Str, (∀ c ∈ r, '/' ∉ c) → i - 1 < r.length → tailName r i ≠ root := by
      intro r hf hl e
      have hrne : r ≠ [] := by rintro rfl; simp at hl
      have e2 := congrArg (splitChar '/') e
      rw [tailName_split hf hrne (by omega), Verif.JobQueue.splitChar_none hr] at e2
      have := congrArg List.length e2
      rw [List.length_reverse, List.length_take] at this
      simp at this
      omega
    have hnx := hne _ fa hia
    have hny := hne _ fb hib
    have hren : rename st.1 root [x, y] = .ok (Dict.erase (Dict.set (Dict.set st.1 (tailName (root :: a) i)
        (.one { x with name := tailName (root :: a) i })) (tailName (root :: b) i) (.one { y with name := tailName (root :: b) i })) root) := by
      unfold rename
      simp only [List.map_cons, List.map_nil, List.headD_cons, List.tail_cons]
      rw [show (splitChar '/' x.chainRoot).reverse = root :: a from hx, show (splitChar '/' y.chainRoot).reverse = root :: b from hy, hi]
      refine if_pos ?_
      simp only [List.foldl_cons, List.foldl_nil]
      rw [Dict.has_iff]
      rw [Dict.mem_keys_set, Dict.mem_keys_set]
      refine .inr (.inr ?_)
      refine Classical.byContradiction (fun hc => ?_)
      rw [Dict.get?_eq_none.mpr hc] at h; cases h
    rw [hren]
    refine ⟨_, [tailName (root :: a) i, tailName (root :: b) i], rfl, ⟨rfl, by simp [hxy], ?_, ?_⟩, ?_, ?_, ?_⟩
    · intro p hp
      simp only [List.zip_cons_cons, List.zip_nil_right, List.mem_cons, List.not_mem_nil, or_false] at hp
      rcases hp with rfl | rfl
      · refine ⟨{ x with name := tailName (root :: a) i }, by rw [Dict.get?_erase, if_neg hnx, Dict.get?_set, if_neg hxy, Dict.get?_set_self], rfl, by simp⟩
      · refine ⟨{ y with name := tailName (root :: b) i }, by rw [Dict.get?_erase, if_neg hny, Dict.get?_set_self], rfl, by simp⟩
    · intro n hn
      simp only [List.mem_cons, List.not_mem_nil, or_false] at hn
      rcases hn with rfl | rfl
      · exact lastx
      · exact lasty
    · intro q hq hn
      simp only [List.mem_cons, List.not_mem_nil, or_false, not_or] at hn
      rw [Dict.get?_erase, if_neg hq, Dict.get?_set, if_neg hn.2, Dict.get?_set, if_neg hn.1]
    · simp [Ne.symm hnx, Ne.symm hny]
    · intro _
      rw [Dict.get?_erase, if_pos rfl]

theorem fold_ok (g : Str → List Item) : ∀ (ks : List Str) (st : Dict Str Ent × Dict Str (List Item)), ks.Nodup →
    (∀ k ∈ ks, '/' ∉ k ∧ Grp k (g k) ∧ Dict.get? st.1 k = some (.many (g k))) →
    ∃ fin, ks.foldlM uniqueStep st = .ok fin ∧
      (∀ k ∈ ks, ∃ names, Final k fin.1 (g k) names ∧ (k ∈ names ↔ (g k).length = 1) ∧ ((g k).length ≠ 1 → Dict.get? fin.1 k = none)) ∧
      (∀ q, (∀ k ∈ ks, q ≠ k ∧ (splitChar '/' q).getLast? ≠ some k) → Dict.get? fin.1 q = Dict.get? st.1 q) ∧
      (∀ n, (Dict.get? fin.2 n).getD [] = (Dict.get? st.2 n).getD [] ++ (ks.filter (fun k => decide (normedName k = n))).flatMap g) ∧
      (∀ q x, Dict.get? fin.1 q = some (.one x) → Dict.get? st.1 q = some (.one x) ∨
        ∃ k ∈ ks, ∃ y ∈ g k, x.chainRoot = y.chainRoot ∧ (q = k ∨ (splitChar '/' q).getLast? = some k))
  | [], st, _, _ => ⟨st, rfl, by simp, fun _ _ => rfl, by simp, fun _ _ h => .inl h⟩
  | k :: ks, st, hnd, h => by
    obtain ⟨hk1, hk2, hk3⟩ := h k List.mem_cons_self
    obtain ⟨R, names, hs, hF, hun, hin, hno⟩ := step_ok st k (g k) hk2 hk1 hk3
    rw [List.nodup_cons] at hnd
    have hlast : ∀ k' ∈ ks, (splitChar '/' k').getLast? = some k' := fun k' hk' => by
      rw [Verif.JobQueue.splitChar_none (h k' (List.mem_cons_of_mem _ hk')).1]; rfl
    have hk' : ∀ k' ∈ ks, k' ≠ k := fun k' hm e => hnd.1 (e ▸ hm)
    have hnn : ∀ k' ∈ ks, k' ∉ names := by
      intro k' hm hn
      have := hF.2.2.2 k' hn
      rw [hlast k' hm] at this
      exact hk' k' hm (Option.some.inj this)
    obtain ⟨fin, f1, f2, f3, f4, f5⟩ := fold_ok g ks (R, Dict.set st.2 (normedName k) ((Dict.get? st.2 (normedName k)).getD [] ++ g k)) hnd.2 (by
      intro k' hm
      obtain ⟨a, b, c⟩ := h k' (List.mem_cons_of_mem _ hm)
      exact ⟨a, b, by rw [← c]; exact hun k' (hk' k' hm) (hnn k' hm)⟩)
    have hkeep : ∀ n ∈ names, Dict.get? fin.1 n = Dict.get? R n := by
      intro n hn
      refine f3 n ?_
      intro k' hm
      refine ⟨fun e => hnn k' hm (e ▸ hn), ?_⟩
      rw [hF.2.2.2 n hn]
      intro e; exact hk' k' hm (Option.some.inj e).symm
    have hroot : Dict.get? fin.1 k = Dict.get? R k := by
      refine f3 k ?_
      intro k' hm
      refine ⟨fun e => hk' k' hm e.symm, ?_⟩
      rw [Verif.JobQueue.splitChar_none hk1]
      intro e; exact hk' k' hm (Option.some.inj e).symm
    refine ⟨fin, ?_, ?_, ?_, ?_, ?_⟩
    · rw [List.foldlM_cons, hs]; exact f1
    · intro k' hm
      rcases List.mem_cons.mp hm with rfl | hm
      · refine ⟨names, ⟨hF.1, hF.2.1, ?_, hF.2.2.2⟩, hin, fun hl => by rw [hroot]; exact hno hl⟩
        intro p hp
        obtain ⟨x, e1, e2⟩ := hF.2.2.1 p hp
        exact ⟨x, by rw [hkeep p.1 (List.of_mem_zip hp).1]; exact e1, e2⟩
      · exact f2 k' hm
    · intro q hq
      rw [f3 q (fun k' hm => hq k' (List.mem_cons_of_mem _ hm))]
      obtain ⟨q1, q2⟩ := hq k List.mem_cons_self
      exact hun q q1 (fun hn => q2 (hF.2.2.2 q hn))
    · intro n
      rw [f4 n, Dict.get?_set]
      by_cases hn : n = normedName k
      · rw [if_pos hn, List.filter_cons_of_pos (by simp [hn]), List.flatMap_cons, hn]; simp
      · rw [if_neg hn, List.filter_cons_of_neg (by simpa using fun e : normedName k = n => hn e.symm)]
    · intro q x hq
      rcases f5 q x hq with h5 | ⟨k', hm, y, hy, e⟩
      · by_cases hqk : q = k ∨ q ∈ names
        · right
          refine ⟨k, List.mem_cons_self, ?_⟩
          by_cases hqn : q ∈ names
          · obtain ⟨i, hi, rfl⟩ := List.getElem_of_mem hqn
            have hil : i < (g k).length := by rw [← hF.1]; exact hi
            have hz : (names[i], (g k)[i]) ∈ names.zip (g k) := by
              refine List.mem_iff_getElem.mpr ⟨i, by rw [List.length_zip]; omega, by simp⟩
            obtain ⟨x', e1, e2, -⟩ := hF.2.2.1 _ hz
            rw [show Dict.get? R names[i] = some (.one x) from h5] at e1
            cases e1
            exact ⟨(g k)[i], List.getElem_mem hil, e2, .inr (hF.2.2.2 _ hqn)⟩
          · exfalso
            have hqk2 : q = k := hqk.resolve_right hqn
            subst hqk2
            have hl : (g q).length ≠ 1 := fun e => hqn (hin.mpr e)
            rw [show Dict.get? R q = some (.one x) from h5] at hno
            cases hno hl
        · left
          rw [not_or] at hqk
          rw [← hun q hqk.1 hqk.2]; exact h5
      · exact .inr ⟨k', List.mem_cons_of_mem _ hm, y, hy, e⟩

/-- the chains found under a root name -/
def under (d : Dict Str (List Item)) (k : Str) : List Item := (Dict.get? d k).getD []

theorem get?_many (d : Dict Str (List Item)) (k : Str) :
    Dict.get? (d.map (fun e => (e.1, Ent.many e.2))) k = (Dict.get? d k).map Ent.many := by
  induction d with
  | nil => rfl
  | cons e d ih =>
    obtain ⟨a, b⟩ := e
    rw [List.map_cons, Dict.get?_cons, Dict.get?_cons, ih]
    split <;> rfl

theorem makeUnique_ok (d : Dict Str (List Item)) (hw : d.WF) (hd : ∀ k ∈ Dict.keys d, '/' ∉ k ∧ Grp k (under d k)) :
    ∃ fin, makeUnique d = .ok fin ∧
      (∀ k ∈ Dict.keys d, ∃ names, Final k fin.1 (under d k) names ∧ (k ∈ names ↔ (under d k).length = 1) ∧
        ((under d k).length ≠ 1 → Dict.get? fin.1 k = none)) ∧
      (∀ q, (∀ k ∈ Dict.keys d, q ≠ k ∧ (splitChar '/' q).getLast? ≠ some k) → Dict.get? fin.1 q = none) ∧
      (∀ n, (Dict.get? fin.2 n).getD [] = ((Dict.keys d).filter (fun k => decide (normedName k = n))).flatMap (under d)) ∧
      (∀ q x, Dict.get? fin.1 q = some (.one x) → ∃ k ∈ Dict.keys d, ∃ y ∈ under d k, x.chainRoot = y.chainRoot ∧
        (q = k ∨ (splitChar '/' q).getLast? = some k)) := by
  have hget : ∀ k ∈ Dict.keys d, Dict.get? (d.map (fun e => (e.1, Ent.many e.2))) k = some (.many (under d k)) := by
    intro k hk
    rw [get?_many]
    unfold under
    cases h : Dict.get? d k with
    | none => exact absurd hk (Dict.get?_eq_none.mp h)
    | some l => rfl
  obtain ⟨fin, f1, f2, f3, f4, f5⟩ := fold_ok (under d) (Dict.keys d) (d.map (fun e => (e.1, Ent.many e.2)), []) hw
    (fun k hk => ⟨(hd k hk).1, (hd k hk).2, hget k hk⟩)
  refine ⟨fin, f1, f2, ?_, ?_, ?_⟩
  · intro q hq
    rw [f3 q hq, get?_many, Dict.get?_eq_none.mpr (fun hm => (hq q hm).1 rfl)]; rfl
  · intro n; rw [f4 n]; simp
  · intro q x hq
    rcases f5 q x hq with h | h
    · rw [get?_many] at h
      cases hg : Dict.get? d q <;> rw [hg] at h <;> cases h
    · exact h

/-- **C66**: in a grid where a root name occurs at most twice, and then in different folders, every chain can be looked up: under its root
name if that is the only one, otherwise under a name with folders; different chains have different names -/
theorem every_chain_found_partial (d : Dict Str (List Item)) (hw : d.WF) (hd : ∀ k ∈ Dict.keys d, '/' ∉ k ∧ Grp k (under d k)) :
    ∃ fin, makeUnique d = .ok fin ∧ ∀ k ∈ Dict.keys d, ∃ names : List Str, names.length = (under d k).length ∧ names.Nodup ∧
      (∀ p ∈ names.zip (under d k), resolveRoot fin p.1 = .ok (some p.2.chainRoot)) ∧
      ((under d k).length = 1 → names = [k]) ∧ ∀ n ∈ names, (splitChar '/' n).getLast? = some k := by
  obtain ⟨fin, f1, f2, -⟩ := makeUnique_ok d hw hd
  refine ⟨fin, f1, fun k hk => ?_⟩
  obtain ⟨names, ⟨n1, n2, n3, n4⟩, n5, -⟩ := f2 k hk
  refine ⟨names, n1, n2, ?_, ?_, n4⟩
  · intro p hp
    obtain ⟨x, e1, e2, -⟩ := n3 p hp
    unfold resolveRoot
    rw [e1]; simp only []; rw [e2]
  · intro hl
    have hm := n5.mpr hl
    rw [hl] at n1
    obtain ⟨a, rfl⟩ := List.length_eq_one_iff.mp n1
    rw [List.mem_singleton] at hm
    rw [hm]

/-- **C36**: a name that is neither a root name nor a name with folders is looked up by its normalised form among all chains of the grid: the
only chain with that form is returned, several are refused, none gives nothing -/
theorem resolve_normed (d : Dict Str (List Item)) (hw : d.WF) (hd : ∀ k ∈ Dict.keys d, '/' ∉ k ∧ Grp k (under d k)) :
    ∃ fin, makeUnique d = .ok fin ∧ ∀ q, Dict.get? fin.1 q = none →
      resolveRoot fin q = match ((Dict.keys d).filter (fun k => decide (normedName k = normedName q))).flatMap (under d) with
        | [] => .ok none
        | [x] => .ok (some x.chainRoot)
        | _ => .error .valueError := by
  obtain ⟨fin, f1, -, -, f4, -⟩ := makeUnique_ok d hw hd
  refine ⟨fin, f1, fun q hq => ?_⟩
  unfold resolveRoot
  rw [hq]
  simp only []
  rw [← f4 (normedName q)]
  cases h : Dict.get? fin.2 (normedName q) with
  | none => rfl
  | some l =>
    simp only [Option.getD_some]
    match l with
    | [] => rfl
    | [x] => rfl
    | _ :: _ :: _ => rfl

/-- **C36**: what is returned is a chain of the grid whose root name is the query, ends the query after folders, or has the same
normalised name as the query -/
theorem resolve_sound (d : Dict Str (List Item)) (hw : d.WF) (hd : ∀ k ∈ Dict.keys d, '/' ∉ k ∧ Grp k (under d k)) :
    ∃ fin, makeUnique d = .ok fin ∧ ∀ q p, resolveRoot fin q = .ok (some p) → ∃ k ∈ Dict.keys d, ∃ y ∈ under d k, y.chainRoot = p ∧
      (q = k ∨ (splitChar '/' q).getLast? = some k ∨ normedName k = normedName q) := by
  obtain ⟨fin, f1, f2, -, f4, f5⟩ := makeUnique_ok d hw hd
  refine ⟨fin, f1, fun q p hp => ?_⟩
  unfold resolveRoot at hp
  cases hq : Dict.get? fin.1 q with
  | some e =>
    rw [hq] at hp
    cases e with
    | many l => cases hp
    | one x =>
      injection hp with hp
      injection hp with hp
      obtain ⟨k, hk, y, hy, e1, e2⟩ := f5 q x hq
      refine ⟨k, hk, y, hy, by rw [← e1, hp], ?_⟩
      rcases e2 with e2 | e2
      · exact .inl e2
      · exact .inr (.inl e2)
  | none =>
    rw [hq] at hp
    simp only [] at hp
    have h4 := f4 (normedName q)
    cases h : Dict.get? fin.2 (normedName q) with
    | none => rw [h] at hp; cases hp
    | some l =>
      rw [h] at hp h4
      match l, hp, h4 with
      | [x], hp, h4 =>
        injection hp with hp
        injection hp with hp
        have hm : x ∈ ((Dict.keys d).filter (fun k => decide (normedName k = normedName q))).flatMap (under d) := by
          rw [← h4]; simp
        obtain ⟨k, hk, hx⟩ := List.mem_flatMap.mp hm
        have hk2 := List.mem_filter.mp hk
        exact ⟨k, hk2.1, x, hx, hp, .inr (.inr (by simpa using hk2.2))⟩

/-! ## Concrete grids -/

def grid (l : List (Str × Str × List Str)) (q : Str) : Except GErr (Option Str) :=
  match makeUnique (addAll l) with | .ok g => resolveRoot g q | .error e => .error e

/-- two chains of the same name in different folders, one on its own -/
def exFolders : List (Str × Str × List Str) :=
  [(c!"a", c!"/g/a", [c!"/g/a/r", c!"/g/a/s_t"]), (c!"b", c!"/g/b", [c!"/g/b/r"])]

example : grid exFolders c!"a/r" = .ok (some c!"/g/a/r") ∧ grid exFolders c!"b/r" = .ok (some c!"/g/b/r") ∧
    grid exFolders c!"s_t" = .ok (some c!"/g/a/s_t") ∧ grid exFolders c!"t_s" = .ok (some c!"/g/a/s_t") ∧
    grid exFolders c!"r" = .error .valueError ∧ grid exFolders c!"z" = .ok none := by decide +kernel

/-- the hypotheses of `every_chain_found_partial` hold for it -/
example : (addAll exFolders).WF ∧ ∀ k ∈ Dict.keys (addAll exFolders), '/' ∉ k ∧ Grp k (under (addAll exFolders) k) := by
  refine ⟨by unfold Dict.WF; decide +kernel, ?_⟩
  intro k hk
  have : k = c!"r" ∨ k = c!"s_t" := by
    have h : Dict.keys (addAll exFolders) = [c!"r", c!"s_t"] := by decide +kernel
    rw [h] at hk; simpa using hk
  rcases this with rfl | rfl
  · refine ⟨by decide, ?_⟩
    rw [show under (addAll exFolders) c!"r" = [⟨c!"/g/a/r", c!"a", c!"r"⟩, ⟨c!"/g/b/r", c!"b", c!"r"⟩] by decide +kernel]
    exact .pair _ _ [c!"a", c!"g", []] [c!"b", c!"g", []] (by decide +kernel) (by decide +kernel)
      ⟨1, c!"a", c!"b", by decide, rfl, rfl, by decide⟩
  · refine ⟨by decide, ?_⟩
    rw [show under (addAll exFolders) c!"s_t" = [⟨c!"/g/a/s_t", c!"a", c!"s_t"⟩] by decide +kernel]
    exact .single _

/-- **C66 fails** for three chains of the same name: the folders are compared at one level only, so two chains get the same name and one
of them cannot be looked up any more -/
theorem three_chains_fails : ∃ l : List (Str × Str × List Str),
    l = [(c!"a", c!"/g/a/x", [c!"/g/a/x/r"]), (c!"a", c!"/g/a/y", [c!"/g/a/y/r"]), (c!"b", c!"/g/b/x", [c!"/g/b/x/r"])] ∧
    grid l c!"x/r" = .ok (some c!"/g/b/x/r") ∧ grid l c!"y/r" = .ok (some c!"/g/a/y/r") ∧ grid l c!"a/x/r" = .ok none ∧
    grid l c!"r" = .error .valueError := ⟨_, rfl, by decide +kernel⟩

/-- a chain found twice in the same folder (through `.paramnames` and through `updated.yaml`) makes the whole grid unreadable -/
theorem same_chain_twice_fails (q : Str) : grid [(c!"a", c!"/g/a", [c!"/g/a/r", c!"/g/a/r"])] q = .error .indexError := by
  unfold grid
  rw [show makeUnique (addAll [(c!"a", c!"/g/a", [c!"/g/a/r", c!"/g/a/r"])]) = .error .indexError by decide +kernel]

/-- the loop that compares folders ends without a result exactly as above whenever all the paths are the same, whatever they are -/
theorem depth_same (p : List Str) (n : Nat) (hn : n ≠ 0) : ∀ fuel i, depth p (List.replicate n p) fuel i = .error .indexError := by
  have hall : ∀ m i, m ≠ 0 → allSame p i (List.replicate m p) = if i - 1 < p.length then .ok true else .error .indexError := by
    intro m i
    induction m with
    | zero => intro h; exact absurd rfl h
    | succ m ih =>
      intro _
      rw [List.replicate_succ, allSame]
      by_cases h : i - 1 < p.length
      · rw [if_pos h, back, List.getElem?_eq_getElem h]
        simp only [if_true]
        cases m with
        | zero => rfl
        | succ m => rw [ih (by omega), if_pos h]
      · rw [if_neg h, back, List.getElem?_eq_none (by omega)]
  intro fuel
  induction fuel with
  | zero => intro i; rfl
  | succ fuel ih =>
    intro i
    rw [depth, hall n i hn]
    by_cases h : i - 1 < p.length
    · rw [if_pos h]; simp only []; exact ih (i + 1)
    · rw [if_neg h]

example : (depth [c!"a", c!"b"] [[c!"a", c!"b"]] 5 1).toOption = none ∧ (depth [c!"a", c!"b"] [[c!"a", c!"c"]] 5 1).toOption = some 2 := by decide

end Verif.ChainGrid
