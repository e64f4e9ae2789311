import Verif.Model.Rename
import Verif.Props.ParamNames
import Verif.Lemmas.Split
import Mathlib.Data.List.Nodup

/-!
# Renaming parameters in a grid
-/

namespace Verif.Rename
set_option linter.unusedSimpArgs false
open Verif.Py Verif.ParamNames

/-! ## The mapping -/

theorem get?_addPairs (l : List (Str × Str)) (m : Mapper) (k : Str) :
    (addPairs m l).get? k = ((l.reverse.find? (fun p => p.1 = k)).map (fun p => (p.2, none))).or (m.get? k) := by
  induction l generalizing m with
  | nil => rfl
  | cons p l ih =>
    have e : addPairs m (p :: l) = addPairs (m.set p.1 (p.2, none)) l := rfl
    rw [e, ih, List.reverse_cons, List.find?_append]
    cases hf : l.reverse.find? (fun p => decide (p.1 = k)) with
    | some q => rfl
    | none =>
      by_cases hk : p.1 = k
      · subst hk
        simp [Dict.get?_set_self]
      · simp [hk, Dict.get?_set_of_ne _ _ (Ne.symm hk)]

/-- **The mapping**: a pair given on the command line, the last one for the name, else the last line of the map file for it. -/
theorem makeMapper_spec (mapFile : Option (List Str)) (oldNew : List Str) (m : Mapper) (h : makeMapper mapFile oldNew = .ok m) :
    ∃ f, readMap (mapFile.getD []) [] = .ok f ∧ ∀ k, m.get? k =
      (((pairs oldNew).reverse.find? (fun p => p.1 = k)).map (fun p => (p.2, none))).or (f.get? k) := by
  unfold makeMapper at h
  split at h
  · simp at h
  · split at h
    · simp at h
    · rename_i f hf
      cases h
      exact ⟨f, hf, get?_addPairs _ _⟩

/-- a row of the map file -/
structure Row where
  old : Str
  new : Str
  label : Str

def Row.line (r : Row) : Str := r.old ++ ' ' :: (r.new ++ ' ' :: (r.label ++ ['\n']))

def Row.OK (r : Row) : Prop := Token r.old ∧ Token r.new ∧ r.label ≠ [] ∧ Trim r.label

theorem ws_blank : isWs ' ' = true := by decide
theorem ws_nl : isWs '\n' = true := by decide

theorem strip_token {t : Str} (h : Token t) : strip t = t := by
  apply strip_eq_self
  constructor
  · intro c hc; exact h.2 c (List.mem_of_mem_head? hc)
  · intro c hc; exact h.2 c (List.mem_of_mem_getLast? hc)

theorem splitWs1_two' {n r : Str} {ws : Char} (h : Token n) (hw : isWs ws = true) (c : Char) (hc : r.head? = some c) (hcw : isWs c = false) :
    splitWs1 (n ++ ws :: r) = [n, r] := by
  rw [splitWs1_two h.1 h.2 hw]
  have : lstrip r = r := lstrip_eq_self (by intro d hd; rw [hc] at hd; cases hd; exact hcw)
  rw [this]
  cases r with
  | nil => simp at hc
  | cons _ _ => rfl

theorem split3_line (r : Row) (h : r.OK) : split3 r.line = [r.old, r.new, r.label] := by
  obtain ⟨h1, h2, h3, h4⟩ := h
  obtain ⟨c, t, ht⟩ : ∃ c t, r.label = c :: t := by
    cases hl : r.label with
    | nil => exact absurd hl h3
    | cons c t => exact ⟨c, t, rfl⟩
  obtain ⟨d, u, hu⟩ : ∃ d u, r.new = d :: u := by
    cases hl : r.new with
    | nil => exact absurd hl h2.1
    | cons c t => exact ⟨c, t, rfl⟩
  have e1 : splitWs1 r.line = [r.old, r.new ++ ' ' :: (r.label ++ ['\n'])] :=
    splitWs1_two' h1 ws_blank d (by rw [hu]; rfl) (h2.2 d (by rw [hu]; simp))
  have e2 : splitWs1 (r.new ++ ' ' :: (r.label ++ ['\n'])) = [r.new, r.label ++ ['\n']] :=
    splitWs1_two' h2 ws_blank c (by rw [ht]; rfl) (h4.1 c (by rw [ht]; rfl))
  unfold split3
  rw [e1]
  simp only
  rw [e2]
  simp only [strip_token h1, strip_token h2]
  rw [strip_append_ws _ _ ws_nl, strip_eq_self h4]

theorem strip_line (r : Row) (h : r.OK) : strip r.line ≠ [] := by
  intro he
  obtain ⟨c, t, ht⟩ : ∃ c t, r.old = c :: t := by
    cases hl : r.old with
    | nil => exact absurd hl h.1.1
    | cons c t => exact ⟨c, t, rfl⟩
  have hc : isWs c = false := h.1.2 c (by rw [ht]; simp)
  have hl : lstrip r.line = r.line := lstrip_eq_self (by
    intro d hd
    rw [Row.line, ht] at hd
    simp at hd
    subst hd; exact hc)
  unfold strip rstrip at he
  rw [hl] at he
  have : (r.line.reverse.dropWhile isWs) = [] := by simpa using he
  rw [List.dropWhile_eq_nil_iff] at this
  have := this c (by rw [List.mem_reverse, Row.line, ht]; simp)
  rw [hc] at this
  simp at this

/-- **The map file is read as it shows**, blank lines left out: the last row for a name counts. -/
theorem readMap_spec (rows : List Row) (h : ∀ r ∈ rows, r.OK) (m : Mapper) :
    ∃ f, readMap (rows.map Row.line) m = .ok f ∧ ∀ k, f.get? k = ((rows.reverse.find? (fun r => r.old = k)).map (fun r => (r.new, some r.label))).or (m.get? k) := by
  induction rows generalizing m with
  | nil => exact ⟨m, rfl, fun k => rfl⟩
  | cons r rows ih =>
    have hr := h r (by simp)
    obtain ⟨f, h1, h2⟩ := ih (fun x hx => h x (by simp [hx])) (m.set r.old (r.new, some r.label))
    refine ⟨f, ?_, fun k => ?_⟩
    · rw [List.map_cons, readMap, if_neg (strip_line r hr), split3_line r hr]
      exact h1
    · rw [h2, List.reverse_cons, List.find?_append]
      cases hf : rows.reverse.find? (fun r => decide (r.old = k)) with
      | some q => rfl
      | none =>
        by_cases hk : r.old = k
        · subst hk
          simp [Dict.get?_set_self]
        · simp [hk, Dict.get?_set_of_ne _ _ (Ne.symm hk)]

theorem readMap_blank (l : Str) (ls : List Str) (m : Mapper) (h : strip l = []) : readMap (l :: ls) m = readMap ls m := by
  simp [readMap, h]

example : makeMapper (some [c!"omegabh2 ombh2 \\Omega_b h^2\n", c!"\n", c!"tau tau2 \\tau\n"]) [c!"tau", c!"optdepth"] =
    .ok [(c!"omegabh2", (c!"ombh2", some c!"\\Omega_b h^2")), (c!"tau", (c!"optdepth", none))] := by decide +kernel

/-- the full statement: every name given on the command line is used -/
def AllPairs : Prop := ∀ (oldNew : List Str) (m : Mapper), makeMapper none oldNew = .ok m → ∀ n ∈ oldNew, (∃ v, m.get? n = some v) ∨ ∃ k v, m.get? k = some v ∧ v.1 = n

theorem pairs_even : ∀ (l : List Str), l.length % 2 = 0 → ((pairs l).map (fun p => [p.1, p.2])).flatten = l
  | [], _ => rfl
  | [_], h => by simp at h
  | a :: b :: l, h => by
    have := pairs_even l (by simp at h; omega)
    simp [pairs, this]

/-- An odd last name is left out without a message (renameParam.py:33). -/
theorem odd_pairs_fails : ¬ AllPairs := by
  intro h
  have h2 : makeMapper none [c!"a", c!"b", c!"c"] = .ok [(c!"a", (c!"b", none))] := by decide
  rcases h _ _ h2 c!"c" (by simp) with ⟨v, hv⟩ | ⟨k, v, hv, he⟩
  · revert hv
    rw [show Dict.get? ([(c!"a", (c!"b", none))] : Mapper) c!"c" = none by decide]
    simp
  · by_cases hk : k = c!"a"
    · subst hk
      rw [show Dict.get? ([(c!"a", (c!"b", none))] : Mapper) c!"a" = some (c!"b", none) by decide] at hv
      cases hv
      revert he; decide
    · have : Dict.get? ([(c!"a", (c!"b", none))] : Mapper) k = none := by
        have e : Dict.get? (Dict.set ([] : Mapper) c!"a" (c!"b", none)) k = Dict.get? ([] : Mapper) k := Dict.get?_set_of_ne _ _ hk
        exact e
      rw [this] at hv
      simp at hv

/-! ## Parameter names -/

/-- the new name of a parameter -/
def nameOf (m : Mapper) (n : Str) : Str := ((m.get? n).map (·.1)).getD n

/-- **Parameter names**: all parameters stay in their places; each has the name mapped to its old one, at once for all of them; the label is that of the label
file for the new name, else that given with the new name, else the old one; nothing else changes. -/
theorem renameNames_spec (m : Mapper) (labels ps : List Info) : (renameNames m labels ps).1.length = ps.length ∧
    ∀ (i : Nat) (p : Info), ps[i]? = some p → (renameNames m labels ps).1[i]? = some
      { p with name := nameOf m p.name
               label := match parWithName labels (nameOf m p.name) with
                 | some q => q.label
                 | none => ((m.get? p.name).bind (·.2)).getD p.label } := by
  refine ⟨by simp [renameNames], fun i p hi => ?_⟩
  simp only [renameNames, List.getElem?_map, hi, Option.map_some]
  congr 1
  unfold renameInfo nameOf
  cases hm : m.get? p.name with
  | none =>
    simp only [labelInfo, Option.map_none, Option.getD_none, Option.bind_none]
    cases parWithName labels p.name <;> rfl
  | some v =>
    obtain ⟨n, l⟩ := v
    simp only [labelInfo, Option.map_some, Option.getD_some, Option.bind_some]
    cases parWithName labels n <;> rfl

/-- without anything to do, nothing is done -/
theorem renameNames_same (m : Mapper) (labels ps : List Info) (h : (renameNames m labels ps).2 = false) : (renameNames m labels ps).1 = ps := by
  simp only [renameNames, Bool.or_eq_false_iff, List.any_eq_false] at h ⊢
  obtain ⟨h1, h2⟩ := h
  have e1 : ps.map (renameInfo m) = ps := by
    conv_rhs => rw [← List.map_id ps]
    refine List.map_congr_left fun p hp => ?_
    have := h1 p hp
    unfold renameInfo
    cases hm : m.get? p.name with
    | none => rfl
    | some v => rw [hm] at this; simp at this
  rw [e1] at h2 ⊢
  conv_rhs => rw [← List.map_id ps]
  refine List.map_congr_left fun p hp => ?_
  have := h2 p hp
  unfold labelInfo
  cases hm : parWithName labels p.name with
  | none => rfl
  | some v => rw [hm] at this; simp at this

theorem names_of_rename (m : Mapper) (labels ps : List Info) : (renameNames m labels ps).1.map (·.name) = ps.map (fun p => nameOf m p.name) := by
  simp only [renameNames, List.map_map]
  refine List.map_congr_left fun p _ => ?_
  simp only [Function.comp, labelInfo, renameInfo, nameOf]
  cases hm : m.get? p.name with
  | none =>
    simp only
    cases parWithName labels p.name <;> rfl
  | some v =>
    obtain ⟨n, l⟩ := v
    simp only
    cases parWithName labels n <;> rfl

/-- **Names stay different** when no new name is that of another parameter. -/
theorem rename_nodup (m : Mapper) (labels ps : List Info) (h : (ps.map (·.name)).Nodup)
    (hinj : ∀ p ∈ ps, ∀ q ∈ ps, nameOf m p.name = nameOf m q.name → p.name = q.name) : ((renameNames m labels ps).1.map (·.name)).Nodup := by
  rw [names_of_rename]
  have e : ps.map (fun p => nameOf m p.name) = (ps.map (·.name)).map (nameOf m) := by rw [List.map_map]; rfl
  rw [e]
  refine List.Nodup.map_on ?_ h
  intro x hx y hy hxy
  obtain ⟨p, hp, rfl⟩ := List.mem_map.mp hx
  obtain ⟨q, hq, rfl⟩ := List.mem_map.mp hy
  exact hinj p hp q hq hxy

/-- **Renaming back** restores the names: `a b`, then `b a`, if there was no `b` before. -/
theorem rename_back (a b : Str) (ps : List Info) (hb : ∀ p ∈ ps, p.name ≠ b) (m1 m2 : Mapper) (h1 : makeMapper none [a, b] = .ok m1) (h2 : makeMapper none [b, a] = .ok m2) :
    (renameNames m2 [] (renameNames m1 [] ps).1).1 = ps := by
  have g1 : m1 = [(a, (b, none))] := by cases h1; rfl
  have g2 : m2 = [(b, (a, none))] := by cases h2; rfl
  subst g1; subst g2
  have hg : ∀ (x y : Str) (p : Info), renameInfo ([(x, (y, none))] : Mapper) p = if p.name = x then { p with name := y } else p := by
    intro x y p
    unfold renameInfo
    by_cases hk : p.name = x
    · rw [if_pos hk, hk]
      have e : Dict.get? ([(x, (y, none))] : Mapper) x = some (y, none) := Dict.get?_set_self ([] : Mapper) x (y, none)
      rw [e]
      rfl
    · rw [if_neg hk]
      have e : Dict.get? ([(x, (y, none))] : Mapper) p.name = none := Dict.get?_set_of_ne ([] : Mapper) (y, none) hk
      rw [e]
  have hl : ∀ p : Info, labelInfo [] p = p := fun p => rfl
  simp only [renameNames, List.map_map]
  conv_rhs => rw [← List.map_id ps]
  refine List.map_congr_left fun p hp => ?_
  simp only [Function.comp, hl, id, hg]
  by_cases hk : p.name = a
  · simp only [if_pos hk, if_true]
    rw [← hk]
  · simp only [if_neg hk, if_neg (hb p hp)]

example : ((renameNames [(c!"a", (c!"b", none)), (c!"b", (c!"a", some c!"A"))] [] [⟨c!"a", c!"x", [], false, []⟩, ⟨c!"b", c!"y", [], true, []⟩, ⟨c!"c", c!"z", [], false, []⟩]).1.map
    (fun p => (p.name, p.label, p.isDerived))) = [(c!"b", c!"x", false), (c!"a", c!"A", true), (c!"c", c!"z", false)] := by decide

/-- the full statement: renaming keeps the names different -/
def RenameNodup : Prop := ∀ (m : Mapper) (labels ps : List Info), (ps.map (·.name)).Nodup → ((renameNames m labels ps).1.map (·.name)).Nodup

/-- A parameter can be given the name of another one without a message (renameParam.py:43-45): the second can then not be found by name. -/
theorem clash_fails : ¬ RenameNodup := by
  intro h
  have := h [(c!"a", (c!"b", none))] [] [⟨c!"a", [], [], false, []⟩, ⟨c!"b", [], [], false, []⟩] (by decide)
  revert this
  decide

/-! ## Best fit files -/

/-- splitting loses nothing -/
theorem resplit_flatten : ∀ (n : Nat) (s : Str), (resplit n s).flatten = s
  | 0, s => by simp [resplit]
  | n + 1, s => by
    unfold resplit
    split
    · simp
    · rename_i c cs h
      simp only [List.flatten_cons, resplit_flatten n]
      rw [List.takeWhile_append_dropWhile, ← h, List.takeWhile_append_dropWhile]

example : resplit 1 c!"  omegabh2\tx y" = [c!"  ", c!"omegabh2", c!"\tx y"] := by decide

theorem resplit_step (n : Nat) {a t r : Str} (ha : Blank a) (ht : Token t) (hr : ∀ c, r.head? = some c → isWs c = true) :
    resplit (n + 1) (a ++ (t ++ r)) = a :: t :: resplit n r := by
  obtain ⟨c, u, hu⟩ : ∃ c u, t = c :: u := by
    cases hl : t with
    | nil => exact absurd hl ht.1
    | cons c u => exact ⟨c, u, rfl⟩
  have hc : isWs c = false := ht.2 c (by rw [hu]; simp)
  have d1 : (a ++ (t ++ r)).dropWhile isWs = t ++ r := by
    rw [dropWhile_append_all ha]
    exact dropWhile_eq_self (by intro d hd; rw [hu] at hd; simp at hd; subst hd; exact hc)
  have t1 : (a ++ (t ++ r)).takeWhile isWs = a := by
    have e := List.takeWhile_append_dropWhile (p := isWs) (l := a ++ (t ++ r))
    rw [d1] at e
    exact List.append_cancel_right e
  have h1 : ∀ x ∈ t, (!isWs x) = true := by intro x hx; simp [ht.2 x hx]
  have h2 : (t ++ r).takeWhile (fun c => !isWs c) = t ∧ (t ++ r).dropWhile (fun c => !isWs c) = r := by
    cases r with
    | nil =>
      rw [List.append_nil]
      exact ⟨Path.takeWhile_all h1, Path.dropWhile_all h1⟩
    | cons w r =>
      have hw : (!isWs w) = false := by simp [hr w rfl]
      exact ⟨Path.takeWhile_append_stop h1 hw, Path.dropWhile_append_stop h1 hw⟩
  conv_lhs => unfold resplit
  rw [d1]
  subst hu
  simp only [List.cons_append] at h2 t1 ⊢
  rw [h2.1, h2.2, t1]

/-- a line of a best fit file: number, value, name, label -/
structure MinLine where
  s0 : Str
  num : Str
  s1 : Str
  val : Str
  s2 : Str
  name : Str
  gap : Str
  label : Str

def MinLine.text (l : MinLine) : Str := l.s0 ++ l.num ++ l.s1 ++ l.val ++ l.s2 ++ l.name ++ l.gap ++ l.label

structure MinLine.OK (l : MinLine) : Prop where
  s0 : Blank l.s0
  num : Token l.num
  num' : l.num ≠ c!"-log(Like)"
  s1 : Blank l.s1 ∧ l.s1 ≠ []
  val : Token l.val
  s2 : Blank l.s2 ∧ l.s2 ≠ []
  name : Token l.name
  gap : Blank l.gap ∧ l.gap ≠ []
  label : l.label ≠ [] ∧ Trim l.label

theorem blank_head {b r : Str} (h : Blank b) (hne : b ≠ []) : ∀ c, (b ++ r).head? = some c → isWs c = true := by
  intro c hc
  cases b with
  | nil => exact absurd rfl hne
  | cons d b => simp at hc; subst hc; exact h d (by simp)

theorem resplit_line (l : MinLine) (h : l.OK) : ∃ t r, l.label = t ++ r ∧ resplit 4 l.text = [l.s0, l.num, l.s1, l.val, l.s2, l.name, l.gap, t, r] := by
  refine ⟨l.label.takeWhile (fun c => !isWs c), l.label.dropWhile (fun c => !isWs c), (List.takeWhile_append_dropWhile).symm, ?_⟩
  have e : l.text = l.s0 ++ (l.num ++ (l.s1 ++ (l.val ++ (l.s2 ++ (l.name ++ (l.gap ++ (l.label.takeWhile (fun c => !isWs c) ++ l.label.dropWhile (fun c => !isWs c)))))))) := by
    rw [List.takeWhile_append_dropWhile]
    simp [MinLine.text]
  have ht : Token (l.label.takeWhile (fun c => !isWs c)) := by
    constructor
    · obtain ⟨c, u, hu⟩ : ∃ c u, l.label = c :: u := by
        cases hl : l.label with
        | nil => exact absurd hl h.label.1
        | cons c u => exact ⟨c, u, rfl⟩
      have hc := h.label.2.1 c (by rw [hu]; rfl)
      rw [hu, List.takeWhile_cons_of_pos (by simp [hc])]
      simp
    · intro c hc
      have := List.mem_takeWhile_imp hc
      simpa using this
  have hr : ∀ c, (l.label.dropWhile (fun c => !isWs c)).head? = some c → isWs c = true := by
    intro c hc
    have := dropWhile_head (p := fun c => !isWs c) l.label c hc
    simpa using this
  rw [e, resplit_step 3 h.s0 h.num (blank_head h.s1.1 h.s1.2), resplit_step 2 h.s1.1 h.val (blank_head h.s2.1 h.s2.2),
    resplit_step 1 h.s2.1 h.name (blank_head h.gap.1 h.gap.2), resplit_step 0 h.gap.1 ht hr]
  rfl

theorem rstrip_text (l : MinLine) (h : l.OK) (tail : Str) (ht : Blank tail) : rstrip (l.text ++ tail) = l.text := by
  have key : ∀ (t : Str), Blank t → rstrip (l.text ++ t.reverse) = l.text := by
    intro t
    induction t with
    | nil =>
      intro _
      rw [List.reverse_nil, List.append_nil]
      refine rstrip_eq_self ?_
      intro c hc
      rw [MinLine.text, List.getLast?_append] at hc
      cases hl : l.label.getLast? with
      | none => exact absurd (List.getLast?_eq_none_iff.mp hl) h.label.1
      | some d =>
        rw [hl] at hc
        simp at hc
        subst hc
        exact h.label.2.2 d hl
    | cons c t ih =>
      intro hb
      rw [List.reverse_cons, ← List.append_assoc, rstrip_append_ws _ _ (hb c (by simp))]
      exact ih (fun x hx => hb x (by simp [hx]))
  have := key tail.reverse (fun c hc => ht c (by simpa using hc))
  rwa [List.reverse_reverse] at this

/-- **A line of a best fit file**: number, value and spacing stay; name and label are the new ones, the label in its column if there is room. -/
theorem minLine_spec (m : Mapper) (labels : List Info) (l : MinLine) (h : l.OK) (tail : Str) (ht : Blank tail) :
    ∃ b, minLine m labels (l.text ++ tail) = .ok (.new ({ l with
        name := nameOf m l.name
        gap := if (m.get? l.name).isSome then List.replicate (l.gap.length + l.name.length - (nameOf m l.name).length) ' ' else l.gap
        label := (newLabel m labels l.name).getD l.label }.text ++ ['\n']) b) ∧ (b = true ↔ nameOf m l.name ≠ l.name ∨ (newLabel m labels l.name).getD l.label ≠ l.label) := by
  obtain ⟨t, r, hl, hs⟩ := resplit_line l h
  have hn : newName m l.name l.gap = (nameOf m l.name,
      if (m.get? l.name).isSome then List.replicate (l.gap.length + l.name.length - (nameOf m l.name).length) ' ' else l.gap) := by
    unfold newName nameOf
    cases m.get? l.name <;> rfl
  have hc : nameChanged m l.name = decide (nameOf m l.name ≠ l.name) := by
    unfold nameChanged nameOf
    cases hg : m.get? l.name with
    | none => simp
    | some v =>
      obtain ⟨n, x⟩ := v
      by_cases he : n = l.name <;> simp [he]
  have hfl : [t, r].flatten = l.label := by rw [hl]; simp
  unfold minLine
  rw [rstrip_text l h tail ht, hs]
  simp only [if_neg h.num', hn]
  cases hL : newLabel m labels l.name with
  | none =>
    refine ⟨nameChanged m l.name, ?_, ?_⟩
    · rw [hfl]
      simp [MinLine.text]
    · rw [hc]; simp
  | some lab =>
    refine ⟨nameChanged m l.name || [t, r].flatten != lab, ?_, ?_⟩
    · simp [MinLine.text]
    · rw [hc, hfl]
      simp only [Bool.or_eq_true, decide_eq_true_eq, bne_iff_ne, Option.getD_some, ne_eq, eq_comm (a := lab)]

/-- **With room for the new name**, the new line has the new name between blanks, and the label in the same column. -/
theorem minLine_room_partial (l : MinLine) (h : l.OK) (new label : Str) (hn : Token new) (hr : new.length < l.gap.length + l.name.length) :
    let l' := { l with name := new, gap := List.replicate (l.gap.length + l.name.length - new.length) ' ', label := label }
    (splitWs l'.text).take 3 = [l.num, l.val, new] ∧
    (l.s0 ++ l.num ++ l.s1 ++ l.val ++ l.s2 ++ new ++ l'.gap).length = (l.s0 ++ l.num ++ l.s1 ++ l.val ++ l.s2 ++ l.name ++ l.gap).length := by
  intro l'
  have hg : Blank l'.gap ∧ l'.gap ≠ [] := by
    constructor
    · intro c hc
      rw [List.eq_of_mem_replicate hc]; decide
    · intro he
      have := congrArg List.length he
      simp [l'] at this
      omega
  constructor
  · have e : l'.text = l.s0 ++ (l.num ++ (l.s1 ++ (l.val ++ (l.s2 ++ (new ++ (l'.gap ++ label)))))) := by simp [MinLine.text, l']
    rw [e, splitWs_blank_append h.s0, splitWs_tok h.num (blank_head h.s1.1 h.s1.2), splitWs_blank_append h.s1.1, splitWs_tok h.val (blank_head h.s2.1 h.s2.2),
      splitWs_blank_append h.s2.1, splitWs_tok hn (blank_head hg.1 hg.2)]
    rfl
  · simp only [List.length_append, l', List.length_replicate]
    omega

example : minLine [(c!"omegabh2", (c!"ombh2", none))] [] c!"    1  0.0224   omegabh2     \\Omega_b h^2\n" = .ok (.new c!"    1  0.0224   ombh2        \\Omega_b h^2\n" true) := by decide +kernel

/-- the full statement: the third word of the line is the new name -/
def NameSeen : Prop := ∀ (m : Mapper) (labels : List Info) (l : MinLine), l.OK → Token (nameOf m l.name) → ∀ (t : Str) (b : Bool), minLine m labels (l.text ++ ['\n']) = .ok (.new t b) →
  (splitWs t)[2]? = some (nameOf m l.name)

/-- a short line -/
def tightLine : MinLine := ⟨c!" ", c!"1", c!" ", c!"0.7", c!" ", c!"h", c!" ", c!"h"⟩

theorem tightLine_ok : tightLine.OK := by
  refine ⟨?_, ?_, ?_, ?_, ?_, ?_, ?_, ?_, ?_⟩
  · unfold Blank; decide
  · decide
  · decide
  · exact ⟨by unfold Blank; decide, by decide⟩
  · decide
  · exact ⟨by unfold Blank; decide, by decide⟩
  · decide
  · exact ⟨by unfold Blank; decide, by decide⟩
  · refine ⟨by decide, ?_, ?_⟩ <;> (intro c hc; revert hc; simp [tightLine]; rintro rfl; decide)

/-- A new name as long as the old one with its blanks, or longer, leaves no blank (renameParam.py:74): name and label become one word. -/
theorem run_together_fails : ¬ NameSeen := by
  intro h
  have := h [(c!"h", (c!"hubble", none))] [] tightLine tightLine_ok (by decide) c!" 1 0.7 hubbleh\n" true (by decide)
  revert this
  decide

/-- the full statement: lines with or without label can be changed -/
def LabelAdded : Prop := ∀ (m : Mapper) (labels : List Info) (line : Str), ∃ r, minLine m labels line = .ok r

/-- A line without label has seven items, not fewer (renameParam.py:80-85): a label for it is not added but an error. -/
theorem no_label_fails : ¬ LabelAdded := by
  intro h
  obtain ⟨r, hr⟩ := h [(c!"h", (c!"hub", some c!"h"))] [] c!"  1 0.7 h\n"
  have : minLine [(c!"h", (c!"hub", some c!"h"))] [] c!"  1 0.7 h\n" = .error .index := by decide
  rw [this] at hr
  cases hr

/-- the full statement: both files have the same label for a parameter -/
def LabelsAgree : Prop := ∀ (m : Mapper) (labels : List Info) (p : Info) (lab : Str), newLabel m labels p.name = some lab →
  ∀ (q : Info), (renameNames m labels [p]).1 = [q] → q.label = lab

/-- The label file is asked for the new name for `.paramnames` files, but for the old name for best fit files (renameParam.py:50, 76). -/
theorem label_by_old_fails : ¬ LabelsAgree := by
  intro h
  have := h [(c!"h", (c!"hub", some c!"H"))] [⟨c!"hub", c!"h_0", [], false, []⟩] ⟨c!"h", c!"x", [], false, []⟩ c!"H" (by decide) ⟨c!"hub", c!"h_0", [], false, []⟩ (by decide)
  revert this
  decide

/-! ## The grid -/

/-- **Without `--confirm` nothing changes.** -/
theorem dry_run (m : Mapper) (labels : List Info) (roots : List Str) (fs : FS) : (runGrid m labels false fs roots).1 = fs := by
  have item : ∀ (fs : FS) (root : Str), (runItem m labels false fs root).1 = fs := by
    intro fs root
    unfold runItem
    split
    · rfl
    · split
      · rfl
      · simp
  induction roots generalizing fs with
  | nil => rfl
  | cons root roots ih =>
    unfold runGrid
    have := item fs root
    cases hr : runItem m labels false fs root with
    | mk fs2 e =>
      rw [hr] at this
      simp only at this
      subst this
      cases e with
      | some e => rfl
      | none => exact ih fs2

theorem runItem_other (m : Mapper) (labels : List Info) (confirm : Bool) (fs : FS) (root n : Str) (h : n ≠ namesFile root) :
    (runItem m labels confirm fs root).1 n = fs n := by
  unfold runItem
  split
  · rfl
  · split
    · rfl
    · simp only
      split
      · simp [FS.write, h]
      · rfl

/-- **Only `.paramnames` files of the chains chosen change.** -/
theorem only_names_files (m : Mapper) (labels : List Info) (confirm : Bool) (roots : List Str) (fs : FS) (n : Str) (h : ∀ root ∈ roots, n ≠ namesFile root) :
    (runGrid m labels confirm fs roots).1 n = fs n := by
  induction roots generalizing fs with
  | nil => rfl
  | cons root roots ih =>
    unfold runGrid
    have hi := runItem_other m labels confirm fs root n (h root (by simp))
    cases hr : runItem m labels confirm fs root with
    | mk fs2 e =>
      rw [hr] at hi
      cases e with
      | some e => exact hi
      | none =>
        simp only
        rw [ih fs2 (fun r hr => h r (by simp [hr]))]
        exact hi

theorem runItem_file (m : Mapper) (labels : List Info) (fs : FS) (root t : Str) (ps : List Info) (ht : fs (namesFile root) = some t) (hl : loadText t = .ok ps)
    (hok : ∀ p ∈ (renameNames m labels ps).1, ParOK p) (hren : ∀ p ∈ ps, p.renames = []) :
    ∃ t', (runItem m labels true fs root).1 (namesFile root) = some t' ∧ loadText t' = .ok (renameNames m labels ps).1 := by
  unfold runItem
  rw [ht]
  simp only
  rw [hl]
  simp only
  cases hb : (renameNames m labels ps).2 with
  | false =>
    refine ⟨t, by simp [ht], ?_⟩
    rw [renameNames_same m labels ps hb, hl]
  | true =>
    refine ⟨listText (renameNames m labels ps).1, by simp [FS.write], ?_⟩
    rw [paramnames_roundtrip _ hok]
    congr 1
    conv_rhs => rw [← List.map_id (renameNames m labels ps).1]
    refine List.map_congr_left fun p hp => ?_
    have : p.renames = [] := by
      obtain ⟨i, hi, hpi⟩ := List.mem_iff_getElem.mp hp
      have hlen := (renameNames_spec m labels ps).1
      have hq : ps[i]? = some ps[i] := List.getElem?_eq_getElem (by omega)
      have := (renameNames_spec m labels ps).2 i _ hq
      rw [List.getElem?_eq_getElem hi, hpi] at this
      simp only [Option.some.injEq] at this
      rw [this]
      exact hren ps[i] (List.getElem_mem _)
    cases p
    simp only [stored, id] at this ⊢
    rw [this]

theorem namesFile_inj {a b : Str} (h : namesFile a = namesFile b) : a = b := List.append_cancel_right h

/-- without best fit files, chains do not fail -/
theorem runItem_ok (m : Mapper) (labels : List Info) (confirm : Bool) (fs : FS) (root : Str) (hmin : fs (minFile root) = none)
    (hread : ∀ t, fs (namesFile root) = some t → ∃ ps, loadText t = .ok ps) : (runItem m labels confirm fs root).2 = none := by
  unfold runItem
  split
  · rfl
  · rename_i t ht
    obtain ⟨ps, hps⟩ := hread t ht
    rw [hps]
    simp only
    have hne : minFile root ≠ namesFile root := by
      intro he
      have := congrArg List.reverse he
      simp [minFile, namesFile] at this
    have : ∀ fs2 : FS, fs2 (minFile root) = none → minStep m labels confirm fs2 root = none := by
      intro fs2 h2
      simp [minStep, h2]
    apply this
    split
    · simp [FS.write, hne, hmin]
    · exact hmin

/-- **All chains of the grid are renamed**, when they have no best fit files and their names can be written: afterwards each file reads as the renamed list. -/
theorem grid_renamed_partial (m : Mapper) (labels : List Info) (roots : List Str) (hnd : roots.Nodup) (fs : FS)
    (h : ∀ root ∈ roots, fs (minFile root) = none ∧ ∀ t, fs (namesFile root) = some t → ∃ ps, loadText t = .ok ps ∧ (∀ p ∈ ps, p.renames = []) ∧
      ∀ p ∈ (renameNames m labels ps).1, ParOK p) :
    (runGrid m labels true fs roots).2 = none ∧ ∀ root ∈ roots, ∀ t, fs (namesFile root) = some t → ∀ ps, loadText t = .ok ps →
      ∃ t', (runGrid m labels true fs roots).1 (namesFile root) = some t' ∧ loadText t' = .ok (renameNames m labels ps).1 := by
  induction roots generalizing fs with
  | nil => exact ⟨rfl, by simp⟩
  | cons root roots ih =>
    rw [List.nodup_cons] at hnd
    have hok : (runItem m labels true fs root).2 = none := runItem_ok m labels true fs root (h root (by simp)).1 (fun t ht =>
      let ⟨ps, h1, _⟩ := (h root (by simp)).2 t ht; ⟨ps, h1⟩)
    have e : runGrid m labels true fs (root :: roots) = runGrid m labels true (runItem m labels true fs root).1 roots := by
      conv_lhs => unfold runGrid
      rcases hr : runItem m labels true fs root with ⟨fs2, e⟩
      rw [hr] at hok
      simp only at hok
      subst hok
      rfl
    rw [e]
    have hother : ∀ r ∈ roots, (runItem m labels true fs root).1 (namesFile r) = fs (namesFile r) := by
      intro r hr
      refine runItem_other m labels true fs root _ (fun he => ?_)
      have := namesFile_inj he
      subst this
      exact hnd.1 hr
    have hmin : ∀ r, (runItem m labels true fs root).1 (minFile r) = fs (minFile r) := by
      intro r
      refine runItem_other m labels true fs root _ (fun he => ?_)
      have := congrArg List.reverse he
      simp [minFile, namesFile] at this
    obtain ⟨h1, h2⟩ := ih hnd.2 (runItem m labels true fs root).1 (by
      intro r hr
      rw [hmin, hother r hr]
      exact h r (by simp [hr]))
    refine ⟨h1, ?_⟩
    intro r hr t ht ps hps
    rcases List.mem_cons.mp hr with he | hr
    · subst he
      obtain ⟨ps', h3, h4, h5⟩ := (h r (by simp)).2 t ht
      rw [hps] at h3
      cases h3
      rw [only_names_files m labels true roots _ (namesFile r) (fun r' hr' he => hnd.1 (namesFile_inj he ▸ hr'))]
      exact runItem_file m labels fs r t ps ht hps h5 h4
    · exact h2 r hr t (by rw [hother r hr]; exact ht) ps hps

/-- two chains, the first with a best fit file -/
def exFS : FS := fun n =>
  if n = c!"a.paramnames" ∨ n = c!"b.paramnames" then some c!"h\tH\n" else if n = c!"a.minimum" then some c!"x\ny\n\n 1 0.7 h    H\n" else none

/-- the full statement: with `--confirm` all chains are renamed -/
def GridRenamed : Prop := ∀ (m : Mapper) (labels : List Info) (roots : List Str) (fs : FS), roots.Nodup →
  (∀ root ∈ roots, ∀ t, fs (namesFile root) = some t → ∃ ps, loadText t = .ok ps ∧ ∀ p ∈ (renameNames m labels ps).1, ParOK p) →
  (runGrid m labels true fs roots).2 = none

/-- Best fit files are opened for reading before they are written (renameParam.py:90): with `--confirm` the first chain that has one with a parameter to rename
ends the script with an error.  Its `.paramnames` file is renamed already, its best fit file is not, the other chains are not. -/
theorem minimum_write_fails : ¬ GridRenamed := by
  intro h
  have h1 : (runGrid [(c!"h", (c!"H0", none))] [] true exFS [c!"a", c!"b"]).2 = some .io := by decide +kernel
  rw [h _ _ _ _ (by decide) (by
    intro root hr t ht
    have : t = c!"h\tH\n" := by
      simp only [List.mem_cons, List.not_mem_nil, or_false] at hr
      rcases hr with rfl | rfl
      · have e : exFS (namesFile c!"a") = some c!"h\tH\n" := by decide
        rw [e] at ht; cases ht; rfl
      · have e : exFS (namesFile c!"b") = some c!"h\tH\n" := by decide
        rw [e] at ht; cases ht; rfl
    subst this
    refine ⟨[⟨c!"h", c!"H", [], false, []⟩], by decide +kernel, ?_⟩
    intro p hp
    have e : (renameNames [(c!"h", (c!"H0", none))] [] [⟨c!"h", c!"H", [], false, []⟩]).1 = [⟨c!"H0", c!"H", [], false, []⟩] := by decide
    rw [e, List.mem_singleton] at hp
    subst hp
    refine ⟨⟨by decide, by decide, by intro c hc; cases hc; decide⟩, ⟨⟨?_, ?_⟩, ?_, by decide, by decide⟩, Trim.nil, ?_⟩
    · intro c hc; cases hc; decide
    · intro c hc; cases hc; decide
    · decide
    · decide)] at h1
  cases h1

/-- what is left behind -/
theorem minimum_write_left : (runGrid [(c!"h", (c!"H0", none))] [] true exFS [c!"a", c!"b"]).1 c!"a.paramnames" = some c!"H0\tH\n" ∧
    (runGrid [(c!"h", (c!"H0", none))] [] true exFS [c!"a", c!"b"]).1 c!"b.paramnames" = some c!"h\tH\n" ∧
    (runGrid [(c!"h", (c!"H0", none))] [] true exFS [c!"a", c!"b"]).1 c!"a.minimum" = exFS c!"a.minimum" := by
  refine ⟨?_, ?_, ?_⟩ <;> decide +kernel

end Verif.Rename
