import Verif.Props.CommandLine
import Mathlib.Data.List.ProdSigma

/-!
# The plot scripts: which pairs are plotted, and what the script says
-/

namespace Verif.CommandLine
open Verif.Py Verif.ParamNames

/-! ### keys of the dictionary of pairs -/

theorem addAll_mem (l acc : List (Str × Str)) (q : Str × Str) : q ∈ l.foldl addNew acc ↔ q ∈ acc ∨ q ∈ l := by
  induction l generalizing acc with
  | nil => simp
  | cons x l ih =>
    rw [List.foldl_cons, ih, addNew]
    split
    · rename_i h
      have h : x ∈ acc := by simpa using h
      constructor
      · rintro (h1 | h1)
        · exact .inl h1
        · exact .inr (List.mem_cons_of_mem _ h1)
      · rintro (h1 | h1)
        · exact .inl h1
        · rcases List.mem_cons.mp h1 with rfl | h1
          · exact .inl h
          · exact .inr h1
    · simp [or_assoc]

theorem addAll_nodup (l acc : List (Str × Str)) (h : acc.Nodup) : (l.foldl addNew acc).Nodup := by
  induction l generalizing acc with
  | nil => exact h
  | cons x l ih =>
    rw [List.foldl_cons]
    apply ih
    rw [addNew]
    split
    · exact h
    · rename_i hx
      have hx : x ∉ acc := by simpa using hx
      rw [List.nodup_append]
      refine ⟨h, by simp, ?_⟩
      intro a ha b hb
      rw [List.mem_singleton] at hb
      subst hb
      rintro rfl
      exact hx ha

theorem addAll_id (l acc : List (Str × Str)) (h : (acc ++ l).Nodup) : l.foldl addNew acc = acc ++ l := by
  induction l generalizing acc with
  | nil => simp
  | cons x l ih =>
    have hx : x ∉ acc := by
      intro hx
      rw [List.nodup_append] at h
      exact h.2.2 x hx x List.mem_cons_self rfl
    rw [List.foldl_cons, addNew, if_neg (by simpa using hx), ih _ (by simpa using h)]
    simp

/-- No pair is plotted twice. -/
theorem plots2D_nodup (names : List Str) (p : Option Str) (cust : List (Str × Str)) : (plots2D names p cust).Nodup :=
  addAll_nodup _ _ List.nodup_nil

/-! ### one parameter against all others -/

theorem zipIdx_flatMap_fst {β : Type} (l : List Str) (f : Str → List β) :
    l.zipIdx.flatMap (fun e => f e.1) = l.flatMap f := by
  rw [← List.flatMap_map (f := fun e : Str × Nat => e.1), List.zipIdx_map_fst]

/-- With `plot_2D_param` set, that parameter is plotted against each of the others once, in their order. -/
theorem param_spec {names : List Str} {p : Str} (hp : p ∈ names) (hne : p ≠ []) (hn : names.Nodup) :
    plots2D names (some p) [] = (names.filter (· ≠ p)).map fun a => (a, p) := by
  have ht : truthy (some p) = true := by simp [truthy, hne]
  have hf : ∀ l : List Str, l.Nodup → ∀ a, (l.filter (keep (some p) [] a)).map (fun b => (a, b)) =
      if p ∈ l then [(a, p)] else [] := by
    intro l hl a
    have : ∀ b, keep (some p) [] a b = decide (b = p) := by
      intro b
      unfold keep
      by_cases hb : b = p
      · simp [ht, hb]
      · have : ¬ p = b := fun h => hb h.symm
        simp [ht, hb, this]
    rw [show keep (some p) [] a = fun b => decide (b = p) from funext this]
    induction l with
    | nil => simp
    | cons x l ih =>
      rw [List.nodup_cons] at hl
      by_cases hx : x = p
      · subst hx
        have h2 := ih hl.2
        rw [if_neg hl.1] at h2
        simp [h2]
      · rw [List.filter_cons, if_neg (by simpa using hx), ih hl.2]
        have : ¬ p = x := fun h => hx h.symm
        simp [this]
  have e : (names.zipIdx.flatMap fun e =>
      if truthy (some p) || (([] : List (Str × Str)) ≠ [] : Bool) then
        if some p = some e.1 then [] else row names (some p) [] e.1 0
      else row names (some p) [] e.1 (e.2 + 1)) = (names.filter (· ≠ p)).map fun a => (a, p) := by
    have h1 : ∀ e : Str × Nat, (if truthy (some p) || (([] : List (Str × Str)) ≠ [] : Bool) then
        if some p = some e.1 then [] else row names (some p) [] e.1 0
      else row names (some p) [] e.1 (e.2 + 1)) = (fun a => if a = p then [] else [(a, p)]) e.1 := by
      intro e
      rw [ht]
      simp only [Bool.true_or, if_true, row, List.drop_zero, hf names hn, if_pos hp]
      by_cases h : e.1 = p
      · simp [h]
      · rw [if_neg (by simpa using fun h2 => h h2.symm), if_neg h]
    rw [show (fun e : Str × Nat => _) = _ from funext h1,
      zipIdx_flatMap_fst names fun a => if a = p then [] else [(a, p)]]
    clear hn hp hf h1
    induction names with
    | nil => rfl
    | cons x l ih =>
      rw [List.flatMap_cons, ih]
      by_cases hx : x = p <;> simp [hx]
  unfold plots2D
  rw [e, addAll_id]
  · simp
  · rw [List.nil_append]
    exact List.Nodup.map (fun a b h => by simpa using h) (hn.filter _)

example : plots2D [c!"a", c!"b", c!"c"] (some c!"b") [] = [(c!"a", c!"b"), (c!"c", c!"b")] := by decide +kernel

/-! ### pairs given one by one -/

theorem mem_gen {names : List Str} {p : Option Str} {cust : List (Str × Str)} (h : truthy p = true ∨ cust ≠ []) (q : Str × Str) :
    q ∈ plots2D names p cust ↔ q.1 ∈ names ∧ q.2 ∈ names ∧ p ≠ some q.1 ∧ keep p cust q.1 q.2 = true := by
  have hb : (truthy p || (cust ≠ [] : Bool)) = true := by
    rcases h with h | h <;> simp [h]
  unfold plots2D
  rw [addAll_mem]
  simp only [List.not_mem_nil, false_or, hb, if_true, row, List.drop_zero]
  have h1 : (names.zipIdx.flatMap fun e : Str × Nat =>
      if p = some e.1 then [] else (names.filter (keep p cust e.1)).map fun par2 => (e.1, par2)) =
      names.flatMap fun a => if p = some a then [] else (names.filter (keep p cust a)).map fun b => (a, b) :=
    zipIdx_flatMap_fst names fun a => if p = some a then [] else (names.filter (keep p cust a)).map fun b => (a, b)
  rw [h1, List.mem_flatMap]
  constructor
  · rintro ⟨a, ha, hm⟩
    split at hm
    · cases hm
    · rename_i hne
      obtain ⟨b, hb, rfl⟩ := List.mem_map.mp hm
      rw [List.mem_filter] at hb
      exact ⟨ha, hb.1, hne, hb.2⟩
  · rintro ⟨h1, h2, h3, h4⟩
    refine ⟨q.1, h1, ?_⟩
    rw [if_neg h3]
    exact List.mem_map.mpr ⟨q.2, List.mem_filter.mpr ⟨h2, h4⟩, rfl⟩

/-- a name that cannot be mistaken when joined: no `__` in it and no `_` at its end -/
def Clear (a : Str) : Prop := ¬ c!"__" <:+: a ∧ ¬ c!"_" <:+ a

instance (a : Str) : Decidable (Clear a) := inferInstanceAs (Decidable (_ ∧ _))

theorem joined_aux {a c b d : Str} (hc : Clear c) (hl : a.length ≤ c.length) (h : joined a b = joined c d) :
    a = c ∧ b = d := by
  unfold joined at h
  rw [List.append_assoc, List.append_assoc] at h
  rcases List.append_eq_append_iff.mp h with ⟨x, h1, h2⟩ | ⟨x, h1, h2⟩
  · cases x with
    | nil =>
      refine ⟨by simpa using h1.symm, ?_⟩
      rw [List.nil_append] at h2
      exact List.append_cancel_left h2
    | cons u x =>
      change '_' :: '_' :: b = u :: (x ++ _) at h2
      cases x with
      | nil =>
        exfalso
        injection h2 with hu h3
        exact hc.2 ⟨a, by rw [h1, ← hu]; rfl⟩
      | cons v x =>
        exfalso
        injection h2 with hu h3
        injection h3 with hv h4
        exact hc.1 ⟨a, x, by rw [h1, ← hu, ← hv]; simp⟩
  · have : x = [] := by
      have := congrArg List.length h1
      rw [List.length_append] at this
      exact List.eq_nil_of_length_eq_zero (by omega)
    subst this
    rw [List.append_nil] at h1
    rw [List.nil_append] at h2
    exact ⟨h1, (List.append_cancel_left h2).symm⟩

theorem joined_inj {a b c d : Str} (ha : Clear a) (hc : Clear c) (h : joined a b = joined c d) : a = c ∧ b = d := by
  rcases Nat.le_total a.length c.length with hl | hl
  · exact joined_aux hc hl h
  · obtain ⟨h1, h2⟩ := joined_aux ha hl h.symm
    exact ⟨h1.symm, h2.symm⟩

/-- Pairs given one by one are plotted, each that is made of parameters once, and no other, for names in which the join
can be undone. -/
theorem custom_mem {names : List Str} {cust : List (Str × Str)} (hne : cust ≠ []) (hn : ∀ a ∈ names, Clear a)
    (hc : ∀ q ∈ cust, Clear q.1) (q : Str × Str) :
    q ∈ plots2D names none cust ↔ q.1 ∈ names ∧ q.2 ∈ names ∧ q ∈ cust := by
  rw [mem_gen (.inr hne)]
  refine and_congr_right fun h1 => and_congr_right fun h2 => ?_
  simp only [ne_eq, reduceCtorEq, not_false_eq_true, true_and]
  unfold keep
  simp only [truthy, Option.any_none, Bool.false_and, Bool.false_eq_true, if_false]
  constructor
  · intro h
    have hm : joined q.1 q.2 ∈ cust.map fun q => joined q.1 q.2 := by
      by_contra hm
      rw [if_pos] at h
      · cases h
      · simp only [hne, ne_eq, not_false_eq_true, decide_true, Bool.true_and, Bool.not_eq_true', Bool.eq_false_iff]
        exact fun hx => hm (by simpa using hx)
    obtain ⟨r, hr, e⟩ := List.mem_map.mp hm
    obtain ⟨e1, e2⟩ := joined_inj (hc r hr) (hn _ h1) e
    have : r = q := Prod.ext e1 e2
    rwa [← this]
  · intro h
    have hm : joined q.1 q.2 ∈ cust.map fun q => joined q.1 q.2 := List.mem_map.mpr ⟨q, h, rfl⟩
    rw [if_neg]
    have : (cust.map fun q => joined q.1 q.2).contains (joined q.1 q.2) = true := by simpa using hm
    simp only [this, Bool.not_true, Bool.and_false, Bool.false_eq_true, not_false_eq_true]

/-- The pairs come in the order of the parameters. -/
theorem plots_order {names : List Str} (p : Option Str) {cust : List (Str × Str)} (h : cust ≠ []) (hn : names.Nodup) :
    (plots2D names p cust).Sublist (names ×ˢ names) := by
  have hb : (truthy p || (cust ≠ [] : Bool)) = true := by simp [h]
  have hs : ∀ l m : List Str, (l.flatMap fun a => if p = some a then [] else (m.filter (keep p cust a)).map fun b => (a, b)).Sublist
      (l ×ˢ m) := by
    intro l m
    induction l with
    | nil => exact List.Sublist.refl _
    | cons a l ih =>
      rw [List.flatMap_cons, List.product_cons]
      refine List.Sublist.append ?_ ih
      split
      · exact List.nil_sublist _
      · exact List.filter_sublist.map _
  unfold plots2D
  simp only [hb, if_true, row, List.drop_zero]
  have h1 : (names.zipIdx.flatMap fun e : Str × Nat =>
      if p = some e.1 then [] else (names.filter (keep p cust e.1)).map fun par2 => (e.1, par2)) =
      names.flatMap fun a => if p = some a then [] else (names.filter (keep p cust a)).map fun b => (a, b) :=
    zipIdx_flatMap_fst names fun a => if p = some a then [] else (names.filter (keep p cust a)).map fun b => (a, b)
  rw [h1, addAll_id]
  · rw [List.nil_append]; exact hs names names
  · rw [List.nil_append]; exact (hn.product hn).sublist (hs names names)

example : plots2D [c!"a", c!"b", c!"c"] none [(c!"c", c!"a"), (c!"a", c!"b")] = [(c!"a", c!"b"), (c!"c", c!"a")] := by
  decide +kernel

/-- With `plot_2D_param` and pairs, both have to allow a pair. -/
theorem both_mem {names : List Str} {p : Str} {cust : List (Str × Str)} (hp : p ≠ []) (hne : cust ≠ [])
    (hn : ∀ a ∈ names, Clear a) (hc : ∀ q ∈ cust, Clear q.1) (q : Str × Str) :
    q ∈ plots2D names (some p) cust ↔ q.1 ∈ names ∧ q.2 ∈ names ∧ q ∈ cust ∧ q.1 ≠ p ∧ q.2 = p := by
  have ht : truthy (some p) = true := by simp [truthy, hp]
  have hm := custom_mem hne hn hc q
  rw [mem_gen (.inr hne)] at hm ⊢
  unfold keep at hm ⊢
  simp only [truthy, Option.any_none, Bool.false_and, Bool.false_eq_true, if_false] at hm
  by_cases hq : q.2 = p
  · rw [if_neg (by simp [hq])]
    constructor
    · rintro ⟨h1, h2, h3, h4⟩
      have := hm.mp ⟨h1, h2, by simp, h4⟩
      exact ⟨h1, h2, this.2.2, fun e => h3 (by rw [e]), hq⟩
    · rintro ⟨h1, h2, h3, h4, _⟩
      have := hm.mpr ⟨h1, h2, h3⟩
      exact ⟨h1, h2, fun e => h4 (by simpa using e.symm), this.2.2.2⟩
  · rw [if_pos]
    · simp [hq]
    · rw [ht, Bool.true_and, decide_eq_true_iff]
      intro e
      injection e with e
      exact hq e.symm

/-! ### all pairs -/

/-- Without any choice every two different parameters are plotted, the first one first. -/
theorem all_mem {names : List Str} (q : Str × Str) :
    q ∈ plots2D names none [] ↔ [q.1, q.2].Sublist names := by
  have hk : ∀ a b, keep none [] a b = true := fun a b => by simp [keep, truthy]
  have e : ∀ (l : List Str) (k : Nat) (m : List Str), m.drop k = l →
      (l.zipIdx k).flatMap (fun e => row m none [] e.1 (e.2 + 1)) =
        (l.tails.flatMap fun t => match t with
          | [] => []
          | a :: t => t.map fun b => (a, b)) := by
    intro l
    induction l with
    | nil => intro k m _; rfl
    | cons a l ih =>
      intro k m hm
      have hd : m.drop (k + 1) = l := by rw [← List.drop_drop, hm]; rfl
      rw [List.zipIdx_cons, List.flatMap_cons, ih (k + 1) m hd, List.tails_cons, List.flatMap_cons]
      congr 1
      simp only [row, hd]
      rw [List.filter_eq_self.mpr fun b _ => hk a b]
  unfold plots2D
  rw [addAll_mem]
  simp only [truthy, Option.any_none, ne_eq, not_true_eq_false, decide_false, Bool.or_self, Bool.false_eq_true, if_false,
    List.not_mem_nil, false_or]
  rw [e names 0 names rfl]
  clear e hk
  induction names with
  | nil => simp
  | cons a l ih =>
    rw [List.tails_cons, List.flatMap_cons, List.mem_append, List.cons_sublist_cons']
    refine (or_congr_right ih).trans ?_
    constructor
    · rintro (h | h)
      · obtain ⟨b, hb, rfl⟩ := List.mem_map.mp h
        exact .inr ⟨rfl, List.singleton_sublist.mpr hb⟩
      · exact .inl h
    · rintro (h | ⟨h1, h2⟩)
      · exact .inr h
      · exact .inl (List.mem_map.mpr ⟨q.2, List.singleton_sublist.mp h2, by rw [← h1]⟩)

example : plots2D [c!"a", c!"b", c!"c"] none [] = [(c!"a", c!"b"), (c!"a", c!"c"), (c!"b", c!"c")] := by decide +kernel

/-! ### the text -/

/-- A python string literal in single quotes at the start of the text: its value and what follows.  Literals with a
backslash are not read. -/
def literal : Str → Option (Str × Str)
  | [] => none
  | q :: s =>
    let v := s.takeWhile fun c => c ≠ '\'' && c ≠ '\\' && c ≠ '\n'
    match s.drop v.length with
    | [] => none
    | e :: r => if q = '\'' ∧ e = '\'' then some (v, r) else none

/-- the items of a python list of string literals, after the bracket, with at most `n` items -/
def items : Nat → Str → Option (List Str × Str)
  | 0, _ => none
  | n + 1, s =>
    match literal s with
    | some (v, e :: r) =>
      if e = ']' then some ([v], r) else if e = ',' then (items n r).map fun x => (v :: x.1, x.2) else none
    | _ => none

/-- a name that needs no escape in a literal -/
def Simple (a : Str) : Prop := ∀ c ∈ a, c ≠ '\'' ∧ c ≠ '\\' ∧ c ≠ '\n'

theorem literal_spec {a : Str} (h : Simple a) (r : Str) : literal ('\'' :: (a ++ '\'' :: r)) = some (a, r) := by
  have : (a ++ '\'' :: r).takeWhile (fun c => c ≠ '\'' && c ≠ '\\' && c ≠ '\n') = a := by
    rw [List.takeWhile_append_of_pos]
    · simp
    · intro c hc
      have := h c hc
      simp [this]
  unfold literal
  simp only [this, List.drop_left, and_self, if_true]

theorem items_one {a : Str} (h : Simple a) (n : Nat) (r : Str) :
    items (n + 1) ('\'' :: (a ++ '\'' :: (']' :: r))) = some ([a], r) := by
  rw [items, literal_spec h]
  rfl

theorem items_more {a : Str} (h : Simple a) (n : Nat) (r : Str) :
    items (n + 1) ('\'' :: (a ++ '\'' :: (',' :: r))) = (items n r).map fun x => (a :: x.1, x.2) := by
  rw [items, literal_spec h]
  rfl

/-- The line of a pair says that pair. -/
theorem pairLine_spec {q : Str × Str} (h1 : Simple q.1) (h2 : Simple q.2) :
    ∃ t, pairLine q = c!"pairs.append([" ++ t ∧ items 2 t = some ([q.1, q.2], c!")") := by
  have e : pairLine q = c!"pairs.append([" ++ ('\'' :: (q.1 ++ '\'' :: (',' :: ('\'' :: (q.2 ++ '\'' :: (']' :: c!")")))))) := by
    have e1 : (c!"pairs.append(['" : Str) = c!"pairs.append([" ++ ['\''] := by decide
    have e2 : (c!"','" : Str) = ['\'', ',', '\''] := by decide
    have e3 : (c!"'])" : Str) = '\'' :: ']' :: c!")" := by decide
    unfold pairLine
    rw [e1, e2, e3]
    simp only [List.append_assoc, List.cons_append, List.nil_append]
  have h := items_more h1 1 ('\'' :: (q.2 ++ '\'' :: (']' :: c!")")))
  rw [items_one h2 0, Option.map_some] at h
  exact ⟨_, e, h⟩

/-- The list of the one dimensional plots says the names, in order. -/
theorem names1D_spec {l : List Str} (hl : l ≠ []) (h : ∀ a ∈ l, Simple a) (r : Str) :
    ∃ t, names1D l ++ r = '[' :: t ∧ items l.length t = some (l, r) := by
  refine ⟨join c!"," (l.map fun s => c!"'" ++ s ++ c!"'") ++ c!"]" ++ r, by simp [names1D], ?_⟩
  induction l with
  | nil => exact absurd rfl hl
  | cons a l ih =>
    have ha := h a List.mem_cons_self
    cases l with
    | nil =>
      have e : join c!"," ([a].map fun s => c!"'" ++ s ++ c!"'") ++ c!"]" ++ r = '\'' :: (a ++ '\'' :: (']' :: r)) := by
        simp [join]
      rw [e, List.length_singleton, items_one ha]
    | cons b l =>
      have e : join c!"," ((a :: b :: l).map fun s => c!"'" ++ s ++ c!"'") ++ c!"]" ++ r =
          '\'' :: (a ++ '\'' :: (',' :: (join c!"," ((b :: l).map fun s => c!"'" ++ s ++ c!"'") ++ c!"]" ++ r))) := by
        rw [List.map_cons, List.map_cons, join_cons2]
        simp
      rw [e, List.length_cons, items_more ha, ih (by simp) fun x hx => h x (List.mem_cons_of_mem _ hx)]
      rfl

example : names1D [c!"omegam", c!"H0"] = c!"['omegam','H0']" := by decide
example : items 2 c!"'omegam','H0'], markers=markers)" = some ([c!"omegam", c!"H0"], c!", markers=markers)") := by decide

/-! ### what fails -/

/-- The pair `a_`, `b` also selects the pair `a`, `_b`: pairs nobody asked for are plotted. -/
theorem joined_fails : ¬ ∀ (names : List Str) (cust : List (Str × Str)), cust ≠ [] → names.Nodup →
    ∀ q ∈ plots2D names none cust, q ∈ cust := by
  intro h
  have := h [c!"a", c!"a_", c!"b", c!"_b"] [(c!"a_", c!"b")] (by simp) (by decide) (c!"a", c!"_b") (by decide +kernel)
  revert this
  decide

/-- Plots are not in the order of the settings `plot1`, `plot2`, .... -/
theorem order_fails : ¬ ∀ (names : List Str) (cust : List (Str × Str)), cust ≠ [] → names.Nodup → cust.Nodup →
    (∀ q ∈ cust, q.1 ∈ names ∧ q.2 ∈ names) → plots2D names none cust = cust := by
  intro h
  have := h [c!"x", c!"y", c!"z"] [(c!"z", c!"y"), (c!"x", c!"y")] (by simp) (by decide) (by decide) (by decide)
  revert this
  decide +kernel

/-- A pair given with another name a parameter is known by passes the check of the settings, but is not plotted. -/
theorem alias_fails : ¬ ∀ (ps : List Info) (line a b : Str), custom2D ps [line] = [[a, b]] →
    (plots2D (ps.map (·.name)) none [(a, b)]).length = 1 := by
  intro h
  have := h exPs c!"omegam hubble" c!"omegam" c!"hubble" (by decide +kernel)
  revert this
  decide +kernel

/-- A quote in a parameter name makes a script that is not python. -/
theorem quote_fails : ¬ ∀ q : Str × Str, ∃ t, pairLine q = c!"pairs.append([" ++ t ∧ items 2 t = some ([q.1, q.2], c!")") := by
  intro h
  obtain ⟨t, h1, h2⟩ := h (c!"f'", c!"x")
  have : pairLine (c!"f'", c!"x") = c!"pairs.append([" ++ c!"'f'','x'])" := by decide
  rw [this] at h1
  have := List.append_cancel_left h1
  rw [← this] at h2
  revert h2
  decide

end Verif.CommandLine
