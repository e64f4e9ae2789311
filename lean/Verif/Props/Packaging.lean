import Verif.Model.Packaging
import Mathlib.Data.List.Basic
import Mathlib.Tactic.Common

/-!
# The packaging script (C269, C270)
-/

namespace Verif.Packaging
open Verif.Py

/-- specification: the text so far ends a line -/
def LineStart (a : Str) : Prop := a = [] ∨ ∃ b, a = b ++ ['\n']

/-- specification: `text` assigns the version `v` in a line of its own that starts after `a` -/
def Assigns (text a v : Str) : Prop := LineStart a ∧ ∃ q1 q2 post, (q1 = '\'' ∨ q1 = '"') ∧ (q2 = '\'' ∨ q2 = '"') ∧
  text = a ++ (c!"__version__ = " ++ q1 :: (v ++ q2 :: post)) ∧ ∀ c ∈ v, c ≠ '\'' ∧ c ≠ '"'

theorem isQuote_iff (c : Char) : isQuote c = true ↔ c = '\'' ∨ c = '"' := by simp [isQuote]

theorem takeWhile_quote : ∀ (v : Str) (q : Char) (post : Str), isQuote q = true → (∀ c ∈ v, isQuote c = false) →
    (v ++ q :: post).takeWhile (fun c => !isQuote c) = v
  | [], q, post, hq, _ => by rw [List.nil_append, List.takeWhile_cons, hq]; rfl
  | c :: v, q, post, hq, hv => by
    rw [List.cons_append, List.takeWhile_cons, hv c (by simp)]
    simp only [Bool.not_false, if_true]
    rw [takeWhile_quote v q post hq (fun d hd => hv d (by simp [hd]))]

theorem takeWhile_split : ∀ (s : Str), (s.takeWhile (fun c => !isQuote c)).length < s.length →
    ∃ q post, isQuote q = true ∧ s = s.takeWhile (fun c => !isQuote c) ++ q :: post
  | [], h => by simp at h
  | c :: s, h => by
    cases hc : isQuote c with
    | true => refine ⟨c, s, hc, ?_⟩; rw [List.takeWhile_cons, hc]; rfl
    | false =>
      rw [List.takeWhile_cons, hc] at h ⊢
      simp only [Bool.not_false, if_true, List.length_cons, Nat.add_lt_add_iff_right] at h ⊢
      obtain ⟨q, post, hq, hs⟩ := takeWhile_split s h
      exact ⟨q, post, hq, by rw [List.cons_append, ← hs]⟩

theorem mem_takeWhile_not : ∀ (s : Str) (c : Char), c ∈ s.takeWhile (fun c => !isQuote c) → isQuote c = false
  | [], c, h => by simp at h
  | d :: s, c, h => by
    cases hd : isQuote d with
    | true => rw [List.takeWhile_cons, hd] at h; simp at h
    | false =>
      rw [List.takeWhile_cons, hd] at h
      simp only [Bool.not_false, if_true] at h
      rcases List.mem_cons.1 h with rfl | h
      · exact hd
      · exact mem_takeWhile_not s c h

theorem quoted_iff (s v : Str) : quoted s = some v ↔ ∃ q1 q2 post, isQuote q1 = true ∧ isQuote q2 = true ∧ s = q1 :: (v ++ q2 :: post) ∧
    ∀ c ∈ v, isQuote c = false := by
  constructor
  · intro h
    cases s with
    | nil => cases h
    | cons q s =>
      rw [quoted] at h
      by_cases hq : isQuote q = true
      · rw [if_pos hq] at h
        by_cases hl : (s.takeWhile (fun c => !isQuote c)).length < s.length
        · rw [if_pos hl] at h
          injection h with h
          obtain ⟨q2, post, hq2, hs⟩ := takeWhile_split s hl
          refine ⟨q, q2, post, hq, hq2, by rw [← h, ← hs], fun c hc => ?_⟩
          rw [← h] at hc
          exact mem_takeWhile_not s c hc
        · rw [if_neg hl] at h; cases h
      · rw [if_neg hq] at h; cases h
  · rintro ⟨q1, q2, post, h1, h2, rfl, hv⟩
    rw [quoted, if_pos h1, takeWhile_quote v q2 post h2 hv, if_pos (by simp)]

theorem versionHere_iff (s v : Str) : versionHere s = some v ↔ ∃ q1 q2 post, isQuote q1 = true ∧ isQuote q2 = true ∧
    s = mark ++ q1 :: (v ++ q2 :: post) ∧ ∀ c ∈ v, isQuote c = false := by
  unfold versionHere
  constructor
  · intro h
    by_cases hs : startsWith mark s = true
    · rw [if_pos hs] at h
      obtain ⟨t, rfl⟩ := List.isPrefixOf_iff_prefix.1 hs
      rw [List.drop_left] at h
      obtain ⟨q1, q2, post, h1, h2, rfl, hv⟩ := (quoted_iff _ _).1 h
      exact ⟨q1, q2, post, h1, h2, rfl, hv⟩
    · rw [if_neg hs] at h; cases h
  · rintro ⟨q1, q2, post, h1, h2, rfl, hv⟩
    have hp : startsWith mark (mark ++ q1 :: (v ++ q2 :: post)) = true := List.isPrefixOf_iff_prefix.2 (List.prefix_append _ _)
    rw [if_pos hp, List.drop_left]
    exact (quoted_iff _ _).2 ⟨q1, q2, post, h1, h2, rfl, hv⟩

/-- places where a search that begins with `bol` looks: after `a` -/
def Place (bol : Bool) (a : Str) : Prop := (a = [] ∧ bol = true) ∨ ∃ b, a = b ++ ['\n']

theorem place_cons (bol : Bool) (c : Char) (a : Str) : Place bol (c :: a) ↔ Place (c == '\n') a := by
  unfold Place
  constructor
  · rintro (⟨h, _⟩ | ⟨b, hb⟩)
    · cases h
    · cases b with
      | nil =>
        rw [List.nil_append] at hb
        injection hb with h1 h2
        exact Or.inl ⟨h2, by simp [h1]⟩
      | cons d b =>
        rw [List.cons_append] at hb
        injection hb with _ h2
        exact Or.inr ⟨b, h2⟩
  · rintro (⟨rfl, h⟩ | ⟨b, rfl⟩)
    · have h : c = '\n' := by simpa using h
      exact Or.inr ⟨[], by rw [h]; rfl⟩
    · exact Or.inr ⟨c :: b, rfl⟩

theorem search_spec : ∀ (s : Str) (bol : Bool),
    (∀ v, search bol s = some v → ∃ a t, s = a ++ t ∧ Place bol a ∧ versionHere t = some v ∧
      ∀ a' t', s = a' ++ t' → a'.length < a.length → Place bol a' → versionHere t' = none) ∧
    (search bol s = none → ∀ a t, s = a ++ t → Place bol a → versionHere t = none)
  | [], bol => by
    refine ⟨fun v h => (by cases h), fun _ a t h _ => ?_⟩
    have : t = [] := by simpa using (List.append_eq_nil_iff.1 h.symm).2
    subst this
    rfl
  | c :: s, bol => by
    obtain ⟨ih1, ih2⟩ := search_spec s (c == '\n')
    have hfirst : ∀ w, (if bol then versionHere (c :: s) else none) = some w → bol = true ∧ versionHere (c :: s) = some w := by
      intro w hw; cases bol with
      | true => exact ⟨rfl, hw⟩
      | false => cases hw
    have hnone : (if bol then versionHere (c :: s) else none) = none → Place bol [] → versionHere (c :: s) = none := by
      intro hn hp
      cases bol with
      | true => exact hn
      | false =>
        rcases hp with ⟨_, h⟩ | ⟨b, hb⟩
        · cases h
        · exact absurd hb (by simp)
    rw [search]
    cases hw : (if bol then versionHere (c :: s) else none) with
    | some w =>
      obtain ⟨hb, hv⟩ := hfirst w hw
      refine ⟨fun v h => ?_, fun h => (by cases h)⟩
      injection h with h
      subst h
      exact ⟨[], c :: s, rfl, Or.inl ⟨rfl, hb⟩, hv, fun a' t' _ hl _ => by simp at hl⟩
    | none =>
      have hn := hnone hw
      constructor
      · intro v h
        obtain ⟨a, t, hs, hp, hv, hmin⟩ := ih1 v h
        refine ⟨c :: a, t, by rw [hs]; rfl, (place_cons bol c a).2 hp, hv, fun a' t' hst hl hp' => ?_⟩
        cases a' with
        | nil => rw [List.nil_append] at hst; rw [← hst]; exact hn hp'
        | cons d a' =>
          rw [List.cons_append] at hst
          injection hst with h1 h2
          subst h1
          exact hmin a' t' h2 (by simpa using hl) ((place_cons bol _ a').1 hp')
      · intro h a t hst hp
        cases a with
        | nil => rw [List.nil_append] at hst; rw [← hst]; exact hn hp
        | cons d a =>
          rw [List.cons_append] at hst
          injection hst with h1 h2
          subst h1
          exact ih2 h a t h2 ((place_cons bol _ a).1 hp)

theorem place_true (a : Str) : Place true a ↔ LineStart a := by unfold Place LineStart; simp

theorem assigns_iff (text a v : Str) : Assigns text a v ↔ ∃ t, text = a ++ t ∧ LineStart a ∧ versionHere t = some v := by
  constructor
  · rintro ⟨hl, q1, q2, post, h1, h2, h3, h4⟩
    refine ⟨_, h3, hl, (versionHere_iff _ _).2 ⟨q1, q2, post, (isQuote_iff _).2 h1, (isQuote_iff _).2 h2, rfl, fun c hc => ?_⟩⟩
    rw [Bool.eq_false_iff]
    intro hq
    rcases (isQuote_iff _).1 hq with h | h
    · exact (h4 c hc).1 h
    · exact (h4 c hc).2 h
  · rintro ⟨t, h1, hl, hv⟩
    obtain ⟨q1, q2, post, hq1, hq2, rfl, h4⟩ := (versionHere_iff _ _).1 hv
    refine ⟨hl, q1, q2, post, (isQuote_iff _).1 hq1, (isQuote_iff _).1 hq2, h1, fun c hc => ⟨fun he => ?_, fun he => ?_⟩⟩
    · have := h4 c hc; rw [(isQuote_iff c).2 (Or.inl he)] at this; cases this
    · have := h4 c hc; rw [(isQuote_iff c).2 (Or.inr he)] at this; cases this

/-- **C269**: the version found is the one that the first line with an assignment of the version gives. -/
theorem version_found {text v : Str} (h : findVersion text = some v) : ∃ a, Assigns text a v ∧
    ∀ a' v', Assigns text a' v' → a.length ≤ a'.length := by
  obtain ⟨a, t, hs, hp, hv, hmin⟩ := (search_spec text true).1 v h
  refine ⟨a, (assigns_iff _ _ _).2 ⟨t, hs, (place_true a).1 hp, hv⟩, fun a' v' ha => ?_⟩
  obtain ⟨t', h1, h2, h3⟩ := (assigns_iff _ _ _).1 ha
  by_contra hc
  rw [hmin a' t' h1 (by omega) ((place_true a').2 h2)] at h3
  cases h3

example : findVersion c!"__author__ = 'A'\n__version__ = \"1.3.0\"\n" = some c!"1.3.0" := by decide

/-- **C269**: there is an error exactly when no line assigns a version. -/
theorem version_none (text : Str) : findVersion text = none ↔ ∀ a v, ¬ Assigns text a v := by
  constructor
  · intro h a v ha
    obtain ⟨t, h1, h2, h3⟩ := (assigns_iff _ _ _).1 ha
    rw [(search_spec text true).2 h a t h1 ((place_true a).2 h2)] at h3
    cases h3
  · intro h
    cases hf : findVersion text with
    | none => rfl
    | some v =>
      obtain ⟨a, ha, _⟩ := version_found hf
      exact absurd ha (h a v)

example : findVersion c!"x__version__ = '2'\n" = none := by decide

theorem before_spec : ∀ (ls : List Str), (before ls = none → ∀ l ∈ ls, contains c!"=====" l = false) ∧
    ∀ r, before ls = some r → ∃ b l, ls = b ++ l :: r.reverse ∧ contains c!"=====" l = true ∧ ∀ x ∈ b, contains c!"=====" x = false
  | [] => ⟨fun _ _ h => (by simp at h), fun r h => (by cases h)⟩
  | l :: ls => by
    obtain ⟨h1, h2⟩ := before_spec ls
    rw [before]
    cases hl : contains c!"=====" l with
    | true =>
      refine ⟨fun h => (by rw [if_pos rfl] at h; cases h), fun r h => ?_⟩
      rw [if_pos rfl] at h
      injection h with h
      exact ⟨[], l, by rw [← h, List.reverse_reverse]; rfl, hl, by simp⟩
    | false =>
      constructor
      · intro h x hx
        rw [if_neg (by simp)] at h
        rcases List.mem_cons.1 hx with rfl | hx
        · exact hl
        · exact h1 h x hx
      · intro r h
        rw [if_neg (by simp)] at h
        obtain ⟨b, m, hb, hm, hx⟩ := h2 r h
        refine ⟨l :: b, m, by rw [hb]; rfl, hm, fun x hx' => ?_⟩
        rcases List.mem_cons.1 hx' with rfl | hx'
        · exact hl
        · exact hx x hx'

/-- **C269**: the description is the text of the lines before the last rule of equal signs. -/
theorem description_spec {lines : List Str} {d : Str} (h : longDescription lines = some d) : ∃ a l b, lines = a ++ l :: b ∧
    contains c!"=====" l = true ∧ (∀ x ∈ b, contains c!"=====" x = false) ∧ d = a.flatten := by
  unfold longDescription at h
  rw [Option.map_eq_some_iff] at h
  obtain ⟨r, hr, rfl⟩ := h
  obtain ⟨b, l, hb, hl, hx⟩ := (before_spec lines.reverse).2 r hr
  refine ⟨r, l, b.reverse, ?_, hl, fun x hx' => hx x (List.mem_reverse.1 hx'), rfl⟩
  have := congrArg List.reverse hb
  rw [List.reverse_reverse, List.reverse_append, List.reverse_cons, List.reverse_reverse] at this
  rw [this, List.append_assoc]
  rfl

example : longDescription [c!"T\n", c!"======\n", c!"text\n", c!"=======\n", c!"logo\n"] = some c!"T\n======\ntext\n" := by decide

/-- **C269**: a file without a rule of equal signs is refused. -/
theorem description_none (lines : List Str) : longDescription lines = none ↔ ∀ l ∈ lines, contains c!"=====" l = false := by
  constructor
  · intro h l hl
    refine (before_spec lines.reverse).1 ?_ l (List.mem_reverse.2 hl)
    unfold longDescription at h
    exact Option.map_eq_none_iff.1 h
  · intro h
    cases hd : longDescription lines with
    | none => rfl
    | some d =>
      obtain ⟨a, l, b, rfl, hl, _⟩ := description_spec hd
      rw [h l (by simp)] at hl
      cases hl

example : longDescription [c!"T\n", c!"====\n"] = none := by decide

/-- **C269**: the launcher has one line for each line of the template; a line that sets `python` names the interpreter, the others are those of the
template without blanks at the ends. -/
theorem app_spec (exe : Str) (lines : List Str) : ∃ out, appScript exe lines = join c!"\n" out ∧ out.length = lines.length ∧
    ∀ (i : Nat) (l : Str), lines[i]? = some l → (contains c!"python=" l = true → out[i]? = some (c!"python=\"" ++ exe ++ c!"\"")) ∧
      (contains c!"python=" l = false → out[i]? = some (strip l)) := by
  refine ⟨lines.map (appLine exe), rfl, List.length_map .., fun i l hl => ⟨fun h => ?_, fun h => ?_⟩⟩
  · rw [List.getElem?_map, hl, Option.map_some, appLine, if_pos h]
  · rw [List.getElem?_map, hl, Option.map_some, appLine, if_neg (by rw [h]; simp)]

example : appScript c!"/bin/py" [c!"#!/bin/sh\n", c!"python=\"x\"\n", c!"$python a\n"] = c!"#!/bin/sh\npython=\"/bin/py\"\n$python a" := by decide

/-! ## C270 -/

/-- **C270 fails**: the closing quote may be of the other kind, so a version with an apostrophe in double quotes is cut off (setup.py:14). -/
theorem quote_fails : findVersion c!"__version__ = \"1.3'beta\"\n" = some c!"1.3" := by decide

/-- **C270 fails**: an assignment that python accepts with other blanks is not found (setup.py:14). -/
theorem blanks_fails : findVersion c!"__version__='1.3.0'\n" = none := by decide

/-- **C270 fails**: the description ends with the title of the last section when this is above a rule of equal signs (setup.py:23-26): only the rule
and what follows it are left out. -/
theorem title_fails : longDescription [c!"T\n", c!"======\n", c!"text\n", c!"Citation\n", c!"=======\n", c!"cite\n"] =
    some c!"T\n======\ntext\nCitation\n" := by decide

/-- **C270**, the part that holds: a version without quotes that is assigned in the first line is found. -/
theorem first_line_partial (q : Char) (v post : Str) (hq : q = '\'' ∨ q = '"') (hv : ∀ c ∈ v, c ≠ '\'' ∧ c ≠ '"') :
    findVersion (c!"__version__ = " ++ q :: (v ++ q :: post)) = some v := by
  have ha : Assigns (c!"__version__ = " ++ q :: (v ++ q :: post)) [] v := ⟨Or.inl rfl, q, q, post, hq, hq, rfl, hv⟩
  obtain ⟨t, h1, _, h3⟩ := (assigns_iff _ _ _).1 ha
  rw [List.nil_append] at h1
  rw [h1]
  cases t with
  | nil => cases h3
  | cons c t => unfold findVersion; rw [search, if_pos rfl, h3]

example : findVersion c!"__version__ = '7'\n" = some c!"7" := by decide

end Verif.Packaging
