import Verif.Lemmas.Str

/-!
# `str.replace(pat, rep)` and the regular expression `pat(.*)##`
-/

namespace Verif.Py

/-- left to right, without overlaps; `skip` characters still belong to the last match -/
def replaceAux (pat rep : Str) : Nat → Str → Str
  | _, [] => []
  | k + 1, _ :: cs => replaceAux pat rep k cs
  | 0, c :: cs =>
    if startsWith pat (c :: cs) then rep ++ replaceAux pat rep (pat.length - 1) cs else c :: replaceAux pat rep 0 cs

/-- `s.replace(pat, rep)` for a non-empty `pat` -/
def replaceStr (pat rep s : Str) : Str := replaceAux pat rep 0 s

theorem startsWith_iff {p s : Str} : startsWith p s = true ↔ ∃ t, s = p ++ t := by
  unfold startsWith
  rw [List.isPrefixOf_iff_prefix]
  exact ⟨fun ⟨t, h⟩ => ⟨t, h.symm⟩, fun ⟨t, h⟩ => ⟨t, h.symm⟩⟩

theorem replaceAux_skip (pat rep : Str) : ∀ (k : Nat) (s : Str), replaceAux pat rep k s = replaceStr pat rep (s.drop k)
  | 0, s => by simp [replaceStr]
  | k + 1, [] => by simp [replaceStr, replaceAux]
  | k + 1, c :: cs => by rw [replaceAux, replaceAux_skip pat rep k cs]; rfl

theorem replaceStr_nil (pat rep : Str) : replaceStr pat rep [] = [] := rfl

theorem replaceStr_match {pat : Str} (rep t : Str) (h : pat ≠ []) :
    replaceStr pat rep (pat ++ t) = rep ++ replaceStr pat rep t := by
  cases pat with
  | nil => exact absurd rfl h
  | cons p ps =>
    rw [replaceStr, List.cons_append, replaceAux, if_pos (startsWith_iff.mpr ⟨t, by simp⟩), replaceAux_skip]
    simp

theorem replaceStr_step {pat rep : Str} {c : Char} {cs : Str} (h : startsWith pat (c :: cs) = false) :
    replaceStr pat rep (c :: cs) = c :: replaceStr pat rep cs := by
  rw [replaceStr, replaceAux, h]; rfl

/-- text in which no match starts is copied -/
theorem replaceStr_append {pat rep : Str} : ∀ {a t : Str},
    (∀ a1 a2, a = a1 ++ a2 → a2 ≠ [] → startsWith pat (a2 ++ t) = false) →
    replaceStr pat rep (a ++ t) = a ++ replaceStr pat rep t
  | [], t, _ => rfl
  | c :: a, t, h => by
    have h0 := h [] (c :: a) rfl (by simp)
    rw [List.cons_append] at h0 ⊢
    rw [replaceStr_step h0, List.cons_append,
      replaceStr_append (fun a1 a2 e hne => h (c :: a1) a2 (by rw [e]; rfl) hne)]

theorem replaceStr_none {pat rep s : Str} (h : contains pat s = false) : replaceStr pat rep s = s := by
  have := replaceStr_append (rep := rep) (pat := pat) (a := s) (t := []) (by
    intro a1 a2 e hne
    rw [List.append_nil, Bool.eq_false_iff]
    intro hs
    obtain ⟨t, ht⟩ := startsWith_iff.mp hs
    have : contains pat s = true := contains_iff.mpr ⟨a1, t, by rw [e, ht]; simp⟩
    rw [h] at this; cases this)
  simpa [replaceStr_nil] using this

/-- the text before the last `##` -/
def upToLast : Str → Option Str
  | [] => none
  | c :: cs =>
    match upToLast cs with
    | some a => some (c :: a)
    | none => if startsWith ['#', '#'] (c :: cs) then some [] else none

/-- `re.search(pat + '(.*)##', s).group(1)` for a `pat` without special characters: the first place where the expression
matches; `.*` takes as much of the line as it can -/
def searchGroup (pat : Str) : Str → Option Str
  | [] => none
  | c :: cs =>
    match (if startsWith pat (c :: cs) then upToLast (((c :: cs).drop pat.length).takeWhile (· ≠ '\n')) else none) with
    | some v => some v
    | none => searchGroup pat cs

theorem upToLast_none : ∀ {s : Str}, '#' ∉ s → upToLast s = none
  | [], _ => rfl
  | c :: cs, h => by
    rw [upToLast, upToLast_none (fun hc => h (List.mem_cons_of_mem _ hc))]
    have : c ≠ '#' := fun e => h (by rw [e]; exact List.mem_cons_self)
    simp [startsWith, List.isPrefixOf, Ne.symm this]

theorem upToLast_hash {b : Str} (h : '#' ∉ b) : upToLast ('#' :: b) = none := by
  rw [upToLast, upToLast_none h]
  cases b with
  | nil => rfl
  | cons c b =>
    have : c ≠ '#' := fun e => h (by rw [e]; exact List.mem_cons_self)
    simp [startsWith, List.isPrefixOf, Ne.symm this]

theorem upToLast_append : ∀ (v : Str) {b : Str}, '#' ∉ b → upToLast (v ++ '#' :: '#' :: b) = some v
  | [], b, h => by
    rw [List.nil_append, upToLast, upToLast_hash h]
    rfl
  | c :: v, b, h => by
    rw [List.cons_append, upToLast, upToLast_append v h]

theorem searchGroup_none {pat : Str} : ∀ {s : Str}, contains pat s = false → searchGroup pat s = none
  | [], _ => rfl
  | c :: cs, h => by
    have h1 : startsWith pat (c :: cs) = false := by
      rw [Bool.eq_false_iff]; intro hs
      obtain ⟨t, ht⟩ := startsWith_iff.mp hs
      have : contains pat (c :: cs) = true := contains_iff.mpr ⟨[], t, by rw [ht]; simp⟩
      rw [h] at this; cases this
    have h2 : contains pat cs = false := by
      rw [Bool.eq_false_iff]; intro hs
      obtain ⟨a, b, hab⟩ := contains_iff.mp hs
      have : contains pat (c :: cs) = true := contains_iff.mpr ⟨c :: a, b, by rw [hab]; simp⟩
      rw [h] at this; cases this
    rw [searchGroup, h1, searchGroup_none h2]; rfl

theorem searchGroup_skip {pat : Str} : ∀ {a t : Str},
    (∀ a1 a2, a = a1 ++ a2 → a2 ≠ [] → startsWith pat (a2 ++ t) = false) → searchGroup pat (a ++ t) = searchGroup pat t
  | [], t, _ => rfl
  | c :: a, t, h => by
    have h0 := h [] (c :: a) rfl (by simp)
    rw [List.cons_append] at h0 ⊢
    rw [searchGroup, h0]
    exact searchGroup_skip (fun a1 a2 e hne => h (c :: a1) a2 (by rw [e]; rfl) hne)

end Verif.Py
