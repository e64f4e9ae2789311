import Verif.Model.ParamNames
import Verif.Lemmas.Str
import Mathlib.Data.List.TakeWhile
import Mathlib.Data.List.TakeDrop

/-!
# C07, C08, C10, C11, C54: parameter lists
-/

namespace Verif.ParamNames
open Verif.Py

/-! ## C07 text round trip -/

/-- a parameter name that can be written: non-empty, no white space, no `*` or `?`, does not start with a byte order
mark -/
def NameOK (n : Str) : Prop :=
  n ≠ [] ∧ (∀ c ∈ n, isWs c = false ∧ c ≠ '*' ∧ c ≠ '?') ∧ ∀ c, n.head? = some c → c.toNat ≠ 0xFEFF

/-- label: one line, no surrounding white space, no `#` (comment mark) and no `!` (escape) -/
def LabelOK (l : Str) : Prop := Trim l ∧ OneLine l ∧ '#' ∉ l ∧ '!' ∉ l

/-- comment: one line without surrounding white space -/
def CommentOK (c : Str) : Prop := Trim c ∧ OneLine c

def ParOK (p : Info) : Prop := NameOK p.name ∧ LabelOK p.label ∧ CommentOK p.comment

/-- what a file keeps of a parameter: everything but the aliases -/
def stored (p : Info) : Info := { p with renames := [] }

theorem takeWhile_append_ws {n r : Str} {ws : Char} (hn : ∀ c ∈ n, isWs c = false) (hw : isWs ws = true) :
    (n ++ ws :: r).takeWhile (fun c => !isWs c) = n ∧ (n ++ ws :: r).dropWhile (fun c => !isWs c) = ws :: r := by
  induction n with
  | nil => simp [hw]
  | cons c n ih =>
    have h1 := hn c (by simp)
    have h2 := ih (fun c hc => hn c (by simp [hc]))
    simp [h1, h2]

theorem takeWhile_all {n : Str} (hn : ∀ c ∈ n, isWs c = false) :
    n.takeWhile (fun c => !isWs c) = n ∧ n.dropWhile (fun c => !isWs c) = [] := by
  induction n with
  | nil => simp
  | cons c n ih =>
    have h1 := hn c (by simp)
    have h2 := ih (fun c hc => hn c (by simp [hc]))
    simp [h1, h2]

theorem lstrip_cons_ws {c : Char} {s : Str} (h : isWs c = true) : lstrip (c :: s) = lstrip s := by
  simp [lstrip, h]

/-- splitting `name <white> rest` -/
theorem splitWs1_two {n r : Str} {ws : Char} (hne : n ≠ []) (hn : ∀ c ∈ n, isWs c = false) (hw : isWs ws = true) :
    splitWs1 (n ++ ws :: r) = if (lstrip r).isEmpty then [n] else [n, lstrip r] := by
  cases n with
  | nil => exact absurd rfl hne
  | cons c n =>
    have hl : lstrip (c :: n ++ ws :: r) = c :: n ++ ws :: r :=
      lstrip_eq_self (by intro d hd; simp at hd; subst hd; exact hn _ (by simp))
    unfold splitWs1
    rw [hl]
    have ht := takeWhile_append_ws (r := r) hn hw
    simp only [List.cons_append] at ht ⊢
    rw [ht.1, ht.2, lstrip_cons_ws hw]

theorem splitWs1_one {n : Str} (hne : n ≠ []) (hn : ∀ c ∈ n, isWs c = false) : splitWs1 n = [n] := by
  cases n with
  | nil => exact absurd rfl hne
  | cons c n =>
    have hl : lstrip (c :: n) = c :: n :=
      lstrip_eq_self (by intro d hd; simp at hd; subst hd; exact hn _ (by simp))
    unfold splitWs1
    rw [hl]
    have ht := takeWhile_all hn
    simp only [ht.1, ht.2]
    simp [lstrip]

theorem span_ne {ch : Char} {a : Str} (h : ch ∉ a) (b : Str) :
    (a ++ ch :: b).span (· != ch) = (a, ch :: b) ∧ a.span (· != ch) = (a, []) := by
  rw [List.span_eq_takeWhile_dropWhile, List.span_eq_takeWhile_dropWhile]
  induction a with
  | nil => simp
  | cons c a ih =>
    simp only [List.mem_cons, not_or] at h
    have hc : (c != ch) = true := by simpa using Ne.symm h.1
    have := ih h.2
    simp only [Prod.mk.injEq] at this
    simp [hc, this]

theorem splitChar1_two {ch : Char} {a : Str} (h : ch ∉ a) (b : Str) : splitChar1 ch (a ++ ch :: b) = [a, b] := by
  unfold splitChar1; rw [(span_ne h b).1]

theorem splitChar1_one {ch : Char} {a : Str} (h : ch ∉ a) : splitChar1 ch a = [a] := by
  unfold splitChar1; rw [(span_ne h []).2]

theorem replaceChar_id {a : Char} {b s : Str} (h : a ∉ s) : replaceChar a b s = s := by
  induction s with
  | nil => rfl
  | cons c s ih =>
    simp only [List.mem_cons, not_or] at h
    have hc : (c == a) = false := by simpa using fun e => h.1 e.symm
    have hi := ih h.2
    unfold replaceChar at hi ⊢
    rw [List.flatMap_cons, hi, hc]
    rfl

/-- the name part, with the derived marker -/
def nameTag (p : Info) : Str := p.name ++ (if p.isDerived then ['*'] else [])

theorem nameTag_ok {p : Info} (h : NameOK p.name) : nameTag p ≠ [] ∧ ∀ c ∈ nameTag p, isWs c = false := by
  unfold nameTag
  constructor
  · cases hn : p.name with
    | nil => exact absurd hn h.1
    | cons => simp
  · intro c hc
    rcases List.mem_append.mp hc with hc | hc
    · exact (h.2.1 c hc).1
    · cases hd : p.isDerived with
      | true => rw [hd] at hc; simp at hc; subst hc; decide
      | false => rw [hd] at hc; simp at hc

theorem stripChar_star {n : Str} (h : '*' ∉ n) : stripChar '*' (n ++ ['*']) = n := by
  unfold stripChar
  cases n with
  | nil => decide
  | cons c n =>
    have hc : (c == '*') = false := by
      simp only [List.mem_cons, not_or] at h
      simpa using fun e => h.1 e.symm
    have : (c :: n ++ ['*']).dropWhile (· == '*') = c :: n ++ ['*'] := by simp [hc]
    rw [this, List.reverse_append]
    simp only [List.reverse_cons, List.reverse_nil, List.nil_append, List.singleton_append]
    rw [List.dropWhile_cons_of_pos (by simp)]
    have hr : '*' ∉ (n.reverse ++ [c]) := by simpa [or_comm] using h
    rw [dropWhile_eq_self]
    · simp
    · intro d hd
      have : d ∈ n.reverse ++ [c] := List.mem_of_head? hd
      have hne : d ≠ '*' := by rintro rfl; exact hr this
      simpa using hne

theorem endsWith_star (n : Str) (d : Bool) (h : '*' ∉ n) :
    endsWith ['*'] (n ++ (if d then ['*'] else [])) = d := by
  cases d with
  | true =>
    simp only [if_true, endsWith]
    rw [List.isSuffixOf_iff_suffix]
    exact ⟨n, rfl⟩
  | false =>
    simp only [Bool.false_eq_true, if_false, List.append_nil, endsWith]
    rw [Bool.eq_false_iff]
    intro hs
    rw [List.isSuffixOf_iff_suffix] at hs
    obtain ⟨t, ht⟩ := hs
    exact h (by rw [← ht]; simp)

/-- the first half of `setFromString`: name and derived flag -/
theorem setFromString_name {p q : Info} (h : NameOK p.name) (hq : q.isDerived = false) (line : Str) (rest : List Str) :
    splitWs1 line = nameTag p :: rest → setFromString q line =
      (match rest with
      | [] => .ok { q with name := p.name, isDerived := p.isDerived }
      | r :: _ =>
        match splitChar1 '#' r with
        | [] => .ok { q with name := p.name, isDerived := p.isDerived }
        | t0 :: ts => .ok { q with
            name := p.name
            isDerived := p.isDerived
            label := replaceChar '!' ['\\'] (strip t0)
            comment := match ts with
              | t1 :: _ => strip t1
              | [] => [] }) := by
  intro hs
  have hstar : '*' ∉ p.name := fun hm => (h.2.1 _ hm).2.1 rfl
  have hbad : p.name.any badNameChar = false := by
    rw [List.any_eq_false]
    intro c hc
    have := h.2.1 c hc
    unfold badNameChar
    have h1 : c ≠ ' ' := by rintro rfl; exact absurd this.1 (by decide)
    have h2 : c ≠ '\t' := by rintro rfl; exact absurd this.1 (by decide)
    simp [this.2.1, this.2.2, h1, h2]
  unfold setFromString
  rw [hs]
  simp only
  have he := endsWith_star p.name p.isDerived hstar
  have he' : endsWith ['*'] (nameTag p) = p.isDerived := he
  rw [he']
  have hname : (if p.isDerived = true then stripChar '*' (nameTag p) else nameTag p) = p.name := by
    unfold nameTag
    cases p.isDerived with
    | true => simpa using stripChar_star hstar
    | false => simp
  rw [hname]
  cases hd : p.isDerived with
  | true =>
    simp only [setName, hbad, Bool.false_eq_true, if_false, if_true]
    cases rest with
    | nil => rfl
    | cons r _ => cases splitChar1 '#' r with
      | nil => rfl
      | cons t0 ts => cases ts <;> rfl
  | false =>
    simp only [setName, hbad, Bool.false_eq_true, if_false]
    rw [← hq]
    cases rest with
    | nil => rfl
    | cons r _ => cases splitChar1 '#' r with
      | nil => rfl
      | cons t0 ts => cases ts <;> rfl

theorem isWs_tab : isWs '\t' = true := by decide

theorem lstrip_label {l : Str} (h : Trim l) (r : Str) (hl : l ≠ []) : lstrip (l ++ r) = l ++ r := by
  apply lstrip_eq_self
  intro c hc
  cases l with
  | nil => exact absurd rfl hl
  | cons d l => simp at hc; subst hc; exact h.1 _ rfl

theorem strip_tab (l : Str) (h : Trim l) : strip (l ++ ['\t']) = l := by
  rw [strip_append_ws _ _ isWs_tab, strip_eq_self h]

/-- parsing the (stripped) line written for a parameter recovers it -/
theorem ofLine_string (p : Info) (h : ParOK p) : ofLine (strip p.string) = .ok (stored p) := by
  obtain ⟨hn, hl, hc⟩ := h
  obtain ⟨hne, hws⟩ := nameTag_ok hn
  have htag : p.name ++ (if p.isDerived then ['*'] else []) = nameTag p := rfl
  have hhead : ∀ (r : Str) c, (nameTag p ++ r).head? = some c → isWs c = false := by
    intro r c hcc
    cases ht : nameTag p with
    | nil => exact absurd ht hne
    | cons d t =>
      rw [ht] at hcc; simp at hcc; subst hcc
      exact hws _ (by rw [ht]; simp)
  unfold ofLine
  by_cases hcom : p.comment = []
  · -- no comment written
    have hstr : p.string = nameTag p ++ '\t' :: p.label := by
      simp [Info.string, hcom, ← htag]
    rw [hstr]
    by_cases hlab : p.label = []
    · have : strip (nameTag p ++ '\t' :: p.label) = nameTag p := by
        rw [hlab, strip_append_ws _ _ isWs_tab]
        apply strip_eq_self
        refine ⟨fun c hcc => hhead [] c (by simpa using hcc), fun c hcc => hws c (List.mem_of_getLast? hcc)⟩
      rw [this, setFromString_name hn rfl _ [] (splitWs1_one hne hws)]
      simp [stored, hcom, hlab]
    · have : strip (nameTag p ++ '\t' :: p.label) = nameTag p ++ '\t' :: p.label := by
        apply strip_eq_self
        refine ⟨hhead _, ?_⟩
        intro c hcc
        rw [List.getLast?_append, List.getLast?_cons] at hcc
        cases hgl : p.label.getLast? with
        | none => rw [List.getLast?_eq_none_iff] at hgl; exact absurd hgl hlab
        | some d =>
          rw [hgl] at hcc
          simp at hcc
          subst hcc
          exact hl.1.2 _ hgl
      have hsp : splitWs1 (nameTag p ++ '\t' :: p.label) = [nameTag p, p.label] := by
        rw [splitWs1_two hne hws isWs_tab]
        have := lstrip_label hl.1 [] hlab
        rw [List.append_nil] at this
        rw [this]
        cases hpl : p.label with
        | nil => exact absurd hpl hlab
        | cons => rfl
      rw [this, setFromString_name hn rfl _ _ hsp]
      simp only
      rw [splitChar1_one hl.2.2.1]
      simp only [strip_eq_self hl.1, replaceChar_id hl.2.2.2]
      simp [stored, hcom]
  · -- with comment
    have hstr : p.string = nameTag p ++ '\t' :: (p.label ++ '\t' :: '#' :: p.comment) := by
      have : (p.comment != []) = true := by simpa using hcom
      simp [Info.string, this, ← htag]
    have : strip p.string = p.string := by
      rw [hstr]
      apply strip_eq_self
      refine ⟨hhead _, ?_⟩
      intro c hcc
      have e : nameTag p ++ '\t' :: (p.label ++ '\t' :: '#' :: p.comment)
          = (nameTag p ++ '\t' :: (p.label ++ ['\t', '#'])) ++ p.comment := by simp
      rw [e, List.getLast?_append] at hcc
      cases hgl : p.comment.getLast? with
      | none => rw [List.getLast?_eq_none_iff] at hgl; exact absurd hgl hcom
      | some d =>
        rw [hgl] at hcc
        simp at hcc
        subst hcc
        exact hc.1.2 _ hgl
    rw [this, hstr]
    have hsp : ∃ t0, splitWs1 (nameTag p ++ '\t' :: (p.label ++ '\t' :: '#' :: p.comment))
          = [nameTag p, t0 ++ '#' :: p.comment] ∧ '#' ∉ t0 ∧ strip t0 = p.label := by
      rw [splitWs1_two hne hws isWs_tab]
      by_cases hlab : p.label = []
      · refine ⟨[], ?_, by simp, by rw [hlab]; rfl⟩
        rw [hlab]
        have : lstrip ([] ++ '\t' :: '#' :: p.comment) = '#' :: p.comment := by
          simp only [List.nil_append]
          rw [lstrip_cons_ws isWs_tab]
          exact lstrip_eq_self (by intro c hc; simp at hc; subst hc; decide)
        rw [this]; rfl
      · refine ⟨p.label ++ ['\t'], ?_, by simpa using hl.2.2.1, strip_tab _ hl.1⟩
        rw [lstrip_label hl.1 _ hlab]
        cases hpl : p.label with
        | nil => exact absurd hpl hlab
        | cons => simp
    obtain ⟨t0, h1, h2, h3⟩ := hsp
    rw [setFromString_name hn rfl _ _ h1]
    simp only
    rw [splitChar1_two h2]
    simp only [h3, replaceChar_id hl.2.2.2, strip_eq_self hc.1]
    simp [stored]

theorem oneLine_string (p : Info) (h : ParOK p) : OneLine p.string := by
  obtain ⟨hn, hl, hc⟩ := h
  have h1 : ∀ ch, isWs ch = true → ch ≠ '*' → ch ∉ nameTag p := by
    intro ch hw _ hm
    have := (nameTag_ok hn).2 ch hm
    rw [hw] at this; simp at this
  have key : ∀ ch, isWs ch = true → ch ≠ '*' → ch ≠ '\t' → ch ≠ '#' → ch ∉ p.label → ch ∉ p.comment →
      ch ∉ p.string := by
    intro ch hw a1 a2 a3 a4 a5
    have := h1 ch hw a1
    unfold nameTag at this
    simp only [List.mem_append, not_or] at this
    unfold Info.string
    simp only
    split
    · simp only [List.mem_append, not_or]
      refine ⟨⟨⟨⟨⟨this.1, this.2⟩, by simpa using a2⟩, a4⟩, ?_⟩, a5⟩
      intro hm
      have : ch ∈ ['\t', '#'] := hm
      simp at this
      rcases this with h | h
      · exact a2 h
      · exact a3 h
    · simp only [List.mem_append, not_or]
      exact ⟨⟨⟨this.1, this.2⟩, by simpa using a2⟩, a4⟩
  exact ⟨key _ (by decide) (by decide) (by decide) (by decide) hl.2.1.1 hc.2.1,
    key _ (by decide) (by decide) (by decide) (by decide) hl.2.1.2 hc.2.2⟩

theorem string_ne_nil (p : Info) (h : NameOK p.name) : strip p.string ≠ [] := by
  intro he
  obtain ⟨c, t, hct⟩ : ∃ c t, p.name = c :: t := by
    cases hp : p.name with
    | nil => exact absurd hp h.1
    | cons c t => exact ⟨c, t, rfl⟩
  have hw : isWs c = false := (h.2.1 c (by rw [hct]; simp)).1
  have hs : ∃ r, p.string = c :: r := by
    unfold Info.string
    simp only [hct]
    split <;> exact ⟨_, rfl⟩
  obtain ⟨r, hr⟩ := hs
  rw [hr] at he
  unfold strip at he
  have : lstrip (c :: r) = c :: r := lstrip_eq_self (by intro d hd; simp at hd; subst hd; exact hw)
  rw [this] at he
  unfold rstrip at he
  rw [List.reverse_eq_nil_iff, List.dropWhile_eq_nil_iff] at he
  have := he c (by simp)
  rw [hw] at this; simp at this

theorem loadLines_map (ps : List Info) (h : ∀ p ∈ ps, ParOK p) :
    loadLines (ps.map (fun p => strip p.string)) = .ok (ps.map stored) := by
  induction ps with
  | nil => rfl
  | cons p ps ih =>
    have hp := h p (by simp)
    simp only [List.map_cons, loadLines]
    rw [if_neg (string_ne_nil p hp.1), ofLine_string p hp, ih (fun q hq => h q (by simp [hq]))]

theorem listText_eq (ps : List Info) : listText ps = (ps.map (fun p => p.string ++ ['\n'])).flatten := by
  induction ps with
  | nil => rfl
  | cons p ps ih => simp [listText, ih]

/-- **C07** Writing a parameter list to a `.paramnames` file and loading it gives back the same list (names, derived
flags, labels, comments, order). -/
theorem paramnames_roundtrip (ps : List Info) (h : ∀ p ∈ ps, ParOK p) :
    loadText (listText ps) = .ok (ps.map stored) := by
  have hbom : dropBOM (listText ps) = listText ps := by
    cases ps with
    | nil => rfl
    | cons p ps =>
      have hp := (h p (by simp)).1
      obtain ⟨c, t, hct⟩ : ∃ c t, p.name = c :: t := by
        cases hp' : p.name with
        | nil => exact absurd hp' hp.1
        | cons c t => exact ⟨c, t, rfl⟩
      have : ∃ r, listText (p :: ps) = c :: r := by
        unfold listText Info.string
        simp only [hct]
        split <;> exact ⟨_, rfl⟩
      obtain ⟨r, hr⟩ := this
      rw [hr]
      have := hp.2.2 c (by rw [hct]; rfl)
      simp [dropBOM, this]
  unfold loadText
  rw [hbom, listText_eq]
  have hls : ∀ l ∈ ps.map Info.string, OneLine l := by
    intro l hl
    obtain ⟨p, hp, rfl⟩ := List.mem_map.mp hl
    exact oneLine_string p (h p hp)
  have := strip_fileIter_terminated hls
  rw [List.map_map, List.flatMap_map] at this
  exact (congrArg loadLines this).trans (loadLines_map ps h)

instance (n : Str) : Decidable (NameOK n) := by
  unfold NameOK
  have : Decidable (∀ c, n.head? = some c → c.toNat ≠ 0xFEFF) := by
    cases n with
    | nil => exact isTrue (by simp)
    | cons d n =>
      exact decidable_of_iff (d.toNat ≠ 0xFEFF) ⟨fun h c hc => by simp at hc; subst hc; exact h, fun h => h d rfl⟩
  exact inferInstance

/-- a derived parameter with an empty label and a comment containing `#`, and one with LaTeX, meet the hypotheses -/
example : loadText (listText [⟨c!"H0", [], c!"km/s # rate", true, [c!"hubble"]⟩, ⟨c!"omegabh2", c!"\\Omega_b h^2", [], false, []⟩])
    = .ok [⟨c!"H0", [], c!"km/s # rate", true, []⟩, ⟨c!"omegabh2", c!"\\Omega_b h^2", [], false, []⟩] := by
  apply paramnames_roundtrip
  intro p hp
  simp only [List.mem_cons, List.not_mem_nil, or_false] at hp
  unfold ParOK LabelOK CommentOK
  rcases hp with rfl | rfl <;> decide

/-- The exclusion of `!` in labels is needed: a label with `!` comes back as a backslash. -/
theorem label_bang_fails : loadText (listText [⟨c!"n", c!"n!", [], false, []⟩]) = .ok [⟨c!"n", c!"n\\", [], false, []⟩] := by
  decide

/-! ## C08 keyword round trip -/

/-- parameters that can be stored as keywords: like `ParOK`, but any comment other than the text `NULL` is fine,
and names contain no backslash -/
def KeyParOK (p : Info) : Prop :=
  NameOK p.name ∧ '\\' ∉ p.name ∧ Trim p.label ∧ '#' ∉ p.label ∧ '!' ∉ p.label ∧ p.comment ≠ c!"NULL"

theorem replace_replace {s : Str} (h : '!' ∉ s) : replaceChar '!' ['\\'] (replaceChar '\\' ['!'] s) = s := by
  induction s with
  | nil => rfl
  | cons c s ih =>
    simp only [List.mem_cons, not_or] at h
    have hi := ih h.2
    have hc : (c == '!') = false := by simpa using fun e => h.1 e.symm
    unfold replaceChar at hi ⊢
    rw [List.flatMap_cons, List.flatMap_append, hi]
    by_cases hb : c = '\\'
    · subst hb; rfl
    · have : (c == '\\') = false := by simpa using hb
      have hne : c ≠ '!' := fun e => h.1 e.symm
      simp [this, hne]

theorem replaceChar_append (a : Char) (b s t : Str) :
    replaceChar a b (s ++ t) = replaceChar a b s ++ replaceChar a b t := by
  simp [replaceChar]

theorem head_replace {s : Str} {c : Char} (h : (replaceChar '\\' ['!'] s).head? = some c) :
    ∃ d, s.head? = some d ∧ (isWs d = false → isWs c = false) := by
  cases s with
  | nil => simp [replaceChar] at h
  | cons d s =>
    refine ⟨d, rfl, ?_⟩
    unfold replaceChar at h
    rw [List.flatMap_cons] at h
    by_cases hd : d = '\\'
    · subst hd; simp at h; subst h; intro _; decide
    · simp [hd] at h; subst h; exact id

theorem replaceChar_reverse (s : Str) :
    (replaceChar '\\' ['!'] s).reverse = replaceChar '\\' ['!'] s.reverse := by
  induction s with
  | nil => rfl
  | cons c s ih =>
    have h1 : replaceChar '\\' ['!'] (c :: s) = replaceChar '\\' ['!'] [c] ++ replaceChar '\\' ['!'] s :=
      replaceChar_append _ _ [c] s
    rw [h1, List.reverse_append, ih, List.reverse_cons, replaceChar_append]
    congr 1
    by_cases hc : c = '\\'
    · subst hc; rfl
    · simp [replaceChar, hc]

theorem trim_replace {s : Str} (h : Trim s) : Trim (replaceChar '\\' ['!'] s) := by
  constructor
  · intro c hc
    obtain ⟨d, h1, h2⟩ := head_replace hc
    exact h2 (h.1 d h1)
  · intro c hc
    rw [List.getLast?_eq_head?_reverse, replaceChar_reverse] at hc
    obtain ⟨d, h1, h2⟩ := head_replace hc
    rw [← List.getLast?_eq_head?_reverse] at h1
    exact h2 (h.2 d h1)

theorem mem_replace {s : Str} {c : Char} (h : c ∈ replaceChar '\\' ['!'] s) : c ∈ s ∨ c = '!' := by
  unfold replaceChar at h
  obtain ⟨d, hd, hc⟩ := List.mem_flatMap.mp h
  by_cases hb : d = '\\'
  · subst hb; simp at hc; exact Or.inr hc
  · simp [hb] at hc; subst hc; exact Or.inl hd

theorem replace_ne_nil {s : Str} (h : s ≠ []) : replaceChar '\\' ['!'] s ≠ [] := by
  cases s with
  | nil => exact absurd rfl h
  | cons c s =>
    unfold replaceChar
    rw [List.flatMap_cons]
    by_cases hc : c = '\\' <;> simp [hc]

theorem keyword_item (p : Info) (h : KeyParOK p) :
    setFromStringWithComment {} (replaceChar '\\' ['!'] (p.string false)) p.comment = .ok (stored p) := by
  obtain ⟨hn, hb, hl, hh, hx, hc⟩ := h
  obtain ⟨hne, hws⟩ := nameTag_ok hn
  have hstr : replaceChar '\\' ['!'] (p.string false) = nameTag p ++ '\t' :: replaceChar '\\' ['!'] p.label := by
    have h1 : p.string false = nameTag p ++ ('\t' :: p.label) := by simp [Info.string, nameTag]
    have hnb : '\\' ∉ nameTag p := by
      unfold nameTag
      simp only [List.mem_append, not_or]
      exact ⟨hb, by cases p.isDerived <;> simp⟩
    rw [h1, replaceChar_append, replaceChar_id hnb]
    rfl
  rw [hstr]
  have hcn : (p.comment != c!"NULL") = true := by simpa using hc
  by_cases hlab : p.label = []
  · have hsp : splitWs1 (nameTag p ++ '\t' :: replaceChar '\\' ['!'] p.label) = [nameTag p] := by
      rw [splitWs1_two hne hws isWs_tab, hlab]; rfl
    unfold setFromStringWithComment
    rw [setFromString_name hn rfl _ _ hsp]
    simp only [hcn, if_true]
    simp [stored, hlab]
  · have hlt := trim_replace hl
    have hlne := replace_ne_nil hlab
    have hsp : splitWs1 (nameTag p ++ '\t' :: replaceChar '\\' ['!'] p.label)
        = [nameTag p, replaceChar '\\' ['!'] p.label] := by
      rw [splitWs1_two hne hws isWs_tab]
      have := lstrip_label hlt [] hlne
      rw [List.append_nil] at this
      rw [this]
      cases hpl : replaceChar '\\' ['!'] p.label with
      | nil => exact absurd hpl hlne
      | cons => rfl
    unfold setFromStringWithComment
    rw [setFromString_name hn rfl _ _ hsp]
    have hnh : '#' ∉ replaceChar '\\' ['!'] p.label := by
      intro hm
      rcases mem_replace hm with hm | hm
      · exact hh hm
      · exact absurd hm (by decide)
    simp only
    rw [splitChar1_one hnh]
    simp only [strip_eq_self hlt, replace_replace hx, hcn, if_true]
    rfl

theorem saveParams_get_other (ps : List Info) (st : Store) (i : Nat) (k : Str)
    (h : ∀ j, k ≠ c!"param_" ++ strNat (j + 1)) : (saveParams st i ps).get? k = st.get? k := by
  induction ps generalizing st i with
  | nil => rfl
  | cons p ps ih =>
    simp only [saveParams]
    rw [ih, Dict.get?_set_of_ne _ _ (h i)]

theorem saveParams_get_lt (ps : List Info) (st : Store) (i j : Nat) (h : j < i) :
    (saveParams st i ps).get? (c!"param_" ++ strNat (j + 1)) = st.get? (c!"param_" ++ strNat (j + 1)) := by
  induction ps generalizing st i with
  | nil => rfl
  | cons p ps ih =>
    simp only [saveParams]
    rw [ih _ _ (by omega), Dict.get?_set_of_ne]
    intro e
    have := strNat_injective (List.append_cancel_left e)
    omega

theorem loadParams_saveParams (ps : List Info) (h : ∀ p ∈ ps, KeyParOK p) (st : Store) (i : Nat) (st' : Store)
    (hst : ∀ j, st'.get? (c!"param_" ++ strNat (j + 1)) = (saveParams st i ps).get? (c!"param_" ++ strNat (j + 1))) :
    loadParams st' i ps.length = .ok (ps.map stored) := by
  induction ps generalizing st i with
  | nil => rfl
  | cons p ps ih =>
    simp only [List.length_cons, loadParams, List.map_cons]
    rw [hst i]
    simp only [saveParams]
    rw [saveParams_get_lt _ _ _ _ (Nat.lt_succ_self i), Dict.get?_set_self]
    simp only
    rw [keyword_item p (h p (by simp))]
    simp only
    rw [ih (fun q hq => h q (by simp [hq])) _ (i + 1) (fun j => hst j)]

/-- **C08** Saving a parameter list as keywords into any store and loading it back recovers every parameter, in
order. -/
theorem keywords_roundtrip (st : Store) (ps : List Info) (h : ∀ p ∈ ps, KeyParOK p) :
    loadFromKeyWords (saveKeyWords st ps) = .ok (ps.map stored) := by
  have hd : numDerived ps ≤ ps.length := List.length_filter_le _ _
  have hk : ∀ (k : Str), (k = c!"num_params_used" ∨ k = c!"num_derived_params") →
      ∀ j, k ≠ c!"param_" ++ strNat (j + 1) := by
    rintro k hk j e
    have := congrArg List.head? e
    rcases hk with rfl | rfl <;> exact absurd this (by simp)
  unfold loadFromKeyWords keyInt saveKeyWords
  rw [saveParams_get_other _ _ _ _ (hk _ (Or.inl rfl)), saveParams_get_other _ _ _ _ (hk _ (Or.inr rfl))]
  rw [Dict.get?_set_self, Dict.get?_set_of_ne _ _ (by decide), Dict.get?_set_self]
  simp only [intStr_strNat]
  have : ps.length - numDerived ps + numDerived ps = ps.length := by omega
  rw [this]
  exact loadParams_saveParams ps h _ 0 _ (fun j => rfl)

example : loadFromKeyWords (saveKeyWords [] [⟨c!"H0", c!"H_0", c!"a b\nc ", true, []⟩, ⟨c!"om", c!"\\Omega_m", [], false, []⟩])
    = .ok [⟨c!"H0", c!"H_0", c!"a b\nc ", true, []⟩, ⟨c!"om", c!"\\Omega_m", [], false, []⟩] := by
  apply keywords_roundtrip
  intro p hp
  simp only [List.mem_cons, List.not_mem_nil, or_false] at hp
  unfold KeyParOK
  rcases hp with rfl | rfl <;> decide

/-! ## C10 lookup -/

/-- the names under which a parameter is known, given a rename table: its own name, its own aliases and those the
table declares for its name -/
def KnownAs (r : Renames) (p : Info) (n : Str) : Prop :=
  n = p.name ∨ n ∈ p.renames ∨ ∃ l, r.get? p.name = some l ∧ n ∈ l

/-- the names meant by a query -/
def Means (r : Renames) (q n : Str) : Prop := n = q ∨ ∃ l, r.get? q = some l ∧ n ∈ l

theorem mem_aliasesOf (r : Renames) (k n : Str) : n ∈ aliasesOf r k ↔ ∃ l, r.get? k = some l ∧ n ∈ l := by
  unfold aliasesOf
  cases r.get? k with
  | none => simp
  | some l => simp

theorem matchesName_iff (q : Str) (r : Renames) (p : Info) :
    matchesName q r p = true ↔ ∃ n, Means r q n ∧ KnownAs r p n := by
  unfold matchesName Means KnownAs
  simp only [List.any_eq_true, List.mem_cons, List.mem_append, List.contains_eq_mem, decide_eq_true_eq, mem_aliasesOf]
  constructor
  · rintro ⟨n, h1, h2⟩; exact ⟨n, h2, h1⟩
  · rintro ⟨n, h1, h2⟩; exact ⟨n, h2, h1⟩

/-- **C10a** Lookup returns a parameter exactly when it is the first one sharing a name with the query. -/
theorem parWithName_first (ps : List Info) (q : Str) (r : Renames) (p : Info) :
    parWithName ps q r = some p ↔
      ∃ pre post, ps = pre ++ p :: post ∧ (∃ n, Means r q n ∧ KnownAs r p n) ∧
        ∀ x ∈ pre, ¬ ∃ n, Means r q n ∧ KnownAs r x n := by
  unfold parWithName
  rw [List.find?_eq_some_iff_append]
  constructor
  · rintro ⟨h1, as, bs, h2, h3⟩
    refine ⟨as, bs, h2, (matchesName_iff _ _ _).mp h1, fun x hx hm => ?_⟩
    have := h3 x hx
    rw [(matchesName_iff _ _ _).mpr hm] at this
    simp at this
  · rintro ⟨as, bs, h2, h1, h3⟩
    refine ⟨(matchesName_iff _ _ _).mpr h1, as, bs, h2, fun x hx => ?_⟩
    cases hm : matchesName q r x with
    | false => rfl
    | true => exact absurd ((matchesName_iff _ _ _).mp hm) (h3 x hx)

/-- **C10b** Lookup fails exactly when no parameter shares a name with the query; with `error=True` it then raises. -/
theorem parWithName_none (ps : List Info) (q : Str) (r : Renames) :
    (parWithName ps q r = none ↔ ∀ p ∈ ps, ¬ ∃ n, Means r q n ∧ KnownAs r p n) ∧
    ((∃ e, parWithNameE ps q true r = .error e) ↔ ∀ p ∈ ps, ¬ ∃ n, Means r q n ∧ KnownAs r p n) := by
  have h : parWithName ps q r = none ↔ ∀ p ∈ ps, ¬ ∃ n, Means r q n ∧ KnownAs r p n := by
    unfold parWithName
    rw [List.find?_eq_none]
    constructor
    · intro h p hp hm; exact h p hp ((matchesName_iff _ _ _).mpr hm)
    · intro h p hp hm; exact h p hp ((matchesName_iff _ _ _).mp hm)
  refine ⟨h, ?_⟩
  rw [← h]
  unfold parWithNameE
  cases parWithName ps q r <;> simp

example : parWithName [{ name := c!"a" }, { name := c!"b", renames := [c!"c"] }] c!"d" [(c!"d", [c!"e"])] = none ∧
    (parWithName [{ name := c!"a" }, { name := c!"b", renames := [c!"c"] }] c!"c" []).map (·.name) = some c!"b" := by decide

theorem numberFrom_spec (name : Str) (ps : List Info) (i : Nat) :
    (numberFrom i name ps = -1 ∧ ∀ p ∈ ps, p.name ≠ name) ∨
    ∃ j p, numberFrom i name ps = ((i + j : Nat) : Int) ∧ ps[j]? = some p ∧ p.name = name ∧
      ∀ k q, k < j → ps[k]? = some q → q.name ≠ name := by
  induction ps generalizing i with
  | nil => left; simp [numberFrom]
  | cons p ps ih =>
    by_cases hp : p.name = name
    · right
      refine ⟨0, p, by simp [numberFrom, hp], rfl, hp, fun k q hk => absurd hk (Nat.not_lt_zero k)⟩
    · simp only [numberFrom, hp, if_false]
      have hc : ((i : Int) + 1) = ((i + 1 : Nat) : Int) := by omega
      rw [hc]
      rcases ih (i + 1) with ⟨h1, h2⟩ | ⟨j, p', h1, h2, h3, h4⟩
      · left
        refine ⟨h1, fun q hq => ?_⟩
        rcases List.mem_cons.mp hq with rfl | hq
        · exact hp
        · exact h2 q hq
      · right
        refine ⟨j + 1, p', by rw [h1]; congr 1; omega, h2, h3, fun k q hk hq => ?_⟩
        cases k with
        | zero => simp at hq; subst hq; exact hp
        | succ k => exact h4 k q (by omega) hq

/-- **C10c** The reported index is the first position with exactly that name; it is -1 exactly when there is none, and
`hasParam` says which. -/
theorem numberOfName_spec (ps : List Info) (name : Str) :
    (numberOfName ps name = -1 ∧ hasParam ps name = false ∧ ∀ p ∈ ps, p.name ≠ name) ∨
    ∃ (j : Nat) (p : Info), numberOfName ps name = (j : Int) ∧ hasParam ps name = true ∧ ps[j]? = some p ∧
      p.name = name ∧ ∀ k q, k < j → ps[k]? = some q → q.name ≠ name := by
  have := numberFrom_spec name ps 0
  have h0 : numberFrom ((0 : Nat) : Int) name ps = numberOfName ps name := rfl
  rw [h0] at this
  rcases this with ⟨h1, h2⟩ | ⟨j, p, h1, h2, h3, h4⟩
  · left; exact ⟨h1, by simp [hasParam, h1], h2⟩
  · right
    refine ⟨j, p, by rw [h1]; simp, ?_, h2, h3, h4⟩
    unfold hasParam
    rw [h1]
    simp only [bne_iff_ne, ne_eq]
    omega

/-- **C10d** Without aliases, lookup by name and by index agree. -/
theorem lookup_agree (ps : List Info) (name : Str) (hr : ∀ p ∈ ps, p.renames = []) :
    match parWithName ps name [] with
    | none => numberOfName ps name = -1
    | some p => ∃ j : Nat, numberOfName ps name = (j : Int) ∧ ps[j]? = some p ∧ p.name = name := by
  have hm : ∀ p ∈ ps, (matchesName name [] p = true ↔ p.name = name) := by
    intro p hp
    rw [matchesName_iff]
    unfold Means KnownAs
    simp only [hr p hp, Dict.get?_nil]
    constructor
    · rintro ⟨n, h1 | ⟨_, h, _⟩, h2⟩
      · rcases h2 with h2 | h2 | ⟨_, h, _⟩
        · rw [← h2, h1]
        · simp at h2
        · simp at h
      · simp at h
    · intro h; exact ⟨name, Or.inl rfl, Or.inl h.symm⟩
  rcases numberOfName_spec ps name with ⟨h1, _, h2⟩ | ⟨j, p, h1, _, h2, h3, h4⟩
  · have : parWithName ps name [] = none := by
      unfold parWithName
      rw [List.find?_eq_none]
      intro p hp hq
      exact h2 p hp ((hm p hp).mp hq)
    rw [this]; exact h1
  · have : parWithName ps name [] = some p := by
      unfold parWithName
      rw [List.find?_eq_some_iff_getElem]
      have hj : j < ps.length := by
        rw [List.getElem?_eq_some_iff] at h2; exact h2.1
      have hpe : ps[j] = p := by
        rw [List.getElem?_eq_some_iff] at h2; exact h2.2
      refine ⟨(hm p (hpe ▸ List.getElem_mem hj)).mpr h3, j, hj, hpe, ?_⟩
      intro k hk
      have hkl : k < ps.length := by omega
      have := h4 k ps[k] hk (List.getElem?_eq_getElem hkl)
      cases hmm : matchesName name [] ps[k] with
      | false => rfl
      | true => exact absurd ((hm _ (List.getElem_mem hkl)).mp hmm) this
    rw [this]
    exact ⟨j, h1, h2, h3⟩

/-- alias lookup works in both directions, and finds an earlier parameter that merely shares an alias -/
example : let a : Info := { name := c!"a", renames := [c!"x"] }
    let b : Info := { name := c!"b" }
    parWithName [a, b] c!"x" [] = some a ∧ parWithName [a, b] c!"y" [(c!"b", [c!"y"])] = some b ∧
    parWithName [a, b] c!"y" [(c!"y", [c!"b"])] = some b ∧ numberOfName [a, b] c!"x" = -1 ∧
    numberOfName [a, b] c!"b" = 1 := by decide

/-! ## C11 globs -/

/-- specification of shell patterns built from `*`, `?` and literal characters -/
inductive Glob : Str → Str → Prop
  | nil : Glob [] []
  | star (u : Str) {p s : Str} : Glob p s → Glob ('*' :: p) (u ++ s)
  | any (c : Char) {p s : Str} : Glob p s → Glob ('?' :: p) (c :: s)
  | lit {c : Char} {p s : Str} : c ≠ '*' → c ≠ '?' → c ≠ '[' → Glob p s → Glob (c :: p) (c :: s)

/-- membership in the body of a bracket expression, read from the left: `a-b` is the range of characters from `a` to
`b`, any other character stands for itself -/
inductive InBody : Str → Char → Prop
  | range {a b c : Char} {r : Str} : a.toNat ≤ c.toNat → c.toNat ≤ b.toNat → InBody (a :: '-' :: b :: r) c
  | skipRange {a b c : Char} {r : Str} : InBody r c → InBody (a :: '-' :: b :: r) c
  | single {a : Char} {r : Str} : (∀ b r', r ≠ '-' :: b :: r') → InBody (a :: r) a
  | skip {a c : Char} {r : Str} : (∀ b r', r ≠ '-' :: b :: r') → InBody r c → InBody (a :: r) c

theorem inClass_iff (body : Str) (c : Char) : inClass body c = true ↔ InBody body c := by
  induction hn : body.length using Nat.strong_induction_on generalizing body with
  | _ k ih' =>
    have ih : ∀ r : Str, r.length < body.length → (inClass r c = true ↔ InBody r c) := fun r hr => ih' _ (hn ▸ hr) r rfl
    clear ih' hn
    match body, ih with
    | [], ih =>
      constructor
      · intro h; simp [inClass] at h
      · intro h; cases h
    | a :: '-' :: b :: r, ih =>
      have hr := ih r (by simp; omega)
      rw [inClass, Bool.or_eq_true, Bool.and_eq_true, decide_eq_true_iff, decide_eq_true_iff, hr]
      constructor
      · rintro (⟨h1, h2⟩ | h)
        · exact .range h1 h2
        · exact .skipRange h
      · intro h
        cases h with
        | range h1 h2 => exact .inl ⟨h1, h2⟩
        | skipRange h => exact .inr h
        | single h => exact absurd rfl (h _ _)
        | skip h => exact absurd rfl (h _ _)
    | [a], ih =>
      simp only [inClass, Bool.or_false, beq_iff_eq]
      constructor
      · rintro rfl; exact .single (by simp)
      · intro h
        cases h with
        | single => rfl
        | skip _ h => cases h
    | [a, d], ih =>
      have hr := ih [d] (by simp)
      rw [inClass, Bool.or_eq_true, hr, beq_iff_eq]
      · constructor
        · rintro (rfl | h)
          · exact .single (by simp)
          · exact .skip (by simp) h
        · intro h
          cases h with
          | single => exact .inl rfl
          | skip _ h => exact .inr h
      · intro b rest h; simp at h
    | a :: d :: e :: r, ih =>
      by_cases hd : d = '-'
      · subst hd
        have hr := ih r (by simp; omega)
        rw [inClass, Bool.or_eq_true, Bool.and_eq_true, decide_eq_true_iff, decide_eq_true_iff, hr]
        constructor
        · rintro (⟨h1, h2⟩ | h)
          · exact .range h1 h2
          · exact .skipRange h
        · intro h
          cases h with
          | range h1 h2 => exact .inl ⟨h1, h2⟩
          | skipRange h => exact .inr h
          | single h => exact absurd rfl (h _ _)
          | skip h => exact absurd rfl (h _ _)
      · have hr := ih (d :: e :: r) (by simp)
        have hn : ∀ b r', d :: e :: r ≠ '-' :: b :: r' := by
          intro b r' h; exact hd (List.cons.inj h).1
        rw [inClass, Bool.or_eq_true, hr, beq_iff_eq]
        · constructor
          · rintro (rfl | h)
            · exact .single hn
            · exact .skip hn h
          · intro h
            cases h with
            | range => exact absurd rfl hd
            | skipRange => exact absurd rfl hd
            | single => exact .inl rfl
            | skip _ h => exact .inr h
        · intro b rest h; exact hn _ _ h

example : inClass c!"a-cx" 'b' = true ∧ inClass c!"a-cx" 'd' = false ∧ inClass c!"a-cx" 'x' = true := by decide

/-- specification for token lists (adds bracket classes) -/
inductive TGlob : List GTok → Str → Prop
  | nil : TGlob [] []
  | star (u : Str) {p s} : TGlob p s → TGlob (.star :: p) (u ++ s)
  | any (c : Char) {p s} : TGlob p s → TGlob (.any :: p) (c :: s)
  | lit {c : Char} {p s} : TGlob p s → TGlob (.lit c :: p) (c :: s)
  | cls {neg : Bool} {b : Str} {c : Char} {p s} : (InBody b c ↔ neg = false) → TGlob p s → TGlob (.cls neg b :: p) (c :: s)

theorem globMatch_iff (ts : List GTok) (s : Str) : globMatch ts s = true ↔ TGlob ts s := by
  induction ts generalizing s with
  | nil =>
    unfold globMatch
    constructor
    · intro h; rw [List.isEmpty_iff] at h; subst h; exact .nil
    · intro h; cases h; rfl
  | cons t ts ih =>
    cases t with
    | star =>
      rw [globMatch]
      induction s with
      | nil =>
        rw [starMatch, ih]
        constructor
        · intro h; exact TGlob.star [] h
        · intro h
          generalize hs : ([] : Str) = s at h
          cases h with
          | @star u p s' h =>
            have := List.append_eq_nil_iff.mp hs.symm
            rw [this.1, this.2]; rw [this.2] at h; exact h
      | cons c cs ih2 =>
        rw [starMatch, Bool.or_eq_true, ih, ih2]
        constructor
        · rintro (h | h)
          · exact TGlob.star [] h
          · generalize hts : GTok.star :: ts = ts' at h
            cases h with
            | star u h => cases hts; exact TGlob.star (c :: u) h
            | _ => simp at hts
        · intro h
          generalize hs : c :: cs = s at h
          cases h with
          | @star u p s h =>
            cases u with
            | nil => left; exact h
            | cons d u =>
              right
              simp at hs
              rw [hs.2]; exact TGlob.star u h
    | any =>
      cases s with
      | nil => simp [globMatch]; intro h; cases h
      | cons c cs =>
        rw [globMatch, ih]
        exact ⟨fun h => .any c h, fun h => by cases h; assumption⟩
    | lit a =>
      cases s with
      | nil => simp [globMatch]; intro h; cases h
      | cons c cs =>
        rw [globMatch, Bool.and_eq_true, ih, beq_iff_eq]
        exact ⟨fun ⟨h1, h2⟩ => h1 ▸ .lit h2, fun h => by cases h; exact ⟨rfl, by assumption⟩⟩
    | cls neg b =>
      cases s with
      | nil => simp [globMatch]; intro h; cases h
      | cons c cs =>
        have hc : (inClass b c != neg) = true ↔ (InBody b c ↔ neg = false) := by
          rw [bne_iff_ne, ← inClass_iff]
          cases inClass b c <;> cases neg <;> simp
        rw [globMatch, Bool.and_eq_true, ih, hc]
        exact ⟨fun ⟨h1, h2⟩ => .cls h1 h2, fun h => by cases h; exact ⟨by assumption, by assumption⟩⟩

example : globMatch [.lit 'a', .star, .cls true c!"0-9"] c!"aXYz" = true ∧ globMatch [.lit 'a', .star, .cls true c!"0-9"] c!"aXY7" = false := by decide

theorem tglob_gtokens (pat : Str) (h : '[' ∉ pat) (n : Nat) (hn : pat.length ≤ n) (s : Str) :
    TGlob (gtokens n pat) s ↔ Glob pat s := by
  induction pat generalizing n s with
  | nil =>
    cases n with
    | zero => simp only [gtokens]; exact ⟨fun h => by cases h; exact .nil, fun h => by cases h; exact .nil⟩
    | succ n => simp only [gtokens]; exact ⟨fun h => by cases h; exact .nil, fun h => by cases h; exact .nil⟩
  | cons c pat ih =>
    cases n with
    | zero => simp at hn
    | succ n =>
      simp only [List.mem_cons, not_or] at h
      simp only [List.length_cons] at hn
      have ih := ih h.2 n (by omega)
      simp only [gtokens]
      by_cases h1 : c = '*'
      · subst h1
        simp only [if_true]
        constructor
        · intro h; cases h; exact .star _ ((ih _).mp (by assumption))
        · intro h
          cases h with
          | star u h => exact .star _ ((ih _).mpr h)
          | lit h => exact absurd rfl h
      · by_cases h2 : c = '?'
        · subst h2
          simp only [if_true, if_neg h1]
          constructor
          · intro h; cases h; exact .any _ ((ih _).mp (by assumption))
          · intro h
            cases h with
            | any c h => exact .any _ ((ih _).mpr h)
            | lit _ h => exact absurd rfl h
        · have h3 : c ≠ '[' := fun e => h.1 e.symm
          simp only [if_neg h1, if_neg h2, if_neg h3]
          constructor
          · intro h; cases h; exact .lit h1 h2 h3 ((ih _).mp (by assumption))
          · intro h
            cases h with
            | star => exact absurd rfl h1
            | any => exact absurd rfl h2
            | lit _ _ _ h => exact .lit ((ih _).mpr h)

/-- `fnmatchcase` decides the shell pattern language -/
theorem fnmatchcase_iff (pat s : Str) (h : '[' ∉ pat) : fnmatchcase s pat = true ↔ Glob pat s := by
  unfold fnmatchcase
  rw [globMatch_iff, tglob_gtokens pat h _ (Nat.le_refl _)]

/-! ### bracket classes -/

/-- a closed bracket expression `[body]` or `[!body]` at the start of a text that follows a `[`: the body is not empty,
its first character may be `]`, the others are not -/
structure Closed (neg : Bool) (body rest cs : Str) : Prop where
  eq : cs = (if neg then ['!'] else []) ++ body ++ ']' :: rest
  ne : body ≠ []
  inner : ']' ∉ body.tail
  bang : neg = false → body.head? ≠ some '!'

/-- shell patterns with bracket expressions: how a pattern is read -/
inductive Tok : Str → List GTok → Prop
  | nil : Tok [] []
  | star {p ts} : Tok p ts → Tok ('*' :: p) (.star :: ts)
  | any {p ts} : Tok p ts → Tok ('?' :: p) (.any :: ts)
  | lit {c p ts} : c ≠ '*' → c ≠ '?' → c ≠ '[' → Tok p ts → Tok (c :: p) (.lit c :: ts)
  | cls {neg body rest cs ts} : Closed neg body rest cs → Tok rest ts → Tok ('[' :: cs) (.cls neg body :: ts)
  | unclosed {cs ts} : (∀ neg body rest, ¬ Closed neg body rest cs) → Tok cs ts → Tok ('[' :: cs) (.lit '[' :: ts)

theorem bang_spec (cs : Str) : cs = (if (bang cs).1 then ['!'] else []) ++ (bang cs).2 ∧
    ((bang cs).1 = false → (bang cs).2.head? ≠ some '!') := by
  cases cs with
  | nil => simp [bang]
  | cons c r =>
    unfold bang
    by_cases h : c = '!'
    · simp [h]
    · simp [h]

theorem leadClose_spec (cs : Str) : cs = (leadClose cs).1 ++ (leadClose cs).2 ∧
    (((leadClose cs).1 = [']']) ∨ ((leadClose cs).1 = [] ∧ (leadClose cs).2.head? ≠ some ']')) := by
  cases cs with
  | nil => simp [leadClose]
  | cons c r =>
    unfold leadClose
    by_cases h : c = ']'
    · simp [h]
    · simp [h]

theorem untilClose_iff {t b rest : Str} : untilClose t = some (b, rest) ↔ t = b ++ ']' :: rest ∧ ']' ∉ b := by
  induction t generalizing b with
  | nil => simp [untilClose]
  | cons c t ih =>
    unfold untilClose
    by_cases h : c = ']'
    · subst h
      rw [if_pos rfl]
      cases b with
      | nil => simp
      | cons x b => simp; rintro rfl; simp
    · rw [if_neg h]
      cases hu : untilClose t with
      | none =>
        simp only [reduceCtorEq, false_iff]
        rintro ⟨h1, h2⟩
        cases b with
        | nil => simp at h1; exact h h1.1
        | cons x b =>
          simp at h1 h2
          have := ih.2 ⟨h1.2, h2.2⟩
          rw [hu] at this; cases this
      | some q =>
        obtain ⟨b', rest'⟩ := q
        simp only [Option.some.injEq, Prod.mk.injEq]
        constructor
        · rintro ⟨rfl, rfl⟩
          have := ih.1 hu
          exact ⟨by rw [this.1]; rfl, by simp only [List.mem_cons, not_or]; exact ⟨fun e => h e.symm, this.2⟩⟩
        · rintro ⟨h1, h2⟩
          cases b with
          | nil => simp at h1; exact absurd h1.1 h
          | cons x b =>
            simp at h1 h2
            have := ih.2 ⟨h1.2, h2.2⟩
            rw [hu] at this
            simp only [Option.some.injEq, Prod.mk.injEq] at this
            exact ⟨by rw [h1.1, this.1], this.2⟩

theorem afterBracket_closed {neg : Bool} {body rest cs : Str} (h : Closed neg body rest cs) :
    afterBracket cs = some (neg, body, rest) := by
  obtain ⟨rfl, hne, hin, hb⟩ := h
  cases body with
  | nil => exact absurd rfl hne
  | cons x body =>
    simp only [List.tail_cons] at hin
    have h1 : bang ((if neg then ['!'] else []) ++ (x :: body) ++ ']' :: rest) = (neg, x :: (body ++ ']' :: rest)) := by
      cases neg with
      | true => rfl
      | false =>
        have hx : x ≠ '!' := fun e => hb rfl (by simp [e])
        simp [bang, hx]
    unfold afterBracket
    rw [h1]
    simp only []
    by_cases hxb : x = ']'
    · subst hxb
      have h2 : leadClose (']' :: (body ++ ']' :: rest)) = ([']'], body ++ ']' :: rest) := by simp [leadClose]
      rw [h2]
      simp only []
      rw [untilClose_iff.2 ⟨rfl, hin⟩]
      rfl
    · have h2 : leadClose (x :: (body ++ ']' :: rest)) = ([], x :: (body ++ ']' :: rest)) := by simp [leadClose, hxb]
      rw [h2]
      simp only []
      rw [(untilClose_iff (t := x :: (body ++ ']' :: rest)) (b := x :: body) (rest := rest)).2 ⟨rfl, by
        simp only [List.mem_cons, not_or]; exact ⟨fun e => hxb e.symm, hin⟩⟩]
      rfl

theorem closed_of_afterBracket {neg : Bool} {body rest cs : Str} (h : afterBracket cs = some (neg, body, rest)) :
    Closed neg body rest cs := by
  unfold afterBracket at h
  cases hu : untilClose (leadClose (bang cs).2).2 with
  | none => rw [hu] at h; cases h
  | some q =>
    obtain ⟨b, rest'⟩ := q
    rw [hu] at h
    simp only [Option.some.injEq, Prod.mk.injEq] at h
    obtain ⟨h1, h2, h3⟩ := h
    subst h3
    obtain ⟨e1, e2⟩ := untilClose_iff.1 hu
    obtain ⟨b1, b2⟩ := bang_spec cs
    obtain ⟨l1, l2⟩ := leadClose_spec (bang cs).2
    have hcs : (bang cs).2 = body ++ ']' :: rest' := by rw [l1, e1, ← h2]; simp
    have hne : body ≠ [] := by
      rintro rfl
      rcases l2 with h | ⟨h, hh⟩
      · rw [h] at h2; simp at h2
      · rw [h] at h2
        simp at h2
        rw [e1, h2] at hh
        simp at hh
    refine ⟨by rw [← h1, List.append_assoc, ← hcs]; exact b1, hne, ?_, ?_⟩
    · rw [← h2]
      rcases l2 with h | ⟨h, hh⟩
      · rw [h]; exact e2
      · rw [h]; exact fun hm => e2 (List.mem_of_mem_tail hm)
    · intro hn
      have := b2 (h1.trans hn)
      rw [hcs] at this
      cases body with
      | nil => exact absurd rfl hne
      | cons y body => simpa using this

theorem gtokens_bracket (n : Nat) (cs : Str) : gtokens (n + 1) ('[' :: cs) =
    match afterBracket cs with
    | none => .lit '[' :: gtokens n cs
    | some (neg, body, rest) => .cls neg body :: gtokens n rest := by
  rw [gtokens]
  rw [if_neg (by decide), if_neg (by decide), if_pos rfl]
  cases afterBracket cs <;> rfl

theorem tok_gtokens : ∀ (n : Nat) (pat : Str), pat.length ≤ n → Tok pat (gtokens n pat) := by
  intro n
  induction n with
  | zero =>
    intro pat h
    have : pat = [] := List.length_eq_zero_iff.1 (by omega)
    subst this; exact .nil
  | succ n ih =>
    intro pat h
    cases pat with
    | nil => exact .nil
    | cons c cs =>
      simp only [List.length_cons] at h
      by_cases h1 : c = '*'
      · subst h1; simp only [gtokens, if_true]; exact .star (ih cs (by omega))
      by_cases h2 : c = '?'
      · subst h2; simp only [gtokens, if_neg h1, if_true]; exact .any (ih cs (by omega))
      by_cases h3 : c = '['
      · subst h3
        rw [gtokens_bracket]
        cases ha : afterBracket cs with
        | none =>
          refine .unclosed ?_ (ih cs (by omega))
          intro neg body rest hc
          rw [afterBracket_closed hc] at ha
          cases ha
        | some x =>
          obtain ⟨neg, body, rest⟩ := x
          have hc := closed_of_afterBracket ha
          refine .cls hc (ih rest ?_)
          have := congrArg List.length hc.eq
          simp at this
          omega
      · simp only [gtokens, if_neg h1, if_neg h2, if_neg h3]
        exact .lit h1 h2 h3 (ih cs (by omega))

theorem tok_unique {pat : Str} {ts us : List GTok} (h1 : Tok pat ts) (h2 : Tok pat us) : ts = us := by
  induction h1 generalizing us with
  | nil => cases h2; rfl
  | star _ ih =>
    cases h2 with
    | star h => rw [ih h]
    | lit h => exact absurd rfl h
  | any _ ih =>
    cases h2 with
    | any h => rw [ih h]
    | lit _ h => exact absurd rfl h
  | lit a b c _ ih =>
    cases h2 with
    | star => exact absurd rfl a
    | any => exact absurd rfl b
    | lit _ _ _ h => rw [ih h]
    | cls => exact absurd rfl c
    | unclosed => exact absurd rfl c
  | cls hc _ ih =>
    cases h2 with
    | lit _ _ h => exact absurd rfl h
    | cls hd h =>
      have e := (afterBracket_closed hc).symm.trans (afterBracket_closed hd)
      simp only [Option.some.injEq, Prod.mk.injEq] at e
      obtain ⟨rfl, rfl, rfl⟩ := e
      rw [ih h]
    | unclosed h => exact absurd hc (h _ _ _)
  | unclosed hn _ ih =>
    cases h2 with
    | lit _ _ h => exact absurd rfl h
    | cls hd => exact absurd hd (hn _ _ _)
    | unclosed _ h => rw [ih h]

/-- `fnmatchcase` decides the full shell pattern language, bracket expressions included: the pattern is read in exactly
one way, and the text matches that reading -/
theorem fnmatchcase_full (pat s : Str) :
    ∃ ts, Tok pat ts ∧ (∀ us, Tok pat us → us = ts) ∧ (fnmatchcase s pat = true ↔ TGlob ts s) :=
  ⟨gtokens pat.length pat, tok_gtokens _ _ (Nat.le_refl _), fun _ h => tok_unique h (tok_gtokens _ _ (Nat.le_refl _)),
    globMatch_iff _ _⟩

example : fnmatchcase c!"omegab" c!"omega[a-c]" = true ∧ fnmatchcase c!"omegad" c!"omega[!a-c]" = true ∧
    fnmatchcase c!"a[b" c!"a[b" = true ∧ fnmatchcase c!"x]" c!"x[]]" = true := by decide
example : Tok c!"[!]a]*" [.cls true c!"]a", .star] :=
  .cls (rest := ['*']) ⟨rfl, by decide, by decide, by decide⟩ (.star .nil)

/-- **C11a** Matching a pattern returns exactly the parameters whose name matches, once each and in list order. -/
theorem getMatches_spec (ps : List Info) (pat : Str) (h : '[' ∉ pat) :
    (getMatches ps pat).Sublist ps ∧ ∀ p, p ∈ getMatches ps pat ↔ p ∈ ps ∧ Glob pat p.name := by
  refine ⟨List.filter_sublist, fun p => ?_⟩
  unfold getMatches
  rw [List.mem_filter, fnmatchcase_iff _ _ h]

/-- **C11a** the same for patterns with bracket expressions -/
theorem getMatches_full (ps : List Info) (pat : Str) :
    (getMatches ps pat).Sublist ps ∧
    ∀ p, p ∈ getMatches ps pat ↔ p ∈ ps ∧ ∃ ts, Tok pat ts ∧ TGlob ts p.name := by
  refine ⟨List.filter_sublist, fun p => ?_⟩
  unfold getMatches
  rw [List.mem_filter]
  obtain ⟨ts, h1, h2, h3⟩ := fnmatchcase_full pat p.name
  rw [h3]
  constructor
  · rintro ⟨hp, h⟩; exact ⟨hp, ts, h1, h⟩
  · rintro ⟨hp, us, hu, h⟩; rw [h2 us hu] at h; exact ⟨hp, h⟩

/-- specification of `parsWithNames` without errors: expand each name on its own, concatenate -/
def expandName (ps : List Info) (r : Renames) (name : Str) : List (Option Info) :=
  if name.contains '?' || name.contains '*' then (getMatches ps name).map some else [parWithName ps name r]

theorem parsLoop_spec (ps : List Info) (r : Renames) (l : List (Str × Bool)) :
    match parsLoop ps r l with
    | .ok res => res = l.flatMap (fun e => expandName ps r e.1) ∧
        ∀ e ∈ l, e.2 = true → none ∉ expandName ps r e.1
    | .error e => ∃ n, e = .notFound n ∧ (n, true) ∈ l ∧ none ∈ expandName ps r n := by
  induction l with
  | nil => simp [parsLoop]
  | cons x l ih =>
    obtain ⟨name, err⟩ := x
    unfold parsLoop
    by_cases hg : (name.contains '?' || name.contains '*') = true
    · simp only [hg, if_true]
      have hex : expandName ps r name = (getMatches ps name).map some := by simp only [expandName, hg, if_true]
      cases hl : parsLoop ps r l with
      | error e =>
        rw [hl] at ih
        obtain ⟨n, h1, h2, h3⟩ := ih
        exact ⟨n, h1, List.mem_cons_of_mem _ h2, h3⟩
      | ok res =>
        rw [hl] at ih
        simp only at ih ⊢
        refine ⟨by rw [ih.1, List.flatMap_cons, hex], ?_⟩
        intro e he het
        rcases List.mem_cons.mp he with rfl | he
        · rw [hex]; simp
        · exact ih.2 e he het
    · simp only [hg, Bool.false_eq_true, if_false]
      have hex : expandName ps r name = [parWithName ps name r] := by
        simp only [expandName, hg, Bool.false_eq_true, if_false]
      unfold parWithNameE
      cases hp : parWithName ps name r with
      | none =>
        cases err with
        | true => exact ⟨name, rfl, by simp, by rw [hex, hp]; simp⟩
        | false =>
          simp only [Bool.false_eq_true, if_false]
          cases hl : parsLoop ps r l with
          | error e =>
            rw [hl] at ih
            obtain ⟨n, h1, h2, h3⟩ := ih
            exact ⟨n, h1, List.mem_cons_of_mem _ h2, h3⟩
          | ok res =>
            rw [hl] at ih
            simp only at ih ⊢
            refine ⟨by rw [ih.1, List.flatMap_cons, hex, hp]; rfl, ?_⟩
            intro e he het
            rcases List.mem_cons.mp he with rfl | he
            · simp at het
            · exact ih.2 e he het
      | some p =>
        simp only
        cases hl : parsLoop ps r l with
        | error e =>
          rw [hl] at ih
          obtain ⟨n, h1, h2, h3⟩ := ih
          exact ⟨n, h1, List.mem_cons_of_mem _ h2, h3⟩
        | ok res =>
          rw [hl] at ih
          simp only at ih ⊢
          refine ⟨by rw [ih.1, List.flatMap_cons, hex, hp]; rfl, ?_⟩
          intro e he het
          rcases List.mem_cons.mp he with rfl | he
          · rw [hex, hp]; simp
          · exact ih.2 e he het

/-- **C11b** Expanding a list of names (with one error flag for all) gives, in order, all matches of each pattern and
exactly one entry per plain name; with errors requested it fails exactly when a plain name is unknown. -/
theorem parsWithNames_spec (ps : List Info) (names : List Str) (err : Bool) (r : Renames) :
    match parsWithNames ps names [err] r with
    | .ok res => res = names.flatMap (expandName ps r) ∧ (err = true → none ∉ res)
    | .error e => err = true ∧ ∃ n ∈ names, e = .notFound n ∧ none ∈ expandName ps r n := by
  have hzip : names.zip (if [err].length < names.length then (List.replicate names.length [err]).flatten else [err])
      = names.map (fun n => (n, err)) := by
    split
    · have : (List.replicate names.length [err]).flatten = List.replicate names.length err := by
        generalize names.length = n
        induction n with
        | zero => rfl
        | succ n ih => rw [List.replicate_succ, List.flatten_cons, ih]; rfl
      rw [this]
      clear this
      rename_i h
      clear h
      induction names with
      | nil => rfl
      | cons n l ih => simp [List.replicate_succ, ih]
    · rename_i h
      simp at h
      cases names with
      | nil => rfl
      | cons n l =>
        cases l with
        | nil => rfl
        | cons => simp at h
  unfold parsWithNames
  simp only [hzip]
  have := parsLoop_spec ps r (names.map (fun n => (n, err)))
  cases hl : parsLoop ps r (names.map (fun n => (n, err))) with
  | error e =>
    rw [hl] at this
    obtain ⟨n, h1, h2, h3⟩ := this
    obtain ⟨m, hm, he⟩ := List.mem_map.mp h2
    cases he
    exact ⟨rfl, n, hm, h1, h3⟩
  | ok res =>
    rw [hl] at this
    simp only at this ⊢
    obtain ⟨h1, h2⟩ := this
    rw [List.flatMap_map] at h1
    refine ⟨h1, fun he hn => ?_⟩
    rw [h1] at hn
    obtain ⟨n, hn1, hn2⟩ := List.mem_flatMap.mp hn
    exact h2 (n, err) (List.mem_map.mpr ⟨n, hn1, rfl⟩) he hn2

/-- **C11c** With any non-empty list of error flags no name is dropped: a list shorter than `names` is repeated, a list
at least as long is used as it is. -/
theorem parsWithNames_no_drop (ps : List Info) (names : List Str) (errs : List Bool) (hne : errs ≠ []) (r : Renames)
    (res : List (Option Info)) (h : parsWithNames ps names errs r = .ok res) :
    res = names.flatMap (expandName ps r) := by
  unfold parsWithNames at h
  simp only at h
  have hlen : ∀ es : List Bool, names.length ≤ es.length →
      (names.zip es).flatMap (fun e => expandName ps r e.1) = names.flatMap (expandName ps r) := by
    intro es hes
    clear h
    induction names generalizing es with
    | nil => simp
    | cons n l ih =>
      cases es with
      | nil => simp at hes
      | cons e es =>
        simp at hes
        simp [ih es hes]
  generalize hes : (if errs.length < names.length then (List.replicate names.length errs).flatten else errs) = es at h
  have hl : names.length ≤ es.length := by
    rw [← hes]
    split
    · rw [List.length_flatten, List.map_replicate, List.sum_replicate_nat]
      have : 1 ≤ errs.length := by
        cases errs with
        | nil => exact absurd rfl hne
        | cons => simp
      exact Nat.le_mul_of_pos_right _ this
    · omega
  have := parsLoop_spec ps r (names.zip es)
  rw [h] at this
  rw [this.1, hlen es hl]

example : let ps : List Info := [{ name := c!"omegabh2" }, { name := c!"omegam" }, { name := c!"H0" }]
    parsWithNames ps [c!"omega*", c!"H0", c!"*m", c!"zz"] [false] [] =
      .ok [some { name := c!"omegabh2" }, some { name := c!"omegam" }, some { name := c!"H0" },
        some { name := c!"omegam" }, none] ∧
    parsWithNames ps [c!"zz", c!"H?"] [true] [] = .error (.notFound c!"zz") := by decide +kernel

/-! ## C54 sublists of parameters -/

theorem deleteFrom_spec (idx : List Nat) (ps : List Info) (i : Nat) :
    deleteFrom i idx ps = ((ps.zipIdx i).filter (fun e => !idx.contains e.2)).map (·.1) := by
  induction ps generalizing i with
  | nil => rfl
  | cons p ps ih =>
    simp only [deleteFrom, List.zipIdx_cons, List.filter_cons]
    by_cases h : idx.contains i = true
    · simp only [h, if_true, Bool.not_true, Bool.false_eq_true, if_false]; exact ih (i + 1)
    · simp only [h, if_false, Bool.not_false, if_true, List.map_cons, Bool.false_eq_true]; rw [ih (i + 1)]

theorem zipIdx_range (ps : List Info) : ps.zipIdx = (List.range ps.length).map (fun i => ((ps[i]?).getD {}, i)) := by
  apply List.ext_getElem
  · simp
  · intro i h1 h2
    simp at h1 h2
    simp [h1]

/-- **C54a** Deleting indices keeps exactly the parameters at the other positions, in order, once each: the survivors
are listed by strictly increasing positions, and a position survives iff it was not listed. -/
theorem deleteIndices_spec (ps : List Info) (idx : List Nat) :
    ∃ keep : List Nat, keep.Pairwise (· < ·) ∧ (∀ i, i ∈ keep ↔ i < ps.length ∧ i ∉ idx) ∧
      (deleteIndices ps idx).map some = keep.map (fun i => ps[i]?) := by
  refine ⟨(List.range ps.length).filter (fun i => !idx.contains i), ?_, ?_, ?_⟩
  · exact List.Pairwise.filter _ List.pairwise_lt_range
  · intro i; simp
  · unfold deleteIndices
    rw [deleteFrom_spec, zipIdx_range]
    rw [List.filter_map, List.map_map, List.map_map]
    apply List.map_congr_left
    intro i hi
    have : i < ps.length := by
      have := (List.mem_filter.mp hi).1
      simpa using this
    simp [Function.comp, this]

/-- **C54b** A filtered copy keeps, in order, exactly the parameters known to the other list. -/
theorem filteredCopy_spec (ps params : List Info) :
    (filteredCopy ps params).Sublist ps ∧
    ∀ p, p ∈ filteredCopy ps params ↔ p ∈ ps ∧ ∃ q ∈ params, p.name = q.name ∨ p.name ∈ q.renames := by
  refine ⟨List.filter_sublist, fun p => ?_⟩
  unfold filteredCopy
  rw [List.mem_filter]
  refine and_congr_right fun _ => ?_
  rw [← Option.ne_none_iff_isSome, Ne, (parWithName_none params p.name []).1]
  constructor
  · intro h
    by_contra hc
    apply h
    intro q hq ⟨n, h1, h2⟩
    apply hc
    refine ⟨q, hq, ?_⟩
    unfold Means KnownAs at *
    simp only [Dict.get?_nil] at h1 h2
    rcases h1 with rfl | ⟨_, h1, _⟩
    · rcases h2 with h2 | h2 | ⟨_, h2, _⟩
      · exact Or.inl h2
      · exact Or.inr h2
      · simp at h2
    · simp at h1
  · rintro ⟨q, hq, h⟩ hall
    apply hall q hq
    refine ⟨p.name, Or.inl rfl, ?_⟩
    unfold KnownAs
    rcases h with h | h
    · exact Or.inl h
    · exact Or.inr (Or.inl h)

example : deleteIndices [{ name := c!"a" }, { name := c!"b" }, { name := c!"c" }] [1, 7] =
    [{ name := c!"a" }, { name := c!"c" }] := by decide

end Verif.ParamNames
