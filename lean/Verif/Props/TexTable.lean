import Verif.Model.TexTable
import Verif.Props.Table
import Verif.Props.NumFmt
import Verif.Props.Combine
import Verif.Lemmas.Str

/-!
# LaTeX of limits and whole tables
-/

namespace Verif.TexTable
set_option linter.unusedSimpArgs false
set_option linter.unusedSectionVars false
open Verif.Py Verif.MargeStats Verif.Table

/-! ## Cells -/

/-- the text of a number -/
def Clean (s : Str) : Prop := s ≠ [] ∧ ∀ c ∈ s, c.isDigit = true ∨ c = '+' ∨ c = '-' ∨ c = '.'

/-- numbers are printed with digits, signs and points -/
structure Fmt.OK {K : Type} (F : Fmt K) : Prop where
  sig : ∀ v p m a b, F.sig v p m = .ok (a, b) → Clean a ∧ Clean b
  sigSci : ∀ v p m w a b c e, F.sigSci v p m w = .ok (a, b, c, e) → Clean a ∧ Clean b ∧ Clean c
  num : ∀ x, Clean (F.num x).1
  fix1 : ∀ x, Clean (F.fix1 x)
  plus1 : ∀ x, Clean (F.plus1 x)

theorem Clean.not_mem {s : Str} (h : Clean s) {c : Char} (hd : c.isDigit = false) (h1 : c ≠ '+') (h2 : c ≠ '-') (h3 : c ≠ '.') : c ∉ s := by
  intro hc
  rcases h.2 c hc with h | h | h | h
  · rw [hd] at h; cases h
  · exact h1 h
  · exact h2 h
  · exact h3 h

/-- no two backslashes and none at the end -/
def safe : Str → Bool
  | [] => true
  | [c] => c != '\\'
  | c :: d :: r => !(c == '\\' && d == '\\') && safe (d :: r)

theorem safe_append : ∀ {a b : Str}, safe a = true → safe b = true → safe (a ++ b) = true
  | [], b, _, hb => hb
  | [c], [], ha, _ => by simpa using ha
  | [c], d :: b, ha, hb => by
    simp only [safe, bne_iff_ne] at ha
    simp only [List.cons_append, List.nil_append, safe, Bool.and_eq_true, Bool.not_eq_true', Bool.and_eq_false_iff, beq_eq_false_iff_ne]
    exact ⟨Or.inl ha, hb⟩
  | c :: d :: r, b, ha, hb => by
    simp only [safe, Bool.and_eq_true] at ha
    simp only [List.cons_append, safe, Bool.and_eq_true]
    exact ⟨ha.1, safe_append (a := d :: r) ha.2 hb⟩

theorem safe_plain : ∀ {s : Str}, '\\' ∉ s → safe s = true
  | [], _ => rfl
  | [c], h => by simp only [safe, bne_iff_ne]; rintro rfl; exact h (by simp)
  | c :: d :: r, h => by
    simp only [safe, Bool.and_eq_true, Bool.not_eq_true', Bool.and_eq_false_iff, beq_eq_false_iff_ne]
    exact ⟨Or.inl (by rintro rfl; exact h (by simp)), safe_plain (fun hh => h (by simp [hh]))⟩

theorem safe_contains : ∀ {s : Str}, safe s = true → contains c!"\\\\" s = false := by
  intro s hs
  cases hc : contains c!"\\\\" s with
  | false => rfl
  | true =>
    obtain ⟨a, b, rfl⟩ := contains_iff.mp hc
    exfalso
    induction a with
    | nil => simp [safe] at hs
    | cons c a ih =>
      refine ih ?_ (contains_iff.mpr ⟨a, b, rfl⟩)
      cases a with
      | nil =>
        simp [safe] at hs
      | cons d a =>
        simp only [List.cons_append, safe, Bool.and_eq_true] at hs ⊢
        exact hs.2

/-- a text that stays in its cell: no end of the row, no separator -/
def Cell (s : Str) : Prop := safe s = true ∧ '&' ∉ s

theorem Cell.append {a b : Str} (ha : Cell a) (hb : Cell b) : Cell (a ++ b) := ⟨safe_append ha.1 hb.1, by
  rw [List.mem_append]; exact fun h => h.elim ha.2 hb.2⟩

theorem Clean.cell {s : Str} (h : Clean s) : Cell s :=
  ⟨safe_plain (h.not_mem (by decide) (by decide) (by decide) (by decide)), h.not_mem (by decide) (by decide) (by decide) (by decide)⟩

theorem showInt_clean (e : Int) : Clean (showInt e) := by
  unfold showInt
  split
  · refine ⟨by simp, fun c hc => ?_⟩
    rcases List.mem_cons.mp hc with rfl | hc
    · simp
    · exact Or.inl (strNat_isDigit hc)
  · exact ⟨strNat_ne_nil _, fun c hc => Or.inl (strNat_isDigit hc)⟩

theorem timesTen_cell (e : Int) : Cell (timesTen e) :=
  (Cell.append (⟨by decide, by decide⟩ : Cell c!"\\cdot 10^{") (showInt_clean e).cell).append (⟨by decide, by decide⟩ : Cell ['}'])

theorem withPower_cell {s : Str} (h : Cell s) (e : Int) : Cell (withPower s e) := by
  unfold withPower
  split
  · exact h.append (timesTen_cell e)
  · exact h

section cells
variable {K : Type} [Field K] [LinearOrder K]

theorem bracket_cell {s : Str} (h : Cell s) (e : Int) : Cell (bracket s e) := by
  unfold bracket
  split
  · exact ((Cell.append (a := c!"\\left(\\,") ⟨by decide, by decide⟩ h).append (b := c!"\\,\\right)") ⟨by decide, by decide⟩).append (timesTen_cell e)
  · exact h

theorem limTex_cell {F : Fmt K} (hF : F.OK) {p : Par K} {lim : Lim K} {limit : Nat} {s : Str} (h : limTex F p lim limit = .ok s) : Cell s := by
  have hpm : Cell c!"\\pm " := ⟨by decide, by decide⟩
  unfold limTex at h
  split at h
  · unfold chi2Tex at h
    split at h
    · cases h
    · rename_i res sigma hs
      obtain ⟨h1, h2⟩ := hF.sig _ _ _ _ _ hs
      cases h
      split
      · exact (h1.cell.append hpm).append h2.cell
      · exact ((h1.cell.append (b := c!"\\,({\\nu\\rm{:}\\,") ⟨by decide, by decide⟩).append (hF.fix1 _).cell).append (b := c!"})") ⟨by decide, by decide⟩
  split at h
  · unfold twoTex at h
    split at h
    · cases h
    · split at h
      · cases h
      · rename_i a b c e hs
        obtain ⟨h1, h2, _⟩ := hF.sigSci _ _ _ _ _ _ _ _ hs
        cases h
        exact bracket_cell ((h1.cell.append hpm).append h2.cell) _
    · split at h
      · cases h
      · rename_i a b c e hs
        obtain ⟨h1, h2, h3⟩ := hF.sigSci _ _ _ _ _ _ _ _ hs
        cases h
        exact bracket_cell ((((h1.cell.append (b := c!"^{") ⟨by decide, by decide⟩).append h2.cell).append (b := c!"}_{") ⟨by decide, by decide⟩).append h3.cell |>.append
          (b := c!"}") ⟨by decide, by decide⟩) _
  split at h
  · cases h
    exact withPower_cell (Cell.append (a := c!"< ") ⟨by decide, by decide⟩ (hF.num _).cell) _
  split at h
  · cases h
    exact withPower_cell (Cell.append (a := c!"> ") ⟨by decide, by decide⟩ (hF.num _).cell) _
  · cases h
    exact ⟨by decide, by decide⟩

theorem shiftTex_cell {F : Fmt K} (hF : F.OK) {sh : Shift} (hs : sh.subset = true ∨ sh.indep = true) (p ref : Par K) : Cell (shiftTex F sh p ref) := by
  unfold shiftTex
  rw [if_pos (by rcases hs with h | h <;> simp [h])]
  refine ((Cell.append (a := c!"\\quad(") ⟨by decide, by decide⟩ ?_).append ?_).append (b := c!")") ⟨by decide, by decide⟩
  · split
    · exact (hF.plus1 _).cell.append (b := c!" \\sigma_s") ⟨by decide, by decide⟩
    · exact ⟨rfl, by simp⟩
  · split
    · exact (Cell.append (a := c!", ") ⟨by decide, by decide⟩ (hF.plus1 _).cell).append (b := c!" \\sigma_i") ⟨by decide, by decide⟩
    · exact ⟨rfl, by simp⟩

/-- **Texts of cells stay in their cells**: no separator and no end of the row, whatever the limits, if shifts are not shown or shown for subsets or independent data. -/
theorem texValues_cell_partial {F : Fmt K} (hF : F.OK) {m : Marge K} {best : Option (Str → K)} {ref : Option (List (Par K))} {sh : Shift} {name : Str} {limit : Nat} {l : List Str}
    (h : texValues F m best ref sh name limit = .ok (some l)) (hs : ref = none ∨ sh.subset = true ∨ sh.indep = true) :
    l.length = (if best.isSome = true then 2 else 1) ∧ ∀ s ∈ l, contains c!"\\\\" s = false ∧ '&' ∉ s := by
  have hadd : ∀ (p : Par K) (res : Str), Cell res → Cell (addShift F sh ref p res) := by
    intro p res hr
    unfold addShift
    split
    · exact hr
    · split
      · exact hr
      · rename_i r hr2
        rcases hs with h | h
        · subst h; simp at hr2
        · exact hr.append (shiftTex_cell hF h p r)
  unfold texValues at h
  split at h
  · cases h
  · split at h
    · cases h
    · split at h
      · cases h
      · rename_i p _ _ lim _ _ res hl
        have hc := limTex_cell hF hl
        split at h
        · cases h
          exact ⟨rfl, fun s hs => by
            rw [List.mem_singleton] at hs
            subst hs
            exact ⟨safe_contains (hadd p _ hc).1, (hadd p _ hc).2⟩⟩
        · split at h
          · cases h
          · rename_i a b c e hs2
            obtain ⟨h1, _, _⟩ := hF.sigSci _ _ _ _ _ _ _ _ hs2
            cases h
            refine ⟨rfl, fun s hs => ?_⟩
            simp only [List.mem_cons, List.not_mem_nil, or_false] at hs
            rcases hs with rfl | rfl
            · exact ⟨safe_contains (hadd p _ hc).1, (hadd p _ hc).2⟩
            · have := withPower_cell h1.cell e
              exact ⟨safe_contains this.1, this.2⟩

example : texValues (K := ℚ) ⟨fun _ _ _ => .ok (c!"1", c!"1"), fun _ _ _ _ => .ok (c!"1.5", c!"0.2", c!"0.3", 0), fun _ => (c!"2", -5), fun _ _ _ => .ok true, fun _ => c!"1.0", fun _ => c!"+1.0", id⟩
    ⟨[68 / 100], [⟨c!"h", c!"h", false, 1, 1, [mkLim 0 2 c!"two"]⟩]⟩ (some fun _ => 1) none ⟨false, false⟩ c!"h" 1 = .ok (some [c!"1.5^{0.2}_{0.3}", c!"1.5"]) := by decide +kernel

/-- the kind of limit that a reader sees -/
def shownTag (s : Str) : Str := if startsWith c!"< " s then c!">" else if startsWith c!"> " s then c!"<" else if s = c!"---" then c!"none" else c!"two"

theorem head_not {s t : Str} {c : Char} (hs : ∃ d r, s = d :: r ∧ d ≠ c) : startsWith (c :: t) s = false := by
  obtain ⟨d, r, rfl, hd⟩ := hs
  simp only [startsWith, List.isPrefixOf, Bool.and_eq_false_iff, beq_eq_false_iff_ne]
  exact Or.inl (Ne.symm hd)

theorem two_tag {s : Str} (h1 : ∃ d r, s = d :: r ∧ d ≠ '<' ∧ d ≠ '>') (h2 : '\\' ∈ s ∨ '^' ∈ s) : shownTag s = c!"two" := by
  obtain ⟨d, r, he, h3, h4⟩ := h1
  unfold shownTag
  rw [show (c!"< " : Str) = '<' :: c!" " from rfl, show (c!"> " : Str) = '>' :: c!" " from rfl, head_not ⟨d, r, he, h3⟩, head_not ⟨d, r, he, h4⟩]
  simp only [Bool.false_eq_true, if_false]
  rw [if_neg]
  rintro rfl
  rcases h2 with h | h <;> revert h <;> decide

theorem bracket_tag {s : Str} {e : Int} (h1 : ∃ d r, s = d :: r ∧ d ≠ '<' ∧ d ≠ '>') (h2 : '\\' ∈ s ∨ '^' ∈ s) : shownTag (bracket s e) = c!"two" := by
  unfold bracket
  split
  · exact two_tag ⟨'\\', _, rfl, by decide, by decide⟩ (Or.inl (by simp))
  · exact two_tag h1 h2

theorem Clean.head {s : Str} (h : Clean s) (t : Str) : ∃ d r, s ++ t = d :: r ∧ d ≠ '<' ∧ d ≠ '>' := by
  obtain ⟨h0, h1⟩ := h
  cases s with
  | nil => exact absurd rfl h0
  | cons d r =>
    refine ⟨d, r ++ t, rfl, ?_, ?_⟩ <;>
    · rintro rfl
      have := h1 _ List.mem_cons_self
      revert this
      decide

/-- **The kind of a limit is seen from its text**: `<` for upper limits, `>` for lower limits, `---` for none. -/
theorem limTex_tag {F : Fmt K} (hF : F.OK) {p : Par K} (hp : startsWith c!"chi2" p.name = false) {lim : Lim K} {limit : Nat} {s : Str} (h : limTex F p lim limit = .ok s) :
    shownTag s = lim.tag := by
  unfold limTex at h
  rw [hp] at h
  simp only [Bool.false_eq_true, if_false] at h
  unfold Lim.tag
  split at h
  · rename_i h2
    rw [if_pos h2]
    unfold twoTex at h
    split at h
    · cases h
    · split at h
      · cases h
      · rename_i a b c e hs
        obtain ⟨h1, h2, _⟩ := hF.sigSci _ _ _ _ _ _ _ _ hs
        cases h
        refine bracket_tag ?_ (Or.inl (by simp))
        rw [List.append_assoc]
        exact h1.head _
    · split at h
      · cases h
      · rename_i a b c e hs
        obtain ⟨h1, _⟩ := hF.sigSci _ _ _ _ _ _ _ _ hs
        cases h
        refine bracket_tag ?_ (Or.inr (by simp))
        simp only [List.append_assoc]
        exact h1.head _
  rename_i h2
  rw [if_neg h2]
  split at h
  · rename_i h3
    rw [if_pos h3]
    cases h
    unfold shownTag
    rw [if_pos]
    unfold withPower
    split <;> simp [startsWith, List.isPrefixOf]
  rename_i h3
  rw [if_neg h3]
  split at h
  · rename_i h4
    rw [if_pos h4]
    cases h
    unfold shownTag
    rw [if_neg, if_pos]
    · unfold withPower
      split <;> simp [startsWith, List.isPrefixOf]
    · unfold withPower
      split <;> simp [startsWith, List.isPrefixOf]
  rename_i h4
  rw [if_neg h4]
  cases h
  decide

example : limTex (K := ℚ) ⟨fun _ _ _ => .ok (c!"1", c!"1"), fun _ _ _ _ => .ok (c!"1.5", c!"0.2", c!"0.3", 0), fun _ => (c!"2", -5), fun _ _ _ => .ok true, fun _ => c!"1.0", fun _ => c!"+1.0", id⟩
    ⟨c!"h", c!"h", false, 1, 1, []⟩ (mkLim 0 2 c!"<") 1 = .ok c!"> 2\\cdot 10^{-5}" := by decide +kernel

/-! ## Snippets -/

variable [FloorRing K]

/-- **Snippets of parameters**: one entry for each, nothing for parameters that are not there. -/
theorem getLatex_spec (F : Fmt K) (m : Marge K) (label : Par K → Str) (limit : Nat) : ∀ (ns : List Str) (r : List (Option (Str × Str))), getLatex F m label limit ns = .ok r →
    r.length = ns.length ∧ ∀ (i : Nat) (n : Str), ns[i]? = some n → ∃ x, r[i]? = some x ∧ (x = none ↔ find? m.names n = none) ∧
      ∀ l t, x = some (l, t) → ∃ p, find? m.names n = some p ∧ l = label p ∧ ∃ lim, limitAt p.limits limit = some lim ∧ limTex F p lim limit = .ok t
  | [], r, h => by cases h; exact ⟨rfl, by simp⟩
  | n :: ns, r, h => by
    unfold getLatex at h
    cases hx : latexOf F m label limit n with
    | error e => rw [hx] at h; cases h
    | ok x =>
      rw [hx] at h
      simp only at h
      cases hxs : getLatex F m label limit ns with
      | error e => rw [hxs] at h; cases h
      | ok xs =>
        rw [hxs] at h
        cases h
        obtain ⟨h1, h2⟩ := getLatex_spec F m label limit ns xs hxs
        refine ⟨by simp [h1], fun i n' hi => ?_⟩
        cases i with
        | succ i => simp only [List.getElem?_cons_succ] at hi ⊢; exact h2 i n' hi
        | zero =>
          simp only [List.getElem?_cons_zero, Option.some.injEq] at hi
          subst hi
          refine ⟨x, rfl, ?_⟩
          unfold latexOf texValues at hx
          cases hp : find? m.names n with
          | none =>
            rw [hp] at hx
            simp only at hx
            cases hx
            simp
          | some p =>
            rw [hp] at hx
            simp only at hx
            cases hl : limitAt p.limits limit with
            | none => rw [hl] at hx; cases hx
            | some lim =>
              rw [hl] at hx
              simp only at hx
              cases ht : limTex F p lim limit with
              | error e => rw [ht] at hx; cases hx
              | ok t =>
                rw [ht] at hx
                simp only at hx
                cases hx
                refine ⟨by simp, fun l t' he => ?_⟩
                simp only [Option.some.injEq, Prod.mk.injEq] at he
                obtain ⟨rfl, rfl⟩ := he
                refine ⟨p, rfl, rfl, lim, hl, ?_⟩
                rw [ht]
                unfold addShift
                simp

example : getLatex (K := ℚ) ⟨fun _ _ _ => .ok (c!"1", c!"1"), fun _ _ _ _ => .ok (c!"1.5", c!"0.2", c!"0.3", 0), fun _ => (c!"2", -5), fun _ _ _ => .ok false, fun _ => c!"1.0", fun _ => c!"+1.0", id⟩
    ⟨[68 / 100], [⟨c!"h", c!"H_0", false, 1, 1, [mkLim 0 2 c!"two"]⟩]⟩ (·.label) 1 [c!"h", c!"x"] = .ok [some (c!"H_0", c!"1.5\\pm 0.2"), none] := by decide +kernel

/-- **Inline snippets** have an equals sign exactly when the limit is not one sided; parameters that are not there are refused. -/
theorem inlineLatex_spec {F : Fmt K} (hF : F.OK) (m : Marge K) (label : Par K → Str) (limit : Nat) (n : Str) :
    (find? m.names n = none → inlineLatex F m label limit n = .error .value) ∧
    ∀ p lim t, find? m.names n = some p → limitAt p.limits limit = some lim → limTex F p lim limit = .ok t → startsWith c!"chi2" p.name = false →
      inlineLatex F m label limit n = .ok (label p ++ (if lim.tag = c!">" ∨ lim.tag = c!"<" then c!" " else c!" = ") ++ t) := by
  constructor
  · intro h
    simp only [inlineLatex, getLatex, latexOf, texValues, h]
  · intro p lim t hp hl ht hc
    have e : getLatex F m label limit [n] = .ok [some (label p, t)] := by
      have ha : addShift F ⟨false, false⟩ none p t = t := by unfold addShift; simp
      simp only [getLatex, latexOf, texValues, hp, hl, ht, ha]
    have htag := limTex_tag hF hc ht
    unfold inlineLatex
    rw [e]
    simp only
    have hiff : (t.head? = some '<' ∨ t.head? = some '>') ↔ (lim.tag = c!">" ∨ lim.tag = c!"<") := by
      rw [← htag]
      constructor
      · intro h
        -- the text starts with a sign only for one sided limits
        unfold limTex at ht
        rw [hc] at ht
        simp only [Bool.false_eq_true, if_false] at ht
        unfold Lim.tag at htag
        rw [htag]
        split at ht
        · exfalso
          have h2 : shownTag t = c!"two" := by rw [htag]; rename_i h2; rw [if_pos h2]
          unfold twoTex at ht
          have aux : ∀ s e, (∃ d r, s = d :: r ∧ d ≠ '<' ∧ d ≠ '>') → ¬ ((bracket s e).head? = some '<' ∨ (bracket s e).head? = some '>') := by
            rintro s e ⟨d, r, rfl, h3, h4⟩
            unfold bracket
            split
            · simp
            · simp [h3, h4]
          split at ht
          · cases ht
          · split at ht
            · cases ht
            · rename_i a b c e hs
              obtain ⟨h1, _⟩ := hF.sigSci _ _ _ _ _ _ _ _ hs
              cases ht
              refine aux _ _ ?_ h
              rw [List.append_assoc]; exact h1.head _
          · split at ht
            · cases ht
            · rename_i a b c e hs
              obtain ⟨h1, _⟩ := hF.sigSci _ _ _ _ _ _ _ _ hs
              cases ht
              refine aux _ _ ?_ h
              simp only [List.append_assoc]; exact h1.head _
        rename_i h2
        rw [if_neg h2]
        split at ht
        · rename_i h3; rw [if_pos h3]; exact Or.inl rfl
        rename_i h3
        rw [if_neg h3]
        split at ht
        · rename_i h4; rw [if_pos h4]; exact Or.inr rfl
        · cases ht
          exfalso
          revert h
          decide
      · intro h
        unfold shownTag at h
        have hst : ∀ c : Char, startsWith (c :: c!" ") t = true → t.head? = some c := by
          intro c hs
          cases t with
          | nil => simp [startsWith, List.isPrefixOf] at hs
          | cons d r =>
            simp only [startsWith, List.isPrefixOf, Bool.and_eq_true, beq_iff_eq] at hs
            simp [hs.1]
        split at h
        · rename_i h1; exact Or.inl (hst '<' h1)
        split at h
        · rename_i h1; exact Or.inr (hst '>' h1)
        split at h
        · exfalso; revert h; decide
        · exfalso; revert h; decide
    by_cases hh : t.head? = some '<' ∨ t.head? = some '>'
    · rw [if_pos hh, if_pos (hiff.mp hh)]
    · rw [if_neg hh, if_neg (fun h => hh (hiff.mpr h))]

/-- **Labels of columns** tell the limit, if it is a whole number of percent. -/
theorem limitText_partial [IsStrictOrderedRing K] (m : Marge K) (limit n : Nat) (l : K) (h : limitAt m.limits limit = some l) (hl : l * 100 = n) :
    limitText m limit = .ok (strNat n) := by
  unfold limitText
  rw [h]
  simp only
  rw [hl, show ((n : K)) = ((n : Int) : K) by simp, roundEven_int]
  simp [showInt]

end cells

/-! ### the printed values -/

theorem clean_sign {s : Str} (h : Clean s) (b : Bool) : Clean ((if b = true then ['-'] else []) ++ s) := by
  cases b
  · simpa using h
  · refine ⟨by simp, fun c hc => ?_⟩
    simp only [if_true, List.cons_append, List.nil_append, List.mem_cons] at hc
    rcases hc with rfl | hc
    · simp
    · exact h.2 c hc

theorem clean_digits {s : Str} (h0 : s ≠ []) (h : ∀ c ∈ s, c.isDigit = true) : Clean s := ⟨h0, fun c hc => Or.inl (h c hc)⟩

theorem place_clean (shift : Int) {sf : Nat} {r : Str} (h0 : r ≠ []) (h : ∀ c ∈ r, c.isDigit = true) : Clean (NumFmt.place shift sf r) := by
  unfold NumFmt.place
  have hz : ∀ n, ∀ c ∈ List.replicate n '0', c.isDigit = true := NumFmt.zeros_digit
  split
  · refine clean_digits (by simp [h0]) fun c hc => ?_
    rcases List.mem_append.mp hc with hc | hc
    · exact h c hc
    · exact hz _ c hc
  split
  · refine ⟨by simp, fun c hc => ?_⟩
    rcases List.mem_append.mp hc with hc | hc
    · exact Or.inl (h c (List.mem_of_mem_take hc))
    · rcases List.mem_cons.mp hc with rfl | hc
      · simp
      · exact Or.inl (h c (List.mem_of_mem_drop hc))
  · refine ⟨by simp, fun c hc => ?_⟩
    simp only [List.mem_cons, List.mem_append] at hc
    rcases hc with rfl | rfl | hc | hc
    · exact Or.inl (by decide)
    · simp
    · exact Or.inl (hz _ c hc)
    · exact Or.inl (h c hc)

theorem numberFigs_clean (d : NumFmt.Dec) {sf : Nat} (hs : 0 < sf) : Clean (NumFmt.numberFigs d sf) := by
  unfold NumFmt.numberFigs
  refine clean_sign (place_clean _ ?_ fun c hc => strNat_isDigit (List.mem_of_mem_take hc)) _
  intro he
  have := congrArg List.length he
  have hp := List.length_pos_of_ne_nil (strNat_ne_nil (NumFmt.roundDigits d.digits sf))
  rw [List.length_take, List.length_nil] at this
  omega

theorem formatNumber_clean (d : NumFmt.Dec) {sf : Nat} (hs : 0 < sf) (w : Bool) : Clean (NumFmt.formatNumber d sf w) := by
  have h := numberFigs_clean d hs
  have aux : ∀ (c : Char) (s : Str), (c = '+' ∨ c = '-') → Clean s → Clean (c :: s) := by
    intro c s hc hs
    refine ⟨by simp, fun x hx => ?_⟩
    rcases List.mem_cons.mp hx with rfl | hx
    · rcases hc with h | h <;> simp [h]
    · exact hs.2 x hx
  unfold NumFmt.formatNumber
  split
  · unfold NumFmt.signed
    dsimp only
    have h1 := aux '-' _ (Or.inr rfl) h
    split <;> split
    · exact aux _ _ (Or.inl rfl) h1
    · exact h1
    · exact aux _ _ (Or.inl rfl) h
    · exact h
  · exact h

theorem fmtF_clean (dp : Nat) (x : ℚ) : Clean (NumFmt.fmtF dp x) := by
  unfold NumFmt.fmtF
  have hfp : ∀ n, Clean (NumFmt.fixedPoint n dp) := by
    intro n
    have hd : ∀ c ∈ List.replicate (dp + 1 - (strNat n).length) '0' ++ strNat n, c.isDigit = true := by
      intro c hc
      rcases List.mem_append.mp hc with hc | hc
      · exact NumFmt.zeros_digit _ c hc
      · exact strNat_isDigit hc
    have hne : List.replicate (dp + 1 - (strNat n).length) '0' ++ strNat n ≠ [] := by simp [strNat_ne_nil]
    unfold NumFmt.fixedPoint
    dsimp only
    split
    · exact clean_digits hne hd
    · refine ⟨by simp, fun c hc => ?_⟩
      rcases List.mem_append.mp hc with hc | hc
      · exact Or.inl (hd c (List.mem_of_mem_take hc))
      · rcases List.mem_cons.mp hc with rfl | hc
        · simp
        · exact Or.inl (hd c (List.mem_of_mem_drop hc))
  by_cases h : x < 0
  · rw [if_pos h]; exact clean_sign (hfp _) true
  · rw [if_neg h]; exact clean_sign (hfp _) false

theorem down_clean (d : NumFmt.Dec) (maxdp : Nat) : ∀ (sf : Nat) (s : Str), Clean s → Clean (NumFmt.down d maxdp sf s).2
  | 0, s, h => h
  | sf + 1, s, h => by
    unfold NumFmt.down
    split
    · split
      · dsimp only
        split <;> exact fmtF_clean _ _
      · rename_i h0
        exact down_clean d maxdp sf _ (numberFigs_clean d (by omega))
    · exact h

theorem up_clean (d : NumFmt.Dec) (pd : Nat) : ∀ (f sf : Nat) (s r : Str), Clean s → NumFmt.up d pd f sf s = some r → Clean r
  | 0, _, _, _, _, h => by cases h
  | f + 1, sf, s, r, hs, h => by
    unfold NumFmt.up at h
    split at h
    · exact up_clean d pd f (sf + 1) _ r (numberFigs_clean d (by omega)) h
    · cases h; exact hs

theorem layout_clean {v p m : NumFmt.Dec} {sf err : Nat} (hs : 0 < sf) (he : 0 < err) {w : Bool} {a b c : Str} (h : NumFmt.layout v p m sf err w = .ok (a, b, c)) :
    Clean a ∧ Clean b ∧ Clean c := by
  unfold NumFmt.layout at h
  dsimp only at h
  split at h
  · rename_i res hu
    cases h
    exact ⟨up_clean _ _ _ _ _ _ (down_clean _ _ _ _ (numberFigs_clean _ hs)) hu, formatNumber_clean _ he _, formatNumber_clean _ he _⟩
  · cases h

/-- **The numbers of the default formatter** are printed with digits, signs and points. -/
theorem numFmt_ok (dec : ℚ → NumFmt.Dec) (sqrt : ℚ → ℚ) (tol : ℚ) (fix plus : ℚ → Str) {sf err : Nat} (hs : 0 < sf) (he : 0 < err) (hf : ∀ x, Clean (fix x)) (hp : ∀ x, Clean (plus x)) :
    (numFmt dec sqrt tol fix plus sf err).OK := by
  have hsf : ∀ v frac, 0 < NumFmt.sfOf sf v frac := by intro v frac; unfold NumFmt.sfOf; split <;> [norm_num; (split <;> omega)]
  have her : ∀ v frac lp, 0 < NumFmt.errSf err v frac lp := by intro v frac lp; unfold NumFmt.errSf; split <;> omega
  refine ⟨?_, ?_, fun x => numberFigs_clean _ (by norm_num), hf, hp⟩
  · intro v p m a b h
    simp only [numFmt] at h
    split at h
    · rename_i a' b' c' hn
      cases h
      unfold NumFmt.namesigFigs at hn
      split at hn
      · cases hn
      · have := layout_clean (hsf _ _) (her _ _ _) hn
        exact ⟨this.1, this.2.1⟩
    · cases h
  · intro v p m w a b c e h
    simp only [numFmt] at h
    split at h
    · rename_i a' b' c' e' hn
      cases h
      unfold NumFmt.namesigFigsSci at hn
      split at hn
      · cases hn
      · dsimp only at hn
        split at hn
        · rename_i r hl
          cases hn
          exact layout_clean (hsf _ _) (her _ _ _) hl
        · cases hn
    · cases h

example : (numFmt (fun _ => ⟨false, [1, 2], -1⟩) id 0 (fun _ => c!"1.0") (fun _ => c!"+1.0") 4 2).OK :=
  numFmt_ok _ _ _ _ _ (by decide) (by decide) (fun _ => ⟨by decide, by decide⟩) (fun _ => ⟨by decide, by decide⟩)

/-- the text of a limit and its power of ten -/
theorem limit_value (dec : ℚ → NumFmt.Dec) (sqrt : ℚ → ℚ) (tol : ℚ) (fix plus : ℚ → Str) (sf err : Nat) (p : Par ℚ) (hp : startsWith c!"chi2" p.name = false) (lim : Lim ℚ) (limit : Nat)
    (h2 : lim.twotail = false) (hu : lim.onetailUpper = true) (hd : (dec lim.upper).Ok) (hv : (dec lim.upper).val = lim.upper) :
    ∃ (s : Str) (v : ℚ) (e : Int), limTex (numFmt dec sqrt tol fix plus sf err) p lim limit = .ok (c!"< " ++ s ++ (if e ≠ 0 then timesTen e else [])) ∧ floatStr s = some v ∧
      |v * 10 ^ e - lim.upper| ≤ |lim.upper| / 200 := by
  obtain ⟨v, h1, h3, _⟩ := NumFmt.numberFigsSci_error hd (sf := 3) (by norm_num)
  refine ⟨_, v, (NumFmt.numberFigsSci (dec lim.upper) 3).2, ?_, h1, ?_⟩
  · unfold limTex
    rw [hp, h2, hu]
    simp only [Bool.false_eq_true, if_false, if_true]
    unfold withPower
    show Except.ok _ = _
    congr 1
    show (if (NumFmt.numberFigsSci (dec lim.upper) 3).2 ≠ 0 then _ else _) = _
    split
    · rfl
    · simp [numFmt]
  · rw [hv] at h3
    refine le_trans h3 ?_
    have hab : |lim.upper| = (NumFmt.dval (dec lim.upper).digits : ℚ) * 10 ^ (dec lim.upper).exp := by
      conv_lhs => rw [← hv]
      exact NumFmt.val_abs _
    rw [hab]
    have hlead := NumFmt.dval_lead hd.ne hd.lead
    have h10 : ((10 : ℚ)) ^ ((dec lim.upper).digits.length - 1) ≤ (NumFmt.dval (dec lim.upper).digits : ℚ) := by exact_mod_cast hlead
    have hpos : 0 < (dec lim.upper).digits.length := List.length_pos_of_ne_nil hd.ne
    have hadj : (dec lim.upper).adjusted - ((3 : Nat) : Int) + 1 = (((dec lim.upper).digits.length - 1 : Nat) : Int) + ((dec lim.upper).exp - 2) := by
      unfold NumFmt.Dec.adjusted; push_cast; omega
    rw [hadj, zpow_add₀ (by norm_num), zpow_sub₀ (by norm_num), zpow_natCast]
    have he : (0 : ℚ) < 10 ^ (dec lim.upper).exp := by positivity
    have := mul_le_mul_of_nonneg_right h10 he.le
    norm_num at this ⊢
    linarith

example : limTex (numFmt (fun _ => ⟨false, [1, 2, 3, 4, 5], -3⟩) id 0 (fun _ => []) (fun _ => []) 4 2) ⟨c!"h", c!"h", false, 1, 1, []⟩ (mkLim 0 (12345 / 1000) c!">") 1 = .ok c!"< 12.3" := by decide +kernel

/-! ### examples and refutations -/

/-- numbers printed as `1` -/
def oneFmt : Fmt ℚ where
  sig _ _ _ := .ok (c!"1", c!"1")
  sigSci _ _ _ _ := .ok (c!"1", c!"1", c!"1", 0)
  num _ := (c!"1", -5)
  plusMinus _ _ _ := .ok false
  fix1 _ := c!"1.0"
  plus1 _ := c!"+1.0"
  sqrt x := x

theorem oneFmt_ok : oneFmt.OK := by
  have h : Clean c!"1" := ⟨by decide, by intro c hc; simp at hc; subst hc; decide⟩
  refine ⟨?_, ?_, fun _ => h, fun _ => ⟨by simp [oneFmt], ?_⟩, fun _ => ⟨by simp [oneFmt], ?_⟩⟩
  · intro v p m a b he
    cases he
    exact ⟨h, h⟩
  · intro v p m w a b c e he
    cases he
    exact ⟨h, h, h⟩
  · intro c hc; simp [oneFmt] at hc; rcases hc with rfl | rfl | rfl <;> decide
  · intro c hc; simp [oneFmt] at hc; rcases hc with rfl | rfl | rfl | rfl <;> decide

/-- a parameter with an upper limit, and one with two limits -/
def exMarge : Marge ℚ := ⟨[68 / 100, 997 / 1000], [⟨c!"m", c!"m_\\nu", false, 1, 1, [mkLim 0 2 c!">"]⟩, ⟨c!"h", c!"h", false, 1, 1, [mkLim 0 2 c!"two"]⟩]⟩

example : inlineLatex oneFmt exMarge (·.label) 1 c!"m" = .ok c!"m_\\nu < 1\\cdot 10^{-5}" := by decide +kernel
example : inlineLatex oneFmt exMarge (·.label) 1 c!"h" = .ok c!"h = 1\\pm 1" := by decide +kernel
example : limitText exMarge 1 = .ok c!"68" := by decide +kernel

/-- the full statement: cells stay in their cells -/
def CellsStay : Prop := ∀ (F : Fmt ℚ) (m : Marge ℚ) (best : Option (Str → ℚ)) (ref : Option (List (Par ℚ))) (sh : Shift) (name : Str) (limit : Nat) (l : List Str), F.OK →
  texValues F m best ref sh name limit = .ok (some l) → ∀ s ∈ l, contains c!"\\\\" s = false

/-- With reference results and neither kind of shift chosen, the raw string of types.py:817 has two backslashes before `sigma`: LaTeX ends the row there. -/
theorem raw_sigma_fails : ¬ CellsStay := by
  intro h
  have := h oneFmt exMarge none (some exMarge.names) ⟨false, false⟩ c!"h" 1 [c!"1\\pm 1\\quad(+1.0 \\\\sigma)"] oneFmt_ok (by decide +kernel) _ List.mem_cons_self
  revert this
  decide

/-- the full statement: a shift starts with its number -/
def ShiftFirst : Prop := ∀ (F : Fmt ℚ) (sh : Shift) (p ref : Par ℚ), F.OK → startsWith c!"\\quad(," (shiftTex F sh p ref) = false

/-- For independent data only, the shift starts with a comma (types.py:814). -/
theorem comma_fails : ¬ ShiftFirst := by
  intro h
  have := h oneFmt ⟨false, true⟩ ⟨c!"h", c!"h", false, 1, 1, []⟩ ⟨c!"h", c!"h", false, 1, 1, []⟩ oneFmt_ok
  revert this
  decide +kernel

/-- the full statement: the label of a column tells the limit -/
def LabelTells : Prop := ∀ (m : Marge ℚ) (limit : Nat) (l : ℚ) (t : Str), limitAt m.limits limit = some l → limitText m limit = .ok t → l < 1 → t ≠ c!"100"

/-- Percentages are rounded to whole numbers (types.py:745): limits of 99.7% are called 100% limits. -/
theorem label_fails : ¬ LabelTells := by
  intro h
  exact h exMarge 2 (997 / 1000) c!"100" rfl (by decide +kernel) (by norm_num) rfl

/-- the full statement: the mirror image of a result has the same error printed -/
def MirrorSame : Prop := ∀ (d e : NumFmt.Dec) (a b c a' b' c' : Str), NumFmt.namesigFigs 4 2 d e e false = .ok (a, b, c) → NumFmt.namesigFigs 4 2 { d with neg := true } e e false = .ok (a', b', c') →
  b = b'

/-- The number of figures is chosen from the value with its sign (types.py:100-105): `25 ± 12.3` is printed as `25 ± 10`, its negative as `-25 ± 12`. -/
theorem mirror_fails : ¬ MirrorSame := by
  intro h
  have := h ⟨false, [2, 5], 0⟩ ⟨false, [1, 2, 3], -1⟩ c!"25" c!"10" c!"10" c!"-25" c!"12" c!"12" (by decide +kernel) (by decide +kernel)
  revert this
  decide

/-! ## Tables -/

/-- columns of a specification -/
def columns (s : Str) : Nat := s.count 'l' + s.count 'c'

theorem columns_append (a b : Str) : columns (a ++ b) = columns a + columns b := by
  unfold columns
  rw [List.count_append, List.count_append]; ring

theorem columns_times (s : Str) (n : Nat) : columns (times s n) = n * columns s := by
  unfold times
  induction n with
  | zero => simp [columns]
  | succ n ih => rw [List.replicate_succ, List.flatten_cons, columns_append, ih]; ring

/-- dividers are not columns -/
structure Style.Plain (st : Style) : Prop where
  border : columns st.border = 0
  major : columns st.major = 0
  minor : columns st.minor = 0
  colDiv : columns st.colDiv = 0

theorem styles_plain : plainStyle.Plain ∧ openStyle.Plain ∧ noLineStyle.Plain := by
  refine ⟨⟨?_, ?_, ?_, ?_⟩, ⟨?_, ?_, ?_, ?_⟩, ⟨?_, ?_, ?_, ?_⟩⟩ <;> decide

/-- **The table has a column** for the name and for each value, for each column of parameters. -/
theorem colSpec_spec {st : Style} (hst : st.Plain) {ncol cpr : Nat} (nres : Nat) (hn : 0 < ncol) (hc : 0 < cpr) : columns (colSpec st ncol cpr nres) = ncol * (1 + nres * cpr) := by
  have e1 : columns c!" l " = 1 := by decide
  have e2 : columns c!" c" = 1 := by decide
  unfold colSpec part
  simp only [columns_append, columns_times, hst.border, hst.major, hst.minor, hst.colDiv, e1, e2]
  obtain ⟨a, rfl⟩ : ∃ a, ncol = a + 1 := ⟨ncol - 1, by omega⟩
  obtain ⟨b, rfl⟩ : ∃ b, cpr = b + 1 := ⟨cpr - 1, by omega⟩
  simp only [Nat.add_sub_cancel]
  ring

example : startTable plainStyle 2 2 1 = c!"\\begin{tabular} {| l | c| c|| l | c| c|}" := by decide
example : columns (colSpec noLineStyle 2 1 3) = 8 := by decide

/-- the columns that a cell covers -/
def span (cell : Str) : Nat :=
  if startsWith c!"\\multicolumn{" (lstrip cell) then ((intStr (((lstrip cell).drop 13).takeWhile (·.isDigit))).getD 0) else 1

theorem lstrip_mc (pre X : Str) (hpre : pre = [] ∨ pre = [' ']) : lstrip (pre ++ (' ' :: (c!"\\multicolumn{" ++ X))) = c!"\\multicolumn{" ++ X := by
  rcases hpre with rfl | rfl <;> rfl

theorem span_title (st : Style) (n : Nat) (t pre post : Str) (hpre : pre = [] ∨ pre = [' ']) : span (pre ++ titleSub st n t ++ post) = n := by
  obtain ⟨R, hR⟩ : ∃ R, titleSub st n t = ' ' :: (c!"\\multicolumn{" ++ (strNat n ++ '}' :: R)) := by
    refine ⟨'{' :: ((if st.boxed then st.major ++ c!"c" ++ st.major else c!"c") ++ (c!"}{\\bf " ++ (texEscape t ++ c!"}"))), ?_⟩
    unfold titleSub
    simp only [List.append_assoc]
    rfl
  have h1 : lstrip (pre ++ titleSub st n t ++ post) = c!"\\multicolumn{" ++ (strNat n ++ '}' :: (R ++ post)) := by
    rw [hR]
    have e : pre ++ ' ' :: (c!"\\multicolumn{" ++ (strNat n ++ '}' :: R)) ++ post = pre ++ (' ' :: (c!"\\multicolumn{" ++ (strNat n ++ '}' :: (R ++ post)))) := by
      simp only [List.append_assoc, List.cons_append]
    rw [e, lstrip_mc _ _ hpre]
  unfold span
  rw [h1]
  have h2 : startsWith c!"\\multicolumn{" (c!"\\multicolumn{" ++ (strNat n ++ '}' :: (R ++ post))) = true := by
    unfold startsWith
    rw [List.isPrefixOf_iff_prefix]
    exact List.prefix_append _ _
  rw [if_pos h2, List.drop_left' (by decide)]
  rw [List.takeWhile_append_of_pos (fun c hc => strNat_isDigit hc)]
  have : List.takeWhile (·.isDigit) ('}' :: (R ++ post)) = [] := by
    rw [List.takeWhile_cons]; rfl
  rw [this, List.append_nil, intStr_strNat]
  rfl

theorem splitChar_append (ch : Char) (a b : Str) (h : ch ∉ a) : splitChar ch (a ++ ch :: b) = a :: splitChar ch b := by
  induction a with
  | nil => simp [splitChar]
  | cons c a ih =>
    have hc : (c == ch) = false := by simpa using fun e : c = ch => h (by simp [e])
    rw [List.cons_append, splitChar, hc, ih (fun hh => h (by simp [hh]))]
    rfl

theorem splitChar_none (ch : Char) (a : Str) (h : ch ∉ a) : splitChar ch a = [a] := by
  induction a with
  | nil => rfl
  | cons c a ih =>
    have hc : (c == ch) = false := by simpa using fun e : c = ch => h (by simp [e])
    rw [splitChar, hc, ih (fun hh => h (by simp [hh]))]
    rfl

theorem escape_amp {t : Str} (h : '&' ∉ t) : '&' ∉ texEscape t := by
  unfold texEscape replaceChar
  rw [List.mem_flatMap]
  rintro ⟨c, hc, hm⟩
  split at hm
  · revert hm; decide
  · rw [List.mem_singleton] at hm
    exact h (hm ▸ hc)

/-- dividers have no separators -/
def Style.NoAmp (st : Style) : Prop := '&' ∉ st.major

theorem titleSub_amp {st : Style} (hst : st.NoAmp) (n : Nat) {t : Str} (h : '&' ∉ t) : '&' ∉ titleSub st n t := by
  have h1 : '&' ∉ strNat n := fun hc => absurd (strNat_isDigit hc) (by decide)
  have h2 := escape_amp h
  unfold titleSub
  unfold Style.NoAmp at hst
  split <;> simp [h1, h2, hst]

/-- cells joined and split again -/
theorem cells_span (post : Str) (hp : '&' ∉ post) : ∀ (l : List (Style × Nat × Str)), l ≠ [] → (∀ x ∈ l, x.1.NoAmp ∧ '&' ∉ x.2.2) → ∀ (pre : Str), (pre = [] ∨ pre = [' ']) →
    ((splitChar '&' (pre ++ join colSep (l.map (fun x => titleSub x.1 x.2.1 x.2.2)) ++ post)).map span).sum = (l.map (fun x => x.2.1)).sum
  | [], h, _, _, _ => absurd rfl h
  | [x], _, h, pre, hpre => by
    obtain ⟨h1, h2⟩ := h x (by simp)
    have hpa : '&' ∉ pre := by rcases hpre with rfl | rfl <;> simp
    simp only [List.map_cons, List.map_nil, join]
    rw [splitChar_none '&' _ (by simp [hpa, hp, titleSub_amp h1 _ h2])]
    simp only [List.map_cons, List.map_nil, List.sum_cons, List.sum_nil, span_title _ _ _ _ _ hpre]
  | x :: y :: l, _, h, pre, hpre => by
    obtain ⟨h1, h2⟩ := h x (by simp)
    have hpa : '&' ∉ pre := by rcases hpre with rfl | rfl <;> simp
    have ih := cells_span post hp (y :: l) (by simp) (fun z hz => h z (by simp [hz])) [' '] (Or.inr rfl)
    simp only [List.map_cons] at ih ⊢
    rw [join_cons2]
    have e : pre ++ (titleSub x.1 x.2.1 x.2.2 ++ colSep ++ join colSep (titleSub y.1 y.2.1 y.2.2 :: l.map (fun x => titleSub x.1 x.2.1 x.2.2))) ++ post =
        (pre ++ titleSub x.1 x.2.1 x.2.2 ++ [' ']) ++ '&' :: ([' '] ++ join colSep (titleSub y.1 y.2.1 y.2.2 :: l.map (fun x => titleSub x.1 x.2.1 x.2.2)) ++ post) := by
      simp [colSep]
    rw [e, splitChar_append '&' _ _ (by simp [hpa, titleSub_amp h1 _ h2]), List.map_cons, List.sum_cons, ih, span_title _ _ _ _ _ hpre]
    simp only [List.sum_cons]

/-- **Titles cover all columns**: with a title for each result, the cells of the row of titles cover as many columns as the table has. -/
theorem titles_partial {st : Style} (hst : st.Plain) (hamp : st.NoAmp) {ncol cpr : Nat} (hn : 0 < ncol) (hc : 0 < cpr) (titles : List Str) (ht : ∀ t ∈ titles, '&' ∉ t) :
    ((splitChar '&' (titleRow st ncol cpr titles)).map span).sum = columns (colSpec st ncol cpr titles.length) := by
  rw [colSpec_spec hst _ hn hc]
  let l : List (Style × Nat × Str) := (List.replicate ncol ((st, 1, []) :: titles.map (fun t => (st, cpr, t)))).flatten
  have hl : (List.replicate ncol (titleSub st 1 [] :: titles.map (titleSub st cpr))).flatten = l.map (fun x => titleSub x.1 x.2.1 x.2.2) := by
    simp only [l, List.map_flatten, List.map_replicate, List.map_cons, List.map_map]
    rfl
  have hne : l ≠ [] := by
    obtain ⟨a, rfl⟩ : ∃ a, ncol = a + 1 := ⟨ncol - 1, by omega⟩
    simp [l, List.replicate_succ]
  have hmem : ∀ x ∈ l, x.1.NoAmp ∧ '&' ∉ x.2.2 := by
    intro x hx
    simp only [l, List.mem_flatten, List.mem_replicate] at hx
    obtain ⟨y, ⟨_, rfl⟩, hx⟩ := hx
    simp only [List.mem_cons, List.mem_map] at hx
    rcases hx with rfl | ⟨t, htm, rfl⟩
    · exact ⟨hamp, by simp⟩
    · exact ⟨hamp, ht t htm⟩
  have := cells_span endOfRow (by decide) l hne hmem [] (Or.inl rfl)
  unfold titleRow
  rw [hl]
  rw [List.nil_append] at this
  rw [this]
  simp only [l, List.map_flatten, List.map_replicate, List.map_cons, List.map_map]
  clear this hmem hne hl l
  have hs : (((1 : Nat) :: titles.map ((fun x : Style × Nat × Str => x.2.1) ∘ fun t => (st, cpr, t)))).sum = 1 + titles.length * cpr := by
    rw [List.sum_cons]
    congr 1
    induction titles with
    | nil => simp
    | cons t ts ih => rw [List.map_cons, List.sum_cons, ih (fun x hx => ht x (by simp [hx])), List.length_cons]; simp; ring
  rw [List.sum_flatten, List.map_replicate, List.sum_replicate, hs]
  rfl

/-- the full statement: titles cover all columns -/
def TitlesCover : Prop := ∀ (st : Style) (ncol cpr : Nat) (titles : List Str), st.Plain → st.NoAmp → 0 < ncol → 0 < cpr →
  ((splitChar '&' (titleRow st ncol cpr titles)).map span).sum = columns (colSpec st ncol cpr titles.length)

/-- Only underscores of titles are escaped (types.py:22-23): a title with an ampersand has two cells. -/
theorem title_amp_fails : ¬ TitlesCover := by
  intro h
  have := h plainStyle 1 1 [c!"TT & BAO"] styles_plain.1 (by unfold Style.NoAmp; decide) (by decide) (by decide)
  revert this
  decide

/-- **Rows and the lines between them**: all rows in order, each followed by its line, which is the one for the end of a block where one ends and there is one column,
and the final one after the last. -/
theorem bodyLines_spec (st : Style) (ncol : Nat) (be : Option (List Str)) : ∀ (rows : List (Str × Str)), (bodyLines st ncol be rows).length = 2 * rows.length ∧
    ∀ (i : Nat) (r : Str × Str), rows[i]? = some r → (bodyLines st ncol be rows)[2 * i]? = some r.2 ∧
      (bodyLines st ncol be rows)[2 * i + 1]? = some (getLine st (if i + 1 = rows.length then c!"belowFinalRow" else if ncol = 1 ∧ ∃ b, be = some b ∧ r.1 ∈ b then c!"belowBlockRow" else c!"belowRow"))
  | [] => ⟨rfl, fun i r h => by rw [List.getElem?_nil] at h; cases h⟩
  | [r] => ⟨rfl, by
      intro i r' hi
      cases i with
      | zero =>
        simp only [List.getElem?_cons_zero, Option.some.injEq] at hi
        subst hi
        refine ⟨rfl, ?_⟩
        rw [if_pos (show 0 + 1 = [r].length from rfl)]; rfl
      | succ i => simp at hi⟩
  | r :: r2 :: rs => by
    obtain ⟨h1, h2⟩ := bodyLines_spec st ncol be (r2 :: rs)
    refine ⟨by simp only [bodyLines, List.length_cons] at h1 ⊢; omega, ?_⟩
    intro i r' hi
    cases i with
    | zero =>
      simp only [List.getElem?_cons_zero, Option.some.injEq] at hi
      subst hi
      refine ⟨rfl, ?_⟩
      rw [if_neg (by simp only [List.length_cons]; omega)]
      show some (lineBelow st ncol be r.1) = _
      unfold lineBelow
      have hiff : (ncol = 1 ∧ r.1 ∈ be.getD []) ↔ (ncol = 1 ∧ ∃ b, be = some b ∧ r.1 ∈ b) := by
        cases be with
        | none => simp
        | some b => simp
      by_cases hb : ncol = 1 ∧ r.1 ∈ be.getD []
      · rw [if_pos hb, if_pos (hiff.mp hb)]
      · rw [if_neg hb, if_neg (fun h => hb (hiff.mpr h))]
    | succ i =>
      have hi' : (r2 :: rs)[i]? = some r' := by simpa using hi
      obtain ⟨h3, h4⟩ := h2 i r' hi'
      have e1 : 2 * (i + 1) = (2 * i) + 2 := by ring
      have e2 : 2 * (i + 1) + 1 = (2 * i + 1) + 2 := by ring
      have hget : ∀ j, (bodyLines st ncol be (r :: r2 :: rs))[j + 2]? = (bodyLines st ncol be (r2 :: rs))[j]? := fun j => rfl
      refine ⟨by rw [e1, hget]; exact h3, ?_⟩
      rw [e2, hget, h4]
      have hlen : (i + 1 + 1 = (r :: r2 :: rs).length) ↔ (i + 1 = (r2 :: rs).length) := by simp only [List.length_cons]; omega
      by_cases hh : i + 1 = (r2 :: rs).length
      · rw [if_pos hh, if_pos (hlen.mpr hh)]
      · rw [if_neg hh, if_neg (fun h => hh (hlen.mp h))]

example : bodyLines noLineStyle 1 (some [c!"b"]) [(c!"a", c!"A"), (c!"b", c!"B"), (c!"c", c!"C")] = [c!"A", [], c!"B", c!"\\hline", c!"C", c!"\\hline"] := by decide

theorem mapE_named {α : Type} {name label : α → Str} {derived : α → Bool} {results : List (Result α)} {ncol v : Nat} : ∀ (rows : List (List α)),
    (∀ row ∈ rows, ∃ s, fullTableRow label derived results ncol row = .ok s ∧ amps s + 1 = v) →
    ∃ rs, mapE (namedRow name label derived results ncol) rows = .ok rs ∧ rs.length = rows.length ∧ (∀ r ∈ rs, amps r.2 + 1 = v) ∧
      ∀ (i : Nat) (row : List α), rows[i]? = some row → ∃ s, fullTableRow label derived results ncol row = .ok s ∧ rs[i]? = some (((row.head?).map name).getD [], s)
  | [], _ => ⟨[], rfl, rfl, by simp, by simp⟩
  | row :: rows, h => by
    obtain ⟨s, hs, hv⟩ := h row (by simp)
    obtain ⟨rs, h1, h2, h3, h4⟩ := mapE_named (name := name) rows (fun r hr => h r (by simp [hr]))
    refine ⟨(((row.head?).map name).getD [], s) :: rs, ?_, by simp [h2], ?_, ?_⟩
    · have : namedRow name label derived results ncol row = .ok (((row.head?).map name).getD [], s) := by unfold namedRow; rw [hs]
      unfold mapE
      rw [this]
      simp only
      rw [h1]
    · intro r hr
      rcases List.mem_cons.mp hr with rfl | hr
      · exact hv
      · exact h3 r hr
    · intro i row' hi
      cases i with
      | zero => simp at hi; subst hi; exact ⟨s, hs, rfl⟩
      | succ i => simp at hi; simpa using h4 i row' hi

/-- **A whole table**: when every result has a value for every parameter, the table is made; its rows are those of the layout of parameters, and the header and each row
have as many cells as the specification has columns. -/
theorem resultTable_partial {α : Type} {name label : α → Str} {derived : α → Bool} {st : Style} (hst : st.Plain) {ncol k : Nat} (hk : k = 1 ∨ k = 2) (hn : 0 < ncol)
    {params : List α} (hp : params ≠ []) {results : List (Result α)} (h0 : results ≠ []) (hr : ∀ r ∈ results, Shows k r) (hl : ∀ p, amps (label p) = 0)
    (titles blockEnd : Option (List Str)) : ∃ rows h rs, tableRows params ncol = .ok rows ∧
      resultTable name label derived st ncol params results titles blockEnd = .ok (tableLines st ncol k results.length titles blockEnd h rs) ∧
      amps h + 1 = columns (colSpec st ncol k results.length) ∧ rs.length = rows.length ∧ (∀ r ∈ rs, amps r.2 + 1 = columns (colSpec st ncol k results.length)) ∧
      ∀ (i : Nat) (row : List α), rows[i]? = some row → ∃ s, fullTableRow label derived results ncol row = .ok s ∧ rs[i]? = some (((row.head?).map name).getD [], s) := by
  have hk0 : 0 < k := by omega
  rw [colSpec_spec hst _ hn hk0]
  obtain ⟨rows, hrows, hfacts⟩ := tableRows_spec (names := params) hn hp
  have hne : ∀ row ∈ rows, row ≠ [] ∧ row.length ≤ ncol := hfacts.2.2.1
  obtain ⟨r0, _⟩ := List.exists_mem_of_ne_nil _ h0
  have hrow0 : rows ≠ [] := by
    rintro rfl
    have := hfacts.1.length_eq
    simp at this
    exact hp (List.eq_nil_of_length_eq_zero this.symm)
  obtain ⟨row0, hrow0m⟩ := List.exists_mem_of_ne_nil _ hrow0
  obtain ⟨_, h, hh, hha⟩ := rows_aligned_partial (label := label) (derived := derived) hk h0 hr hl (hne row0 hrow0m).1 (hne row0 hrow0m).2
  obtain ⟨rs, h1, h2, h3, h4⟩ := mapE_named (name := name) (label := label) (derived := derived) (results := results) (ncol := ncol) (v := ncol * (1 + results.length * k)) rows (fun row hm =>
    (rows_aligned_partial (label := label) (derived := derived) hk h0 hr hl (hne row hm).1 (hne row hm).2).1)
  refine ⟨rows, h, rs, hrows, ?_, hha, h2, h3, h4⟩
  cases hres : results with
  | nil => exact absurd hres h0
  | cons r rest =>
    obtain ⟨labels, values, hrr, hlk, _⟩ := hr r (by rw [hres]; simp)
    rw [hres] at hh h1
    have hlab : r.labels = .ok labels := by rw [hrr]; rfl
    unfold resultTable
    simp only [hlab, hrows, hh, h1, hlk]

/-- the full statement: the argument may be one object or a list of them -/
def OneOrList : Prop := ∀ (α : Type) (a : Arg α), ∃ l, a.results = .ok l

/-- Results can be given as a list only, although the documentation says that one object will do (types.py:272-273, 295, 305). -/
theorem one_result_fails : ¬ OneOrList := by
  intro h
  obtain ⟨l, hl⟩ := h Nat (.one (.bestFit fun _ => none))
  cases hl

/-- the full statement: the rule below the titles spans all titles -/
def RuleSpans : Prop := ∀ (ncol cpr nres : Nat), 0 < ncol → 0 < cpr → 0 < nres →
  belowTitle noLineStyle cpr nres = c!"\\noalign{\\vskip 3pt}\\cline{2-" ++ strNat (columns (colSpec noLineStyle ncol cpr nres)) ++ c!"}\\noalign{\\vskip 3pt}"

/-- In tables with several columns of parameters the rule below the titles ends after the first (types.py:257-258). -/
theorem cline_fails : ¬ RuleSpans := by
  intro h
  have := h 2 1 1 (by decide) (by decide) (by decide)
  revert this
  decide +kernel

/-- A document has the lines of the table between its begin and its end. -/
theorem document_spec (preamble : Option Str) (packages lines : List Str) : ∃ pre, documentLines preamble packages lines = pre ++ c!"\\begin{document}" :: (lines ++ [c!"\\end{document}"]) ∧
    (∀ p ∈ packages, c!"\\usepackage{" ++ p ++ c!"}" ∈ pre) ∧ ∀ s, preamble = some s → s ≠ [] → s ∈ pre := by
  refine ⟨[c!"\\documentclass{article}", c!"\\pagestyle{empty}"] ++ packages.map (fun p => c!"\\usepackage{" ++ p ++ c!"}") ++ [c!"\\renewcommand{\\arraystretch}{1.5}"] ++
    (if preamble.getD [] = [] then [] else [preamble.getD []]), by unfold documentLines; simp only [List.append_assoc, List.singleton_append, List.cons_append, List.nil_append], ?_, ?_⟩
  · intro p hp
    simp only [List.mem_append, List.mem_map]
    exact Or.inl (Or.inl (Or.inr ⟨p, hp, rfl⟩))
  · rintro s rfl hs
    simp [hs]

example : documentLines (some c!"\\newcommand{\\x}{y}") [c!"amsmath"] [c!"T"] = [c!"\\documentclass{article}", c!"\\pagestyle{empty}", c!"\\usepackage{amsmath}",
    c!"\\renewcommand{\\arraystretch}{1.5}", c!"\\newcommand{\\x}{y}", c!"\\begin{document}", c!"T", c!"\\end{document}"] := by decide

end Verif.TexTable
