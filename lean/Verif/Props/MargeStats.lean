import Verif.Model.MargeStats
import Verif.Lemmas.Split
import Verif.Props.Bounds
import Mathlib.Data.Rat.Floor
import Mathlib.Data.List.TakeWhile
import Mathlib.Tactic.Ring
import Mathlib.Tactic.Linarith
import Mathlib.Tactic.FieldSimp

set_option linter.unusedSectionVars false

/-!
# Marginalised statistics (C49, C72)
-/

namespace Verif.MargeStats
open Verif.Py Verif.Bounds

/-! ## `split(None, n)` -/

theorem splitWsN_blank {a r : Str} (h : Blank a) : ∀ n, splitWsN n (a ++ r) = splitWsN n r
  | 0 => by unfold splitWsN; rw [lstrip_blank_append h]
  | n + 1 => by unfold splitWsN; rw [lstrip_blank_append h]

/-- begins with white space, if anything -/
def Sep (r : Str) : Prop := ∀ c, r.head? = some c → isWs c = true

theorem splitWsN_tok {t r : Str} (ht : Token t) (hr : Sep r) (n : Nat) : splitWsN (n + 1) (t ++ r) = t :: splitWsN n r := by
  obtain ⟨h0, hw⟩ := ht
  have hl : lstrip (t ++ r) = t ++ r := by
    apply lstrip_eq_self
    intro c hc
    cases t with
    | nil => exact absurd rfl h0
    | cons x xs => simp only [List.cons_append, List.head?_cons, Option.some.injEq] at hc; subst hc; exact hw _ List.mem_cons_self
  have h1 : ∀ c ∈ t, (!isWs c) = true := fun c hc => by rw [hw c hc]; rfl
  have htake : (t ++ r).takeWhile (fun c => !isWs c) = t := by
    rw [List.takeWhile_append_of_pos h1]
    cases r with
    | nil => simp
    | cons x xs => have := hr x rfl; simp [this]
  have hdrop : (t ++ r).dropWhile (fun c => !isWs c) = r := by
    rw [List.dropWhile_append_of_pos h1]
    cases r with
    | nil => simp
    | cons x xs => have := hr x rfl; simp [this]
  cases hc : t ++ r with
  | nil => exact absurd (List.append_eq_nil_iff.mp hc).1 h0
  | cons x xs =>
    conv_lhs => unfold splitWsN
    rw [← hc, hl, hc]
    dsimp only
    rw [← hc, htake, hdrop]

theorem sep_spaces {n : Nat} (h : 0 < n) (r : Str) : Sep (List.replicate n ' ' ++ r) := by
  intro c hc
  obtain ⟨m, rfl⟩ : ∃ m, n = m + 1 := ⟨n - 1, by omega⟩
  simp only [List.replicate_succ, List.cons_append, List.head?_cons, Option.some.injEq] at hc
  subst hc; decide

theorem trim_token {t : Str} (h : Token t) : Trim t :=
  ⟨fun _ hc => h.2 _ (List.mem_of_mem_head? hc), fun _ hc => h.2 _ (List.mem_of_mem_getLast? hc)⟩

/-! ## Limits -/

variable {K : Type} [Field K] [LinearOrder K] [IsStrictOrderedRing K] [FloorRing K]

/-- the kind of a limit: no two of the flags are set -/
def Lim.Kind (l : Lim K) : Prop := ¬ (l.twotail = true ∧ l.onetailUpper = true) ∧ ¬ (l.twotail = true ∧ l.onetailLower = true) ∧
  ¬ (l.onetailUpper = true ∧ l.onetailLower = true)

/-- **C49**: the kind of a limit is recovered from its tag -/
theorem mkLim_tag {l : Lim K} (h : l.Kind) : mkLim l.lower l.upper l.tag = l := by
  obtain ⟨lo, up, t, u, d⟩ := l
  unfold Lim.Kind at h
  cases t <;> cases u <;> cases d <;> simp_all [mkLim, Lim.tag]

example : mkLim (1 : ℚ) 2 (mkLim 1 2 c!"two").tag = mkLim 1 2 c!"two" ∧ (mkLim (1 : ℚ) 2 c!"two").tag = c!"two" := by decide +kernel

/-- every limit that is made has a kind, whatever the tag; other tags count as no limit -/
theorem mkLim_kind (lo up : K) (tag : Str) : (mkLim lo up tag).Kind ∧
    (mkLim lo up tag).tag = if tag = c!"two" ∨ tag = c!">" ∨ tag = c!"<" then tag else c!"none" := by
  unfold Lim.Kind mkLim Lim.tag
  by_cases h1 : tag = c!"two"
  · subst h1; simp
  · by_cases h2 : tag = c!">"
    · subst h2; simp
    · by_cases h3 : tag = c!"<"
      · subst h3; simp
      · have e1 : decide (tag = c!"two") = false := decide_eq_false h1
        have e2 : decide (tag = c!">") = false := decide_eq_false h2
        have e3 : decide (tag = c!"<") = false := decide_eq_false h3
        simp only [e1, e2, e3]
        have e4 : ¬ (tag = c!"two" ∨ tag = c!">" ∨ tag = c!"<") := by tauto
        rw [if_neg e4]
        exact ⟨⟨by simp, by simp, by simp⟩, rfl⟩

example : (mkLim (1 : ℚ) 2 c!">").tag = c!">" ∧ (mkLim (1 : ℚ) 2 c!"abc").tag = c!"none" := by decide +kernel

theorem tag_token (l : Lim K) : Token l.tag ∧ l.tag.length ≤ 4 ∧ 0 < 5 - l.tag.length := by
  unfold Lim.tag
  split
  · decide
  · split
    · decide
    · split <;> decide

/-! ## Rows -/

/-- the number takes at most 14 characters: at most two digits of exponent when negative, three otherwise -/
def Short (x : K) : Prop := (fmtE 7 x).length < 15

theorem short_of {x : K} (h : x = 0 ∨ (sci 7 |x|).2.natAbs < 100 ∨ (0 ≤ x ∧ (sci 7 |x|).2.natAbs < 1000)) : Short x := by
  unfold Short
  by_cases h0 : x = 0
  · subst h0
    have : fmtE 7 (0 : K) = c!"0.0000000E+00" := by
      unfold fmtE; rw [if_neg (lt_irrefl _), if_pos rfl]; decide
    rw [this]; decide
  · rw [length_fmtE x h0]
    rcases h with h | h | h
    · exact absurd h h0
    · have : (expStr (sci 7 |x|).2).length ≤ 3 := by
        generalize (sci 7 |x|).2 = e at h
        unfold expStr
        split
        · split <;> (simp only [List.length_cons]; try omega)
          · have : (strNat e.natAbs).length ≤ 1 := (Nat.length_toDigits_le_iff (by norm_num) (by norm_num)).mpr (by omega)
            omega
          · have : (strNat e.natAbs).length ≤ 2 := (Nat.length_toDigits_le_iff (by norm_num) (by norm_num)).mpr (by omega)
            omega
        · split <;> (simp only [List.length_cons]; try omega)
          · have : (strNat e.natAbs).length ≤ 1 := (Nat.length_toDigits_le_iff (by norm_num) (by norm_num)).mpr (by omega)
            omega
          · have : (strNat e.natAbs).length ≤ 2 := (Nat.length_toDigits_le_iff (by norm_num) (by norm_num)).mpr (by omega)
            omega
      split <;> omega
    · have := length_expStr h.2
      rw [if_neg (not_lt.mpr h.1)]; omega

theorem num_split {x : K} (h : Short x) : ∃ k, 0 < k ∧ num x = List.replicate k ' ' ++ fmtE 7 x :=
  ⟨15 - (fmtE 7 x).length, by unfold Short at h; omega, rfl⟩

theorem num_sep {x : K} (h : Short x) (r : Str) : Sep (num x ++ r) := by
  obtain ⟨k, hk, e⟩ := num_split h
  rw [e, List.append_assoc]; exact sep_spaces hk _

theorem splitWsN_num {x : K} (h : Short x) {r : Str} (hr : Sep r) (n : Nat) : splitWsN (n + 1) (num x ++ r) = fmtE 7 x :: splitWsN n r := by
  obtain ⟨k, hk, e⟩ := num_split h
  rw [e, List.append_assoc, splitWsN_blank (blank_replicate _), splitWsN_tok (token_fmtE 7 x) hr]

theorem blank3 : Blank c!"   " := blank_replicate 3
theorem blank2 : Blank c!"  " := blank_replicate 2
theorem blank1 : Blank c!" " := blank_replicate 1

def limToks (l : Lim K) : List Str := [fmtE 7 l.lower, fmtE 7 l.upper, l.tag]

theorem splitWsN_lims {label : Str} (hl : label ≠ [] ∧ Trim label) : ∀ {ls : List (Lim K)}, (∀ l ∈ ls, Short l.lower ∧ Short l.upper) →
    splitWsN (ls.length * 3) (ls.flatMap limText ++ (c!"   " ++ (label ++ ['\n']))) = ls.flatMap limToks ++ [label ++ ['\n']]
  | [], _ => by
    have e : lstrip (label ++ ['\n']) = label ++ ['\n'] := by
      apply lstrip_eq_self
      intro c hc
      cases label with
      | nil => exact absurd rfl hl.1
      | cons x xs => exact hl.2.1 c (by simpa using hc)
    show splitWsN 0 ([] ++ (c!"   " ++ (label ++ ['\n']))) = _
    rw [List.nil_append, splitWsN_blank blank3]
    unfold splitWsN
    rw [e, if_neg (by simp)]
    simp
  | l :: ls, h => by
    obtain ⟨h1, h2⟩ := h l List.mem_cons_self
    obtain ⟨t1, _, t3⟩ := tag_token l
    have e : (l :: ls).flatMap limText ++ (c!"   " ++ (label ++ ['\n'])) =
        num l.lower ++ (num l.upper ++ (c!"  " ++ (l.tag ++ (List.replicate (5 - l.tag.length) ' ' ++
          (ls.flatMap limText ++ (c!"   " ++ (label ++ ['\n']))))))) := by
      rw [List.flatMap_cons]
      unfold limText ljust
      simp only [List.append_assoc]
    rw [e, show (l :: ls).length * 3 = ls.length * 3 + 1 + 1 + 1 by rw [List.length_cons]; ring]
    rw [splitWsN_num h1 (num_sep h2 _), splitWsN_num h2 (r := c!"  " ++ _) (sep_spaces (n := 2) (by norm_num) _), splitWsN_blank blank2,
      splitWsN_tok t1 (sep_spaces t3 _), splitWsN_blank (blank_replicate _),
      splitWsN_lims hl (fun l hl => h l (List.mem_cons_of_mem _ hl))]
    rfl

/-- a parameter that can be written -/
structure Par.Ok (n : Nat) (p : Par K) : Prop where
  name : Token p.name
  star : p.name.getLast? ≠ some '*'
  label : p.label ≠ [] ∧ Trim p.label ∧ OneLine p.label
  nlim : p.limits.length = n
  short : Short p.mean ∧ Short p.err ∧ ∀ l ∈ p.limits, Short l.lower ∧ Short l.upper
  kind : ∀ l ∈ p.limits, l.Kind

theorem printedName_token {p : Par K} (h : Token p.name) : Token (printedName p) := by
  unfold printedName
  split
  · refine ⟨by simp, ?_⟩
    intro c hc
    rcases List.mem_append.mp hc with hc | hc
    · exact h.2 c hc
    · rw [List.mem_singleton] at hc; subst hc; decide
  · exact h

theorem items_row {n w : Nat} {p : Par K} (h : p.Ok n) :
    (splitWsN (n * 3 + 3) (rowText w p ++ ['\n'])).map strip =
      [printedName p, fmtE 7 p.mean, fmtE 7 p.err] ++ p.limits.flatMap limToks ++ [p.label] := by
  have hsep : Sep (p.limits.flatMap limText ++ (c!"   " ++ (p.label ++ ['\n']))) := by
    cases hl : p.limits with
    | nil => exact sep_spaces (n := 3) (by norm_num) _
    | cons l ls =>
      rw [List.flatMap_cons]
      unfold limText
      simp only [List.append_assoc]
      exact num_sep (h.short.2.2 l (by rw [hl]; exact List.mem_cons_self)).1 _
  have hsep2 : Sep (List.replicate (w - (printedName p).length) ' ' ++ (num p.mean ++ (num p.err ++
      (p.limits.flatMap limText ++ (c!"   " ++ (p.label ++ ['\n'])))))) := by
    rcases Nat.eq_zero_or_pos (w - (printedName p).length) with h0 | h0
    · rw [h0]; exact num_sep h.short.1 _
    · exact sep_spaces h0 _
  have e : rowText w p ++ ['\n'] = printedName p ++ (List.replicate (w - (printedName p).length) ' ' ++ (num p.mean ++ (num p.err ++
      (p.limits.flatMap limText ++ (c!"   " ++ (p.label ++ ['\n'])))))) := by
    unfold rowText ljust
    simp only [List.append_assoc]
  rw [e, show n * 3 + 3 = p.limits.length * 3 + 1 + 1 + 1 by rw [h.nlim]]
  rw [splitWsN_tok (printedName_token h.name) hsep2, splitWsN_blank (blank_replicate _), splitWsN_num h.short.1 (num_sep h.short.2.1 _),
    splitWsN_num h.short.2.1 hsep, splitWsN_lims ⟨h.label.1, h.label.2.1⟩ h.short.2.2]
  have hstok : ∀ t : Str, Token t → strip t = t := fun t ht => strip_eq_self (trim_token ht)
  simp only [List.map_cons, List.map_append, List.map_nil]
  rw [hstok _ (printedName_token h.name), hstok _ (token_fmtE 7 _), hstok _ (token_fmtE 7 _), strip_append_ws _ _ (by decide),
    strip_eq_self h.label.2.1]
  have : (p.limits.flatMap limToks).map strip = p.limits.flatMap limToks := by
    rw [List.map_flatMap]
    congr 1
    funext l
    unfold limToks
    simp only [List.map_cons, List.map_nil]
    rw [hstok _ (token_fmtE 7 _), hstok _ (token_fmtE 7 _), hstok _ (tag_token l).1]
  rw [this]
  simp

theorem floatStr_fmt7 (x : K) : (floatStr (fmtE 7 x) : Option K) = some (roundSig 7 x) := by
  have h := floatStr_fmtE 7 0 x
  simpa [rjust] using h

/-- printed with eight figures -/
def Lim.rounded (l : Lim K) : Lim K := { l with lower := roundSig 7 l.lower, upper := roundSig 7 l.upper }

theorem readLims_spec {post : List Str} : ∀ {ls : List (Lim K)} {pre : List Str} {k : Nat}, pre.length = 3 + k * 3 → (∀ l ∈ ls, l.Kind) →
    readLims (pre ++ ls.flatMap limToks ++ post) (List.range' k ls.length) = .ok (ls.map Lim.rounded)
  | [], pre, k, _, _ => rfl
  | l :: ls, pre, k, hp, hk => by
    have e : pre ++ (l :: ls).flatMap limToks ++ post = pre ++ (fmtE 7 l.lower :: fmtE 7 l.upper :: l.tag :: (ls.flatMap limToks ++ post)) := by
      simp [limToks]
    have e' : pre ++ (l :: ls).flatMap limToks ++ post = (pre ++ limToks l) ++ ls.flatMap limToks ++ post := by simp
    have hrec := readLims_spec (post := post) (ls := ls) (pre := pre ++ limToks l) (k := k + 1) (by
      rw [List.length_append, hp]; simp [limToks]; ring) (fun l hl => hk l (List.mem_cons_of_mem _ hl))
    have g0 : (pre ++ (l :: ls).flatMap limToks ++ post)[3 + k * 3]? = some (fmtE 7 l.lower) := by
      rw [e, List.getElem?_append_right (by omega), hp]; simp
    have g1 : (pre ++ (l :: ls).flatMap limToks ++ post)[4 + k * 3]? = some (fmtE 7 l.upper) := by
      rw [e, List.getElem?_append_right (by omega), hp, show 4 + k * 3 - (3 + k * 3) = 1 by omega]; rfl
    have g2 : (pre ++ (l :: ls).flatMap limToks ++ post)[5 + k * 3]? = some l.tag := by
      rw [e, List.getElem?_append_right (by omega), hp, show 5 + k * 3 - (3 + k * 3) = 2 by omega]; rfl
    have hl : readLim (pre ++ (l :: ls).flatMap limToks ++ post) k = .ok l.rounded := by
      unfold readLim floatAt
      rw [g0, g1, g2]
      simp only [floatStr_fmt7]
      have hk1 : (Lim.rounded l).Kind := hk l List.mem_cons_self
      have := mkLim_tag hk1
      rw [← this]
      rfl
    rw [List.length_cons, List.range'_succ]
    unfold readLims
    rw [hl]
    dsimp only
    rw [e', hrec]
    rfl

def Par.rounded (p : Par K) : Par K := { p with mean := roundSig 7 p.mean, err := roundSig 7 p.err, limits := p.limits.map Lim.rounded }

theorem readPar_row {n w : Nat} {p : Par K} (h : p.Ok n) : readPar n (rowText w p ++ ['\n']) = .ok p.rounded := by
  unfold readPar
  dsimp only
  rw [items_row h]
  have hl := readLims_spec (post := [p.label]) (ls := p.limits) (pre := [printedName p, fmtE 7 p.mean, fmtE 7 p.err]) (k := 0) rfl h.kind
  rw [h.nlim] at hl
  have g0 : ([printedName p, fmtE 7 p.mean, fmtE 7 p.err] ++ p.limits.flatMap limToks ++ [p.label])[0]? = some (printedName p) := rfl
  have g1 : ([printedName p, fmtE 7 p.mean, fmtE 7 p.err] ++ p.limits.flatMap limToks ++ [p.label])[1]? = some (fmtE 7 p.mean) := rfl
  have g2 : ([printedName p, fmtE 7 p.mean, fmtE 7 p.err] ++ p.limits.flatMap limToks ++ [p.label])[2]? = some (fmtE 7 p.err) := rfl
  have g3 : ([printedName p, fmtE 7 p.mean, fmtE 7 p.err] ++ p.limits.flatMap limToks ++ [p.label]).getLast? = some p.label := by
    rw [List.getLast?_append]; rfl
  have f1 : (floatAt ([printedName p, fmtE 7 p.mean, fmtE 7 p.err] ++ p.limits.flatMap limToks ++ [p.label]) 1 : Except MErr K) =
      .ok (roundSig 7 p.mean) := by unfold floatAt; rw [g1]; simp only [floatStr_fmt7]
  have f2 : (floatAt ([printedName p, fmtE 7 p.mean, fmtE 7 p.err] ++ p.limits.flatMap limToks ++ [p.label]) 2 : Except MErr K) =
      .ok (roundSig 7 p.err) := by unfold floatAt; rw [g2]; simp only [floatStr_fmt7]
  rw [g0, g3]
  dsimp only
  rw [f1]
  dsimp only
  rw [f2]
  dsimp only
  rw [List.range_eq_range', hl]
  dsimp only
  unfold Par.rounded printedName
  cases hd : p.isDerived with
  | true => simp
  | false => simp [h.star]

theorem rowText_oneLine {n w : Nat} {p : Par K} (h : p.Ok n) : OneLine (rowText w p) ∧ (strip (rowText w p ++ ['\n'])).length ≠ 0 := by
  have hnum : ∀ x : K, OneLine (num x) := fun x => oneLine_rjust (token_oneLine (token_fmtE 7 x))
  have hlims : OneLine (p.limits.flatMap limText) := by
    have : ∀ ls : List (Lim K), OneLine (ls.flatMap limText) := by
      intro ls
      induction ls with
      | nil => exact ⟨by simp, by simp⟩
      | cons l ls ih =>
        rw [List.flatMap_cons]
        refine oneLine_append ?_ ih
        unfold limText ljust
        exact oneLine_append (oneLine_append (oneLine_append (hnum _) (hnum _)) (by decide))
          (oneLine_append (token_oneLine (tag_token l).1) (oneLine_spaces _))
    exact this _
  constructor
  · unfold rowText ljust
    exact oneLine_append (oneLine_append (oneLine_append (oneLine_append (oneLine_append (oneLine_append
      (token_oneLine (printedName_token h.name)) (oneLine_spaces _)) (hnum _)) (hnum _)) hlims) (by decide)) h.label.2.2
  · rw [strip_append_ws _ _ (by decide)]
    intro e
    have e0 := List.length_eq_zero_iff.mp e
    -- the first character is not blank
    obtain ⟨t0, tw⟩ := printedName_token h.name
    cases hc : printedName p with
    | nil => exact t0 hc
    | cons x xs =>
      have hx : isWs x = false := tw x (by rw [hc]; exact List.mem_cons_self)
      have hr : ∃ ys, rowText w p = x :: ys := by
        unfold rowText ljust; rw [hc]; exact ⟨_, rfl⟩
      obtain ⟨ys, hy⟩ := hr
      rw [hy] at e0
      have hlst : lstrip (x :: ys) = x :: ys := lstrip_eq_self (by intro c hc; simp at hc; subst hc; exact hx)
      unfold strip at e0
      rw [hlst] at e0
      unfold rstrip at e0
      have hnil := List.reverse_eq_nil_iff.mp e0
      have := (List.dropWhile_eq_nil_iff.mp hnil) x (by simp)
      rw [hx] at this; exact absurd this (by simp)

theorem readRows_spec {n w : Nat} : ∀ {l : List (Par K)}, (∀ p ∈ l, p.Ok n) →
    readRows n ((l.map (rowText w)).map (· ++ ['\n'])) = .ok (l.map Par.rounded)
  | [], _ => rfl
  | p :: l, h => by
    have hp := h p List.mem_cons_self
    simp only [List.map_cons]
    unfold readRows
    rw [if_neg (rowText_oneLine hp).2, readPar_row hp]
    dsimp only
    have := readRows_spec (n := n) (w := w) (l := l) (fun p hp => h p (List.mem_cons_of_mem _ hp))
    rw [this]

/-! ## Files -/

/-- python's `str` of a contour level -/
structure StrOk (strF : K → Str) (c : K) : Prop where
  value : floatStr (strF c) = some c
  token : Token (strF c)
  chars : ':' ∉ strF c ∧ ';' ∉ strF c

theorem splitChar_not {ch : Char} : ∀ {s : Str}, ch ∉ s → splitChar ch s = [s]
  | [], _ => rfl
  | c :: cs, h => by
    rw [List.mem_cons, not_or] at h
    unfold splitChar
    rw [if_neg (by simpa using Ne.symm h.1), splitChar_not h.2]

theorem splitChar_app {ch : Char} : ∀ {a b : Str}, ch ∉ a → splitChar ch (a ++ ch :: b) = a :: splitChar ch b
  | [], b, _ => by show splitChar ch (ch :: b) = _; conv_lhs => unfold splitChar; rw [if_pos (by simp)]
  | c :: cs, b, h => by
    rw [List.mem_cons, not_or] at h
    show splitChar ch (c :: (cs ++ ch :: b)) = _
    rw [splitChar, if_neg (by simpa using Ne.symm h.1), splitChar_app h.2]

theorem join_not {ch : Char} (h1 : ch ≠ ';') (h2 : ch ≠ ' ') : ∀ {l : List Str}, (∀ s ∈ l, ch ∉ s) → ch ∉ join c!"; " l
  | [], _ => by simp [join]
  | [x], h => h x List.mem_cons_self
  | x :: y :: l, h => by
    rw [join_cons2]
    simp only [List.mem_append, not_or]
    refine ⟨⟨h x List.mem_cons_self, by simp [h1, h2]⟩, join_not h1 h2 (fun s hs => h s (List.mem_cons_of_mem _ hs))⟩

theorem floats_spec {strF : K → Str} : ∀ {cs : List K} {a b : Str}, cs ≠ [] → (∀ c ∈ cs, StrOk strF c) → Blank a → ';' ∉ a → (b = [] ∨ b = ['\n']) →
    floats (splitChar ';' (a ++ join c!"; " (cs.map strF) ++ b)) = .ok cs
  | [], _, _, h0, _, _, _, _ => absurd rfl h0
  | [c], a, b, _, h, ha, ha', hb => by
    have hc := h c List.mem_cons_self
    have hb' : ';' ∉ b := by rcases hb with rfl | rfl <;> simp
    have hs : strip (a ++ strF c ++ b) = strF c := by
      have h1 : strip (a ++ strF c) = strF c := by
        unfold strip
        rw [lstrip_blank_append ha]
        exact strip_eq_self (trim_token hc.token)
      rcases hb with rfl | rfl
      · rw [List.append_nil]; exact h1
      · rw [strip_append_ws _ _ (by decide)]; exact h1
    show floats (splitChar ';' (a ++ strF c ++ b)) = _
    rw [splitChar_not (by simp [ha', hb', hc.chars.2])]
    unfold floats
    rw [hs, hc.value]
    rfl
  | c :: c' :: cs, a, b, _, h, ha, ha', hb => by
    have hc := h c List.mem_cons_self
    have hs : strip (a ++ strF c) = strF c := by
      unfold strip
      rw [lstrip_blank_append ha]
      exact strip_eq_self (trim_token hc.token)
    have e : a ++ join c!"; " ((c :: c' :: cs).map strF) ++ b = (a ++ strF c) ++ ';' :: (c!" " ++ join c!"; " ((c' :: cs).map strF) ++ b) := by
      rw [List.map_cons, List.map_cons, join_cons2]
      simp
    rw [e, splitChar_app (by simp [ha', hc.chars.2])]
    unfold floats
    rw [hs, hc.value]
    dsimp only
    rw [floats_spec (by simp) (fun c hc => h c (List.mem_cons_of_mem _ hc)) blank1 (by decide) hb]

/-- statistics that can be written -/
structure Marge.Ok (strF : K → Str) (m : Marge K) : Prop where
  some_limit : m.limits ≠ []
  some_name : m.names ≠ []
  contours : ∀ c ∈ m.limits, StrOk strF c
  pars : ∀ p ∈ m.names, p.Ok m.limits.length

theorem header_oneLine (n w : Nat) : OneLine (headerLine n w) := by
  have hl : ∀ (k : Nat) (s : Str), OneLine s → OneLine (ljust k s) := fun k s h => oneLine_append h (oneLine_spaces _)
  have hs : ∀ (a : Str) (j : Nat), OneLine a → OneLine (a ++ strNat j) := by
    intro a j ha
    refine oneLine_append ha (token_oneLine ⟨strNat_ne_nil _, ?_⟩)
    intro c hc
    have := strNat_isDigit hc
    exact numChar_not_ws (by unfold numChar; rw [this]; rfl)
  unfold headerLine
  refine oneLine_append (oneLine_append (oneLine_append (oneLine_append (hl _ _ (by decide)) (by decide)) (hl _ _ (by decide))) (hl _ _ (by decide))) ?_
  generalize List.range n = l
  induction l with
  | nil => exact ⟨by simp, by simp⟩
  | cons j l ih =>
    rw [List.flatMap_cons]
    exact oneLine_append (oneLine_append (oneLine_append (hl _ _ (hs _ _ (by decide))) (hl _ _ (hs _ _ (by decide)))) (hl _ _ (hs _ _ (by decide)))) ih

/-- **C49**: statistics written to a file are read back: contours, names, labels, which are derived, the kind of every limit; numbers with
eight figures -/
theorem load_toText {strF : K → Str} {m : Marge K} (h : m.Ok strF) :
    ∃ t, toText strF m = .ok t ∧ load t = .ok ⟨m.limits, m.names.map Par.rounded⟩ := by
  obtain ⟨w, hw⟩ : ∃ w, nameWidth m.names = .ok w := by
    unfold nameWidth; rw [if_neg h.some_name]; exact ⟨_, rfl⟩
  refine ⟨_, by unfold toText; rw [hw], ?_⟩
  set L := [c!"Marginalized limits: " ++ join c!"; " (m.limits.map strF), [], headerLine m.limits.length w] ++ m.names.map (rowText w) with hL
  have hjoin : OneLine (join c!"; " (m.limits.map strF)) := by
    refine ⟨join_not (by decide) (by decide) ?_, join_not (by decide) (by decide) ?_⟩ <;>
    · intro s hs
      obtain ⟨c, hc, rfl⟩ := List.mem_map.mp hs
      first | exact (token_oneLine (h.contours c hc).token).1 | exact (token_oneLine (h.contours c hc).token).2
  have hone : ∀ l ∈ L, OneLine l := by
    intro l hl
    rw [hL] at hl
    rcases List.mem_append.mp hl with hl | hl
    · simp only [List.mem_cons, List.not_mem_nil, or_false] at hl
      rcases hl with rfl | rfl | rfl
      · exact oneLine_append (by decide) hjoin
      · decide
      · exact header_oneLine _ _
    · obtain ⟨p, hp, rfl⟩ := List.mem_map.mp hl
      exact (rowText_oneLine (h.pars p hp)).1
  have hbom : ParamNames.dropBOM (L.flatMap (fun l => l ++ ['\n'])) = L.flatMap (fun l => l ++ ['\n']) := by
    rw [hL]; rfl
  unfold load
  dsimp only
  rw [hbom, fileIter_terminated hone]
  have e : L.map (· ++ ['\n']) = (c!"Marginalized limits: " ++ join c!"; " (m.limits.map strF) ++ ['\n']) ::
      ['\n'] :: (headerLine m.limits.length w ++ ['\n']) :: (m.names.map (rowText w)).map (· ++ ['\n']) := by
    rw [hL]; rfl
  rw [e]
  dsimp only
  have hcol : ':' ∉ c!" " ++ join c!"; " (m.limits.map strF) ++ ['\n'] := by
    simp only [List.mem_append, not_or]
    refine ⟨⟨by decide, join_not (by decide) (by decide) ?_⟩, by decide⟩
    intro s hs
    obtain ⟨c, hc, rfl⟩ := List.mem_map.mp hs
    exact (h.contours c hc).chars.1
  have hsplit : splitChar ':' (c!"Marginalized limits: " ++ join c!"; " (m.limits.map strF) ++ ['\n']) =
      [c!"Marginalized limits", c!" " ++ join c!"; " (m.limits.map strF) ++ ['\n']] := by
    have : c!"Marginalized limits: " ++ join c!"; " (m.limits.map strF) ++ ['\n'] =
        c!"Marginalized limits" ++ ':' :: (c!" " ++ join c!"; " (m.limits.map strF) ++ ['\n']) := by simp
    rw [this, splitChar_app (by decide), splitChar_not hcol]
  rw [hsplit]
  simp only [List.getElem?_cons_succ, List.getElem?_cons_zero]
  rw [floats_spec h.some_limit h.contours blank1 (by decide) (Or.inr rfl)]
  simp only [List.drop_succ_cons, List.drop_zero]
  rw [readRows_spec h.pars]

/-- the kinds of all limits are recovered -/
theorem kinds_recovered {strF : K → Str} {m : Marge K} (h : m.Ok strF) : ∃ t, ∃ m' : Marge K, toText strF m = .ok t ∧ load t = .ok m' ∧
    m'.names.map (fun p => (p.name, p.isDerived, p.label, p.limits.map (fun l => (l.twotail, l.onetailUpper, l.onetailLower)))) =
    m.names.map (fun p => (p.name, p.isDerived, p.label, p.limits.map (fun l => (l.twotail, l.onetailUpper, l.onetailLower)))) := by
  obtain ⟨t, h1, h2⟩ := load_toText h
  refine ⟨t, _, h1, h2, ?_⟩
  simp only [List.map_map]
  apply List.map_congr_left
  intro p _
  simp [Par.rounded, Lim.rounded, Function.comp_def]

/-! ## Examples -/

def exStr : ℚ → Str := fun c => if c = 19 / 20 then c!"0.95" else c!"0.68"

def exM : Marge ℚ := ⟨[17 / 25, 19 / 20], [⟨c!"omegabh2", c!"\\Omega_b h^2", false, 223 / 10000, 1 / 5000,
    [mkLim (11 / 500) (113 / 5000) c!"two", mkLim (-109 / 5000) (227 / 10000) c!"<"]⟩,
  ⟨c!"veryLongName", c!"M x", true, -1, 2, [mkLim (-3) 1 c!"none", mkLim (-5) 3 c!">"]⟩]⟩

example : (toText exStr exM).toOption.isSome = true ∧ (toText exStr exM).toOption.map (load (K := ℚ)) = some (.ok exM) := by decide +kernel

def exNoLabel : Marge ℚ := ⟨[17 / 25], [⟨c!"x", [], false, 1, 1, [mkLim 0 2 c!"<"]⟩]⟩

/-- a parameter without label is read with the tag of its last limit as label -/
theorem empty_label_fails : (((toText exStr exNoLabel).toOption : Option Str).map (fun t : Str => ((load (K := ℚ) t).toOption.map (fun m => m.names.map (·.label))))) =
    some (some [c!"<"]) := by decide +kernel

/-- statistics without parameters cannot be written -/
theorem no_names_fails (strF : K → Str) (cs : List K) : toText strF (⟨cs, []⟩ : Marge K) = .error .value := rfl

/-! ## Choosing the limits (C72) -/

/-- **C72**: the limits are one of four kinds: both tails at equal probability, or at equal density; one tail with the other end at the end of
the range; no limit at all -/
theorem margeLimit_spec (s : Settings K) (d : Marg K) (c f : K) (l : Lim K) (h : margeLimit s d c f = l) :
    l.Kind ∧
    (l.tag = c!"two" → (l.lower = d.conf ((1 - c) / 2) false ∧ l.upper = d.conf ((1 - c) / 2) true ∧ |d.prob l.upper - d.prob l.lower| < s.threshold) ∨
      (l.lower = (d.getLimits c).1 ∧ l.upper = (d.getLimits c).2.1 ∧
        ¬ |d.prob (d.conf ((1 - c) / 2) true) - d.prob (d.conf ((1 - c) / 2) false)| < s.threshold)) ∧
    (l.tag = c!">" → l.lower = d.rmin ∧ l.upper = d.conf (1 - c) true) ∧
    (l.tag = c!"<" → l.lower = d.conf (1 - c) false ∧ l.upper = d.rmax) ∧
    (l.tag = c!"none" → l.lower = d.rmin ∧ l.upper = d.rmax) := by
  subst h
  refine ⟨?_, ?_⟩
  · unfold margeLimit; exact (mkLim_kind _ _ _).1
  · unfold margeLimit
    generalize d.getLimits c = G
    obtain ⟨lo, hi, bot, top⟩ := G
    dsimp only
    generalize (d.hasBot && !s.force && decide (f < d.P0)) = b0
    generalize (d.hasTop && !s.force && decide (f < d.P1)) = t0
    by_cases hth : |d.prob (d.conf ((1 - c) / 2) true) - d.prob (d.conf ((1 - c) / 2) false)| < s.threshold
    · cases b0 <;> cases t0 <;> cases bot <;> cases top <;> simp [mkLim, Lim.tag, hth]
    · cases b0 <;> cases t0 <;> cases bot <;> cases top <;> simp [mkLim, Lim.tag, hth]

/-- which kind: no limit when both ends are within the prior cut, otherwise what the density says at the level -/
theorem margeLimit_kind (s : Settings K) (d : Marg K) (c f : K) :
    (margeLimit s d c f).tag =
      if d.hasBot = true ∧ d.hasTop = true ∧ s.force = false ∧ f < d.P0 ∧ f < d.P1 then c!"none"
      else match (d.getLimits c).2.2 with
        | (true, true) => c!"none"
        | (true, false) => c!">"
        | (false, true) => c!"<"
        | (false, false) => c!"two" := by
  unfold margeLimit
  generalize d.getLimits c = G
  obtain ⟨lo, hi, bot, top⟩ := G
  dsimp only
  have hc : (d.hasBot = true ∧ d.hasTop = true ∧ s.force = false ∧ f < d.P0 ∧ f < d.P1) ↔
      ((d.hasBot && !s.force && decide (f < d.P0)) = true ∧ (d.hasTop && !s.force && decide (f < d.P1)) = true) := by
    simp only [Bool.and_eq_true, Bool.not_eq_true', decide_eq_true_eq]
    tauto
  simp only [hc]
  generalize (d.hasBot && !s.force && decide (f < d.P0)) = b0
  generalize (d.hasTop && !s.force && decide (f < d.P1)) = t0
  rw [(mkLim_kind _ _ _).2]
  by_cases hth : |d.prob (d.conf ((1 - c) / 2) true) - d.prob (d.conf ((1 - c) / 2) false)| < s.threshold <;>
    cases b0 <;> cases t0 <;> cases bot <;> cases top <;> simp [hth]

/-- asking for two tail limits only does not give them -/
theorem force_twotail_fails (s : Settings K) (d : Marg K) (c f : K) (h : (d.getLimits c).2.2 = (true, false)) :
    (margeLimit { s with force := true } d c f).tag = c!">" := by
  rw [margeLimit_kind]
  simp [h]

/-- neither does a cut above the density at the ends, nor the absence of prior limits -/
theorem max_frac_fails (s : Settings K) (d : Marg K) (c f : K) (h : (d.getLimits c).2.2 = (true, false)) (hf : d.P0 < f ∨ d.hasBot = false) :
    (margeLimit s d c f).tag = c!">" := by
  rw [margeLimit_kind, if_neg, h]
  rintro ⟨h1, _, _, h2, _⟩
  rcases hf with hf | hf
  · exact absurd h2 (not_lt.mpr hf.le)
  · rw [hf] at h1; exact absurd h1 (by simp)

/-- without a limit at the ends of the density the limits have two tails, with or without `force_twotail` -/
theorem two_tail (s : Settings K) (d : Marg K) (c f : K) (h : (d.getLimits c).2.2 = (false, false))
    (hf : s.force = true ∨ d.hasBot = false ∨ d.hasTop = false ∨ d.P0 ≤ f ∨ d.P1 ≤ f) : (margeLimit s d c f).tag = c!"two" := by
  rw [margeLimit_kind, if_neg, h]
  rintro ⟨h1, h2, h3, h4, h5⟩
  rcases hf with hf | hf | hf | hf | hf
  · rw [h3] at hf; exact absurd hf (by simp)
  · rw [h1] at hf; exact absurd hf (by simp)
  · rw [h2] at hf; exact absurd hf (by simp)
  · exact absurd h4 (not_lt.mpr hf)
  · exact absurd h5 (not_lt.mpr hf)

def exD : Marg ℚ := ⟨true, false, 0, 10, 1, 0, fun c => (0, 10 * c, true, false), fun p u => if u then 8 * (1 - p) else p, fun x => 1 - x / 10⟩

example : margeLimit ⟨true, 1 / 20⟩ exD (19 / 20) (1 / 10) = ⟨0, 38 / 5, false, true, false⟩ := by decide +kernel

end Verif.MargeStats
