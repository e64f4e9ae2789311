import Verif.Model.NumText
import Verif.Py.Replace
import Mathlib.Data.List.TakeWhile
import Mathlib.Tactic.IntervalCases

/-!
# Properties of numbers as text (`Verif/Model/NumText.lean`)
-/

set_option linter.unusedSectionVars false

namespace Verif.NumText
open Verif.Py

/-! ## Tick labels -/

section Labels
variable {K : Type} [Field K] [LinearOrder K] [IsStrictOrderedRing K] [FloorRing K]

/-- an exponent and the closing brace: the power of ten -/
def readPow (t : Str) : Option K :=
  if t.getLast? = some '}' then
    (intStr (takeSign t.dropLast).2).map (fun n => if (takeSign t.dropLast).1 then ((10 : K) ^ n)⁻¹ else (10 : K) ^ n)
  else none

/-- what a reader takes a label (without the dollars) for: a number, a power of ten, or a number times a power of ten -/
def readLabel (s : Str) : Option K :=
  if startsWith c!"10^{" s then readPow (s.drop 4)
  else if '{' ∈ s then
    if startsWith c!"{\\times}10^{" (s.dropWhile (· ≠ '{')) then
      match (floatStr (s.takeWhile (· ≠ '{')) : Option K), (readPow ((s.dropWhile (· ≠ '{')).drop 12) : Option K) with
      | some v, some w => some (v * w)
      | _, _ => none
    else none
  else floatStr s

theorem rstripP_append (p : Char → Bool) (a b : Str) : rstripP p (a ++ b) = if rstripP p b = [] then rstripP p a else a ++ rstripP p b := by
  unfold rstripP
  rw [List.reverse_append]
  by_cases h : (b.reverse.dropWhile p) = []
  · rw [if_pos (by rw [h]; rfl)]
    have hall : ∀ c ∈ b.reverse, p c = true := List.dropWhile_eq_nil_iff.mp h
    rw [List.dropWhile_append_of_pos hall]
  · rw [if_neg (by simpa using h)]
    rw [List.dropWhile_append, if_neg (by simpa using h), List.reverse_append, List.reverse_reverse]

theorem rstripP_none {p : Char → Bool} {s : Str} (h : ∀ c ∈ s, p c = false) : rstripP p s = s := by
  unfold rstripP
  cases hs : s.reverse with
  | nil => rw [List.reverse_eq_nil_iff] at hs; subst hs; rfl
  | cons c r =>
    rw [List.dropWhile_cons, if_neg (by
      have : c ∈ s := by rw [← List.mem_reverse, hs]; simp
      rw [h c this]; decide), ← hs, List.reverse_reverse]

theorem rstripP_zeros (s : Str) : ∃ k, s = rstripP (· = '0') s ++ List.replicate k '0' := by
  refine ⟨(s.reverse.takeWhile (· = '0')).length, ?_⟩
  unfold rstripP
  have h : s.reverse.takeWhile (fun c => decide (c = '0')) = List.replicate (s.reverse.takeWhile (fun c => decide (c = '0'))).length '0' := by
    apply List.eq_replicate_of_mem
    intro c hc
    have := List.all_takeWhile (p := fun c => decide (c = '0')) (l := s.reverse)
    simpa using List.all_eq_true.mp this c hc
  conv => lhs; rw [← List.reverse_reverse s, ← List.takeWhile_append_dropWhile (p := fun c => decide (c = '0')) (l := s.reverse), List.reverse_append, h,
    List.reverse_replicate]

theorem rstripP_sub (p : Char → Bool) (s : Str) : ∀ c ∈ rstripP p s, c ∈ s := by
  intro c hc
  unfold rstripP at hc
  rw [List.mem_reverse] at hc
  exact List.mem_reverse.mp ((List.dropWhile_suffix p).subset hc)

theorem ofDigitChars_zeros_right (s : Str) (k n : Nat) : Nat.ofDigitChars 10 (s ++ List.replicate k '0') n = Nat.ofDigitChars 10 s n * 10 ^ k := by
  induction k with
  | zero => simp
  | succ k ih =>
    rw [List.replicate_succ', ← List.append_assoc]
    unfold Nat.ofDigitChars at ih ⊢
    rw [List.foldl_append, ih]
    simp [pow_succ]
    ring

theorem ofDigitChars_drop_zeros (s : Str) : Nat.ofDigitChars 10 (s.dropWhile (· = '0')) 0 = Nat.ofDigitChars 10 s 0 := by
  induction s with
  | nil => rfl
  | cons c s ih =>
    rw [List.dropWhile_cons]
    by_cases h : c = '0'
    · subst h; rw [if_pos (by decide), ih]; simp [Nat.ofDigitChars]
    · rw [if_neg (by simpa using h)]

theorem digit_ne {c d : Char} (h : c.isDigit = true) (hd : d.isDigit = false) : c ≠ d := by
  rintro rfl; rw [h] at hd; cases hd

/-- the shape of `'%.pe' % x` -/
theorem fmte_shape (p : Nat) (hp : 0 < p) (x : K) : ∃ (neg : Bool) (d : Char) (ds : Str) (e : Int), d.isDigit = true ∧ (∀ c ∈ ds, c.isDigit = true) ∧
    ds.length = p ∧ fmte p x = (if neg then ['-'] else []) ++ d :: '.' :: (ds ++ 'e' :: expStr e) ∧
    roundSig p x = decimalValue neg [d] ds e := by
  have hmap : ∀ (s : Str), (∀ c ∈ s, c ≠ 'E') → s.map (fun c => if c = 'E' then 'e' else c) = s := by
    intro s hs
    conv => rhs; rw [← List.map_id s]
    apply List.map_congr_left
    intro c hc
    rw [if_neg (hs c hc)]; rfl
  have hexp : ∀ e : Int, (expStr e).map (fun c => if c = 'E' then 'e' else c) = expStr e := by
    intro e
    apply hmap
    intro c hc
    unfold expStr at hc
    rcases List.mem_cons.mp hc with rfl | hc
    · split <;> decide
    · have hdig : c.isDigit = true := by
        split at hc
        · rcases List.mem_cons.mp hc with rfl | hc
          · decide
          · exact strNat_isDigit hc
        · exact strNat_isDigit hc
      exact digit_ne hdig (by decide)
  have hneg : ∀ b : Bool, ((if b then ['-'] else []) : Str).map (fun c => if c = 'E' then 'e' else c) = if b then ['-'] else [] := by decide
  have key : ∀ (neg : Bool) (s : Str) (e : Int), (∀ c ∈ s, c.isDigit = true) → s.length = p + 1 →
      fmtE p x = (if neg then ['-'] else []) ++ (pointed s ++ 'E' :: expStr e) →
      roundSig p x = (if neg then -1 else 1) * ((Nat.ofDigitChars 10 s 0 : Nat) : K) * (10 : K) ^ (e - (p : Int)) →
      ∃ (neg : Bool) (d : Char) (ds : Str) (e : Int), d.isDigit = true ∧ (∀ c ∈ ds, c.isDigit = true) ∧
        ds.length = p ∧ fmte p x = (if neg then ['-'] else []) ++ d :: '.' :: (ds ++ 'e' :: expStr e) ∧
        roundSig p x = decimalValue neg [d] ds e := by
    intro neg s e hd hl hf hr
    cases s with
    | nil => simp at hl
    | cons d ds =>
      have hl' : ds.length = p := by simpa using hl
      have hne : ds ≠ [] := by intro h; rw [h] at hl'; simp at hl'; omega
      refine ⟨neg, d, ds, e, hd d (by simp), fun c hc => hd c (by simp [hc]), hl', ?_, ?_⟩
      · unfold fmte
        rw [hf]
        have hpt : pointed (d :: ds) = d :: '.' :: ds := by
          unfold pointed; dsimp only; rw [if_neg (by simpa using hne)]
        rw [hpt, List.map_append, hneg, List.map_append, List.map_cons (a := 'E'), hexp, hmap]
        · simp
        · intro c hc
          rcases List.mem_cons.mp hc with rfl | hc
          · exact digit_ne (hd c (by simp)) (by decide)
          · rcases List.mem_cons.mp hc with rfl | hc
            · decide
            · exact digit_ne (hd c (by simp [hc])) (by decide)
      · rw [hr, decimalValue, hl']; rfl
  by_cases h0 : x = 0
  · subst h0
    refine key false (List.replicate (p + 1) '0') 0 (replicate_zero_digit _) (by simp) ?_ ?_
    · unfold fmtE; rw [if_neg (lt_irrefl _), if_pos rfl]; rfl
    · rw [roundSig_zero, ofDigitChars_zeros]; simp
  · have hpos : 0 < |x| := abs_pos.mpr h0
    by_cases hx : x < 0
    · refine key true (strNat (sci p |x|).1) (sci p |x|).2 (fun c hc => strNat_isDigit hc) (length_sci p hpos) ?_ ?_
      · unfold fmtE; rw [if_pos hx, if_neg h0]; rfl
      · unfold roundSig; rw [if_neg h0, if_pos hx]
        unfold strNat; rw [Nat.ofDigitChars_ten_toDigits]; rfl
    · refine key false (strNat (sci p |x|).1) (sci p |x|).2 (fun c hc => strNat_isDigit hc) (length_sci p hpos) ?_ ?_
      · unfold fmtE; rw [if_neg hx, if_neg h0]; rfl
      · unfold roundSig; rw [if_neg h0, if_neg hx]
        unfold strNat; rw [Nat.ofDigitChars_ten_toDigits]; rfl

theorem splitChar_none {ch : Char} {s : Str} (h : ch ∉ s) : splitChar ch s = [s] := by
  induction s with
  | nil => rfl
  | cons c s ih =>
    rw [splitChar, if_neg (by
      intro hc; apply h; rw [beq_iff_eq] at hc; simp [hc]), ih (fun h' => h (by simp [h']))]

theorem splitChar_append {ch : Char} {a b : Str} (h : ch ∉ a) : splitChar ch (a ++ ch :: b) = a :: splitChar ch b := by
  induction a with
  | nil => rw [List.nil_append, splitChar, if_pos (by simp)]
  | cons c a ih =>
    rw [List.cons_append, splitChar, if_neg (by
      intro hc; apply h; rw [beq_iff_eq] at hc; simp [hc]), ih (fun h' => h (by simp [h']))]

/-- the significand after removing zeros and the point -/
theorem significand (neg : Bool) (d : Char) (ds : Str) (hd : d.isDigit = true) (hds : ∀ c ∈ ds, c.isDigit = true) :
    rstripP (· = '.') (rstripP (· = '0') ((if neg then ['-'] else []) ++ d :: '.' :: ds)) =
      (if neg then ['-'] else []) ++ d :: (if rstripP (· = '0') ds = [] then [] else '.' :: rstripP (· = '0') ds) := by
  have hsplit : (if neg then ['-'] else []) ++ d :: '.' :: ds = ((if neg then ['-'] else []) ++ [d]) ++ (['.'] ++ ds) := by simp
  have hnz : ∀ c ∈ (if neg then ['-'] else []) ++ [d], (fun c => decide (c = '.')) c = false := by
    intro c hc
    rcases List.mem_append.mp hc with hc | hc
    · cases neg
      · cases hc
      · obtain rfl := List.mem_singleton.mp hc; decide
    · obtain rfl := List.mem_singleton.mp hc
      simpa using digit_ne hd (by decide)
  rw [hsplit, rstripP_append, rstripP_append]
  by_cases h : rstripP (fun c => decide (c = '0')) ds = []
  · rw [if_pos h, if_pos h]
    have h1 : rstripP (fun c => decide (c = '0')) ['.'] = ['.'] := by decide
    rw [h1, if_neg (by simp), rstripP_append]
    have h2 : rstripP (fun c => decide (c = '.')) ['.'] = [] := by decide
    rw [if_pos h2, rstripP_none hnz]
  · rw [if_neg h, if_neg h, if_neg (by simp)]
    have h3 : rstripP (fun c => decide (c = '.')) (rstripP (fun c => decide (c = '0')) ds) = rstripP (fun c => decide (c = '0')) ds := by
      apply rstripP_none
      intro c hc
      simpa using digit_ne (hds c (rstripP_sub _ _ c hc)) (by decide)
    rw [rstripP_append, rstripP_append, h3, if_neg h, if_neg (by simp)]
    simp

theorem notWs_digit {c : Char} (h : c.isDigit = true) : isWs c = false :=
  numChar_not_ws (by unfold numChar; rw [h]; rfl)

theorem strip_id {s : Str} (h : ∀ c ∈ s, isWs c = false) : strip s = s := by
  have := strip_rjust (w := 0) h
  unfold rjust at this
  rwa [Nat.zero_sub, List.replicate_zero, List.nil_append] at this

/-- reading a sign, digits, and possibly a point with digits -/
theorem floatStr_plain (neg : Bool) (ip fp : Str) (hi : ip ≠ []) (hip : ∀ c ∈ ip, c.isDigit = true) (hfp : ∀ c ∈ fp, c.isDigit = true) :
    floatStr ((if neg then ['-'] else []) ++ (ip ++ (if fp = [] then [] else '.' :: fp))) = some (decimalValue (K := K) neg ip fp 0) := by
  have hws : ∀ c ∈ (if neg then ['-'] else []) ++ (ip ++ (if fp = [] then [] else '.' :: fp)), isWs c = false := by
    intro c hc
    rcases List.mem_append.mp hc with hc | hc
    · cases neg
      · cases hc
      · obtain rfl := List.mem_singleton.mp hc; decide
    · rcases List.mem_append.mp hc with hc | hc
      · exact notWs_digit (hip c hc)
      · split at hc
        · cases hc
        · rcases List.mem_cons.mp hc with rfl | hc
          · decide
          · exact notWs_digit (hfp c hc)
  unfold floatStr
  rw [strip_id hws]
  have hsg : takeSign ((if neg then ['-'] else []) ++ (ip ++ (if fp = [] then [] else '.' :: fp))) = (neg, ip ++ (if fp = [] then [] else '.' :: fp)) := by
    cases neg
    · cases ip with
      | nil => exact absurd rfl hi
      | cons c r => exact takeSign_digit _ (hip c (by simp))
    · rfl
  rw [hsg]
  dsimp only
  by_cases hf : fp = []
  · subst hf
    rw [if_pos rfl, List.append_nil, Path.takeWhile_all hip, Path.dropWhile_all hip, if_neg (by simp [hi])]
    rfl
  · rw [if_neg hf, Path.takeWhile_append_stop hip (by decide), Path.dropWhile_append_stop hip (by decide)]
    have e3 : fracPart ('.' :: fp) = (fp, []) := by
      unfold fracPart; dsimp only; rw [if_pos rfl, Path.takeWhile_all hfp, Path.dropWhile_all hfp]
    rw [e3, if_neg (by simp [hi])]
    rfl

theorem decimal_zeros (neg : Bool) (ip ds : Str) (k : Nat) (e : Int) :
    decimalValue (K := K) neg ip (ds ++ List.replicate k '0') e = decimalValue neg ip ds 0 * (10 : K) ^ e := by
  unfold decimalValue
  rw [← List.append_assoc, ofDigitChars_zeros_right, List.length_append, List.length_replicate]
  push_cast
  rw [show (e - ((ds.length : Int) + (k : Int))) = (0 - (ds.length : Int)) + e + (-(k : Int)) by ring,
    zpow_add₀ (by norm_num), zpow_add₀ (by norm_num), zpow_neg, zpow_natCast]
  have : (10 : K) ^ k ≠ 0 := by positivity
  field_simp

theorem readPow_spec (e : Int) (t : Str) (ht : t ≠ []) (hd : ∀ c ∈ t, c.isDigit = true) (hv : Nat.ofDigitChars 10 t 0 = e.natAbs) :
    readPow ((if e < 0 then ['-'] else []) ++ t ++ c!"}") = some ((10 : K) ^ e) := by
  unfold readPow
  have h1 : ((if e < 0 then ['-'] else []) ++ t ++ c!"}").getLast? = some '}' := by
    rw [List.getLast?_append]; rfl
  have h2 : ((if e < 0 then ['-'] else []) ++ t ++ c!"}").dropLast = (if e < 0 then ['-'] else []) ++ t := by
    change ((if e < 0 then ['-'] else []) ++ t ++ ['}']).dropLast = _
    rw [List.dropLast_concat]
  rw [if_pos h1, h2]
  have hi : intStr t = some e.natAbs := by
    unfold intStr; rw [if_pos ⟨ht, List.all_eq_true.mpr hd⟩, hv]
  by_cases h : e < 0
  · rw [if_pos h]
    change Option.map _ (intStr t) = _
    rw [hi, Option.map_some]
    simp only [List.cons_append, List.nil_append, takeSign_minus, if_true]
    congr 1
    rw [← zpow_natCast, ← zpow_neg]
    congr 1; omega
  · rw [if_neg h, List.nil_append]
    have : takeSign t = (false, t) := by
      cases t with
      | nil => exact absurd rfl ht
      | cons c r => exact takeSign_digit _ (hd c (by simp))
    rw [this, hi, Option.map_some]
    simp only [Bool.false_eq_true, if_false]
    congr 1
    rw [← zpow_natCast]
    congr 1; omega

/-- **C217**: a label is the number rounded to eleven digits: read as a number, as a power of ten or as their product, it gives that number -/
theorem readLabel_sci (p : Nat) (hp : 0 < p) (x : K) : readLabel (sciNotation (fmte p x)) = some (roundSig p x) := by
  obtain ⟨neg, d, ds, e, hd, hds, hlen, hf, hr⟩ := fmte_shape p hp x
  have he : 'e' ∉ (if neg then ['-'] else []) ++ d :: '.' :: ds := by
    intro h
    rcases List.mem_append.mp h with h | h
    · cases neg
      · cases h
      · obtain h := List.mem_singleton.mp h; revert h; decide
    · rcases List.mem_cons.mp h with h | h
      · subst h; revert hd; decide
      · rcases List.mem_cons.mp h with h | h
        · revert h; decide
        · have := hds _ h; revert this; decide
  -- digits of the exponent
  obtain ⟨ed, hed⟩ : ∃ ed, ed = (if e.natAbs < 10 then '0' :: strNat e.natAbs else strNat e.natAbs) := ⟨_, rfl⟩
  have hxs : expStr e = (if e < 0 then '-' else '+') :: ed := by rw [hed]; rfl
  have hedd : ∀ c ∈ ed, c.isDigit = true := by
    intro c hc
    rw [hed] at hc
    split at hc
    · rcases List.mem_cons.mp hc with rfl | hc
      · decide
      · exact strNat_isDigit hc
    · exact strNat_isDigit hc
  have hedv : Nat.ofDigitChars 10 ed 0 = e.natAbs := by
    rw [hed]
    split
    · have : Nat.ofDigitChars 10 ('0' :: strNat e.natAbs) 0 = Nat.ofDigitChars 10 (strNat e.natAbs) 0 := by simp [Nat.ofDigitChars]
      rw [this]; unfold strNat; rw [Nat.ofDigitChars_ten_toDigits]
    · unfold strNat; rw [Nat.ofDigitChars_ten_toDigits]
  have hne : 'e' ∉ expStr e := by
    rw [hxs]
    intro h
    rcases List.mem_cons.mp h with h | h
    · split at h <;> revert h <;> decide
    · have := hedd _ h; revert this; decide
  have hsp : splitChar 'e' (fmte p x) = [(if neg then ['-'] else []) ++ d :: '.' :: ds, expStr e] := by
    rw [hf, show (if neg then ['-'] else []) ++ d :: '.' :: (ds ++ 'e' :: expStr e) = ((if neg then ['-'] else []) ++ d :: '.' :: ds) ++ 'e' :: expStr e by simp,
      splitChar_append he, splitChar_none hne]
  -- the significand
  obtain ⟨S, hS⟩ : ∃ S, S = (if neg then ['-'] else []) ++ d :: (if rstripP (· = '0') ds = [] then [] else '.' :: rstripP (· = '0') ds) := ⟨_, rfl⟩
  have hSv : floatStr S = some (decimalValue (K := K) neg [d] (rstripP (· = '0') ds) 0) := by
    rw [hS]
    exact floatStr_plain neg [d] _ (by simp) (by simpa using hd) (fun c hc => hds c (rstripP_sub _ _ c hc))
  have hval : roundSig p x = decimalValue (K := K) neg [d] (rstripP (· = '0') ds) 0 * (10 : K) ^ e := by
    rw [hr]
    obtain ⟨k, hk⟩ := rstripP_zeros ds
    conv => lhs; rw [hk]
    exact decimal_zeros _ _ _ _ _
  have hSne : S ≠ [] := by rw [hS]; cases neg <;> simp
  have hSc : ∀ c ∈ S, c ≠ '{' ∧ c ≠ '^' := by
    intro c hc
    rw [hS] at hc
    rcases List.mem_append.mp hc with hc | hc
    · cases neg
      · cases hc
      · obtain rfl := List.mem_singleton.mp hc; decide
    · rcases List.mem_cons.mp hc with rfl | hc
      · exact ⟨digit_ne hd (by decide), digit_ne hd (by decide)⟩
      · split at hc
        · cases hc
        · rcases List.mem_cons.mp hc with rfl | hc
          · decide
          · have := hds c (rstripP_sub _ _ c hc)
            exact ⟨digit_ne this (by decide), digit_ne this (by decide)⟩
  unfold sciNotation
  rw [hsp, hxs]
  simp only [significand neg d ds hd hds]
  rw [← hS]
  obtain ⟨t, ht⟩ : ∃ t, t = ed.dropWhile (fun c => decide (c = '0')) := ⟨_, rfl⟩
  have htd : ∀ c ∈ t, c.isDigit = true := fun c hc => hedd c ((List.dropWhile_suffix _).subset (ht ▸ hc))
  have htv : Nat.ofDigitChars 10 t 0 = e.natAbs := by rw [ht, ofDigitChars_drop_zeros, hedv]
  rw [← ht]
  have hsign : (if (if e < 0 then '-' else '+') = '+' then ([] : Str) else [if e < 0 then '-' else '+']) = if e < 0 then ['-'] else [] := by
    by_cases h : e < 0
    · rw [if_pos h, if_pos h, if_neg (by decide)]
    · rw [if_neg h, if_neg h, if_pos rfl]
  rw [hsign]
  have hplain : ∀ s : Str, (∀ c ∈ s, c ≠ '{' ∧ c ≠ '^') → readLabel (K := K) s = floatStr s := by
    intro s hs
    unfold readLabel
    rw [if_neg (by
      intro h
      obtain ⟨r, hr⟩ := startsWith_iff.mp h
      have : '{' ∈ s := by rw [hr]; exact List.mem_append_left _ (by decide)
      exact (hs _ this).1 rfl), if_neg (fun h => (hs _ h).1 rfl)]
  by_cases ht0 : t = []
  · have he0 : e = 0 := by
      rw [ht0] at htv
      have : Nat.ofDigitChars 10 [] 0 = 0 := rfl
      rw [this] at htv; omega
    have hI : (if S = c!"1" ∧ t ≠ [] then [] else S) = S := if_neg (fun h => h.2 ht0)
    rw [hI, if_pos ht0, if_neg (fun h => h.2 rfl), List.append_nil, hplain S hSc, hSv, hval, he0, zpow_zero, mul_one]
  · rw [if_neg ht0]
    have hexn : c!"10^{" ++ (if e < 0 then ['-'] else []) ++ t ++ c!"}" ≠ [] := by
      rw [List.append_assoc, List.append_assoc]; exact List.cons_ne_nil _ _
    have hassoc : c!"10^{" ++ (if e < 0 then ['-'] else []) ++ t ++ c!"}" = c!"10^{" ++ ((if e < 0 then ['-'] else []) ++ t ++ c!"}") := by
      simp only [List.append_assoc]
    by_cases h1 : S = c!"1"
    · have hI : (if S = c!"1" ∧ t ≠ [] then [] else S) = [] := if_pos ⟨h1, ht0⟩
      rw [hI, if_neg (fun h => h.1 rfl), List.nil_append, hassoc]
      unfold readLabel
      rw [if_pos (startsWith_iff.mpr ⟨_, rfl⟩)]
      change readPow ((if e < 0 then ['-'] else []) ++ t ++ c!"}") = _
      rw [readPow_spec e t ht0 htd htv, hval]
      have hone : (floatStr c!"1" : Option K) = some 1 := by
        have := floatStr_plain (K := K) false c!"1" [] (by decide) (by decide) (by decide)
        have h1' : decimalValue (K := K) false c!"1" [] 0 = 1 := by
          unfold decimalValue
          have : Nat.ofDigitChars 10 (c!"1" ++ []) 0 = 1 := by decide
          rw [this]; simp
        rw [h1'] at this
        exact this
      rw [h1, hone] at hSv
      injection hSv with hSv
      rw [← hSv, one_mul]
    · have hI : (if S = c!"1" ∧ t ≠ [] then [] else S) = S := if_neg (fun h => h1 h.1)
      rw [hI, if_pos ⟨hSne, hexn⟩, hassoc]
      have hbig : S ++ c!"{\\times}" ++ (c!"10^{" ++ ((if e < 0 then ['-'] else []) ++ t ++ c!"}")) =
          S ++ '{' :: (c!"\\times}10^{" ++ ((if e < 0 then ['-'] else []) ++ t ++ c!"}")) := by
        rw [List.append_assoc]; rfl
      rw [hbig]
      have hSc' : ∀ c ∈ S, decide (c ≠ '{') = true := fun c hc => by simpa using (hSc c hc).1
      unfold readLabel
      rw [if_neg (by
        intro h
        obtain ⟨r, hr⟩ := startsWith_iff.mp h
        -- the third character of the label would be a caret before the first brace
        have h3 : ∀ (S : Str), (∀ c ∈ S, c ≠ '{' ∧ c ≠ '^') → ∀ rest : Str, S ++ '{' :: rest = c!"10^{" ++ r → False := by
          intro S hS rest hh
          match S, hS, hh with
          | [], _, hh => injection hh with h1 _; revert h1; decide
          | [a], _, hh => injection hh with _ hh; injection hh with h1 _; revert h1; decide
          | [a, b], _, hh =>
            injection hh with _ hh; injection hh with _ hh; injection hh with h1 _; revert h1; decide
          | a :: b :: c :: rest', hS, hh =>
            injection hh with _ hh; injection hh with _ hh; injection hh with h1 _
            exact (hS c (by simp)).2 h1
        exact h3 S hSc _ hr), if_pos (by simp)]
      rw [Path.takeWhile_append_stop hSc' (by decide), Path.dropWhile_append_stop hSc' (by decide), if_pos (show startsWith c!"{\\times}10^{" ('{' :: (c!"\\times}10^{" ++ ((if e < 0 then ['-'] else []) ++ t ++ c!"}"))) = true from startsWith_iff.mpr ⟨(if e < 0 then ['-'] else []) ++ t ++ c!"}", rfl⟩), hSv]
      change (match (some (decimalValue (K := K) neg [d] (rstripP (· = '0') ds) 0)), (readPow ((if e < 0 then ['-'] else []) ++ t ++ c!"}") : Option K) with
        | some v, some w => some (v * w) | _, _ => none) = _
      rw [readPow_spec e t ht0 htd htv, hval]

/-- **C217**: two values have the same label only if they agree to eleven digits, and a value is within half a unit of the eleventh digit of
its label -/
theorem label_faithful (x y : K) (h : label x = label y) : roundSig 10 x = roundSig 10 y ∧
    |roundSig 10 x - x| ≤ |x| / (2 * 10 ^ 10) := by
  unfold label at h
  have h' : sciNotation (fmte 10 x) = sciNotation (fmte 10 y) := by
    have := List.append_cancel_right h
    exact List.append_cancel_left this
  have hx := readLabel_sci 10 (by decide) x
  rw [h', readLabel_sci 10 (by decide) y] at hx
  injection hx with hx
  exact ⟨hx.symm, roundSig_error 10 x⟩

example : label (-(125 : ℚ) / 1000000) = c!"$-1.25{\\times}10^{-4}$" ∧ label (100000 : ℚ) = c!"$10^{5}$" ∧ label (0 : ℚ) = c!"$0$" ∧ label (1 : ℚ) = c!"$1$" := by
  decide +kernel

end Labels
/-! ## Floats in YAML files -/

section Match

theorem m_add {r q : Re} {s : Str} : s ∈ (r + q).matches' ↔ s ∈ r.matches' ∨ s ∈ q.matches' := by
  rw [RegularExpression.matches'_add, Language.mem_add]

theorem m_mul {r q : Re} {s : Str} : s ∈ (r * q).matches' ↔ ∃ a ∈ r.matches', ∃ b ∈ q.matches', a ++ b = s := by
  rw [RegularExpression.matches'_mul, Language.mem_mul]

theorem m_char {c : Char} {s : Str} : s ∈ (RegularExpression.char c).matches' ↔ s = [c] := by
  rw [RegularExpression.matches'_char]; exact Iff.rfl

theorem m_one {s : Str} : s ∈ (1 : Re).matches' ↔ s = [] := by
  rw [RegularExpression.matches'_epsilon, Language.mem_one]

theorem m_opt {r : Re} {s : Str} : s ∈ (opt r).matches' ↔ s ∈ r.matches' ∨ s = [] := by
  unfold opt; rw [m_add, m_one]

theorem m_cls {l : List Char} {s : Str} : s ∈ (cls l).matches' ↔ ∃ c ∈ l, s = [c] := by
  induction l with
  | nil => rw [cls]; constructor
           · intro h; exact absurd h (by rw [RegularExpression.matches'_zero]; exact Language.notMem_zero _)
           · rintro ⟨c, hc, _⟩; cases hc
  | cons a l ih => rw [cls, m_add, m_char, ih]; simp

theorem m_star {r : Re} {s : Str} : s ∈ r.star.matches' ↔ ∃ L : List Str, s = L.flatten ∧ ∀ y ∈ L, y ∈ r.matches' := by
  rw [RegularExpression.matches'_star, Language.mem_kstar]

theorem m_star_cls {l : List Char} {s : Str} : s ∈ (cls l).star.matches' ↔ ∀ c ∈ s, c ∈ l := by
  rw [m_star]
  constructor
  · rintro ⟨L, rfl, h⟩ c hc
    obtain ⟨y, hy, hcy⟩ := List.mem_flatten.mp hc
    obtain ⟨d, hd, rfl⟩ := m_cls.mp (h y hy)
    rw [List.mem_singleton.mp hcy]; exact hd
  · intro h
    refine ⟨s.map (fun c => [c]), ?_, ?_⟩
    · induction s with
      | nil => rfl
      | cons c s ih => rw [List.map_cons, List.flatten_cons, ← ih (fun d hd => h d (by simp [hd]))]; rfl
    · intro y hy
      obtain ⟨c, hc, rfl⟩ := List.mem_map.mp hy
      exact m_cls.mpr ⟨c, h c hc, rfl⟩

theorem m_many1_cls {l : List Char} {s : Str} : s ∈ (many1 (cls l)).matches' ↔ s ≠ [] ∧ ∀ c ∈ s, c ∈ l := by
  unfold many1
  rw [m_mul]
  constructor
  · rintro ⟨a, ha, b, hb, rfl⟩
    obtain ⟨c, hc, rfl⟩ := m_cls.mp ha
    refine ⟨by simp, ?_⟩
    intro d hd
    rcases List.mem_append.mp hd with hd | hd
    · rw [List.mem_singleton.mp hd]; exact hc
    · exact m_star_cls.mp hb d hd
  · rintro ⟨hne, h⟩
    cases s with
    | nil => exact absurd rfl hne
    | cons c s => exact ⟨[c], m_cls.mpr ⟨c, h c (by simp), rfl⟩, s, m_star_cls.mpr (fun d hd => h d (by simp [hd])), rfl⟩

theorem m_lit {w s : Str} : s ∈ (lit w).matches' ↔ s = w := by
  induction w generalizing s with
  | nil => exact m_one
  | cons c w ih =>
    rw [lit, m_mul]
    constructor
    · rintro ⟨a, ha, b, hb, rfl⟩; rw [m_char.mp ha, ih.mp hb]; rfl
    · rintro rfl; exact ⟨[c], m_char.mpr rfl, w, ih.mpr rfl, rfl⟩

/-- a sign or nothing -/
def Sgn (sg : Str) : Prop := sg = [] ∨ sg = ['-'] ∨ sg = ['+']

theorem m_sgn {s : Str} : s ∈ sgn.matches' ↔ Sgn s := by
  unfold sgn Sgn
  rw [m_opt, m_cls]
  constructor
  · rintro (⟨c, hc, rfl⟩ | rfl)
    · rcases List.mem_cons.mp hc with rfl | hc
      · exact .inr (.inl rfl)
      · rw [List.mem_singleton.mp hc]; exact .inr (.inr rfl)
    · exact .inl rfl
  · rintro (rfl | rfl | rfl)
    · exact .inr rfl
    · exact .inl ⟨'-', by simp, rfl⟩
    · exact .inl ⟨'+', by simp, rfl⟩

theorem m_whole {s : Str} : s ∈ whole.matches' ↔ ∃ d w, s = d :: w ∧ d ∈ dig ∧ ∀ c ∈ w, c ∈ dig_ := by
  unfold whole
  rw [m_mul]
  constructor
  · rintro ⟨a, ha, b, hb, rfl⟩
    obtain ⟨c, hc, rfl⟩ := m_cls.mp ha
    exact ⟨c, b, rfl, hc, m_star_cls.mp hb⟩
  · rintro ⟨d, w, rfl, hd, hw⟩
    exact ⟨[d], m_cls.mpr ⟨d, hd, rfl⟩, w, m_star_cls.mpr hw, rfl⟩

/-- an exponent: a letter, a sign or nothing, digits -/
def Exp (s : Str) : Prop := ∃ l sg ds, s = l :: (sg ++ ds) ∧ (l = 'e' ∨ l = 'E') ∧ Sgn sg ∧ ds ≠ [] ∧ ∀ c ∈ ds, c ∈ dig

theorem m_expo {s : Str} : s ∈ expo.matches' ↔ Exp s := by
  unfold expo
  rw [m_mul]
  constructor
  · rintro ⟨a, ha, b, hb, rfl⟩
    obtain ⟨c, hc, rfl⟩ := m_cls.mp ha
    obtain ⟨sg, hsg, ds, hds, rfl⟩ := m_mul.mp hb
    obtain ⟨h1, h2⟩ := m_many1_cls.mp hds
    exact ⟨c, sg, ds, rfl, by simpa using hc, m_sgn.mp hsg, h1, h2⟩
  · rintro ⟨l, sg, ds, rfl, hl, hsg, h1, h2⟩
    exact ⟨[l], m_cls.mpr ⟨l, by simpa using hl, rfl⟩, sg ++ ds, m_mul.mpr ⟨sg, m_sgn.mpr hsg, ds, m_many1_cls.mpr ⟨h1, h2⟩, rfl⟩, rfl⟩

theorem m_alt1 {s : Str} : s ∈ alt1.matches' ↔ ∃ sg d w fp ex, s = sg ++ (d :: w) ++ '.' :: (fp ++ ex) ∧ Sgn sg ∧ d ∈ dig ∧ (∀ c ∈ w, c ∈ dig_) ∧
    (∀ c ∈ fp, c ∈ dig_) ∧ (Exp ex ∨ ex = []) := by
  unfold alt1
  constructor
  · intro h
    obtain ⟨sg, hsg, r1, hr1, rfl⟩ := m_mul.mp h
    obtain ⟨w, hw, r2, hr2, rfl⟩ := m_mul.mp hr1
    obtain ⟨p, hp, r3, hr3, rfl⟩ := m_mul.mp hr2
    obtain ⟨fp, hfp, ex, hex, rfl⟩ := m_mul.mp hr3
    obtain ⟨d, w, rfl, hd, hw⟩ := m_whole.mp hw
    rw [m_char.mp hp]
    exact ⟨sg, d, w, fp, ex, by simp, m_sgn.mp hsg, hd, hw, m_star_cls.mp hfp, (m_opt.mp hex).imp m_expo.mp id⟩
  · rintro ⟨sg, d, w, fp, ex, rfl, hsg, hd, hw, hfp, hex⟩
    exact m_mul.mpr ⟨sg, m_sgn.mpr hsg, _, m_mul.mpr ⟨d :: w, m_whole.mpr ⟨d, w, rfl, hd, hw⟩, _, m_mul.mpr ⟨['.'], m_char.mpr rfl, _,
      m_mul.mpr ⟨fp, m_star_cls.mpr hfp, ex, m_opt.mpr (hex.imp m_expo.mpr id), rfl⟩, rfl⟩, rfl⟩, by simp⟩

theorem m_alt2 {s : Str} : s ∈ alt2.matches' ↔ ∃ sg d w ex, s = sg ++ (d :: w) ++ ex ∧ Sgn sg ∧ d ∈ dig ∧ (∀ c ∈ w, c ∈ dig_) ∧ Exp ex := by
  unfold alt2
  constructor
  · intro h
    obtain ⟨sg, hsg, r4, hr4, rfl⟩ := m_mul.mp h
    obtain ⟨w, hw, ex, hex, rfl⟩ := m_mul.mp hr4
    obtain ⟨d, w, rfl, hd, hw⟩ := m_whole.mp hw
    exact ⟨sg, d, w, ex, by simp, m_sgn.mp hsg, hd, hw, m_expo.mp hex⟩
  · rintro ⟨sg, d, w, ex, rfl, hsg, hd, hw, hex⟩
    exact m_mul.mpr ⟨sg, m_sgn.mpr hsg, _, m_mul.mpr ⟨d :: w, m_whole.mpr ⟨d, w, rfl, hd, hw⟩, ex, m_expo.mpr hex, rfl⟩, by simp⟩

/-- a text of the third kind -/
theorem m_alt3 {s : Str} (h : s ∈ alt3.matches') : ∃ u ex, s = '.' :: (u ++ ex) ∧ u ≠ [] ∧ (∀ c ∈ u, c ∈ dig_) ∧ (Exp ex ∨ ex = []) := by
  unfold alt3 at h
  obtain ⟨p, hp, r5, hr5, rfl⟩ := m_mul.mp h
  obtain ⟨u, hu, ex, hex, rfl⟩ := m_mul.mp hr5
  obtain ⟨h1, h2⟩ := m_many1_cls.mp hu
  rw [m_char.mp hp]
  refine ⟨u, ex, rfl, h1, h2, ?_⟩
  rcases m_opt.mp hex with hex | rfl
  · left
    obtain ⟨a, ha, r6, hr6, rfl⟩ := m_mul.mp hex
    obtain ⟨b, hb, ds, hds, rfl⟩ := m_mul.mp hr6
    obtain ⟨l, hl, rfl⟩ := m_cls.mp ha
    obtain ⟨c, hc, rfl⟩ := m_cls.mp hb
    obtain ⟨h3, h4⟩ := m_many1_cls.mp hds
    refine ⟨l, [c], ds, rfl, by simpa using hl, ?_, h3, h4⟩
    unfold Sgn
    rcases List.mem_cons.mp hc with rfl | hc
    · exact .inr (.inl rfl)
    · rw [List.mem_singleton.mp hc]; exact .inr (.inr rfl)
  · exact .inr rfl

/-- a text of the fourth kind: parts with colons -/
theorem m_alt4 {s : Str} (h : s ∈ alt4.matches') : ∃ sg d w L fp, s = sg ++ ((d :: w) ++ (L.flatten ++ '.' :: fp)) ∧ Sgn sg ∧ d ∈ dig ∧ (∀ c ∈ w, c ∈ dig_) ∧
    L ≠ [] ∧ (∀ y ∈ L, ∃ ds, y = ':' :: ds ∧ ds ≠ [] ∧ ∀ c ∈ ds, c ∈ dig) ∧ (∀ c ∈ fp, c ∈ dig_) := by
  unfold alt4 at h
  obtain ⟨sg, hsg, r7, hr7, rfl⟩ := m_mul.mp h
  obtain ⟨w, hw, r8, hr8, rfl⟩ := m_mul.mp hr7
  obtain ⟨d, w, rfl, hd, hw⟩ := m_whole.mp hw
  obtain ⟨q, hq, r9, hr9, rfl⟩ := m_mul.mp hr8
  obtain ⟨p, hp, fp, hfp, rfl⟩ := m_mul.mp hr9
  rw [m_char.mp hp]
  unfold many1 at hq
  obtain ⟨a, ha, b, hb, rfl⟩ := m_mul.mp hq
  obtain ⟨L, rfl, hL⟩ := m_star.mp hb
  refine ⟨sg, d, w, a :: L, fp, by simp, m_sgn.mp hsg, hd, hw, by simp, ?_, m_star_cls.mp hfp⟩
  have hall : ∀ y ∈ a :: L, y ∈ (RegularExpression.char ':' * (opt (cls ['0', '1', '2', '3', '4', '5']) * cls dig) : Re).matches' := by
    intro y hy
    rcases List.mem_cons.mp hy with rfl | hy
    · exact ha
    · exact hL y hy
  intro y hy
  obtain ⟨c, hc, r10, hr10, rfl⟩ := m_mul.mp (hall y hy)
  obtain ⟨o, ho, t, ht, rfl⟩ := m_mul.mp hr10
  obtain ⟨x, hx, rfl⟩ := m_cls.mp ht
  rw [m_char.mp hc]
  refine ⟨o ++ [x], rfl, by simp, ?_⟩
  intro z hz
  rcases List.mem_append.mp hz with hz | hz
  · rcases m_opt.mp ho with ho | rfl
    · obtain ⟨k, hk, rfl⟩ := m_cls.mp ho
      rw [List.mem_singleton.mp hz]
      exact (by decide : ∀ k ∈ ['0', '1', '2', '3', '4', '5'], k ∈ dig) k hk
    · cases hz
  · rw [List.mem_singleton.mp hz]; exact hx

theorem m_alt5 {s : Str} (h : s ∈ alt5.matches') : ∃ sg w, s = sg ++ '.' :: w ∧ Sgn sg ∧ (w = c!"inf" ∨ w = c!"Inf" ∨ w = c!"INF") := by
  unfold alt5 at h
  obtain ⟨sg, hsg, r11, hr11, rfl⟩ := m_mul.mp h
  obtain ⟨p, hp, w, hw, rfl⟩ := m_mul.mp hr11
  rw [m_char.mp hp]
  rw [m_add, m_add, m_lit, m_lit, m_lit] at hw
  exact ⟨sg, w, rfl, m_sgn.mp hsg, hw⟩

theorem m_alt6 {s : Str} (h : s ∈ alt6.matches') : ∃ w, s = '.' :: w ∧ (w = c!"nan" ∨ w = c!"NaN" ∨ w = c!"NAN") := by
  unfold alt6 at h
  obtain ⟨p, hp, w, hw, rfl⟩ := m_mul.mp h
  rw [m_char.mp hp]
  rw [m_add, m_add, m_lit, m_lit, m_lit] at hw
  exact ⟨w, rfl, hw⟩

theorem m_float {s : Str} : floatRe.rmatch s = true ↔ s ∈ alt1.matches' ∨ s ∈ alt2.matches' ∨ s ∈ alt3.matches' ∨ s ∈ alt4.matches' ∨ s ∈ alt5.matches' ∨ s ∈ alt6.matches' := by
  rw [RegularExpression.rmatch_iff_matches']
  unfold floatRe
  rw [m_add, m_add, m_add, m_add, m_add]

theorem sgn_first {sg r : Str} {c : Char} (h : Sgn sg) (hc : c ∈ firstChars) : ∃ d t, sg ++ c :: r = d :: t ∧ d ∈ firstChars := by
  rcases h with rfl | rfl | rfl
  · exact ⟨c, r, rfl, hc⟩
  · exact ⟨'-', c :: r, rfl, by decide⟩
  · exact ⟨'+', c :: r, rfl, by decide⟩

theorem dig_first : ∀ c ∈ dig, c ∈ firstChars := by decide

/-- **C217**: trying the expression only on texts with a certain first character loses nothing: every text that it matches has such a first character -/
theorem first_char (s : Str) : isFloat s = floatRe.rmatch s := by
  by_cases h : floatRe.rmatch s = true
  · have : ∃ d t, s = d :: t ∧ d ∈ firstChars := by
      rcases m_float.mp h with h | h | h | h | h | h
      · obtain ⟨sg, d, w, fp, ex, rfl, hsg, hd, _⟩ := m_alt1.mp h
        rw [List.append_assoc]; exact sgn_first hsg (dig_first d hd)
      · obtain ⟨sg, d, w, ex, rfl, hsg, hd, _⟩ := m_alt2.mp h
        rw [List.append_assoc]; exact sgn_first hsg (dig_first d hd)
      · obtain ⟨u, ex, rfl, _⟩ := m_alt3 h
        exact ⟨_, _, rfl, by decide⟩
      · obtain ⟨sg, d, w, L, fp, rfl, hsg, hd, _⟩ := m_alt4 h
        exact sgn_first hsg (dig_first d hd)
      · obtain ⟨sg, w, rfl, hsg, _⟩ := m_alt5 h
        exact sgn_first hsg (by decide)
      · obtain ⟨w, rfl, _⟩ := m_alt6 h
        exact ⟨_, _, rfl, by decide⟩
    obtain ⟨d, t, rfl, hd⟩ := this
    unfold isFloat
    dsimp only
    rw [h, Bool.and_true]
    exact List.contains_iff_mem.mpr hd
  · have h' := eq_false_of_ne_true h
    unfold isFloat
    split
    · exact h'.symm
    · rw [h', Bool.and_false]

/-- **C217**: whole numbers, signed or not, are not floats: they stay integers -/
theorem int_not_float (sg ds : Str) (hsg : Sgn sg) (hds : ∀ c ∈ ds, c.isDigit = true) : isFloat (sg ++ ds) = false := by
  rw [first_char]
  apply eq_false_of_ne_true
  intro h
  have hmem : ∀ c ∈ sg ++ ds, c ≠ '.' ∧ c ≠ 'e' ∧ c ≠ 'E' := by
    intro c hc
    rcases List.mem_append.mp hc with hc | hc
    · rcases hsg with rfl | rfl | rfl
      · cases hc
      · rw [List.mem_singleton.mp hc]; decide
      · rw [List.mem_singleton.mp hc]; decide
    · exact ⟨digit_ne (hds c hc) (by decide), digit_ne (hds c hc) (by decide), digit_ne (hds c hc) (by decide)⟩
  rcases m_float.mp h with h | h | h | h | h | h
  · obtain ⟨sg', d, w, fp, ex, he, _⟩ := m_alt1.mp h
    exact (hmem '.' (he ▸ by simp)).1 rfl
  · obtain ⟨sg', d, w, ex, he, _, _, _, l, s', d', rfl, hl, _⟩ := m_alt2.mp h
    have := hmem l (he ▸ by simp)
    rcases hl with rfl | rfl
    · exact this.2.1 rfl
    · exact this.2.2 rfl
  · obtain ⟨u, ex, he, _⟩ := m_alt3 h
    exact (hmem '.' (he ▸ by simp)).1 rfl
  · obtain ⟨sg, d, w, L, fp, he, _⟩ := m_alt4 h
    exact (hmem '.' (he ▸ by simp)).1 rfl
  · obtain ⟨sg, w, he, _⟩ := m_alt5 h
    exact (hmem '.' (he ▸ by simp)).1 rfl
  · obtain ⟨w, he, _⟩ := m_alt6 h
    exact (hmem '.' (he ▸ by simp)).1 rfl

end Match

section Vals
variable {K : Type} [Field K] [LinearOrder K] [IsStrictOrderedRing K] [FloorRing K]

/-- the text without underscores, in small letters -/
def norm (s : Str) : Str := (s.filter (· ≠ '_')).map Char.toLower

theorem norm_append (a b : Str) : norm (a ++ b) = norm a ++ norm b := by
  unfold norm; rw [List.filter_append, List.map_append]

theorem norm_digits {w : Str} (h : ∀ c ∈ w, c ∈ dig_) : (∀ c ∈ norm w, c.isDigit = true) ∧ norm w = w.filter (· ≠ '_') := by
  have key : ∀ c ∈ dig_, c ≠ '_' → c.toLower.isDigit = true ∧ c.toLower = c := by decide
  constructor
  · intro c hc
    obtain ⟨d, hd, rfl⟩ := List.mem_map.mp hc
    obtain ⟨h1, h2⟩ := List.mem_filter.mp hd
    exact (key d (h d h1) (by simpa using h2)).1
  · unfold norm
    conv => rhs; rw [← List.map_id (w.filter (· ≠ '_'))]
    apply List.map_congr_left
    intro d hd
    obtain ⟨h1, h2⟩ := List.mem_filter.mp hd
    exact (key d (h d h1) (by simpa using h2)).2

theorem dig_sub : ∀ c ∈ dig, c ∈ dig_ ∧ c ≠ '_' ∧ c.isDigit = true := by decide

theorem norm_dig {w : Str} (h : ∀ c ∈ w, c ∈ dig) : norm w = w := by
  rw [(norm_digits (fun c hc => (dig_sub c (h c hc)).1)).2]
  exact List.filter_eq_self.mpr (fun c hc => by simpa using (dig_sub c (h c hc)).2.1)

theorem norm_sgn {sg : Str} (h : Sgn sg) : norm sg = sg := by
  rcases h with rfl | rfl | rfl <;> decide

/-- the value of an exponent in small letters, or of no exponent -/
def ExpVal (ex : Str) (e : Int) : Prop := (ex = [] ∧ e = 0) ∨
  ∃ sg ds, ex = 'e' :: (sg ++ ds) ∧ Sgn sg ∧ ds ≠ [] ∧ (∀ c ∈ ds, c.isDigit = true) ∧
    e = (if sg = ['-'] then -1 else 1) * (Nat.ofDigitChars 10 ds 0 : Int)

theorem norm_exp {ex : Str} (h : Exp ex ∨ ex = []) : ∃ e, ExpVal (norm ex) e := by
  rcases h with ⟨l, sg, ds, rfl, hl, hsg, h1, h2⟩ | rfl
  · refine ⟨_, .inr ⟨sg, ds, ?_, hsg, h1, fun c hc => (dig_sub c (h2 c hc)).2.2, rfl⟩⟩
    have : l :: (sg ++ ds) = [l] ++ (sg ++ ds) := rfl
    rw [this, norm_append, norm_append, norm_sgn hsg, norm_dig h2]
    rcases hl with rfl | rfl <;> rfl
  · exact ⟨0, .inl ⟨rfl, rfl⟩⟩

theorem takeSign_sgn {sg : Str} (hsg : Sgn sg) {r : Str} (hr : ∀ c t, r = c :: t → c ≠ '-' ∧ c ≠ '+') : takeSign (sg ++ r) = (decide (sg = ['-']), r) := by
  rcases hsg with rfl | rfl | rfl
  · cases r with
    | nil => rfl
    | cons c t =>
      obtain ⟨h1, h2⟩ := hr c t rfl
      change takeSign (c :: t) = _
      unfold takeSign
      dsimp only
      rw [if_neg h1, if_neg h2]; rfl
  · rfl
  · rfl

theorem expVal_spec {ex : Str} {e : Int} (h : ExpVal ex e) : expPart ex = some e ∧ (∀ c ∈ ex, isWs c = false ∧ c ≠ 'i' ∧ c ≠ 'n' ∧ c ≠ ':') ∧
    ex.takeWhile Char.isDigit = [] ∧ ex.dropWhile Char.isDigit = ex ∧ fracPart ex = ([], ex) := by
  rcases h with ⟨rfl, rfl⟩ | ⟨sg, ds, rfl, hsg, h1, h2, rfl⟩
  · refine ⟨rfl, ?_, rfl, rfl, rfl⟩
    intro c hc; cases hc
  · refine ⟨?_, ?_, rfl, rfl, rfl⟩
    · have hts : takeSign (sg ++ ds) = (decide (sg = ['-']), ds) :=
        takeSign_sgn hsg (fun c t h => by
          have := h2 c (h ▸ by simp)
          exact ⟨digit_ne this (by decide), digit_ne this (by decide)⟩)
      have hi : intStr ds = some (Nat.ofDigitChars 10 ds 0) := by
        unfold intStr; rw [if_pos ⟨h1, List.all_eq_true.mpr h2⟩]
      unfold expPart
      dsimp only
      rw [if_pos (.inl rfl), hts, hi, Option.map_some]
      by_cases hs : sg = ['-']
      · simp [hs]
      · simp [hs]
    · intro c hc
      rcases List.mem_cons.mp hc with rfl | hc
      · decide
      · rcases List.mem_append.mp hc with hc | hc
        · rcases hsg with rfl | rfl | rfl
          · cases hc
          · rw [List.mem_singleton.mp hc]; decide
          · rw [List.mem_singleton.mp hc]; decide
        · exact ⟨notWs_digit (h2 c hc), digit_ne (h2 c hc) (by decide), digit_ne (h2 c hc) (by decide), digit_ne (h2 c hc) (by decide)⟩

/-- a text of digits, a point and digits, and an exponent -/
theorem float_point (ip fp ex : Str) (e : Int) (hip : ∀ c ∈ ip, c.isDigit = true) (hfp : ∀ c ∈ fp, c.isDigit = true) (he : ExpVal ex e) :
    (floatStr (ip ++ '.' :: (fp ++ ex)) : Option K) = if ip = [] ∧ fp = [] then none else some (decimalValue false ip fp e) := by
  obtain ⟨h1, h2, h3, h4, _⟩ := expVal_spec he
  have hws : ∀ c ∈ ip ++ '.' :: (fp ++ ex), isWs c = false := by
    intro c hc
    rcases List.mem_append.mp hc with hc | hc
    · exact notWs_digit (hip c hc)
    · rcases List.mem_cons.mp hc with rfl | hc
      · decide
      · rcases List.mem_append.mp hc with hc | hc
        · exact notWs_digit (hfp c hc)
        · exact (h2 c hc).1
  unfold floatStr
  rw [strip_id hws]
  have hsg : takeSign (ip ++ '.' :: (fp ++ ex)) = (false, ip ++ '.' :: (fp ++ ex)) := by
    cases ip with
    | nil => rfl
    | cons c r => exact takeSign_digit _ (hip c (by simp))
  rw [hsg]
  dsimp only
  rw [Path.takeWhile_append_stop hip (by decide), Path.dropWhile_append_stop hip (by decide)]
  have hfr : fracPart ('.' :: (fp ++ ex)) = (fp, ex) := by
    unfold fracPart
    dsimp only
    rw [if_pos rfl, List.takeWhile_append_of_pos hfp, List.dropWhile_append_of_pos hfp, h3, h4, List.append_nil]
  rw [hfr]
  dsimp only
  by_cases h : ip = [] ∧ fp = []
  · rw [if_pos h, if_pos h]
  · rw [if_neg h, if_neg h, h1, Option.map_some]

/-- a text of digits and an exponent, without point -/
theorem float_nopoint (ip ex : Str) (e : Int) (hi : ip ≠ []) (hip : ∀ c ∈ ip, c.isDigit = true) (he : ExpVal ex e) :
    (floatStr (ip ++ ex) : Option K) = some (decimalValue false ip [] e) := by
  obtain ⟨h1, h2, h3, h4, h5⟩ := expVal_spec he
  have hws : ∀ c ∈ ip ++ ex, isWs c = false := by
    intro c hc
    rcases List.mem_append.mp hc with hc | hc
    · exact notWs_digit (hip c hc)
    · exact (h2 c hc).1
  unfold floatStr
  rw [strip_id hws]
  have hsg : takeSign (ip ++ ex) = (false, ip ++ ex) := by
    cases ip with
    | nil => exact absurd rfl hi
    | cons c r => exact takeSign_digit _ (hip c (by simp))
  rw [hsg]
  dsimp only
  rw [List.takeWhile_append_of_pos hip, List.dropWhile_append_of_pos hip, h3, h4, List.append_nil, h5, if_neg (fun h => hi h.1), h1, Option.map_some]

/-- the sign of a number -/
def sgnVal (sg : Str) : K := if sg = ['-'] then -1 else 1

theorem construct_plain {s sg body : Str} (hs : norm s = sg ++ body) (hsg : Sgn sg) (hb : ∀ c t, body = c :: t → c ≠ '-' ∧ c ≠ '+')
    (hc : ∀ c ∈ body, c ≠ 'i' ∧ c ≠ 'n' ∧ c ≠ ':') :
    construct (K := K) s = match (floatStr body : Option K) with | none => .error | some x => .num (sgnVal sg * x) := by
  unfold construct
  change (let v0 := norm s; let v := (takeSign v0).2; let neg := (takeSign v0).1; let f : K := if neg then -1 else 1
          if v = c!".inf" then YVal.inf neg
          else if v = c!".nan" then .nan
          else if ':' ∈ v then match base60 (0 : K) (splitChar ':' v) with
            | none => .error
            | some x => .num (f * x)
          else match (floatStr v : Option K) with
            | none => .error
            | some x => .num (f * x)) = _
  dsimp only
  rw [hs, takeSign_sgn hsg hb]
  dsimp only
  rw [if_neg (by intro h; exact (hc 'i' (h ▸ by decide)).1 rfl), if_neg (by intro h; exact (hc 'n' (h ▸ by decide)).2.1 rfl),
    if_neg (fun h => (hc ':' h).2.2 rfl)]
  have : (if decide (sg = ['-']) = true then (-1 : K) else 1) = sgnVal sg := by
    unfold sgnVal
    by_cases h : sg = ['-'] <;> simp [h]
  rw [this]

theorem body_chars {ip fp ex : Str} {e : Int} (hip : ∀ c ∈ ip, c.isDigit = true) (hfp : ∀ c ∈ fp, c.isDigit = true) (he : ExpVal ex e) :
    (∀ c ∈ ip ++ '.' :: (fp ++ ex), c ≠ 'i' ∧ c ≠ 'n' ∧ c ≠ ':') ∧ (∀ c ∈ ip ++ ex, c ≠ 'i' ∧ c ≠ 'n' ∧ c ≠ ':') := by
  have hd : ∀ c : Char, c.isDigit = true → c ≠ 'i' ∧ c ≠ 'n' ∧ c ≠ ':' := fun c h =>
    ⟨digit_ne h (by decide), digit_ne h (by decide), digit_ne h (by decide)⟩
  constructor
  · intro c hc
    rcases List.mem_append.mp hc with hc | hc
    · exact hd c (hip c hc)
    · rcases List.mem_cons.mp hc with rfl | hc
      · decide
      · rcases List.mem_append.mp hc with hc | hc
        · exact hd c (hfp c hc)
        · exact ((expVal_spec he).2.1 c hc).2
  · intro c hc
    rcases List.mem_append.mp hc with hc | hc
    · exact hd c (hip c hc)
    · exact ((expVal_spec he).2.1 c hc).2

theorem nosign {ip r : Str} (hip : ∀ c ∈ ip, c.isDigit = true) (hr : ∀ c t, r = c :: t → c ≠ '-' ∧ c ≠ '+') : ∀ c t, ip ++ r = c :: t → c ≠ '-' ∧ c ≠ '+' := by
  intro c t h
  cases ip with
  | nil => exact hr c t h
  | cons d ip =>
    injection h with h1 h2
    subst h1
    have := hip d (by simp)
    exact ⟨digit_ne this (by decide), digit_ne this (by decide)⟩

theorem expVal_head {ex : Str} {e : Int} (he : ExpVal ex e) : ∀ c t, ex = c :: t → c ≠ '-' ∧ c ≠ '+' := by
  rintro c t rfl
  rcases he with ⟨h, _⟩ | ⟨sg, ds, h, _⟩
  · cases h
  · injection h with h _; subst h; decide

/-- **C217**: a decimal number with a point is a float, and its value is the number: sign, digits before and after the point, and the power of ten
of the exponent (with either letter, with or without sign) -/
theorem point_value (sg ip fp ex : Str) (e : Int) (hsg : Sgn sg) (hi : ip ≠ []) (hip : ∀ c ∈ ip, c ∈ dig) (hfp : ∀ c ∈ fp, c ∈ dig) (hex : Exp ex ∨ ex = [])
    (he : ExpVal (norm ex) e) : isFloat (sg ++ ip ++ '.' :: (fp ++ ex)) = true ∧
      construct (K := K) (sg ++ ip ++ '.' :: (fp ++ ex)) = .num (sgnVal sg * decimalValue false ip fp e) := by
  have hip' : ∀ c ∈ ip, c.isDigit = true := fun c hc => (dig_sub c (hip c hc)).2.2
  have hfp' : ∀ c ∈ fp, c.isDigit = true := fun c hc => (dig_sub c (hfp c hc)).2.2
  constructor
  · rw [first_char, m_float]
    left
    rw [m_alt1]
    cases ip with
    | nil => exact absurd rfl hi
    | cons d w =>
      exact ⟨sg, d, w, fp, ex, rfl, hsg, hip d (by simp), fun c hc => (dig_sub c (hip c (by simp [hc]))).1, fun c hc => (dig_sub c (hfp c hc)).1, hex⟩
  · have hn : norm (sg ++ ip ++ '.' :: (fp ++ ex)) = sg ++ (ip ++ '.' :: (fp ++ norm ex)) := by
      have : sg ++ ip ++ '.' :: (fp ++ ex) = sg ++ (ip ++ (['.'] ++ (fp ++ ex))) := by simp
      rw [this, norm_append, norm_append, norm_append, norm_append, norm_sgn hsg, norm_dig hip, norm_dig hfp]; rfl
    rw [construct_plain hn hsg (nosign hip' (by rintro c t h; injection h with h _; subst h; decide)) (body_chars hip' hfp' he).1,
      float_point ip fp (norm ex) e hip' hfp' he, if_neg (fun h => hi h.1)]

/-- **C217**: a whole number with an exponent is a float with the right value: `1e-5` needs no point, other than for PyYAML alone -/
theorem nopoint_value (sg ip ex : Str) (e : Int) (hsg : Sgn sg) (hi : ip ≠ []) (hip : ∀ c ∈ ip, c ∈ dig) (hex : Exp ex)
    (he : ExpVal (norm ex) e) : isFloat (sg ++ ip ++ ex) = true ∧
      construct (K := K) (sg ++ ip ++ ex) = .num (sgnVal sg * decimalValue false ip [] e) := by
  have hip' : ∀ c ∈ ip, c.isDigit = true := fun c hc => (dig_sub c (hip c hc)).2.2
  constructor
  · rw [first_char, m_float]
    right; left
    rw [m_alt2]
    cases ip with
    | nil => exact absurd rfl hi
    | cons d w => exact ⟨sg, d, w, ex, rfl, hsg, hip d (by simp), fun c hc => (dig_sub c (hip c (by simp [hc]))).1, hex⟩
  · have hn : norm (sg ++ ip ++ ex) = sg ++ (ip ++ norm ex) := by
      rw [List.append_assoc, norm_append, norm_append, norm_sgn hsg, norm_dig hip]
    rw [construct_plain hn hsg (nosign hip' (expVal_head he)) (body_chars (fp := []) hip' (by simp) he).2,
      float_nopoint ip (norm ex) e hi hip' he]

/-- the text of the fourth kind converts -/
theorem base60_ok : ∀ (L : List Str) (ip fp : Str) (v : K), ip ≠ [] → (∀ c ∈ ip, c.isDigit = true) → (∀ c ∈ fp, c.isDigit = true) →
    (∀ y ∈ L, ∃ ds, y = ':' :: ds ∧ ds ≠ [] ∧ ∀ c ∈ ds, c.isDigit = true) → ∃ x, base60 v (splitChar ':' (ip ++ (L.flatten ++ '.' :: fp))) = some x
  | [], ip, fp, v, hi, hip, hfp, _ => by
    rw [List.flatten_nil, List.nil_append, splitChar_none (by
      intro h
      rcases List.mem_append.mp h with h | h
      · have := hip _ h; revert this; decide
      · rcases List.mem_cons.mp h with h | h
        · revert h; decide
        · have := hfp _ h; revert this; decide)]
    have := float_point (K := K) ip fp [] 0 hip hfp (.inl ⟨rfl, rfl⟩)
    rw [List.append_nil, if_neg (fun h => hi h.1)] at this
    rw [base60, this]
    exact ⟨_, rfl⟩
  | y :: L, ip, fp, v, hi, hip, hfp, hL => by
    obtain ⟨ds, rfl, h1, h2⟩ := hL y (by simp)
    have : ip ++ (List.flatten ((':' :: ds) :: L) ++ '.' :: fp) = ip ++ ':' :: (ds ++ (L.flatten ++ '.' :: fp)) := by simp
    rw [this, splitChar_append (by intro h; have := hip _ h; revert this; decide)]
    have hf := float_nopoint (K := K) ip [] 0 hi hip (.inl ⟨rfl, rfl⟩)
    rw [List.append_nil] at hf
    rw [base60, hf]
    exact base60_ok L ds fp _ h1 h2 hfp (fun z hz => hL z (by simp [hz]))

/-- **C217**: when the conversion of a text that passes for a float fails: exactly for a point followed by underscores alone, with or without exponent;
all other texts that are taken for floats have a value -/
theorem construct_error_iff (s : Str) (hs : isFloat s = true) : construct (K := K) s = .error ↔
    ∃ u r, s = '.' :: (u ++ r) ∧ u ≠ [] ∧ (∀ c ∈ u, c = '_') ∧ (∀ c t, r = c :: t → c = 'e' ∨ c = 'E') := by
  rw [first_char] at hs
  have nodot : ∀ (sg r : Str) (d : Char), Sgn sg → d ≠ '.' → ∀ q, sg ++ d :: r ≠ '.' :: q := by
    intro sg r d hsg hd q h
    rcases hsg with rfl | rfl | rfl
    · injection h with h _; exact hd h
    · injection h with h _; revert h; decide
    · injection h with h _; revert h; decide
  have hdig : ∀ d ∈ dig, d ≠ '.' := by decide
  rcases m_float.mp hs with h | h | h | h | h | h
  · obtain ⟨sg, d, w, fp, ex, rfl, hsg, hd, hw, hfp, hex⟩ := m_alt1.mp h
    obtain ⟨e, he⟩ := norm_exp hex
    have hdw : ∀ c ∈ d :: w, c ∈ dig_ := by
      intro c hc
      rcases List.mem_cons.mp hc with rfl | hc
      · exact (dig_sub _ hd).1
      · exact hw c hc
    have hn : norm (sg ++ (d :: w) ++ '.' :: (fp ++ ex)) = sg ++ (norm (d :: w) ++ '.' :: (norm fp ++ norm ex)) := by
      have : sg ++ (d :: w) ++ '.' :: (fp ++ ex) = sg ++ ((d :: w) ++ (['.'] ++ (fp ++ ex))) := by simp
      rw [this, norm_append, norm_append, norm_append, norm_append, norm_sgn hsg]; rfl
    have hne : norm (d :: w) ≠ [] := by
      rw [(norm_digits hdw).2, List.filter_cons, if_pos (by simpa using (dig_sub d hd).2.1)]; simp
    rw [construct_plain hn hsg (nosign (norm_digits hdw).1 (by rintro c t h; injection h with h _; subst h; decide)) (body_chars (norm_digits hdw).1 (norm_digits hfp).1 he).1,
      float_point _ _ _ e (norm_digits hdw).1 (norm_digits hfp).1 he, if_neg (fun h => hne h.1)]
    constructor
    · intro h; cases h
    · rintro ⟨u, r, h, _⟩
      rw [List.append_assoc] at h
      exact absurd h (nodot sg _ d hsg (hdig d hd) _)
  · obtain ⟨sg, d, w, ex, rfl, hsg, hd, hw, hex⟩ := m_alt2.mp h
    obtain ⟨e, he⟩ := norm_exp (.inl hex)
    have hdw : ∀ c ∈ d :: w, c ∈ dig_ := by
      intro c hc
      rcases List.mem_cons.mp hc with rfl | hc
      · exact (dig_sub _ hd).1
      · exact hw c hc
    have hn : norm (sg ++ (d :: w) ++ ex) = sg ++ (norm (d :: w) ++ norm ex) := by
      rw [List.append_assoc, norm_append, norm_append, norm_sgn hsg]
    have hne : norm (d :: w) ≠ [] := by
      rw [(norm_digits hdw).2, List.filter_cons, if_pos (by simpa using (dig_sub d hd).2.1)]; simp
    rw [construct_plain hn hsg (nosign (norm_digits hdw).1 (expVal_head he)) (body_chars (fp := []) (norm_digits hdw).1 (by simp) he).2,
      float_nopoint _ _ e hne (norm_digits hdw).1 he]
    constructor
    · intro h; cases h
    · rintro ⟨u, r, h, _⟩
      rw [List.append_assoc] at h
      exact absurd h (nodot sg _ d hsg (hdig d hd) _)
  · obtain ⟨u, ex, rfl, hu, hud, hex⟩ := m_alt3 h
    obtain ⟨e, he⟩ := norm_exp hex
    have hn : norm ('.' :: (u ++ ex)) = [] ++ ([] ++ '.' :: (norm u ++ norm ex)) := by
      have : '.' :: (u ++ ex) = ['.'] ++ (u ++ ex) := rfl
      rw [this, norm_append, norm_append]; rfl
    rw [construct_plain hn (.inl rfl) (nosign (by simp) (by rintro c t h; injection h with h _; subst h; decide)) (body_chars (by simp) (norm_digits hud).1 he).1,
      float_point [] _ _ e (by simp) (norm_digits hud).1 he]
    have hexh : ∀ c t, ex = c :: t → c = 'e' ∨ c = 'E' := by
      rintro c t rfl
      rcases hex with ⟨l, sg, ds, h, hl, _⟩ | h
      · injection h with h _; subst h; exact hl
      · cases h
    by_cases hz : norm u = []
    · rw [if_pos ⟨rfl, hz⟩]
      refine ⟨fun _ => ⟨u, ex, rfl, hu, ?_, hexh⟩, fun _ => rfl⟩
      intro c hc
      rw [(norm_digits hud).2, List.filter_eq_nil_iff] at hz
      simpa using hz c hc
    · rw [if_neg (fun h => hz h.2)]
      constructor
      · intro h; cases h
      · rintro ⟨u', r, h, hu', hall, hr⟩
        exfalso
        apply hz
        injection h with _ h
        have stop : ∀ (a b : Str), (∀ c ∈ a, c ∈ dig_) → (∀ c t, b = c :: t → c = 'e' ∨ c = 'E') → (a ++ b).takeWhile (fun c => decide (c ∈ dig_)) = a := by
          intro a b ha hb
          rw [List.takeWhile_append_of_pos (fun c hc => by simpa using ha c hc)]
          cases b with
          | nil => simp
          | cons c t =>
            rw [List.takeWhile_cons, if_neg, List.append_nil]
            rcases hb c t rfl with rfl | rfl <;> decide
        have h1 := stop u ex hud hexh
        rw [h, stop u' r (fun c hc => by rw [hall c hc]; decide) hr] at h1
        rw [(norm_digits hud).2, List.filter_eq_nil_iff]
        intro c hc
        rw [hall c (h1 ▸ hc)]; decide
  · obtain ⟨sg, d, w, L, fp, rfl, hsg, hd, hw, hL, hLy, hfp⟩ := m_alt4 h
    have hdw : ∀ c ∈ d :: w, c ∈ dig_ := by
      intro c hc
      rcases List.mem_cons.mp hc with rfl | hc
      · exact (dig_sub _ hd).1
      · exact hw c hc
    have hne : norm (d :: w) ≠ [] := by
      rw [(norm_digits hdw).2, List.filter_cons, if_pos (by simpa using (dig_sub d hd).2.1)]; simp
    have hnL : norm L.flatten = L.flatten := by
      clear hL h hs
      induction L with
      | nil => rfl
      | cons y L ih =>
        obtain ⟨ds, rfl, _, h2⟩ := hLy y (by simp)
        have : ':' :: ds = [':'] ++ ds := rfl
        rw [List.flatten_cons, norm_append, ih (fun z hz => hLy z (by simp [hz])), this, norm_append, norm_dig h2]; rfl
    have hn : norm (sg ++ ((d :: w) ++ (L.flatten ++ '.' :: fp))) = sg ++ (norm (d :: w) ++ (L.flatten ++ '.' :: norm fp)) := by
      have : sg ++ ((d :: w) ++ (L.flatten ++ '.' :: fp)) = sg ++ ((d :: w) ++ (L.flatten ++ (['.'] ++ fp))) := rfl
      rw [this, norm_append, norm_append, norm_append, norm_append, norm_sgn hsg, hnL]; rfl
    obtain ⟨x, hx⟩ := base60_ok (K := K) L (norm (d :: w)) (norm fp) 0 hne (norm_digits hdw).1 (norm_digits hfp).1
      (fun y hy => by
        obtain ⟨ds, h0, h1, h2⟩ := hLy y hy
        exact ⟨ds, h0, h1, fun c hc => (dig_sub c (h2 c hc)).2.2⟩)
    have hcol : ':' ∈ norm (d :: w) ++ (L.flatten ++ '.' :: norm fp) := by
      cases L with
      | nil => exact absurd rfl hL
      | cons y L =>
        obtain ⟨ds, rfl, _, _⟩ := hLy y (by simp)
        simp
    obtain ⟨c0, t0, hc0⟩ := List.exists_cons_of_ne_nil hne
    have hd0 : c0.isDigit = true := (norm_digits hdw).1 c0 (hc0 ▸ by simp)
    have hns : ∀ c t, norm (d :: w) ++ (L.flatten ++ '.' :: norm fp) = c :: t → c ≠ '-' ∧ c ≠ '+' := by
      intro c t h
      rw [hc0] at h
      injection h with h _
      subst h
      exact ⟨digit_ne hd0 (by decide), digit_ne hd0 (by decide)⟩
    have hno : construct (K := K) (sg ++ ((d :: w) ++ (L.flatten ++ '.' :: fp))) ≠ .error := by
      unfold construct
      change (let v0 := norm (sg ++ ((d :: w) ++ (L.flatten ++ '.' :: fp))); let v := (takeSign v0).2; let neg := (takeSign v0).1; let f : K := if neg then -1 else 1
          if v = c!".inf" then YVal.inf neg
          else if v = c!".nan" then .nan
          else if ':' ∈ v then match base60 (0 : K) (splitChar ':' v) with
            | none => .error
            | some x => .num (f * x)
          else match (floatStr v : Option K) with
            | none => .error
            | some x => .num (f * x)) ≠ _
      dsimp only
      rw [hn, takeSign_sgn hsg hns]
      dsimp only
      rw [if_pos hcol, hx]
      split
      · intro h; cases h
      · split
        · intro h; cases h
        · intro h; cases h
    constructor
    · intro h; exact absurd h hno
    · rintro ⟨u, r, h, _⟩
      exact absurd h (nodot sg _ d hsg (hdig d hd) _)
  · obtain ⟨sg, w, rfl, hsg, hw⟩ := m_alt5 h
    constructor
    · intro h
      exfalso
      revert h
      rcases hsg with rfl | rfl | rfl <;> rcases hw with rfl | rfl | rfl <;> (intro h; cases h)
    · rintro ⟨u, r, h, hu, hall, _⟩
      exfalso
      cases u with
      | nil => exact hu rfl
      | cons c u =>
        have := hall c (by simp)
        subst this
        rcases hsg with rfl | rfl | rfl
        · injection h with _ h
          rcases hw with rfl | rfl | rfl <;> (injection h with h _; revert h; decide)
        · injection h with h _; revert h; decide
        · injection h with h _; revert h; decide
  · obtain ⟨w, rfl, hw⟩ := m_alt6 h
    constructor
    · intro h
      exfalso
      revert h
      rcases hw with rfl | rfl | rfl <;> (intro h; cases h)
    · rintro ⟨u, r, h, hu, hall, _⟩
      exfalso
      cases u with
      | nil => exact hu rfl
      | cons c u =>
        have := hall c (by simp)
        subst this
        injection h with _ h
        rcases hw with rfl | rfl | rfl <;> (injection h with h _; revert h; decide)

/-- **C217**: an unsigned number that begins with the point is a float with its value, if its exponent, when there is one, has a sign -/
theorem dot_value_partial (fp ex : Str) (e : Int) (hf : fp ≠ []) (hfp : ∀ c ∈ fp, c ∈ dig)
    (hex : (∃ l sg ds, ex = l :: (sg ++ ds) ∧ (l = 'e' ∨ l = 'E') ∧ (sg = ['-'] ∨ sg = ['+']) ∧ ds ≠ [] ∧ ∀ c ∈ ds, c ∈ dig) ∨ ex = [])
    (he : ExpVal (norm ex) e) : isFloat ('.' :: (fp ++ ex)) = true ∧ construct (K := K) ('.' :: (fp ++ ex)) = .num (decimalValue false [] fp e) := by
  have hfp' : ∀ c ∈ fp, c.isDigit = true := fun c hc => (dig_sub c (hfp c hc)).2.2
  constructor
  · rw [first_char, m_float]
    right; right; left
    unfold alt3
    refine m_mul.mpr ⟨['.'], m_char.mpr rfl, fp ++ ex, m_mul.mpr ⟨fp, m_many1_cls.mpr ⟨hf, fun c hc => (dig_sub c (hfp c hc)).1⟩, ex, m_opt.mpr ?_, rfl⟩, rfl⟩
    rcases hex with ⟨l, sg, ds, rfl, hl, hsg, h1, h2⟩ | rfl
    · left
      refine m_mul.mpr ⟨[l], m_cls.mpr ⟨l, by simpa using hl, rfl⟩, sg ++ ds, m_mul.mpr ⟨sg, m_cls.mpr ?_, ds, m_many1_cls.mpr ⟨h1, h2⟩, rfl⟩, rfl⟩
      rcases hsg with rfl | rfl
      · exact ⟨'-', by simp, rfl⟩
      · exact ⟨'+', by simp, rfl⟩
    · exact .inr rfl
  · have hn : norm ('.' :: (fp ++ ex)) = [] ++ ([] ++ '.' :: (fp ++ norm ex)) := by
      have : '.' :: (fp ++ ex) = ['.'] ++ (fp ++ ex) := rfl
      rw [this, norm_append, norm_append, norm_dig hfp]; rfl
    rw [construct_plain hn (.inl rfl) (nosign (by simp) (by rintro c t h; injection h with h _; subst h; decide)) (body_chars (by simp) hfp' he).1,
      float_point [] _ _ e (by simp) hfp' he, if_neg (fun h => hf h.2)]
    simp [sgnVal]

/-- **C217**: a number written with `'%.pe'` is read from a YAML file as that number, rounded to the digits that were written -/
theorem yaml_roundtrip (p : Nat) (hp : 0 < p) (x : K) : isFloat (fmte p x) = true ∧ construct (fmte p x) = .num (roundSig p x) := by
  obtain ⟨neg, d, ds, e, hd, hds, hlen, hf, hr⟩ := fmte_shape p hp x
  have isdig : ∀ c : Char, c.isDigit = true → c ∈ dig := by
    intro c hc
    have h1 : 48 ≤ c.toNat ∧ c.toNat ≤ 57 := by
      unfold Char.isDigit at hc
      rw [Bool.and_eq_true, decide_eq_true_eq, decide_eq_true_eq] at hc
      exact ⟨hc.1, hc.2⟩
    have h2 : c = Char.ofNat c.toNat := (Char.ofNat_toNat c).symm
    rw [h2]
    obtain ⟨h3, h4⟩ := h1
    generalize c.toNat = n at h3 h4
    interval_cases n <;> decide
  obtain ⟨ed, hed⟩ : ∃ ed, ed = (if e.natAbs < 10 then '0' :: strNat e.natAbs else strNat e.natAbs) := ⟨_, rfl⟩
  have hxs : expStr e = (if e < 0 then ['-'] else ['+']) ++ ed := by
    rw [hed]; unfold expStr
    by_cases h : e < 0
    · rw [if_pos h, if_pos h]; rfl
    · rw [if_neg h, if_neg h]; rfl
  have hedd : ∀ c ∈ ed, c.isDigit = true := by
    intro c hc
    rw [hed] at hc
    split at hc
    · rcases List.mem_cons.mp hc with rfl | hc
      · decide
      · exact strNat_isDigit hc
    · exact strNat_isDigit hc
  have hedv : Nat.ofDigitChars 10 ed 0 = e.natAbs := by
    rw [hed]
    split
    · have : Nat.ofDigitChars 10 ('0' :: strNat e.natAbs) 0 = Nat.ofDigitChars 10 (strNat e.natAbs) 0 := by simp [Nat.ofDigitChars]
      rw [this]; unfold strNat; rw [Nat.ofDigitChars_ten_toDigits]
    · unfold strNat; rw [Nat.ofDigitChars_ten_toDigits]
  have hedn : ed ≠ [] := by
    rw [hed]
    split
    · simp
    · rename_i h
      intro h0
      rw [hed, if_neg h, h0] at hedv
      have : Nat.ofDigitChars 10 [] 0 = 0 := rfl
      omega
  have hsg : Sgn (if e < 0 then ['-'] else ['+']) := by
    split
    · exact .inr (.inl rfl)
    · exact .inr (.inr rfl)
  have hexp : Exp ('e' :: expStr e) := ⟨'e', _, ed, by rw [hxs], .inl rfl, hsg, hedn, fun c hc => isdig c (hedd c hc)⟩
  have hnorm : norm ('e' :: expStr e) = 'e' :: expStr e := by
    have : 'e' :: expStr e = ['e'] ++ ((if e < 0 then ['-'] else ['+']) ++ ed) := by rw [hxs]; rfl
    rw [this, norm_append, norm_append, norm_sgn hsg, norm_dig (fun c hc => isdig c (hedd c hc))]; rfl
  have hval : ExpVal (norm ('e' :: expStr e)) e := by
    rw [hnorm]
    refine .inr ⟨_, ed, by rw [hxs], hsg, hedn, hedd, ?_⟩
    rw [hedv]
    by_cases h : e < 0
    · rw [if_pos h, if_pos rfl]; omega
    · rw [if_neg h, if_neg (by decide)]; omega
  have hsg0 : Sgn (if neg then ['-'] else []) := by
    cases neg
    · exact .inl rfl
    · exact .inr (.inl rfl)
  have := point_value (K := K) (if neg then ['-'] else []) [d] ds ('e' :: expStr e) e hsg0 (by simp) (by simpa using isdig d hd)
    (fun c hc => isdig c (hds c hc)) (.inl hexp) hval
  have hshape : (if neg then ['-'] else []) ++ [d] ++ '.' :: (ds ++ 'e' :: expStr e) = fmte p x := by rw [hf]; simp
  rw [hshape] at this
  refine ⟨this.1, this.2.trans ?_⟩
  rw [hr]
  congr 1
  unfold sgnVal decimalValue
  cases neg <;> simp

example : isFloat c!"1e-05" = true ∧ construct (K := ℚ) c!"1e-05" = .num (1 / 100000) ∧ isFloat c!"12" = false ∧ isFloat c!"1e" = false ∧
    construct (K := ℚ) c!"1:30.5" = .num (181 / 2) ∧ construct (K := ℚ) c!"-.Inf" = .inf true ∧ construct (K := ℚ) c!"1_000.5" = .num (2001 / 2) := by
  decide +kernel

/-! ## What does not hold -/

/-- the full statement: every decimal number with a point is a float -/
def NumbersAreFloats : Prop := ∀ sg ip fp ex : Str, Sgn sg → ip ++ fp ≠ [] → (∀ c ∈ ip ++ fp, c ∈ dig) → (Exp ex ∨ ex = []) →
  isFloat (sg ++ ip ++ '.' :: (fp ++ ex)) = true

/-- **C218 fails**: `-.5` is not taken for a number but is read as a text: the alternative for numbers that begin with the point has no sign (yaml_tools.py:30),
although `.5`, `-0.5` and `-.inf` are numbers -/
theorem negative_dot_fails : ¬ NumbersAreFloats := by
  intro h
  have h1 := h c!"-" [] c!"5" [] (.inr (.inl rfl)) (by decide) (by decide) (.inr rfl)
  have h2 : isFloat c!"-.5" = false := by decide +kernel
  exact absurd h1 (by change ¬ isFloat c!"-.5" = true; rw [h2]; decide)

/-- the same for numbers without sign -/
def UnsignedAreFloats : Prop := ∀ ip fp ex : Str, ip ++ fp ≠ [] → (∀ c ∈ ip ++ fp, c ∈ dig) → (Exp ex ∨ ex = []) →
  isFloat (ip ++ '.' :: (fp ++ ex)) = true

/-- **C218 fails**: `.5e3` is not taken for a number: after a number that begins with the point the exponent needs a sign (yaml_tools.py:30),
although `0.5e3` and `.5e+3` are numbers -/
theorem dot_exponent_fails : ¬ UnsignedAreFloats := by
  intro h
  have h1 := h [] c!"5" c!"e3" (by decide) (by decide) (.inl ⟨'e', [], c!"3", rfl, .inl rfl, .inl rfl, by decide, by decide⟩)
  have h2 : isFloat c!".5e3" = false := by decide +kernel
  exact absurd h1 (by change ¬ isFloat c!".5e3" = true; rw [h2]; decide)

/-- the full statement: whatever is taken for a float has a value -/
def FloatsHaveValues : Prop := ∀ s : Str, isFloat s = true → construct (K := ℚ) s ≠ .error

/-- **C218 fails**: the text `._` is taken for a float (yaml_tools.py:30 allows underscores alone after the point), and its conversion is a `ValueError`
that stops the loading of the file -/
theorem underscore_fails : ¬ FloatsHaveValues := by
  intro h
  exact h c!"._" (by decide +kernel) (by decide +kernel)

end Vals

end Verif.NumText
