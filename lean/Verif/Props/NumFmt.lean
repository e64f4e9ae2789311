import Verif.Model.NumFmt
import Mathlib.Algebra.Order.Field.Power
import Mathlib.Data.List.TakeWhile

/-!
# Printed numbers (C42) and values with errors (C70)
-/

namespace Verif.NumFmt
open Verif.Py

/-! ## Digits -/

/-- a decimal as made by python: digits below ten, no leading zero except for zero itself -/
structure Dec.Ok (d : Dec) : Prop where
  ne : d.digits ≠ []
  lt : ∀ x ∈ d.digits, x < 10
  lead : d.digits.head? ≠ some 0

theorem dval_append (a b : List Nat) : dval (a ++ b) = dval a * 10 ^ b.length + dval b := by
  have key : ∀ (l : List Nat) (i : Nat), l.foldl (fun a d => 10 * a + d) i = i * 10 ^ l.length + l.foldl (fun a d => 10 * a + d) 0 := by
    intro l
    induction l with
    | nil => intro i; simp
    | cons x l ih =>
      intro i
      rw [List.foldl_cons, List.foldl_cons, ih (10 * i + x), ih (10 * 0 + x), List.length_cons, pow_succ]
      ring
  unfold dval
  rw [List.foldl_append, key]

theorem dval_lt {l : List Nat} (h : ∀ x ∈ l, x < 10) : dval l < 10 ^ l.length := by
  induction l with
  | nil => simp [dval]
  | cons a l ih =>
    have := dval_append [a] l
    rw [List.singleton_append] at this
    have h1 : dval [a] = a := by simp [dval]
    have ih := ih (fun x hx => h x (List.mem_cons_of_mem _ hx))
    have ha := h a List.mem_cons_self
    rw [this, h1, List.length_cons, pow_succ]
    nlinarith

theorem dval_zeros (n : Nat) : dval (List.replicate n 0) = 0 := by
  have h0 : ∀ l : List Nat, (∀ x ∈ l, x = 0) → dval l = 0 := by
    intro l
    induction l with
    | nil => intro _; rfl
    | cons a l ih =>
      intro h
      have := dval_append [a] l
      rw [List.singleton_append, ih (fun x hx => h x (List.mem_cons_of_mem _ hx)), h a List.mem_cons_self] at this
      rw [h a List.mem_cons_self, this]; simp [dval]
  exact h0 _ (fun x hx => List.eq_of_mem_replicate hx)

theorem dval_lead {l : List Nat} (hl : l ≠ []) (hd : l.head? ≠ some 0) : 10 ^ (l.length - 1) ≤ dval l := by
  cases l with
  | nil => exact absurd rfl hl
  | cons a l =>
    have := dval_append [a] l
    rw [List.singleton_append] at this
    have h1 : dval [a] = a := by simp [dval]
    have ha : 1 ≤ a := by
      rcases Nat.eq_zero_or_pos a with h | h
      · rw [h] at hd; simp at hd
      · exact h
    rw [this, h1, List.length_cons]
    simp only [Nat.add_sub_cancel]
    nlinarith [Nat.pos_of_ne_zero (pow_ne_zero l.length (by norm_num : (10 : Nat) ≠ 0))]

/-- rounding half up to a number of digits -/
theorem roundDigits_spec {l : List Nat} (hl : ∀ x ∈ l, x < 10) (sf : Nat) :
    (roundDigits l sf : ℚ) = ⌊(dval l : ℚ) * 10 ^ ((sf : Int) - l.length) + 1 / 2⌋ := by
  unfold roundDigits
  dsimp only
  by_cases h : l.length < sf
  · simp only [if_pos h]
    rw [if_neg (by simp only [List.length_append, List.length_replicate]; omega)]
    rw [List.take_of_length_le (by simp only [List.length_append, List.length_replicate]; omega), dval_append, dval_zeros, List.length_replicate,
      Nat.add_zero]
    have e : (dval l : ℚ) * 10 ^ ((sf : Int) - l.length) = ((dval l * 10 ^ (sf - l.length) : Nat) : Int) := by
      rw [show (sf : Int) - l.length = ((sf - l.length : Nat) : Int) by omega, zpow_natCast]
      push_cast; rfl
    rw [e, Int.floor_intCast_add]
    norm_num
  · simp only [if_neg h]
    have hs : dval l = dval (l.take sf) * 10 ^ (l.length - sf) + dval (l.drop sf) := by
      conv_lhs => rw [← List.take_append_drop sf l, dval_append, List.length_drop]
    by_cases h2 : sf < l.length
    · have hd : l.drop sf = l[sf] :: l.drop (sf + 1) := List.drop_eq_getElem_cons h2
      have hd2 := dval_append [l[sf]] (l.drop (sf + 1))
      rw [List.singleton_append, ← hd, List.length_drop] at hd2
      have h1 : dval [l[sf]] = l[sf] := by simp [dval]
      rw [h1] at hd2
      have hg : l.getD sf 0 = l[sf] := by rw [List.getD_eq_getElem?_getD, List.getElem?_eq_getElem h2]; rfl
      have hb := dval_lt (l := l.drop (sf + 1)) (fun x hx => hl x (List.mem_of_mem_drop hx))
      rw [List.length_drop] at hb
      have hx : l[sf] < 10 := hl _ (List.getElem_mem h2)
      rw [hg]
      obtain ⟨m, hm⟩ : ∃ m, l.length - sf = m + 1 := ⟨l.length - sf - 1, by omega⟩
      have hm' : l.length - (sf + 1) = m := by omega
      rw [hm] at hs
      rw [hm'] at hb hd2
      have hp : (0 : ℚ) < 10 ^ m := by positivity
      have e : (dval l : ℚ) * 10 ^ ((sf : Int) - l.length) = dval (l.take sf) + (dval (l.drop sf) : ℚ) / 10 ^ (m + 1) := by
        rw [show (sf : Int) - l.length = - ((m + 1 : Nat) : Int) by omega, zpow_neg, zpow_natCast, hs]
        push_cast
        field_simp
      rw [e]
      have hdq : (dval (l.drop sf) : ℚ) = l[sf] * 10 ^ m + dval (l.drop (sf + 1)) := by exact_mod_cast hd2
      have hbq : (dval (l.drop (sf + 1)) : ℚ) < 10 ^ m := by exact_mod_cast hb
      have hb0 : (0 : ℚ) ≤ dval (l.drop (sf + 1)) := by positivity
      by_cases h5 : 5 ≤ l[sf]
      · rw [if_pos ⟨h2, h5⟩]
        have h5q : (5 : ℚ) ≤ l[sf] := by exact_mod_cast h5
        have h9q : (l[sf] : ℚ) ≤ 9 := by exact_mod_cast (by omega : l[sf] ≤ 9)
        have hfl : ⌊(dval (l.take sf) : ℚ) + (dval (l.drop sf) : ℚ) / 10 ^ (m + 1) + 1 / 2⌋ = ((dval (l.take sf) + 1 : Nat) : Int) := by
          rw [Int.floor_eq_iff]
          have q1 : (1 : ℚ) / 2 ≤ (dval (l.drop sf) : ℚ) / 10 ^ (m + 1) := by
            rw [le_div_iff₀ (by positivity), hdq, pow_succ]; nlinarith
          have q2 : (dval (l.drop sf) : ℚ) / 10 ^ (m + 1) < 1 := by
            rw [div_lt_one (by positivity), hdq, pow_succ]; nlinarith
          push_cast
          constructor <;> linarith
        rw [hfl]; norm_cast
      · rw [if_neg (fun hh => h5 hh.2)]
        have h4q : (l[sf] : ℚ) ≤ 4 := by exact_mod_cast (by omega : l[sf] ≤ 4)
        have h0q : (0 : ℚ) ≤ l[sf] := by positivity
        have hfl : ⌊(dval (l.take sf) : ℚ) + (dval (l.drop sf) : ℚ) / 10 ^ (m + 1) + 1 / 2⌋ = ((dval (l.take sf) : Nat) : Int) := by
          rw [Int.floor_eq_iff]
          have q1 : (0 : ℚ) ≤ (dval (l.drop sf) : ℚ) / 10 ^ (m + 1) := by positivity
          have q2 : (dval (l.drop sf) : ℚ) / 10 ^ (m + 1) < 1 / 2 := by
            rw [div_lt_iff₀ (by positivity), hdq, pow_succ]; nlinarith
          push_cast
          constructor <;> linarith
        rw [hfl]; norm_cast
    · rw [if_neg (fun hh => h2 hh.1), List.take_of_length_le (by omega)]
      rw [show (sf : Int) - l.length = 0 by omega, zpow_zero, mul_one]
      have : ⌊(dval l : ℚ) + 1 / 2⌋ = (dval l : Int) := by
        rw [Int.floor_eq_iff]; push_cast; constructor <;> linarith
      rw [this]; norm_cast

theorem roundDigits_bounds {d : Dec} (h : d.Ok) {sf : Nat} (hs : 0 < sf) : 10 ^ (sf - 1) ≤ roundDigits d.digits sf ∧ roundDigits d.digits sf ≤ 10 ^ sf := by
  have hsp := roundDigits_spec h.lt sf
  set N := roundDigits d.digits sf
  have hlt := dval_lt h.lt
  have hle := dval_lead h.ne h.lead
  have hlen : 0 < d.digits.length := List.length_pos_of_ne_nil h.ne
  set L := d.digits.length
  have hp : (0 : ℚ) < 10 ^ ((sf : Int) - L) := by positivity
  have hltq : (dval d.digits : ℚ) < 10 ^ L := by exact_mod_cast hlt
  have hleq : (10 : ℚ) ^ (L - 1) ≤ dval d.digits := by exact_mod_cast hle
  have t1 : (dval d.digits : ℚ) * 10 ^ ((sf : Int) - L) < 10 ^ sf := by
    calc _ < (10 : ℚ) ^ L * 10 ^ ((sf : Int) - L) := by nlinarith
      _ = 10 ^ sf := by rw [← zpow_natCast, ← zpow_natCast, ← zpow_add₀ (by norm_num)]; congr 1; omega
  have t2 : (10 : ℚ) ^ (sf - 1) ≤ (dval d.digits : ℚ) * 10 ^ ((sf : Int) - L) := by
    calc (10 : ℚ) ^ (sf - 1) = (10 : ℚ) ^ (L - 1) * 10 ^ ((sf : Int) - L) := by
          rw [← zpow_natCast, ← zpow_natCast, ← zpow_add₀ (by norm_num)]; congr 1; omega
      _ ≤ _ := by nlinarith
  have hf := Int.floor_le ((dval d.digits : ℚ) * 10 ^ ((sf : Int) - L) + 1 / 2)
  constructor
  · have : ((10 ^ (sf - 1) : Nat) : Int) ≤ ⌊(dval d.digits : ℚ) * 10 ^ ((sf : Int) - L) + 1 / 2⌋ := by
      rw [Int.le_floor]; push_cast; linarith
    have h2 : (N : Int) = ⌊(dval d.digits : ℚ) * 10 ^ ((sf : Int) - L) + 1 / 2⌋ := by exact_mod_cast hsp
    rw [← h2] at this; exact_mod_cast this
  · have h2 : (N : ℚ) < 10 ^ sf + 1 := by rw [hsp]; linarith
    have h3 : N < 10 ^ sf + 1 := by exact_mod_cast h2
    omega

/-! ## Reading digits -/

theorem ofDigits_append (a b : Str) : Nat.ofDigitChars 10 (a ++ b) 0 = Nat.ofDigitChars 10 a 0 * 10 ^ b.length + Nat.ofDigitChars 10 b 0 := by
  have key : ∀ (l : Str) (i : Nat), Nat.ofDigitChars 10 l i = i * 10 ^ l.length + Nat.ofDigitChars 10 l 0 := by
    intro l
    induction l with
    | nil => intro i; simp [Nat.ofDigitChars]
    | cons c l ih =>
      intro i
      rw [Nat.ofDigitChars_cons, Nat.ofDigitChars_cons, ih (10 * i + _), ih (10 * 0 + _), List.length_cons, pow_succ]
      ring
  rw [Nat.ofDigitChars_append, key]

theorem ofDigits_lt {l : Str} (h : ∀ c ∈ l, c.isDigit = true) : Nat.ofDigitChars 10 l 0 < 10 ^ l.length := by
  induction l with
  | nil => simp [Nat.ofDigitChars]
  | cons a l ih =>
    have := ofDigits_append [a] l
    rw [List.singleton_append] at this
    have ih := ih (fun x hx => h x (List.mem_cons_of_mem _ hx))
    have ha : Nat.ofDigitChars 10 [a] 0 ≤ 9 := by
      rw [Nat.ofDigitChars_cons]
      have hd := h a List.mem_cons_self
      unfold Char.isDigit at hd
      simp only [Bool.and_eq_true, decide_eq_true_eq] at hd
      have b2 : a.toNat ≤ 57 := hd.2
      simp only [Nat.mul_zero, Nat.zero_add, Nat.ofDigitChars_nil]
      have : '0'.toNat = 48 := rfl
      omega
    rw [this, List.length_cons, pow_succ]
    nlinarith

/-- the digits kept stand for the rounded number -/
theorem take_value {N sf : Nat} (hs : 0 < sf) (h1 : 10 ^ (sf - 1) ≤ N) (h2 : N ≤ 10 ^ sf) :
    ((strNat N).take sf).length = sf ∧ ((strNat N).length = sf ∧ N < 10 ^ sf ∨ (strNat N).length = sf + 1 ∧ N = 10 ^ sf) ∧
      (Nat.ofDigitChars 10 ((strNat N).take sf) 0 : ℚ) * 10 ^ (((strNat N).length : Int) - sf) = N := by
  have hv : Nat.ofDigitChars 10 (strNat N) 0 = N := Nat.ofDigitChars_ten_toDigits
  have hlo : sf ≤ (strNat N).length := by
    by_contra hc
    have := ofDigits_lt (l := strNat N) (fun c hc => strNat_isDigit hc)
    rw [hv] at this
    have : 10 ^ (strNat N).length ≤ 10 ^ (sf - 1) := Nat.pow_le_pow_right (by norm_num) (by omega)
    omega
  have hlen : ((strNat N).take sf).length = sf := by rw [List.length_take]; omega
  rcases h2.lt_or_eq with hlt | heq
  · have hl : (strNat N).length = sf := by
      have : (Nat.toDigits 10 N).length ≤ sf := (Nat.length_toDigits_le_iff (by norm_num) hs).mpr hlt
      unfold strNat at hlo ⊢; omega
    refine ⟨hlen, .inl ⟨hl, hlt⟩, ?_⟩
    rw [List.take_of_length_le (by omega), hv, hl]; simp
  · have hl : (strNat N).length = sf + 1 := by
      have a : (Nat.toDigits 10 N).length ≤ sf + 1 := (Nat.length_toDigits_le_iff (by norm_num) (by omega)).mpr (by rw [heq, pow_succ]; have := Nat.pos_of_ne_zero (pow_ne_zero sf (by norm_num : (10 : Nat) ≠ 0)); omega)
      have b : ¬ (Nat.toDigits 10 N).length ≤ sf := by rw [Nat.length_toDigits_le_iff (by norm_num) hs]; omega
      unfold strNat; omega
    refine ⟨hlen, .inr ⟨hl, heq⟩, ?_⟩
    have hsp := ofDigits_append ((strNat N).take sf) ((strNat N).drop sf)
    rw [List.take_append_drop, hv, List.length_drop, hl, show sf + 1 - sf = 1 by omega, pow_one] at hsp
    have hb := ofDigits_lt (l := (strNat N).drop sf) (fun c hc => strNat_isDigit (List.mem_of_mem_drop hc))
    rw [List.length_drop, hl, show sf + 1 - sf = 1 by omega, pow_one] at hb
    obtain ⟨k, rfl⟩ : ∃ k, sf = k + 1 := ⟨sf - 1, by omega⟩
    rw [pow_succ] at heq
    rw [hl, show (((k + 1 + 1 : Nat) : Int) - ((k + 1 : Nat) : Int)) = 1 by push_cast; ring, zpow_one]
    have : N = Nat.ofDigitChars 10 ((strNat N).take (k + 1)) 0 * 10 := by omega
    exact_mod_cast this.symm

/-- `float` of digits with an optional minus -/
theorem floatStr_plain {K : Type} [Field K] [LinearOrder K] [IsStrictOrderedRing K] [FloorRing K] (neg : Bool) {ip : Str} (h0 : ip ≠ [])
    (hd : ∀ c ∈ ip, c.isDigit = true) : floatStr ((if neg then ['-'] else []) ++ ip) = some (decimalValue (K := K) neg ip [] 0) := by
  have hws : ∀ c ∈ (if neg then ['-'] else []) ++ ip, isWs c = false := by
    intro c hc
    apply numChar_not_ws
    rcases List.mem_append.mp hc with h | h
    · cases neg <;> simp at h; subst h; rfl
    · unfold numChar; rw [hd c h]; rfl
  have hst := strip_rjust (w := 0) hws
  have hr : rjust 0 ((if neg then ['-'] else []) ++ ip) = (if neg then ['-'] else []) ++ ip := by simp [rjust]
  rw [hr] at hst
  unfold floatStr
  rw [hst]
  have hts : takeSign ((if neg then ['-'] else []) ++ ip) = (neg, ip) := by
    cases neg
    · cases ip with
      | nil => exact absurd rfl h0
      | cons c r => exact takeSign_digit r (hd c List.mem_cons_self)
    · exact takeSign_minus ip
  simp only [hts]
  have e1 : ip.takeWhile Char.isDigit = ip := List.takeWhile_eq_self_iff.mpr hd
  have e2 : ip.dropWhile Char.isDigit = [] := List.dropWhile_eq_nil_iff.mpr hd
  rw [e1, e2]
  simp [fracPart, expPart, h0]

/-- `float` of digits with a point -/
theorem floatStr_point {K : Type} [Field K] [LinearOrder K] [IsStrictOrderedRing K] [FloorRing K] (neg : Bool) {ip fp : Str} (h0 : ip ≠ [])
    (hd : ∀ c ∈ ip, c.isDigit = true) (hf : ∀ c ∈ fp, c.isDigit = true) :
    floatStr ((if neg then ['-'] else []) ++ (ip ++ '.' :: fp)) = some (decimalValue (K := K) neg ip fp 0) := by
  have hws : ∀ c ∈ (if neg then ['-'] else []) ++ (ip ++ '.' :: fp), isWs c = false := by
    intro c hc
    apply numChar_not_ws
    rcases List.mem_append.mp hc with h | h
    · cases neg <;> simp at h; subst h; rfl
    · rcases List.mem_append.mp h with h | h
      · unfold numChar; rw [hd c h]; rfl
      · rcases List.mem_cons.mp h with rfl | h
        · rfl
        · unfold numChar; rw [hf c h]; rfl
  have hst := strip_rjust (w := 0) hws
  have hr : rjust 0 ((if neg then ['-'] else []) ++ (ip ++ '.' :: fp)) = (if neg then ['-'] else []) ++ (ip ++ '.' :: fp) := by simp [rjust]
  rw [hr] at hst
  unfold floatStr
  rw [hst]
  have hts : takeSign ((if neg then ['-'] else []) ++ (ip ++ '.' :: fp)) = (neg, ip ++ '.' :: fp) := by
    cases neg
    · cases ip with
      | nil => exact absurd rfl h0
      | cons c r => exact takeSign_digit _ (hd c List.mem_cons_self)
    · exact takeSign_minus _
  simp only [hts]
  have e1 : (ip ++ '.' :: fp).takeWhile Char.isDigit = ip := Path.takeWhile_append_stop hd (by decide)
  have e2 : (ip ++ '.' :: fp).dropWhile Char.isDigit = '.' :: fp := Path.dropWhile_append_stop hd (by decide)
  rw [e1, e2]
  have e3 : fracPart ('.' :: fp) = (fp, []) := by
    unfold fracPart
    dsimp only
    rw [if_pos rfl, List.takeWhile_eq_self_iff.mpr hf, List.dropWhile_eq_nil_iff.mpr hf]
  rw [e3, if_neg (by simp [h0])]
  rfl

theorem zeros_digit (n : Nat) : ∀ c ∈ List.replicate n '0', c.isDigit = true := by
  intro c hc; rw [List.eq_of_mem_replicate hc]; rfl

/-- the three layouts have the same meaning -/
theorem place_value (neg : Bool) (shift : Int) {sf : Nat} (hs : 0 < sf) {r : Str} (hr : r.length = sf) (hd : ∀ c ∈ r, c.isDigit = true) :
    floatStr ((if neg then ['-'] else []) ++ place shift sf r) =
      some ((if neg then -1 else 1) * (Nat.ofDigitChars 10 r 0 : ℚ) * 10 ^ (shift - sf + 1)) := by
  have hne : r ≠ [] := by intro e; rw [e] at hr; simp at hr; omega
  unfold place
  by_cases c1 : (sf : Int) - 1 ≤ shift
  · rw [if_pos c1, floatStr_plain neg (by simp [hne]) (by
      intro c hc
      rcases List.mem_append.mp hc with h | h
      · exact hd c h
      · exact zeros_digit _ c h)]
    unfold decimalValue
    rw [List.append_nil, ofDigits_append, List.length_replicate, ofDigitChars_zeros]
    have : (10 : ℚ) ^ (shift - sf + 1) = 10 ^ (shift - sf + 1).toNat := by
      rw [← zpow_natCast]; congr 1; omega
    rw [this]
    simp only [List.length_nil, Nat.cast_zero, sub_zero, zpow_zero, mul_one, Nat.add_zero]
    push_cast
    cases neg <;> simp
  · rw [if_neg c1]
    by_cases c2 : 0 ≤ shift
    · rw [if_pos c2, floatStr_point neg (by
          intro e; have := congrArg List.length e; rw [List.length_take, List.length_nil] at this; omega)
        (fun c hc => hd c (List.mem_of_mem_take hc)) (fun c hc => hd c (List.mem_of_mem_drop hc))]
      unfold decimalValue
      rw [List.take_append_drop, List.length_drop, hr]
      congr 3
      omega
    · rw [if_neg c2, show '0' :: '.' :: (List.replicate (-shift - 1).toNat '0' ++ r) = ['0'] ++ '.' :: (List.replicate (-shift - 1).toNat '0' ++ r) from rfl,
        floatStr_point neg (by simp) (by intro c hc; simp at hc; subst hc; rfl) (by
          intro c hc
          rcases List.mem_append.mp hc with h | h
          · exact zeros_digit _ c h
          · exact hd c h)]
      unfold decimalValue
      have e : Nat.ofDigitChars 10 (['0'] ++ (List.replicate (-shift - 1).toNat '0' ++ r)) 0 = Nat.ofDigitChars 10 r 0 := by
        rw [ofDigits_append, ofDigits_append, ofDigitChars_zeros]
        have : Nat.ofDigitChars 10 ['0'] 0 = 0 := rfl
        rw [this]; simp
      rw [e, List.length_append, List.length_replicate, hr]
      congr 3
      omega

/-! ## The value printed -/

theorem val_abs (d : Dec) : |d.val| = (dval d.digits : ℚ) * 10 ^ d.exp := by
  unfold Dec.val
  rw [abs_mul, abs_mul]
  have h1 : |(if d.neg then (-1 : ℚ) else 1)| = 1 := by cases d.neg <;> simp
  rw [h1, one_mul, abs_of_nonneg (by positivity), abs_of_pos (by positivity)]

/-- **C42**: the printed text is the number rounded (half up in absolute value) to the last of the requested significant figures: with
`10 ^ e ≤ |x| < 10 ^ (e + 1)` the unit is `10 ^ (e - sf + 1)` -/
theorem numberFigs_spec {d : Dec} (h : d.Ok) {sf : Nat} (hs : 0 < sf) :
    (10 : ℚ) ^ d.adjusted ≤ |d.val| ∧ |d.val| < 10 ^ (d.adjusted + 1) ∧
    floatStr (numberFigs d sf) = some ((if d.neg then -1 else 1) *
      (⌊|d.val| / 10 ^ (d.adjusted - sf + 1) + 1 / 2⌋ : ℚ) * 10 ^ (d.adjusted - sf + 1)) := by
  have hlen : 0 < d.digits.length := List.length_pos_of_ne_nil h.ne
  refine ⟨?_, ?_, ?_⟩
  · rw [val_abs]
    have hle : ((10 : ℚ)) ^ (d.digits.length - 1) ≤ dval d.digits := by exact_mod_cast dval_lead h.ne h.lead
    have hp : (0 : ℚ) < 10 ^ d.exp := by positivity
    calc (10 : ℚ) ^ d.adjusted = 10 ^ (d.digits.length - 1) * 10 ^ d.exp := by
          rw [← zpow_natCast, ← zpow_add₀ (by norm_num)]; congr 1; unfold Dec.adjusted; omega
      _ ≤ _ := by nlinarith
  · rw [val_abs]
    have hlt : (dval d.digits : ℚ) < 10 ^ d.digits.length := by exact_mod_cast dval_lt h.lt
    have hp : (0 : ℚ) < 10 ^ d.exp := by positivity
    calc (dval d.digits : ℚ) * 10 ^ d.exp < 10 ^ d.digits.length * 10 ^ d.exp := by nlinarith
      _ = _ := by rw [← zpow_natCast, ← zpow_add₀ (by norm_num)]; congr 1; unfold Dec.adjusted; omega
  · obtain ⟨b1, b2⟩ := roundDigits_bounds h hs
    obtain ⟨t1, _, t3⟩ := take_value hs b1 b2
    unfold numberFigs
    dsimp only
    rw [place_value _ _ hs t1 (fun c hc => strNat_isDigit (List.mem_of_mem_take hc))]
    set N := roundDigits d.digits sf with hN
    have hq : |d.val| / 10 ^ (d.adjusted - sf + 1) = (dval d.digits : ℚ) * 10 ^ ((sf : Int) - d.digits.length) := by
      rw [val_abs, div_eq_iff (by positivity), mul_assoc, ← zpow_add₀ (by norm_num)]
      congr 2; unfold Dec.adjusted; omega
    rw [hq, ← roundDigits_spec h.lt sf, ← hN, ← t3]
    have e : (10 : ℚ) ^ (d.adjusted + ((strNat N).length : Int) - sf - sf + 1) =
        10 ^ (((strNat N).length : Int) - sf) * 10 ^ (d.adjusted - sf + 1) := by
      rw [← zpow_add₀ (by norm_num)]; congr 1; ring
    rw [e]
    congr 1; ring

/-- **C42**: the error of the printed number is at most half a unit of the last significant figure -/
theorem numberFigs_error {d : Dec} (h : d.Ok) {sf : Nat} (hs : 0 < sf) :
    ∃ v, floatStr (numberFigs d sf) = some v ∧ |v - d.val| ≤ 10 ^ (d.adjusted - sf + 1) / 2 := by
  obtain ⟨_, _, h3⟩ := numberFigs_spec h hs
  refine ⟨_, h3, ?_⟩
  set u : ℚ := 10 ^ (d.adjusted - sf + 1) with hu
  have hup : 0 < u := by positivity
  have f1 := Int.floor_le (|d.val| / u + 1 / 2)
  have f2 := Int.lt_floor_add_one (|d.val| / u + 1 / 2)
  obtain ⟨F, hF⟩ : ∃ F : ℚ, F = ((⌊|d.val| / u + 1 / 2⌋ : ℤ) : ℚ) := ⟨_, rfl⟩
  rw [← hF] at f1 f2 ⊢
  have g1 : F * u ≤ |d.val| + u / 2 := by
    have : F * u ≤ (|d.val| / u + 1 / 2) * u := by nlinarith
    rw [add_mul, div_mul_cancel₀ _ hup.ne'] at this; linarith
  have g2 : |d.val| - u / 2 ≤ F * u := by
    have : (|d.val| / u + 1 / 2) * u ≤ (F + 1) * u := by nlinarith
    rw [add_mul, div_mul_cancel₀ _ hup.ne'] at this; linarith
  have hsv : d.val = (if d.neg then -1 else 1) * |d.val| := by
    rw [val_abs]; unfold Dec.val; ring
  rw [hsv]
  generalize |d.val| = a at *
  cases d.neg
  · simp only [Bool.false_eq_true, if_false, one_mul]
    rw [abs_le]; constructor <;> linarith
  · simp only [if_true]
    rw [abs_le]; constructor <;> linarith

/-- numbers with no more digits than requested are printed exactly -/
theorem numberFigs_exact {d : Dec} (h : d.Ok) {sf : Nat} (hs : 0 < sf) (hl : d.digits.length ≤ sf) : floatStr (numberFigs d sf) = some d.val := by
  obtain ⟨_, _, h3⟩ := numberFigs_spec h hs
  rw [h3]
  have hq : |d.val| / 10 ^ (d.adjusted - sf + 1) = ((dval d.digits * 10 ^ (sf - d.digits.length) : Nat) : Int) := by
    rw [val_abs, div_eq_iff (by positivity)]
    push_cast
    rw [← zpow_natCast, mul_assoc, ← zpow_add₀ (by norm_num)]
    congr 2; unfold Dec.adjusted; omega
  have hfl : (⌊|d.val| / 10 ^ (d.adjusted - sf + 1) + 1 / 2⌋ : ℚ) = |d.val| / 10 ^ (d.adjusted - sf + 1) := by
    rw [hq, Int.floor_intCast_add]; norm_num
  rw [hfl, mul_assoc, div_mul_cancel₀ _ (by positivity), val_abs]
  unfold Dec.val
  congr 1; ring

theorem numberFigs_zero {sf : Nat} (neg : Bool) (hs : 0 < sf) : floatStr (numberFigs ⟨neg, [0], 0⟩ sf) = some (0 : ℚ) := by
  have hr : roundDigits [0] sf = 0 := by
    have := roundDigits_spec (l := [0]) (by simp) sf
    have e : (dval [0] : ℚ) = 0 := by simp [dval]
    rw [e, zero_mul, zero_add] at this
    have e2 : ⌊(1 / 2 : ℚ)⌋ = 0 := by rw [Int.floor_eq_iff]; norm_num
    rw [e2] at this; exact_mod_cast this
  unfold numberFigs
  dsimp only
  rw [hr]
  have hz : strNat 0 = ['0'] := rfl
  rw [hz, List.take_of_length_le (by simp; omega)]
  simp only [Dec.adjusted, List.length_singleton]
  by_cases h1 : sf = 1
  · subst h1; cases neg <;> simp only [Bool.false_eq_true, if_false, if_true] <;> decide +kernel
  · have hp : place (((1 : Nat) : Int) + 0 - 1 + ((1 : Nat) : Int) - sf) sf ['0'] =
        ['0'] ++ '.' :: (List.replicate (-(((1 : Nat) : Int) + 0 - 1 + ((1 : Nat) : Int) - sf) - 1).toNat '0' ++ ['0']) := by
      unfold place
      rw [if_neg (by push_cast; omega), if_neg (by push_cast; omega)]; rfl
    rw [hp, floatStr_point neg (by simp) (by intro c hc; simp at hc; subst hc; rfl) (by
        intro c hc
        rcases List.mem_append.mp hc with h | h
        · exact zeros_digit _ c h
        · simp at h; subst h; rfl)]
    unfold decimalValue
    rw [ofDigits_append, ofDigits_append, ofDigitChars_zeros]
    have : Nat.ofDigitChars 10 ['0'] 0 = 0 := rfl
    rw [this]; simp

example : (⟨true, [9, 9, 9, 6], -3⟩ : Dec).Ok := ⟨by decide, by decide, by decide⟩
example : numberFigs ⟨true, [9, 9, 9, 6], -3⟩ 3 = c!"-10.0" ∧ numberFigs ⟨false, [1, 2, 3, 4, 5], -8⟩ 2 = c!"0.00012" ∧
    numberFigs ⟨false, [1, 2, 5, 5], 1⟩ 3 = c!"12600" := by decide +kernel

/-! ## Decimal places -/

theorem find_none {s : Str} (h : '.' ∉ s) : find '.' s = none := by
  unfold find
  rw [List.findIdx?_eq_none_iff]
  intro x hx
  by_contra hc
  simp at hc
  exact h (hc ▸ hx)

theorem find_some {a : Str} (b : Str) (h : '.' ∉ a) : find '.' (a ++ '.' :: b) = some a.length := by
  unfold find
  induction a with
  | nil => rfl
  | cons c a ih =>
    have hc : (c == '.') = false := by
      rw [beq_eq_false_iff_ne]; intro e; exact h (e ▸ List.mem_cons_self)
    rw [List.cons_append, List.findIdx?_cons, hc, ih (fun hh => h (List.mem_cons_of_mem _ hh))]
    simp

theorem places_point {a : Str} (b : Str) (h0 : a ≠ []) (h : '.' ∉ a) : decimalPlaces (a ++ '.' :: b) = b.length := by
  unfold decimalPlaces
  rw [find_some b h]
  dsimp only
  rw [if_pos (List.length_pos_of_ne_nil h0), List.length_append, List.length_cons]
  omega

theorem places_none {a : Str} (h : '.' ∉ a) : decimalPlaces a = 0 := by
  unfold decimalPlaces; rw [find_none h]

theorem digit_not_point {s : Str} (h : ∀ c ∈ s, c.isDigit = true) : '.' ∉ s := by
  intro hm; exact absurd (h _ hm) (by decide)

theorem sign_not_point (neg : Bool) {s : Str} (h : '.' ∉ s) : '.' ∉ (if neg then ['-'] else []) ++ s := by
  cases neg <;> simpa using h

theorem places_place (neg : Bool) (shift : Int) {sf : Nat} (hs : 0 < sf) {r : Str} (hr : r.length = sf) (hd : ∀ c ∈ r, c.isDigit = true) :
    decimalPlaces ((if neg then ['-'] else []) ++ place shift sf r) = ((sf : Int) - 1 - shift).toNat := by
  unfold place
  by_cases c1 : (sf : Int) - 1 ≤ shift
  · rw [if_pos c1, places_none]
    · omega
    · apply sign_not_point
      apply digit_not_point
      intro c hc
      rcases List.mem_append.mp hc with h | h
      · exact hd c h
      · exact zeros_digit _ c h
  · rw [if_neg c1]
    by_cases c2 : 0 ≤ shift
    · rw [if_pos c2, ← List.append_assoc, places_point]
      · rw [List.length_drop, hr]; omega
      · intro e
        have := congrArg List.length e
        rw [List.length_append, List.length_take, List.length_nil] at this
        omega
      · exact sign_not_point _ (digit_not_point (fun c hc => hd c (List.mem_of_mem_take hc)))
    · rw [if_neg c2, show ∀ z : Str, (if neg then ['-'] else []) ++ '0' :: '.' :: z = ((if neg then ['-'] else []) ++ ['0']) ++ '.' :: z by
          intro z; simp, places_point]
      · rw [List.length_append, List.length_replicate, hr]; omega
      · simp
      · exact sign_not_point _ (by decide)

/-- numbers python makes from floats -/
def Dec.Good (d : Dec) : Prop := d.Ok ∨ d.digits = [0] ∧ d.exp = 0

/-- one if rounding to `sf` figures gives one more digit (9.99 → 10.0) -/
def carry (d : Dec) (sf : Nat) : Nat := if roundDigits d.digits sf = 10 ^ sf then 1 else 0

theorem roundDigits_zero (sf : Nat) : roundDigits [0] sf = 0 := by
  have := roundDigits_spec (l := [0]) (by simp) sf
  have e : (dval [0] : ℚ) = 0 := by simp [dval]
  rw [e, zero_mul, zero_add] at this
  have e2 : ⌊(1 / 2 : ℚ)⌋ = 0 := by rw [Int.floor_eq_iff]; norm_num
  rw [e2] at this; exact_mod_cast this

theorem places_numberFigs {d : Dec} (h : d.Good) {sf : Nat} (hs : 0 < sf) :
    decimalPlaces (numberFigs d sf) = ((sf : Int) - 1 - d.adjusted - carry d sf).toNat := by
  rcases h with h | ⟨h1, h2⟩
  · obtain ⟨b1, b2⟩ := roundDigits_bounds h hs
    obtain ⟨t1, t2, _⟩ := take_value hs b1 b2
    unfold numberFigs
    dsimp only
    rw [places_place _ _ hs t1 (fun c hc => strNat_isDigit (List.mem_of_mem_take hc))]
    unfold carry
    rcases t2 with ⟨l1, l2⟩ | ⟨l1, l2⟩
    · rw [l1, if_neg (by omega)]; congr 1; push_cast; ring
    · rw [l1, if_pos l2]; congr 1; push_cast; ring
  · have hc : carry d sf = 0 := by
      unfold carry
      rw [h1, roundDigits_zero, if_neg]
      have := Nat.pos_of_ne_zero (pow_ne_zero sf (by norm_num : (10 : Nat) ≠ 0)); omega
    have ha : d.adjusted = 0 := by unfold Dec.adjusted; rw [h1, h2]; simp
    rw [hc, ha]
    unfold numberFigs
    dsimp only
    rw [h1, roundDigits_zero, ha]
    have hz : strNat 0 = ['0'] := rfl
    rw [hz, List.take_of_length_le (by simp; omega)]
    unfold place
    by_cases hs1 : sf = 1
    · subst hs1
      rw [if_pos (show ((1 : Nat) : Int) - 1 ≤ 0 + (['0'].length : Int) - ((1 : Nat) : Int) by simp)]
      cases d.neg <;> rfl
    · have c1 : ¬ (sf : Int) - 1 ≤ 0 + (['0'].length : Int) - sf := by simp only [List.length_singleton]; push_cast; omega
      have c2 : ¬ (0 : Int) ≤ 0 + (['0'].length : Int) - sf := by simp only [List.length_singleton]; push_cast; omega
      simp only [c1, c2, if_false]
      rw [show ∀ z : Str, (if d.neg then ['-'] else []) ++ '0' :: '.' :: z = ((if d.neg then ['-'] else []) ++ ['0']) ++ '.' :: z by
          intro z; simp, places_point]
      · simp only [List.length_append, List.length_replicate, List.length_singleton]; push_cast; omega
      · simp
      · exact sign_not_point _ (by decide)

theorem carry_le (d : Dec) (sf : Nat) : carry d sf ≤ 1 := by unfold carry; split <;> omega

theorem log10 (e : Int) (x : ℚ) (h1 : (10 : ℚ) ^ e ≤ x) (h2 : x < 10 ^ (e + 1)) : Int.log 10 x = e := log_eq h1 h2

/-- **C42**: the text shows exactly the requested number of significant figures: with the leading figure of the printed value at `10 ^ e` the
last one shown is at `10 ^ (e - sf + 1)`, unless that is to the left of the point -/
theorem numberFigs_figures {d : Dec} (h : d.Ok) {sf : Nat} (hs : 0 < sf) :
    ∃ v : ℚ, floatStr (numberFigs d sf) = some v ∧ v ≠ 0 ∧ decimalPlaces (numberFigs d sf) = ((sf : Int) - 1 - Int.log 10 |v|).toNat := by
  obtain ⟨_, _, h3⟩ := numberFigs_spec h hs
  obtain ⟨b1, b2⟩ := roundDigits_bounds h hs
  have hq : |d.val| / 10 ^ (d.adjusted - sf + 1) = (dval d.digits : ℚ) * 10 ^ ((sf : Int) - d.digits.length) := by
    rw [val_abs, div_eq_iff (by positivity), mul_assoc, ← zpow_add₀ (by norm_num)]
    congr 2; unfold Dec.adjusted; omega
  rw [hq, ← roundDigits_spec h.lt sf] at h3
  set N := roundDigits d.digits sf with hN
  have hNpos : 0 < N := lt_of_lt_of_le (Nat.pos_of_ne_zero (pow_ne_zero _ (by norm_num))) b1
  have hNq : (0 : ℚ) < N := by exact_mod_cast hNpos
  have hav : |(if d.neg then (-1 : ℚ) else 1) * (N : ℚ) * 10 ^ (d.adjusted - sf + 1)| = (N : ℚ) * 10 ^ (d.adjusted - sf + 1) := by
    rw [abs_mul, abs_mul]
    have h1 : |(if d.neg then (-1 : ℚ) else 1)| = 1 := by cases d.neg <;> simp
    rw [h1, one_mul, abs_of_pos hNq, abs_of_pos (by positivity)]
  refine ⟨_, h3, ?_, ?_⟩
  · intro e; rw [e, abs_zero] at hav; exact absurd hav.symm (by positivity)
  · rw [hav, places_numberFigs (.inl h) hs]
    have hlog : Int.log 10 ((N : ℚ) * 10 ^ (d.adjusted - sf + 1)) = d.adjusted + carry d sf := by
      have hp : (0 : ℚ) < 10 ^ (d.adjusted - sf + 1) := by positivity
      have b1q : (10 : ℚ) ^ (sf - 1) ≤ N := by exact_mod_cast b1
      unfold carry
      rw [← hN]
      by_cases hc : N = 10 ^ sf
      · rw [if_pos hc]
        have e : (N : ℚ) * 10 ^ (d.adjusted - sf + 1) = 10 ^ (d.adjusted + 1) := by
          rw [hc]; push_cast; rw [← zpow_natCast, ← zpow_add₀ (by norm_num)]; congr 1; ring
        rw [e]
        apply log10
        · exact le_refl _
        · exact zpow_lt_zpow_right₀ (by norm_num) (by push_cast; omega)
      · rw [if_neg hc]
        have b2q : (N : ℚ) < 10 ^ sf := by exact_mod_cast lt_of_le_of_ne b2 hc
        apply log10
        · calc (10 : ℚ) ^ (d.adjusted + ((0 : Nat) : Int)) = 10 ^ (sf - 1) * 10 ^ (d.adjusted - sf + 1) := by
                rw [← zpow_natCast, ← zpow_add₀ (by norm_num)]; congr 1; push_cast; omega
            _ ≤ _ := by nlinarith
        · calc (N : ℚ) * 10 ^ (d.adjusted - sf + 1) < 10 ^ sf * 10 ^ (d.adjusted - sf + 1) := by nlinarith
            _ = _ := by rw [← zpow_natCast, ← zpow_add₀ (by norm_num)]; congr 1; push_cast; omega
    rw [hlog]; congr 1; ring

/-! ## Scientific notation and signs -/

/-- **C42**: in scientific notation the printed number times the power of ten has the same error -/
theorem numberFigsSci_error {d : Dec} (h : d.Ok) {sf : Nat} (hs : 0 < sf) : ∃ v, floatStr (numberFigsSci d sf).1 = some v ∧
    |v * 10 ^ (numberFigsSci d sf).2 - d.val| ≤ 10 ^ (d.adjusted - sf + 1) / 2 ∧
    ((numberFigsSci d sf).2 = 0 ↔ -4 ≤ d.adjusted ∧ d.adjusted ≤ 4) := by
  have hok : (d.shift (sciExponent d)).Ok := ⟨h.ne, h.lt, h.lead⟩
  obtain ⟨v, hv, he⟩ := numberFigs_error hok hs
  refine ⟨v, hv, ?_, ?_⟩
  · have hval : (d.shift (sciExponent d)).val * 10 ^ sciExponent d = d.val := by
      unfold Dec.val Dec.shift
      dsimp only
      rw [mul_assoc, ← zpow_add₀ (by norm_num), sub_add_cancel]
    have hadj : (d.shift (sciExponent d)).adjusted = d.adjusted - sciExponent d := by unfold Dec.adjusted Dec.shift; ring
    show |v * 10 ^ sciExponent d - d.val| ≤ _
    rw [← hval, ← sub_mul, abs_mul, abs_of_pos (show (0 : ℚ) < 10 ^ sciExponent d by positivity)]
    have hp : (0 : ℚ) < 10 ^ sciExponent d := by positivity
    calc _ ≤ (10 : ℚ) ^ ((d.shift (sciExponent d)).adjusted - sf + 1) / 2 * 10 ^ sciExponent d := by nlinarith
      _ = _ := by
        rw [hadj, div_mul_eq_mul_div, ← zpow_add₀ (by norm_num)]; congr 2; ring
  · show sciExponent d = 0 ↔ _
    unfold sciExponent
    split <;> rename_i hc
    · rw [lt_abs] at hc; omega
    · rw [lt_abs] at hc; omega

example : numberFigsSci ⟨false, [1, 2, 3, 4, 5, 6, 7], 0⟩ 3 = (c!"1.23", 6) := by decide +kernel

theorem head_numberFigs (d : Dec) (sf : Nat) (hs : 0 < sf) : (numberFigs d sf).head? ≠ some '.' := by
  unfold numberFigs
  dsimp only
  cases d.neg with
  | true => simp
  | false =>
    have hne : (strNat (roundDigits d.digits sf)).take sf ≠ [] := by
      intro e
      have := congrArg List.length e
      have h1 := List.length_pos_of_ne_nil (strNat_ne_nil (roundDigits d.digits sf))
      rw [List.length_take, List.length_nil] at this; omega
    obtain ⟨c, r, hcr⟩ := List.exists_cons_of_ne_nil hne
    have hc : c.isDigit = true := strNat_isDigit (List.mem_of_mem_take (by rw [hcr]; exact List.mem_cons_self))
    have hdot : c ≠ '.' := by intro e; rw [e] at hc; exact absurd hc (by decide)
    simp only [Bool.false_eq_true, if_false, List.nil_append]
    unfold place
    rw [hcr]
    split
    · simpa using hdot
    · split
      · rename_i h1 h2
        obtain ⟨k, hk⟩ : ∃ k, (d.adjusted + ((strNat (roundDigits d.digits sf)).length : Int) - sf + 1).toNat = k + 1 := Nat.exists_eq_succ_of_ne_zero (by omega)
        rw [hk]; simpa using hdot
      · simp

theorem places_cons {c : Char} {s : Str} (hc : c ≠ '.') (hs : s.head? ≠ some '.') : decimalPlaces (c :: s) = decimalPlaces s := by
  by_cases hm : '.' ∈ s
  · obtain ⟨a, b, rfl, hn⟩ := List.eq_append_cons_of_mem hm
    have ha : a ≠ [] := by intro e; subst e; simp at hs
    rw [places_point b ha hn, show c :: (a ++ '.' :: b) = (c :: a) ++ '.' :: b from rfl, places_point b (by simp) (by simp [Ne.symm hc, hn])]
  · rw [places_none hm, places_none (by simp [Ne.symm hc, hm])]

theorem head_signed {s : Str} (hs : s.head? ≠ some '.') : decimalPlaces (signed s) = decimalPlaces s := by
  unfold signed
  dsimp only
  by_cases h1 : s.head? ≠ some '-' ∧ fl s < 0
  · rw [if_pos h1]
    split
    · rw [places_cons (by decide) (by simp), places_cons (by decide) hs]
    · rw [places_cons (by decide) hs]
  · rw [if_neg h1]
    split
    · rw [places_cons (by decide) hs]
    · rfl

theorem places_formatNumber (d : Dec) {sf : Nat} (hs : 0 < sf) (wantSign : Bool) :
    decimalPlaces (formatNumber d sf wantSign) = decimalPlaces (numberFigs d sf) := by
  unfold formatNumber
  split
  · exact head_signed (head_numberFigs d sf hs)
  · rfl

theorem fl_numberFigs {d : Dec} (h : d.Good) {sf : Nat} (hs : 0 < sf) : (0 < fl (numberFigs d sf) ↔ 0 < d.val) ∧ (fl (numberFigs d sf) < 0 ↔ d.val < 0) := by
  rcases h with h | ⟨h1, h2⟩
  · obtain ⟨v, hv, _, _⟩ := numberFigs_figures h hs
    obtain ⟨_, _, h3⟩ := numberFigs_spec h hs
    obtain ⟨b1, _⟩ := roundDigits_bounds h hs
    have hq : |d.val| / 10 ^ (d.adjusted - sf + 1) = (dval d.digits : ℚ) * 10 ^ ((sf : Int) - d.digits.length) := by
      rw [val_abs, div_eq_iff (by positivity), mul_assoc, ← zpow_add₀ (by norm_num)]
      congr 2; unfold Dec.adjusted; omega
    rw [hq, ← roundDigits_spec h.lt sf] at h3
    have hN : (0 : ℚ) < roundDigits d.digits sf := by
      exact_mod_cast lt_of_lt_of_le (Nat.pos_of_ne_zero (pow_ne_zero _ (by norm_num))) b1
    have hD : (0 : ℚ) < dval d.digits := by
      exact_mod_cast lt_of_lt_of_le (Nat.pos_of_ne_zero (pow_ne_zero _ (by norm_num))) (dval_lead h.ne h.lead)
    have p1 : (0 : ℚ) < roundDigits d.digits sf * 10 ^ (d.adjusted - sf + 1) := by positivity
    have p2 : (0 : ℚ) < dval d.digits * 10 ^ d.exp := by positivity
    unfold fl
    rw [h3, Option.getD_some]
    unfold Dec.val
    rw [mul_assoc, mul_assoc]
    cases d.neg
    · simp only [Bool.false_eq_true, if_false, one_mul]
      exact ⟨⟨fun _ => p2, fun _ => p1⟩, ⟨fun h => absurd h (by linarith), fun h => absurd h (by linarith)⟩⟩
    · simp only [if_true]
      exact ⟨⟨fun h => absurd h (by linarith), fun h => absurd h (by linarith)⟩, ⟨fun _ => by linarith, fun _ => by linarith⟩⟩
  · have e : d = ⟨d.neg, [0], 0⟩ := by cases d; simp_all
    have hv : d.val = 0 := by unfold Dec.val; rw [h1]; simp [dval]
    rw [hv]
    unfold fl
    rw [e, numberFigs_zero _ hs]; simp

/-- **C42**: a number printed with sign carries the sign of the number, and none if it is zero; the value is not changed -/
theorem formatNumber_sign {d : Dec} (h : d.Good) {sf : Nat} (hs : 0 < sf) :
    formatNumber d sf true = if 0 < d.val then '+' :: numberFigs d sf else numberFigs d sf := by
  obtain ⟨p, n⟩ := fl_numberFigs h hs
  unfold formatNumber signed
  rw [if_pos rfl]
  dsimp only
  have hno : ¬ ((numberFigs d sf).head? ≠ some '-' ∧ fl (numberFigs d sf) < 0) := by
    rintro ⟨h1, h2⟩
    have hneg := n.mp h2
    apply h1
    have : d.neg = true := by
      cases hh : d.neg with
      | true => rfl
      | false =>
        exfalso
        unfold Dec.val at hneg
        rw [hh] at hneg
        simp only [Bool.false_eq_true, if_false, one_mul] at hneg
        have : (0 : ℚ) ≤ dval d.digits * 10 ^ d.exp := by positivity
        linarith
    unfold numberFigs
    rw [this]; simp
  rw [if_neg hno]
  simp only [p]

/-! ## Values with errors -/

theorem fixedPoint_shape (n : Nat) {dp : Nat} (h : 0 < dp) : ∃ ip fp : Str, fixedPoint n dp = ip ++ '.' :: fp ∧ ip ≠ [] ∧ fp.length = dp ∧
    (∀ c ∈ ip, c.isDigit = true) ∧ (∀ c ∈ fp, c.isDigit = true) ∧ Nat.ofDigitChars 10 (ip ++ fp) 0 = n := by
  unfold fixedPoint
  dsimp only
  rw [if_neg (by omega)]
  set s := List.replicate (dp + 1 - (strNat n).length) '0' ++ strNat n with hs
  have hl : dp + 1 ≤ s.length := by rw [hs, List.length_append, List.length_replicate]; omega
  have hd : ∀ c ∈ s, c.isDigit = true := by
    intro c hc
    rcases List.mem_append.mp hc with h | h
    · exact zeros_digit _ c h
    · exact strNat_isDigit h
  refine ⟨_, _, rfl, ?_, ?_, fun c hc => hd c (List.mem_of_mem_take hc), fun c hc => hd c (List.mem_of_mem_drop hc), ?_⟩
  · intro e
    have := congrArg List.length e
    rw [List.length_take, List.length_nil] at this; omega
  · rw [List.length_drop]; omega
  · rw [List.take_append_drop, hs, ofDigits_append, ofDigitChars_zeros, Nat.zero_mul, Nat.zero_add]
    exact Nat.ofDigitChars_ten_toDigits

theorem fmtF_spec (dp : Nat) (x : ℚ) : decimalPlaces (fmtF dp x) = dp ∧ ∃ v, floatStr (fmtF dp x) = some v ∧ |v - x| ≤ 1 / 10 ^ dp / 2 := by
  have hsg : (if x < 0 then ['-'] else []) = (if decide (x < 0) then ['-'] else [] : Str) := by simp
  have hr0 : 0 ≤ roundEven (|x| * 10 ^ dp) := by
    have := (roundEven_bounds (|x| * 10 ^ dp)).1
    have : 0 ≤ ⌊|x| * (10 : ℚ) ^ dp⌋ := Int.floor_nonneg.mpr (by positivity)
    omega
  have hre := roundEven_error (|x| * 10 ^ dp)
  have hcast : (((roundEven (|x| * 10 ^ dp)).toNat : Nat) : ℚ) = ((roundEven (|x| * 10 ^ dp) : Int) : ℚ) := by
    rw [← Int.cast_natCast, Int.toNat_of_nonneg hr0]
  set R := roundEven (|x| * 10 ^ dp) with hR
  have hp : (0 : ℚ) < 10 ^ dp := by positivity
  have hval : ∀ v : ℚ, v = (if decide (x < 0) then -1 else 1) * (R : ℚ) / 10 ^ dp → |v - x| ≤ 1 / 10 ^ dp / 2 := by
    rintro v rfl
    have e : x = (if decide (x < 0) then -1 else 1) * (|x| * 10 ^ dp) / 10 ^ dp := by
      rw [← mul_assoc, mul_div_assoc, div_self hp.ne', mul_one]
      by_cases hx : x < 0
      · simp [hx, abs_of_neg hx]
      · simp [hx, abs_of_nonneg (not_lt.mp hx)]
    have e2 : (if decide (x < 0) then -1 else 1) * (R : ℚ) / 10 ^ dp - x =
        (if decide (x < 0) then -1 else 1) * ((R : ℚ) - |x| * 10 ^ dp) / 10 ^ dp := by
      rw [mul_sub, sub_div, ← e]
    rw [e2, abs_div, abs_mul, abs_of_pos hp]
    have h1 : |(if decide (x < 0) then (-1 : ℚ) else 1)| = 1 := by by_cases hx : x < 0 <;> simp [hx]
    rw [h1, one_mul, div_right_comm]
    exact div_le_div_of_nonneg_right hre hp.le
  rcases Nat.eq_zero_or_pos dp with h0 | h0
  · subst h0
    have hf : fixedPoint R.toNat 0 = List.replicate (1 - (strNat R.toNat).length) '0' ++ strNat R.toNat := by
      unfold fixedPoint; simp
    have hd : ∀ c ∈ List.replicate (1 - (strNat R.toNat).length) '0' ++ strNat R.toNat, c.isDigit = true := by
      intro c hc
      rcases List.mem_append.mp hc with h | h
      · exact zeros_digit _ c h
      · exact strNat_isDigit h
    unfold fmtF
    rw [← hR, hf, hsg]
    refine ⟨places_none (sign_not_point _ (digit_not_point hd)), _, floatStr_plain _ (by simp [strNat_ne_nil]) hd, hval _ ?_⟩
    unfold decimalValue
    rw [List.append_nil, ofDigits_append, ofDigitChars_zeros, Nat.zero_mul, Nat.zero_add]
    unfold strNat
    rw [Nat.ofDigitChars_ten_toDigits, hcast]
    simp
  · obtain ⟨ip, fp, hs, hne, hl, hi, hf, hv⟩ := fixedPoint_shape R.toNat h0
    unfold fmtF
    rw [← hR, hs, hsg]
    refine ⟨?_, _, floatStr_point _ hne hi hf, hval _ ?_⟩
    · rw [← List.append_assoc, places_point fp (by simp [hne]) (sign_not_point _ (digit_not_point hi)), hl]
    · unfold decimalValue
      rw [hv, hl, hcast, zero_sub, zpow_neg, zpow_natCast]
      rfl

example : decimalPlaces (fmtF 2 (22 / 7)) = 2 ∧ fmtF 2 (22 / 7) = c!"3.14" := by decide +kernel

theorem down_spec {d : Dec} {maxdp : Nat} : ∀ sf : Nat, 0 < sf → ∀ r, down d maxdp sf (numberFigs d sf) = r →
    decimalPlaces r.2 ≤ maxdp ∧ ((r.1 = 0 ∧ (r.2 = fmtF maxdp d.val ∨ r.2 = fmtF maxdp 0 ∧ fl (fmtF maxdp d.val) = 0) ∧ maxdp < decimalPlaces (numberFigs d 1)) ∨
      (0 < r.1 ∧ r.1 ≤ sf ∧ r.2 = numberFigs d r.1 ∧ (r.1 < sf → maxdp < decimalPlaces (numberFigs d (r.1 + 1)))))
  | 0, h, _, _ => absurd h (lt_irrefl _)
  | sf + 1, _, r, hr => by
    rw [down] at hr
    by_cases h : maxdp < decimalPlaces (numberFigs d (sf + 1))
    · rw [if_pos h] at hr
      by_cases h0 : sf = 0
      · rw [if_pos h0] at hr
        subst h0
        rw [← hr]
        dsimp only
        split
        · rename_i hz
          exact ⟨(fmtF_spec maxdp 0).1.le, .inl ⟨rfl, .inr ⟨rfl, hz⟩, h⟩⟩
        · exact ⟨(fmtF_spec maxdp _).1.le, .inl ⟨rfl, .inl rfl, h⟩⟩
      · rw [if_neg h0] at hr
        obtain ⟨h1, h2⟩ := down_spec sf (Nat.pos_of_ne_zero h0) r hr
        refine ⟨h1, h2.imp id ?_⟩
        rintro ⟨a, b, c, e⟩
        refine ⟨a, by omega, c, fun _ => ?_⟩
        rcases b.lt_or_eq with hb | hb
        · exact e hb
        · rw [hb]; exact h
    · rw [if_neg h] at hr
      rw [← hr]
      exact ⟨not_lt.mp h, .inr ⟨Nat.succ_pos _, le_refl _, rfl, fun hh => absurd hh (lt_irrefl _)⟩⟩

theorem up_spec {d : Dec} (hd : d.Good) {pd : Nat} : ∀ (f sf : Nat), 0 < f → 0 < sf → pd + (d.adjusted + 2).toNat + 1 ≤ sf + f →
    ∃ k, sf ≤ k ∧ up d pd f sf (numberFigs d sf) = some (numberFigs d k) ∧ pd ≤ decimalPlaces (numberFigs d k) ∧
      (sf < k → decimalPlaces (numberFigs d (k - 1)) < pd)
  | 0, _, h, _, _ => absurd h (lt_irrefl _)
  | f + 1, sf, _, hs, hle => by
    rw [up]
    by_cases h : decimalPlaces (numberFigs d sf) < pd
    · rw [if_pos h]
      have hp := places_numberFigs hd hs
      have hc := carry_le d sf
      obtain ⟨k, a, b, c, e⟩ := up_spec (pd := pd) hd f (sf + 1) (by omega) (by omega) (by omega)
      refine ⟨k, by omega, b, c, fun _ => ?_⟩
      by_cases hk : sf + 1 < k
      · exact e hk
      · rw [show k - 1 = sf by omega]; exact h
    · rw [if_neg h]
      exact ⟨sf, le_refl _, rfl, not_lt.mp h, fun hh => absurd hh (lt_irrefl _)⟩

theorem numberFigs_err {d : Dec} (hd : d.Good) {sf : Nat} (hs : 0 < sf) : |fl (numberFigs d sf) - d.val| ≤ 10 ^ (d.adjusted - sf + 1) / 2 := by
  rcases hd with h | ⟨h1, h2⟩
  · obtain ⟨v, hv, he⟩ := numberFigs_error h hs
    unfold fl; rw [hv]; exact he
  · have e : d = ⟨d.neg, [0], 0⟩ := by cases d; simp_all
    have hv : d.val = 0 := by unfold Dec.val; rw [h1]; simp [dval]
    rw [hv]
    unfold fl
    rw [e, numberFigs_zero _ hs]
    simp only [Option.getD_some, sub_zero, abs_zero]
    positivity

/-- **C70**: printing a value with its errors always ends; the value has at least as many decimals as its upper error, at most one more than the
errors, and is rounded by at most half a unit of the last decimal or of the last significant figure asked for -/
theorem layout_partial {value limplus limminus : Dec} (hv : value.Good) {sf err : Nat} (hs : 0 < sf)
    (wantSign : Bool) : ∃ res, layout value limplus limminus sf err wantSign =
        .ok (res, formatNumber limplus err wantSign, formatNumber limminus err wantSign) ∧
      decimalPlaces (formatNumber limplus err wantSign) ≤ decimalPlaces res ∧
      decimalPlaces res ≤ max (decimalPlaces (formatNumber limplus err wantSign)) (decimalPlaces (formatNumber limminus err wantSign)) + 1 ∧
      |fl res - value.val| ≤ max (1 / 10 ^ decimalPlaces res) (10 ^ (value.adjusted - sf + 1)) / 2 := by
  unfold layout
  dsimp only
  set pd := decimalPlaces (formatNumber limplus err wantSign) with hpd
  set md := decimalPlaces (formatNumber limminus err wantSign) with hmd
  obtain ⟨r, hr⟩ : ∃ r, down value (max pd md) sf (numberFigs value sf) = r := ⟨_, rfl⟩
  obtain ⟨d1, d2⟩ := down_spec sf hs r hr
  rw [hr]
  have hunit : ∀ k, 0 < k → 0 < decimalPlaces (numberFigs value k) → (10 : ℚ) ^ (value.adjusted - k + 1) ≤ 1 / 10 ^ decimalPlaces (numberFigs value k) := by
    intro k hk hpos
    have hpl := places_numberFigs hv hk
    rw [one_div, ← zpow_natCast, ← zpow_neg]
    exact zpow_le_zpow_right₀ (by norm_num) (by omega)
  rcases d2 with ⟨a, b, c⟩ | ⟨a, b, c, e⟩
  · -- no figures left
    have hdp : decimalPlaces r.2 = max pd md := by
      rcases b with b | ⟨b, _⟩ <;> rw [b] <;> exact (fmtF_spec _ _).1
    have hup : up value pd (fuel value pd) r.1 r.2 = some r.2 := by
      unfold fuel
      rw [up, if_neg (by omega)]
    rw [hup]
    refine ⟨r.2, rfl, by omega, by omega, ?_⟩
    have hle : |fl r.2 - value.val| ≤ 1 / 10 ^ decimalPlaces r.2 / 2 := by
      rw [hdp]
      obtain ⟨_, v, hv1, hv2⟩ := fmtF_spec (max pd md) value.val
      rcases b with b | ⟨b, bz⟩
      · rw [b]; unfold fl; rw [hv1]; exact hv2
      · obtain ⟨_, z, hz1, hz2⟩ := fmtF_spec (max pd md) 0
        have hv0 : v = 0 := by unfold fl at bz; rw [hv1] at bz; exact bz
        have hz0 : z = 0 := by
          have : floatStr (fmtF (max pd md) (0 : ℚ)) = some (0 : ℚ) := by
            have hd0 : fmtF (max pd md) (0 : ℚ) = fixedPoint 0 (max pd md) := by
              unfold fmtF
              have : roundEven (|(0 : ℚ)| * 10 ^ (max pd md)) = 0 := by
                rw [abs_zero, zero_mul]; exact_mod_cast roundEven_int (K := ℚ) 0
              rw [this]; simp
            rw [hd0]
            rcases Nat.eq_zero_or_pos (max pd md) with h0 | h0
            · rw [h0]; decide +kernel
            · obtain ⟨ip, fp, hs, hne, hl, hi, hf, hv⟩ := fixedPoint_shape 0 h0
              have := floatStr_point (K := ℚ) false hne hi hf
              rw [hs]
              simp only [Bool.false_eq_true, if_false, List.nil_append] at this
              rw [this]
              unfold decimalValue
              rw [hv]; simp
          rw [hz1] at this; exact Option.some.inj this
        rw [b]; unfold fl; rw [hz1, Option.getD_some, hz0, ← hv0]; exact hv2
    have := le_max_left (1 / (10 : ℚ) ^ decimalPlaces r.2) ((10 : ℚ) ^ (value.adjusted - sf + 1))
    linarith
  · rw [c] at d1
    rw [c]
    obtain ⟨k, k1, k2, k3, k4⟩ := up_spec hv (fuel value pd) r.1 (by unfold fuel; omega) a (by unfold fuel; omega) (pd := pd)
    rw [k2]
    have hk0 : 0 < k := by omega
    refine ⟨numberFigs value k, rfl, k3, ?_, ?_⟩
    · by_cases hk : r.1 < k
      · have h4 := k4 hk
        have p1 := places_numberFigs hv hk0
        have p2 := places_numberFigs hv (sf := k - 1) (by omega)
        have c2 := carry_le value (k - 1)
        omega
      · rw [show k = r.1 by omega]; omega
    · have he1 := numberFigs_err hv hk0
      refine le_trans he1 ?_
      have hgoal : (10 : ℚ) ^ (value.adjusted - k + 1) ≤ max (1 / 10 ^ decimalPlaces (numberFigs value k)) (10 ^ (value.adjusted - sf + 1)) := by
        rcases Nat.eq_zero_or_pos (decimalPlaces (numberFigs value k)) with h0 | h0
        · by_cases hks : sf ≤ k
          · exact le_trans (zpow_le_zpow_right₀ (by norm_num) (by omega)) (le_max_right _ _)
          · have hr1 : r.1 < sf := by omega
            have he2 := e hr1
            have hp3 := places_numberFigs hv (sf := r.1 + 1) (by omega)
            rw [h0, pow_zero, div_one]
            refine le_trans ?_ (le_max_left _ _)
            calc (10 : ℚ) ^ (value.adjusted - k + 1) ≤ 10 ^ (0 : Int) := zpow_le_zpow_right₀ (by norm_num) (by omega)
              _ = 1 := by simp
        · exact le_trans (hunit k hk0 h0) (le_max_left _ _)
      linarith

example : layout ⟨false, [1, 2, 3, 4, 5], -2⟩ ⟨false, [1, 2], -1⟩ ⟨false, [3, 4], -2⟩ 3 2 false = .ok (c!"123.5", c!"1.2", c!"0.34") := by decide +kernel

/-- **C70**: when the value does not round up to a longer number, it is printed with no more decimals than the errors -/
theorem layout_decimals {value limplus limminus : Dec} (hv : value.Good) {sf err : Nat} (hs : 0 < sf) (wantSign : Bool)
    (hc : ∀ k, 0 < k → carry value k = 0) : ∃ res, layout value limplus limminus sf err wantSign =
        .ok (res, formatNumber limplus err wantSign, formatNumber limminus err wantSign) ∧
      decimalPlaces (formatNumber limplus err wantSign) ≤ decimalPlaces res ∧
      decimalPlaces res ≤ max (decimalPlaces (formatNumber limplus err wantSign)) (decimalPlaces (formatNumber limminus err wantSign)) := by
  unfold layout
  dsimp only
  set pd := decimalPlaces (formatNumber limplus err wantSign) with hpd
  set md := decimalPlaces (formatNumber limminus err wantSign) with hmd
  obtain ⟨r, hr⟩ : ∃ r, down value (max pd md) sf (numberFigs value sf) = r := ⟨_, rfl⟩
  obtain ⟨d1, d2⟩ := down_spec sf hs r hr
  rw [hr]
  rcases d2 with ⟨a, b, c⟩ | ⟨a, b, c, e⟩
  · have hdp : decimalPlaces r.2 = max pd md := by
      rcases b with b | ⟨b, _⟩ <;> rw [b] <;> exact (fmtF_spec _ _).1
    have hup : up value pd (fuel value pd) r.1 r.2 = some r.2 := by
      unfold fuel
      rw [up, if_neg (by omega)]
    rw [hup]
    exact ⟨r.2, rfl, by omega, by omega⟩
  · rw [c] at d1
    rw [c]
    obtain ⟨k, k1, k2, k3, k4⟩ := up_spec hv (fuel value pd) r.1 (by unfold fuel; omega) a (by unfold fuel; omega) (pd := pd)
    rw [k2]
    have hk0 : 0 < k := by omega
    refine ⟨numberFigs value k, rfl, k3, ?_⟩
    by_cases hk : r.1 < k
    · have h4 := k4 hk
      have p1 := places_numberFigs hv hk0
      have p2 := places_numberFigs hv (sf := k - 1) (by omega)
      rw [hc k hk0] at p1
      rw [hc (k - 1) (by omega)] at p2
      omega
    · rw [show k = r.1 by omega]; omega

example : carry ⟨false, [1, 2, 3, 4, 5], -2⟩ 3 = 0 ∧ carry ⟨false, [9, 9, 9], -2⟩ 2 = 1 := by decide +kernel

/-- **C70**: the whole function, for positive errors -/
theorem namesigFigs_total {value limplus limminus : Dec} (hv : value.Good) {sig err : Nat} (hs : 0 < sig)
    (wantSign : Bool) (h0 : 0 < limplus.val) : ∃ res plus minus, namesigFigs sig err value limplus limminus wantSign = .ok (res, plus, minus) ∧
      decimalPlaces plus ≤ decimalPlaces res ∧ decimalPlaces res ≤ max (decimalPlaces plus) (decimalPlaces minus) + 1 := by
  unfold namesigFigs
  rw [if_neg (by have := abs_nonneg value.val; intro e; linarith)]
  dsimp only
  have hsf : 0 < sfOf sig value.val (limplus.val / (|value.val| + limplus.val)) := by unfold sfOf; split <;> [omega; (split <;> omega)]
  obtain ⟨res, h1, h2, h3, _⟩ := layout_partial hv hsf wantSign
  exact ⟨res, _, _, h1, h2, h3⟩

/-- 9.9609375 ± 1 is printed as 9.96 ± 1.0 -/
theorem decimals_fails : namesigFigs 4 2 ⟨false, [9, 9, 6, 0, 9, 3, 7, 5], -7⟩ ⟨false, [1], 0⟩ ⟨false, [1], 0⟩ false = .ok (c!"9.96", c!"1.0", c!"1.0") := by
  decide +kernel

/-- 123456 ± 30 is printed as 123500 ± 30 (without scientific notation, as for chi-squared values): off by more than the error -/
theorem rounding_fails : namesigFigs 4 2 ⟨false, [1, 2, 3, 4, 5, 6], 0⟩ ⟨false, [3, 0], 0⟩ ⟨false, [3, 0], 0⟩ false = .ok (c!"123500", c!"30", c!"30") := by
  decide +kernel

/-- a value of zero with zero error cannot be printed -/
theorem zero_fails (sig err : Nat) (w n : Bool) (m : Dec) : namesigFigs sig err ⟨n, [0], 0⟩ ⟨false, [0], 0⟩ m w = .error .zeroDivision := by
  unfold namesigFigs Dec.val
  rw [if_pos]
  simp [dval]

example : namesigFigs 4 2 ⟨false, [1, 2, 3, 4, 5, 6], -5⟩ ⟨false, [5], -1⟩ ⟨true, [2, 5], -2⟩ true = .ok (c!"1.23", c!"+0.50", c!"-0.25") := by
  decide +kernel

end Verif.NumFmt
