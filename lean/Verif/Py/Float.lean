import Verif.Py.Num
import Verif.Lemmas.Str
import Verif.Py.Path
import Mathlib.Algebra.Order.Field.Basic
import Mathlib.Algebra.Order.Floor.Ring
import Mathlib.Data.Int.Log
import Mathlib.Data.Rat.Floor
import Mathlib.Tactic.Ring
import Mathlib.Tactic.Linarith
import Mathlib.Tactic.FieldSimp
import Mathlib.Tactic.Positivity

/-!
# Decimal text of numbers: python's `'%.pE' % x` and `float(s)`

Numbers are elements of an ordered field with floor.  `'%.pE'` prints the correctly rounded (half to even) decimal
with `p` digits after the point; `float` reads decimal literals (`inf`, `nan` and underscores are not modelled).
-/

set_option linter.unusedSectionVars false

namespace Verif.Py

variable {K : Type} [Field K] [LinearOrder K] [IsStrictOrderedRing K] [FloorRing K]

/-- round to the nearest integer, half to even -/
def roundEven (x : K) : Int :=
  if 2 * Int.fract x < 1 then ⌊x⌋
  else if 1 < 2 * Int.fract x then ⌊x⌋ + 1
  else if ⌊x⌋ % 2 = 0 then ⌊x⌋ else ⌊x⌋ + 1

/-- mantissa (an integer of `p + 1` digits) and decimal exponent of a positive number rounded to `p + 1` digits -/
def sci (p : Nat) (a : K) : Nat × Int :=
  let e := Int.log 10 a
  let m := (roundEven (a / (10 : K) ^ (e - p))).toNat
  if m = 10 ^ (p + 1) then (10 ^ p, e + 1) else (m, e)

/-- mantissa digits with a point after the first -/
def pointed (s : Str) : Str :=
  match s with
  | [] => []
  | c :: r => if r.isEmpty then [c] else c :: '.' :: r

/-- the exponent: sign and at least two digits -/
def expStr (e : Int) : Str :=
  (if e < 0 then '-' else '+') :: (if e.natAbs < 10 then '0' :: strNat e.natAbs else strNat e.natAbs)

/-- `'%.pE' % x` -/
def fmtE (p : Nat) (x : K) : Str :=
  (if x < 0 then ['-'] else []) ++
  (if x = 0 then pointed (List.replicate (p + 1) '0') ++ 'E' :: expStr 0
   else pointed (strNat (sci p |x|).1) ++ 'E' :: expStr (sci p |x|).2)

/-- `'%ws' % s`: pad with blanks on the left -/
def rjust (w : Nat) (s : Str) : Str := List.replicate (w - s.length) ' ' ++ s

/-- an optional sign; `true` for a minus -/
def takeSign (s : Str) : Bool × Str :=
  match s with
  | [] => (false, [])
  | c :: r => if c = '-' then (true, r) else if c = '+' then (false, r) else (false, c :: r)

/-- the value of a decimal literal -/
def decimalValue (neg : Bool) (ip fp : Str) (ex : Int) : K :=
  (if neg then -1 else 1) * ((Nat.ofDigitChars 10 (ip ++ fp) 0 : Nat) : K) * (10 : K) ^ (ex - (fp.length : Int))

/-- the digits after a point -/
def fracPart (s : Str) : Str × Str :=
  match s with
  | [] => ([], [])
  | c :: r => if c = '.' then (r.takeWhile Char.isDigit, r.dropWhile Char.isDigit) else ([], c :: r)

/-- the exponent of a literal -/
def expPart (s : Str) : Option Int :=
  match s with
  | [] => some 0
  | c :: r =>
    if c = 'e' ∨ c = 'E' then
      (intStr (takeSign r).2).map (fun n : Nat => if (takeSign r).1 then -(n : Int) else (n : Int))
    else none

/-- `float(s)` (`none`: ValueError) -/
def floatStr (s : Str) : Option K :=
  let sg := takeSign (strip s)
  let ip := sg.2.takeWhile Char.isDigit
  let fr := fracPart (sg.2.dropWhile Char.isDigit)
  if ip = [] ∧ fr.1 = [] then none
  else (expPart fr.2).map (decimalValue sg.1 ip fr.1)

/-- the number printed by `'%.pE' % x` -/
def roundSig (p : Nat) (x : K) : K :=
  if x = 0 then 0
  else (if x < 0 then -1 else 1) * ((sci p |x|).1 : K) * (10 : K) ^ ((sci p |x|).2 - p)

/-! ## rounding -/

theorem roundEven_bounds (x : K) : ⌊x⌋ ≤ roundEven x ∧ roundEven x ≤ ⌊x⌋ + 1 := by
  unfold roundEven
  split
  · omega
  · split
    · omega
    · split <;> omega

theorem roundEven_error (x : K) : |(roundEven x : K) - x| ≤ 1 / 2 := by
  have hf : x = ⌊x⌋ + Int.fract x := (Int.floor_add_fract x).symm
  have h0 := Int.fract_nonneg x
  have h1 := Int.fract_lt_one x
  rw [abs_le]
  unfold roundEven
  split
  · constructor <;> linarith
  · split
    · push_cast; constructor <;> linarith
    · split
      · constructor <;> linarith
      · push_cast; constructor <;> linarith

theorem roundEven_mono {x y : K} (h : x ≤ y) : roundEven x ≤ roundEven y := by
  have hfl : ⌊x⌋ ≤ ⌊y⌋ := Int.floor_le_floor h
  rcases hfl.lt_or_eq with hlt | heq
  · have := (roundEven_bounds x).2
    have := (roundEven_bounds y).1
    omega
  · have hfr : Int.fract x ≤ Int.fract y := by
      have e1 : x = ⌊x⌋ + Int.fract x := (Int.floor_add_fract x).symm
      have e2 : y = ⌊y⌋ + Int.fract y := (Int.floor_add_fract y).symm
      have e3 : (⌊x⌋ : K) = ⌊y⌋ := by rw [heq]
      linarith
    unfold roundEven
    rw [heq]
    by_cases hx1 : 2 * Int.fract x < 1
    · rw [if_pos hx1]
      split
      · exact le_refl _
      · split
        · omega
        · split <;> omega
    · have hy1 : ¬ 2 * Int.fract y < 1 := by intro h; exact hx1 (by linarith)
      rw [if_neg hx1, if_neg hy1]
      by_cases hx2 : 1 < 2 * Int.fract x
      · rw [if_pos hx2, if_pos (by linarith)]
      · rw [if_neg hx2]
        by_cases hy2 : 1 < 2 * Int.fract y
        · rw [if_pos hy2]; split <;> omega
        · rw [if_neg hy2]

theorem roundEven_int (n : Int) : roundEven (n : K) = n := by
  unfold roundEven
  rw [Int.fract_intCast, if_pos (by norm_num), Int.floor_intCast]

theorem ten_pos : (0 : K) < 10 := by norm_num
theorem tenz_pos (e : Int) : (0 : K) < (10 : K) ^ e := zpow_pos ten_pos e

theorem log_le {a : K} (h : 0 < a) : (10 : K) ^ Int.log 10 a ≤ a := by
  have := Int.zpow_log_le_self (b := 10) (by norm_num) h
  exact_mod_cast this

theorem lt_log (a : K) : a < (10 : K) ^ (Int.log 10 a + 1) := by
  have := Int.lt_zpow_succ_log_self (b := 10) (by norm_num) a
  exact_mod_cast this

theorem log_eq {a : K} {e : Int} (h1 : (10 : K) ^ e ≤ a) (h2 : a < (10 : K) ^ (e + 1)) : Int.log 10 a = e := by
  have ha : 0 < a := lt_of_lt_of_le (tenz_pos e) h1
  have a1 : (10 : K) ^ Int.log 10 a < (10 : K) ^ (e + 1) := lt_of_le_of_lt (log_le ha) h2
  have a2 : (10 : K) ^ e < (10 : K) ^ (Int.log 10 a + 1) := lt_of_le_of_lt h1 (lt_log a)
  have ht : (1 : K) < 10 := by norm_num
  have b1 := (zpow_lt_zpow_iff_right₀ ht).mp a1
  have b2 := (zpow_lt_zpow_iff_right₀ ht).mp a2
  omega

/-- the scaled number that is rounded -/
theorem scaled_bounds (p : Nat) {a : K} (h : 0 < a) :
    (10 : K) ^ p ≤ a / (10 : K) ^ (Int.log 10 a - p) ∧ a / (10 : K) ^ (Int.log 10 a - p) < (10 : K) ^ (p + 1) := by
  have e1 : (10 : K) ^ p = (10 : K) ^ (Int.log 10 a) / (10 : K) ^ (Int.log 10 a - p) := by
    rw [← zpow_sub₀ (by norm_num)]
    rw [← zpow_natCast]; congr 1; omega
  have e2 : (10 : K) ^ (p + 1) = (10 : K) ^ (Int.log 10 a + 1) / (10 : K) ^ (Int.log 10 a - p) := by
    rw [← zpow_sub₀ (by norm_num)]
    rw [← zpow_natCast]; congr 1; push_cast; omega
  constructor
  · rw [e1]; exact div_le_div_of_nonneg_right (log_le h) (tenz_pos _).le
  · rw [e2]; exact div_lt_div_of_pos_right (lt_log a) (tenz_pos _)

theorem round_bounds (p : Nat) {a : K} (h : 0 < a) :
    (10 : Int) ^ p ≤ roundEven (a / (10 : K) ^ (Int.log 10 a - p)) ∧
    roundEven (a / (10 : K) ^ (Int.log 10 a - p)) ≤ (10 : Int) ^ (p + 1) := by
  obtain ⟨h1, h2⟩ := scaled_bounds p h
  constructor
  · have := roundEven_mono h1
    have e : roundEven ((10 : K) ^ p) = (10 : Int) ^ p := by
      have := roundEven_int (K := K) ((10 : Int) ^ p); push_cast at this; exact this
    rwa [e] at this
  · have := roundEven_mono h2.le
    have e : roundEven ((10 : K) ^ (p + 1)) = (10 : Int) ^ (p + 1) := by
      have := roundEven_int (K := K) ((10 : Int) ^ (p + 1)); push_cast at this; exact this
    rwa [e] at this

theorem sci_mantissa (p : Nat) {a : K} (h : 0 < a) : 10 ^ p ≤ (sci p a).1 ∧ (sci p a).1 < 10 ^ (p + 1) := by
  obtain ⟨h1, h2⟩ := round_bounds p h
  have hp : (0 : Int) < 10 ^ p := by positivity
  unfold sci
  dsimp only
  split
  · constructor
    · exact le_refl _
    · exact Nat.pow_lt_pow_right (by norm_num) (by omega)
  · rename_i hne
    dsimp only
    constructor
    · zify; rw [Int.toNat_of_nonneg (by omega)]; exact h1
    · refine lt_of_le_of_ne ?_ hne
      zify; rw [Int.toNat_of_nonneg (by omega)]; exact h2

/-- the value of the rounded positive number -/
theorem sci_value (p : Nat) {a : K} (h : 0 < a) :
    ((sci p a).1 : K) * (10 : K) ^ ((sci p a).2 - p)
      = (roundEven (a / (10 : K) ^ (Int.log 10 a - p)) : K) * (10 : K) ^ (Int.log 10 a - p) := by
  obtain ⟨h1, h2⟩ := round_bounds p h
  have hp : (0 : Int) < 10 ^ p := by positivity
  have hc : ((roundEven (a / (10 : K) ^ (Int.log 10 a - p))).toNat : K) =
      (roundEven (a / (10 : K) ^ (Int.log 10 a - p)) : K) := by
    have := Int.toNat_of_nonneg (a := roundEven (a / (10 : K) ^ (Int.log 10 a - p))) (by omega)
    exact_mod_cast congrArg (Int.cast (R := K)) this
  unfold sci
  dsimp only
  split
  · rename_i he
    dsimp only
    rw [← hc, he]
    push_cast
    rw [show Int.log 10 a + 1 - (p : Int) = (Int.log 10 a - p) + 1 by ring, zpow_add₀ (by norm_num), pow_succ]
    simp only [zpow_one]; ring
  · dsimp only
    rw [hc]

theorem roundSig_zero (p : Nat) : roundSig p (0 : K) = 0 := by simp [roundSig]

theorem roundSig_pos (p : Nat) {x : K} (h : 0 < x) :
    roundSig p x = (roundEven (x / (10 : K) ^ (Int.log 10 x - p)) : K) * (10 : K) ^ (Int.log 10 x - p) := by
  unfold roundSig
  rw [if_neg h.ne', if_neg (not_lt.mpr h.le), abs_of_pos h, one_mul, sci_value p h]

theorem roundSig_neg (p : Nat) (x : K) : roundSig p (-x) = - roundSig p x := by
  unfold roundSig
  by_cases h : x = 0
  · simp [h]
  · rw [if_neg h, if_neg (by simpa using h), abs_neg]
    rcases lt_or_gt_of_ne h with h1 | h1
    · rw [if_neg (show ¬ -x < 0 by linarith), if_pos h1]; ring
    · rw [if_pos (show -x < 0 by linarith), if_neg (show ¬ x < 0 by linarith)]; ring

/-- printing with `p` decimals changes a number by at most half a unit of the last digit -/
theorem roundSig_error (p : Nat) (x : K) : |roundSig p x - x| ≤ |x| / (2 * 10 ^ p) := by
  have key : ∀ {y : K}, 0 < y → |roundSig p y - y| ≤ |y| / (2 * 10 ^ p) := by
    intro y h
    rw [roundSig_pos p h]
    set u := (10 : K) ^ (Int.log 10 y - p) with hu
    have hup : 0 < u := tenz_pos _
    have e : (roundEven (y / u) : K) * u - y = ((roundEven (y / u) : K) - y / u) * u := by
      rw [sub_mul, div_mul_cancel₀ _ hup.ne']
    rw [e, abs_mul, abs_of_pos hup]
    have h1 := roundEven_error (y / u)
    have h2 : (10 : K) ^ p ≤ y / u := (scaled_bounds p h).1
    have h3 : u ≤ y / 10 ^ p := by
      rw [le_div_iff₀ (by positivity)]; rw [le_div_iff₀ hup] at h2; linarith
    calc |(roundEven (y / u) : K) - y / u| * u ≤ 1 / 2 * (y / 10 ^ p) :=
          mul_le_mul h1 h3 hup.le (by norm_num)
      _ = |y| / (2 * 10 ^ p) := by rw [abs_of_pos h]; field_simp
  rcases lt_trichotomy x 0 with h | h | h
  · have := key (y := -x) (by linarith)
    rw [roundSig_neg, abs_neg] at this
    rw [← abs_neg]; convert this using 2; ring
  · subst h; simp [roundSig_zero]
  · exact key h

theorem roundSig_pos_bounds (p : Nat) {x : K} (h : 0 < x) :
    (10 : K) ^ Int.log 10 x ≤ roundSig p x ∧ roundSig p x ≤ (10 : K) ^ (Int.log 10 x + 1) := by
  rw [roundSig_pos p h]
  obtain ⟨h1, h2⟩ := round_bounds p h
  have hu := tenz_pos (K := K) (Int.log 10 x - p)
  constructor
  · have : ((10 : K) ^ p) ≤ (roundEven (x / (10 : K) ^ (Int.log 10 x - p)) : K) := by exact_mod_cast h1
    calc (10 : K) ^ Int.log 10 x = (10 : K) ^ p * (10 : K) ^ (Int.log 10 x - p) := by
          rw [← zpow_natCast, ← zpow_add₀ (by norm_num)]; congr 1; omega
      _ ≤ _ := mul_le_mul_of_nonneg_right this hu.le
  · have : (roundEven (x / (10 : K) ^ (Int.log 10 x - p)) : K) ≤ (10 : K) ^ (p + 1) := by exact_mod_cast h2
    calc _ ≤ (10 : K) ^ (p + 1) * (10 : K) ^ (Int.log 10 x - p) := mul_le_mul_of_nonneg_right this hu.le
      _ = _ := by
          rw [← zpow_natCast, ← zpow_add₀ (by norm_num)]; congr 1; push_cast; omega

theorem roundSig_pos_pos (p : Nat) {x : K} (h : 0 < x) : 0 < roundSig p x :=
  lt_of_lt_of_le (tenz_pos _) (roundSig_pos_bounds p h).1

theorem roundSig_mono_pos (p : Nat) {x y : K} (hx : 0 < x) (h : x ≤ y) : roundSig p x ≤ roundSig p y := by
  have hy := lt_of_lt_of_le hx h
  have hl : Int.log 10 x ≤ Int.log 10 y := Int.log_mono_right hx h
  rcases hl.lt_or_eq with hlt | heq
  · calc roundSig p x ≤ (10 : K) ^ (Int.log 10 x + 1) := (roundSig_pos_bounds p hx).2
      _ ≤ (10 : K) ^ Int.log 10 y := zpow_le_zpow_right₀ (by norm_num) (by omega)
      _ ≤ _ := (roundSig_pos_bounds p hy).1
  · rw [roundSig_pos p hx, roundSig_pos p hy, heq]
    refine mul_le_mul_of_nonneg_right ?_ (tenz_pos _).le
    exact_mod_cast roundEven_mono (div_le_div_of_nonneg_right h (tenz_pos _).le)

theorem roundSig_mono (p : Nat) {x y : K} (h : x ≤ y) : roundSig p x ≤ roundSig p y := by
  have npos : ∀ {z : K}, z ≤ 0 → roundSig p z ≤ 0 := by
    intro z hz
    rcases hz.lt_or_eq with h1 | h1
    · have := roundSig_pos_pos p (x := -z) (by linarith)
      rw [roundSig_neg] at this; linarith
    · rw [h1, roundSig_zero]
  have nneg : ∀ {z : K}, 0 ≤ z → 0 ≤ roundSig p z := by
    intro z hz
    rcases hz.lt_or_eq with h1 | h1
    · exact (roundSig_pos_pos p h1).le
    · rw [← h1, roundSig_zero]
  rcases lt_or_ge 0 x with hx | hx
  · exact roundSig_mono_pos p hx h
  · rcases lt_or_ge y 0 with hy | hy
    · have := roundSig_mono_pos p (x := -y) (y := -x) (by linarith) (by linarith)
      rw [roundSig_neg, roundSig_neg] at this; linarith
    · exact le_trans (npos hx) (nneg hy)

theorem roundSig_eq_zero (p : Nat) {x : K} : roundSig p x = 0 ↔ x = 0 := by
  constructor
  · intro h
    by_contra hx
    rcases lt_or_gt_of_ne hx with h1 | h1
    · have := roundSig_pos_pos p (x := -x) (by linarith)
      rw [roundSig_neg, h] at this; simp at this
    · exact (roundSig_pos_pos p h1).ne' h
  · rintro rfl; exact roundSig_zero p

/-- numbers with at most `p + 1` digits are printed exactly -/
theorem roundSig_exact_pos (p m : Nat) (e : Int) (h1 : 10 ^ p ≤ m) (h2 : m < 10 ^ (p + 1)) :
    roundSig p ((m : K) * (10 : K) ^ (e - p)) = (m : K) * (10 : K) ^ (e - p) := by
  have hm : 0 < m := lt_of_lt_of_le (by positivity) h1
  have hpos : 0 < (m : K) * (10 : K) ^ (e - p) := mul_pos (by exact_mod_cast hm) (tenz_pos _)
  have hl : Int.log 10 ((m : K) * (10 : K) ^ (e - p)) = e := by
    apply log_eq
    · calc (10 : K) ^ e = (10 : K) ^ p * (10 : K) ^ (e - p) := by
            rw [← zpow_natCast, ← zpow_add₀ (by norm_num)]; congr 1; omega
        _ ≤ _ := mul_le_mul_of_nonneg_right (by exact_mod_cast h1) (tenz_pos _).le
    · calc (m : K) * (10 : K) ^ (e - p) < (10 : K) ^ (p + 1) * (10 : K) ^ (e - p) :=
            mul_lt_mul_of_pos_right (by exact_mod_cast h2) (tenz_pos _)
        _ = _ := by rw [← zpow_natCast, ← zpow_add₀ (by norm_num)]; congr 1; push_cast; omega
  rw [roundSig_pos p hpos, hl, mul_div_assoc, div_self (tenz_pos _).ne', mul_one]
  have := roundEven_int (K := K) (m : Int)
  push_cast at this
  rw [this]; push_cast; rfl

/-- printing what has been read back changes nothing -/
theorem roundSig_idem (p : Nat) (x : K) : roundSig p (roundSig p x) = roundSig p x := by
  have key : ∀ {y : K}, 0 < y → roundSig p (roundSig p y) = roundSig p y := by
    intro y h
    have e : roundSig p y = ((sci p y).1 : K) * (10 : K) ^ ((sci p y).2 - p) := by
      rw [roundSig_pos p h, sci_value p h]
    rw [e]
    exact roundSig_exact_pos p _ _ (sci_mantissa p h).1 (sci_mantissa p h).2
  rcases lt_trichotomy x 0 with h | h | h
  · have := key (y := -x) (by linarith)
    rw [roundSig_neg, roundSig_neg] at this
    exact neg_injective this
  · subst h; simp [roundSig_zero]
  · exact key h

/-! ## reading what was printed -/

theorem takeSign_minus (s : Str) : takeSign ('-' :: s) = (true, s) := rfl
theorem takeSign_plus (s : Str) : takeSign ('+' :: s) = (false, s) := rfl
theorem takeSign_digit {c : Char} (s : Str) (h : c.isDigit = true) : takeSign (c :: s) = (false, c :: s) := by
  unfold takeSign
  dsimp only
  rw [if_neg (by rintro rfl; simp at h), if_neg (by rintro rfl; simp at h)]

theorem intStr_zero_pad (n : Nat) : intStr ('0' :: strNat n) = some n := by
  unfold intStr
  rw [if_pos]
  · have : Nat.ofDigitChars 10 ('0' :: strNat n) 0 = Nat.ofDigitChars 10 (strNat n) 0 := by
      simp [Nat.ofDigitChars]
    rw [this]; unfold strNat; rw [Nat.ofDigitChars_ten_toDigits]
  · refine ⟨by simp, ?_⟩
    rw [List.all_cons, List.all_eq_true.mpr (fun c hc => strNat_isDigit hc)]; rfl

theorem expPart_expStr (e : Int) : expPart ('E' :: expStr e) = some e := by
  have hd : intStr (if e.natAbs < 10 then '0' :: strNat e.natAbs else strNat e.natAbs) = some e.natAbs := by
    split
    · exact intStr_zero_pad _
    · exact intStr_strNat _
  unfold expPart expStr
  dsimp only
  rw [if_pos (Or.inr rfl)]
  by_cases h : e < 0
  · rw [if_pos h, takeSign_minus, hd]
    simp only [Option.map_some, if_true, Option.some.injEq]; omega
  · rw [if_neg h, takeSign_plus, hd]
    simp only [Option.map_some, Bool.false_eq_true, if_false, Option.some.injEq]
    omega

/-- reading digits, a point, digits and an exponent -/
theorem parse_pointed {s : Str} (hs : s ≠ []) (hd : ∀ c ∈ s, c.isDigit = true) (neg : Bool) (e : Int) :
    (if (pointed s ++ 'E' :: expStr e).takeWhile Char.isDigit = [] ∧
        (fracPart ((pointed s ++ 'E' :: expStr e).dropWhile Char.isDigit)).1 = [] then none
     else (expPart (fracPart ((pointed s ++ 'E' :: expStr e).dropWhile Char.isDigit)).2).map
        (decimalValue (K := K) neg ((pointed s ++ 'E' :: expStr e).takeWhile Char.isDigit)
          (fracPart ((pointed s ++ 'E' :: expStr e).dropWhile Char.isDigit)).1))
      = some ((if neg then -1 else 1) * ((Nat.ofDigitChars 10 s 0 : Nat) : K) *
          (10 : K) ^ (e - ((s.length - 1 : Nat) : Int))) := by
  cases s with
  | nil => exact absurd rfl hs
  | cons c r =>
    have hc : c.isDigit = true := hd c (by simp)
    by_cases hr : r = []
    · subst hr
      have e1 : (pointed [c] ++ 'E' :: expStr e).takeWhile Char.isDigit = [c] :=
        Path.takeWhile_append_stop (a := [c]) (by simpa using hc) (by decide)
      have e2 : (pointed [c] ++ 'E' :: expStr e).dropWhile Char.isDigit = 'E' :: expStr e :=
        Path.dropWhile_append_stop (a := [c]) (by simpa using hc) (by decide)
      have e3 : fracPart ('E' :: expStr e) = ([], 'E' :: expStr e) := by
        unfold fracPart; dsimp only; rw [if_neg (by decide)]
      rw [e1, e2, e3, if_neg (by simp), expPart_expStr]
      simp [decimalValue]
    · have hp : pointed (c :: r) = [c] ++ '.' :: r := by
        unfold pointed; dsimp only; rw [if_neg (by simpa using hr)]; rfl
      have e0 : pointed (c :: r) ++ 'E' :: expStr e = [c] ++ '.' :: (r ++ 'E' :: expStr e) := by
        rw [hp]; simp
      have e1 : (pointed (c :: r) ++ 'E' :: expStr e).takeWhile Char.isDigit = [c] := by
        rw [e0]; exact Path.takeWhile_append_stop (a := [c]) (by simpa using hc) (by decide)
      have e2 : (pointed (c :: r) ++ 'E' :: expStr e).dropWhile Char.isDigit = '.' :: (r ++ 'E' :: expStr e) := by
        rw [e0]; exact Path.dropWhile_append_stop (a := [c]) (by simpa using hc) (by decide)
      have hr2 : ∀ x ∈ r, x.isDigit = true := fun x hx => hd x (List.mem_cons_of_mem _ hx)
      have e3 : fracPart ('.' :: (r ++ 'E' :: expStr e)) = (r, 'E' :: expStr e) := by
        unfold fracPart
        dsimp only
        rw [if_pos rfl, Path.takeWhile_append_stop hr2 (by decide), Path.dropWhile_append_stop hr2 (by decide)]
      rw [e1, e2, e3, if_neg (by simp), expPart_expStr]
      simp [decimalValue]

theorem length_sci (p : Nat) {a : K} (h : 0 < a) : (strNat (sci p a).1).length = p + 1 := by
  obtain ⟨h1, h2⟩ := sci_mantissa p h
  unfold strNat
  have a1 : (Nat.toDigits 10 (sci p a).1).length ≤ p + 1 :=
    (Nat.length_toDigits_le_iff (by norm_num) (by omega)).mpr h2
  rcases Nat.eq_zero_or_pos p with hp | hp
  · have := Nat.length_toDigits_pos (b := 10) (n := (sci p a).1); omega
  · have a2 : ¬ (Nat.toDigits 10 (sci p a).1).length ≤ p := by
      rw [Nat.length_toDigits_le_iff (by norm_num) hp]; omega
    omega

/-- characters of a printed number -/
def numChar (c : Char) : Bool := c.isDigit || c == '.' || c == '+' || c == '-' || c == 'E'

theorem numChar_not_ws {c : Char} (h : numChar c = true) : isWs c = false := by
  unfold numChar at h
  simp only [Bool.or_eq_true, beq_iff_eq] at h
  rcases h with (((h | h) | h) | h) | h
  · unfold Char.isDigit at h
    simp only [Bool.and_eq_true, decide_eq_true_eq] at h
    obtain ⟨h1, h2⟩ := h
    have b1 : 48 ≤ c.toNat := h1
    have b2 : c.toNat ≤ 57 := h2
    unfold isWs
    simp only [Bool.or_eq_false_iff, Bool.and_eq_false_iff, decide_eq_false_iff_not, beq_eq_false_iff_ne]
    omega
  all_goals subst h; decide

theorem pointed_chars {s : Str} (hd : ∀ c ∈ s, c.isDigit = true) : ∀ c ∈ pointed s, numChar c = true := by
  intro c hc
  cases s with
  | nil => simp [pointed] at hc
  | cons a r =>
    unfold pointed at hc
    dsimp only at hc
    by_cases hr : r.isEmpty = true
    · rw [if_pos hr, List.mem_singleton] at hc; subst hc; simp [numChar, hd c (by simp)]
    · rw [if_neg hr] at hc
      rcases List.mem_cons.mp hc with rfl | hc
      · simp [numChar, hd c (by simp)]
      · rcases List.mem_cons.mp hc with rfl | hc
        · decide
        · simp [numChar, hd c (List.mem_cons_of_mem _ hc)]

theorem expStr_chars (e : Int) : ∀ c ∈ expStr e, numChar c = true := by
  intro c hc
  unfold expStr at hc
  rcases List.mem_cons.mp hc with rfl | hc
  · split <;> decide
  · split at hc
    · rcases List.mem_cons.mp hc with rfl | hc
      · decide
      · simp [numChar, strNat_isDigit hc]
    · simp [numChar, strNat_isDigit hc]

theorem replicate_zero_digit (n : Nat) : ∀ c ∈ List.replicate n '0', c.isDigit = true := by
  intro c hc; rw [(List.mem_replicate.mp hc).2]; decide

theorem fmtE_chars (p : Nat) (x : K) : ∀ c ∈ fmtE p x, numChar c = true := by
  intro c hc
  unfold fmtE at hc
  rcases List.mem_append.mp hc with hc | hc
  · split at hc
    · rw [List.mem_singleton] at hc; subst hc; decide
    · simp at hc
  · split at hc
    · rcases List.mem_append.mp hc with hc | hc
      · exact pointed_chars (replicate_zero_digit _) c hc
      · rcases List.mem_cons.mp hc with rfl | hc
        · decide
        · exact expStr_chars _ c hc
    · rcases List.mem_append.mp hc with hc | hc
      · exact pointed_chars (fun d hd => strNat_isDigit hd) c hc
      · rcases List.mem_cons.mp hc with rfl | hc
        · decide
        · exact expStr_chars _ c hc

theorem fmtE_ne_nil (p : Nat) (x : K) : fmtE p x ≠ [] := by
  unfold fmtE; split <;> split <;> simp

theorem strip_rjust {w : Nat} {s : Str} (h : ∀ c ∈ s, isWs c = false) : strip (rjust w s) = s := by
  have hl : ∀ n, lstrip (List.replicate n ' ' ++ s) = s := by
    intro n
    induction n with
    | zero => exact lstrip_eq_self (fun c hc => h c (List.mem_of_mem_head? hc))
    | succ n ih =>
      rw [List.replicate_succ, List.cons_append]
      unfold lstrip at *
      rw [List.dropWhile_cons_of_pos (by decide)]; exact ih
  unfold strip rjust
  rw [hl]
  exact rstrip_eq_self (fun c hc => h c (List.mem_of_getLast? hc))

theorem ofDigitChars_zeros (n : Nat) : Nat.ofDigitChars 10 (List.replicate n '0') 0 = 0 := by
  induction n with
  | zero => rfl
  | succ n ih => rw [List.replicate_succ]; simpa [Nat.ofDigitChars] using ih

/-- **reading a printed number gives the rounded number** -/
theorem floatStr_fmtE (p w : Nat) (x : K) : floatStr (rjust w (fmtE p x)) = some (roundSig p x) := by
  unfold floatStr
  rw [strip_rjust (fun c hc => numChar_not_ws (fmtE_chars p x c hc))]
  dsimp only
  by_cases h0 : x = 0
  · have e : fmtE p x = pointed (List.replicate (p + 1) '0') ++ 'E' :: expStr 0 := by
      unfold fmtE; rw [if_neg (by rw [h0]; exact lt_irrefl _), if_pos h0]; rfl
    have hs : takeSign (fmtE p x) = (false, fmtE p x) := by
      rw [e, List.replicate_succ]
      unfold pointed
      dsimp only
      split <;> exact takeSign_digit _ (by decide)
    rw [hs]
    dsimp only
    rw [e, parse_pointed (by simp) (replicate_zero_digit _), ofDigitChars_zeros, h0, roundSig_zero]
    simp
  · have hpos : 0 < |x| := abs_pos.mpr h0
    have hl := length_sci p hpos
    have hb : (if x = 0 then pointed (List.replicate (p + 1) '0') ++ 'E' :: expStr 0
        else pointed (strNat (sci p |x|).1) ++ 'E' :: expStr (sci p |x|).2)
        = pointed (strNat (sci p |x|).1) ++ 'E' :: expStr (sci p |x|).2 := if_neg h0
    have hv : ((Nat.ofDigitChars 10 (strNat (sci p |x|).1) 0 : Nat) : K) = ((sci p |x|).1 : K) := by
      unfold strNat; rw [Nat.ofDigitChars_ten_toDigits]
    by_cases hx : x < 0
    · have hs : takeSign (fmtE p x) = (true, pointed (strNat (sci p |x|).1) ++ 'E' :: expStr (sci p |x|).2) := by
        unfold fmtE; rw [hb, if_pos hx]; rfl
      rw [hs]
      dsimp only
      rw [parse_pointed (strNat_ne_nil _) (fun c hc => strNat_isDigit hc), hv, hl]
      unfold roundSig
      rw [if_neg h0, if_pos hx]
      simp
    · have hs : takeSign (fmtE p x) = (false, pointed (strNat (sci p |x|).1) ++ 'E' :: expStr (sci p |x|).2) := by
        unfold fmtE; rw [hb, if_neg hx, List.nil_append]
        cases hn : strNat (sci p |x|).1 with
        | nil => exact absurd hn (strNat_ne_nil _)
        | cons c r =>
          have hc : c.isDigit = true := strNat_isDigit (n := (sci p |x|).1) (by rw [hn]; simp)
          unfold pointed
          dsimp only
          split <;> exact takeSign_digit _ hc
      rw [hs]
      dsimp only
      rw [parse_pointed (strNat_ne_nil _) (fun c hc => strNat_isDigit hc), hv, hl]
      unfold roundSig
      rw [if_neg h0, if_neg hx]
      simp

example : rjust 15 (fmtE 7 (-(1234567891 : ℚ) / 1000)) = c!" -1.2345679E+06" := by decide +kernel
example : rjust 15 (fmtE 7 (0 : ℚ)) = c!"  0.0000000E+00" := by decide +kernel
example : floatStr c!" -1.25E-03" = some (-(1 : ℚ) / 800) := by decide +kernel
example : floatStr c!"1e" = (none : Option ℚ) := by decide +kernel

end Verif.Py
