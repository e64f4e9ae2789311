import Verif.Py.Str

/-!
# Python integers as text: `str(n)` and `int(s)`
-/

namespace Verif.Py

/-- `str(n)` for a non-negative integer -/
def strNat (n : Nat) : Str := Nat.toDigits 10 n

/-- `int(s)` on text consisting of ASCII digits (`none` = ValueError; signs, blanks, underscores and non-ASCII digits
that python also accepts are not modelled) -/
def intStr (s : Str) : Option Nat :=
  if s ≠ [] ∧ s.all Char.isDigit = true then some (Nat.ofDigitChars 10 s 0) else none

theorem strNat_ne_nil (n : Nat) : strNat n ≠ [] := Nat.toDigits_ne_nil

theorem strNat_isDigit {n : Nat} {c : Char} (h : c ∈ strNat n) : c.isDigit = true :=
  Nat.isDigit_of_mem_toDigits (by decide) (by decide) h

theorem intStr_strNat (n : Nat) : intStr (strNat n) = some n := by
  unfold intStr
  rw [if_pos]
  · unfold strNat; rw [Nat.ofDigitChars_ten_toDigits]
  · exact ⟨strNat_ne_nil n, List.all_eq_true.mpr (fun c hc => strNat_isDigit hc)⟩

theorem strNat_injective {m n : Nat} (h : strNat m = strNat n) : m = n := by
  have := congrArg intStr h
  rw [intStr_strNat, intStr_strNat] at this
  exact Option.some.inj this

end Verif.Py
