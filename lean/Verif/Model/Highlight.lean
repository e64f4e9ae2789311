import Verif.Py.Str

/-!
# Model of highlighting of strings over several lines (`PythonHighlighter.match_multiline`, `python/getdist/gui/SyntaxHighlight.py:139-174`)

The delimiter is a text of three equal quotes, so that the regular expression is that text and its matched length is three.  Simplified: one kind of
quote; the other rules for colours are left out.
-/

namespace Verif.Highlight
open Verif.Py

/-- `delimiter.indexIn(text, from)`: no value is -1 -/
def indexIn (d : Str) : Str → Nat → Option Nat
  | [], 0 => if d.isEmpty then some 0 else none
  | c :: s, 0 => if startsWith d (c :: s) then some 0 else (indexIn d s 0).map (· + 1)
  | [], _ + 1 => none
  | _ :: s, n + 1 => (indexIn d s n).map (· + 1)

/-- the state of a block after it and the ranges (start, length) that are coloured -/
structure Out where
  inside : Bool
  marks : List (Nat × Nat)
deriving DecidableEq, Repr

/-- is there no end of the string that begins at `start`, and the length that is coloured (SyntaxHighlight.py:158-166) -/
def piece (d text : Str) (add start : Nat) : Bool × Nat :=
  match indexIn d text (start + add) with
  | some e => (false, e - start + add + d.length)
  | none => (true, text.length - start + add)

/-- the loop (SyntaxHighlight.py:156-168); at most `fuel` rounds -/
def loop (d text : Str) (add : Nat) : Nat → Nat → Out → Out
  | 0, _, o => o
  | fuel + 1, start, o =>
    let r := piece d text add start
    let o' : Out := ⟨r.1, o.marks ++ [(start, r.2)]⟩
    match indexIn d text (start + r.2) with
    | some s => loop d text add fuel s o'
    | none => o'

/-- `match_multiline` (SyntaxHighlight.py:139-174); `prev`: the block before ended inside a string of this kind -/
def matchMultiline (d text : Str) (prev : Bool) : Out :=
  if prev then loop d text 0 (text.length + 1) 0 ⟨false, []⟩
  else match indexIn d text 0 with
    | some s => loop d text d.length (text.length + 1) s ⟨false, []⟩
    | none => ⟨false, []⟩

end Verif.Highlight
