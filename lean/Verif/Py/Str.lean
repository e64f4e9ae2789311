/-!
# Python strings as lists of characters

Python `str` values are modelled as `List Char`.  Only the built-ins used by the modelled code are defined.
These definitions are part of the trusted reading of the python language (see DESIGN.md).
-/

namespace Verif.Py

abbrev Str := List Char

deriving instance DecidableEq for Except

/-- `s!`-free literal helper: `c!"abc" : Str`. -/
macro:max "c!" s:str : term => `(String.toList $s)

/-- `str.isspace` for one character (python unicode white space, the set used by `str.strip()` and `str.split()`). -/
def isWs (c : Char) : Bool :=
  let n := c.toNat
  (9 ≤ n && n ≤ 13) || (28 ≤ n && n ≤ 32) || n == 0x85 || n == 0xA0 || n == 0x1680 ||
  (0x2000 ≤ n && n ≤ 0x200A) || n == 0x2028 || n == 0x2029 || n == 0x202F || n == 0x205F || n == 0x3000

/-- `s.lstrip()` -/
def lstrip (s : Str) : Str := s.dropWhile isWs
/-- `s.rstrip()` -/
def rstrip (s : Str) : Str := (s.reverse.dropWhile isWs).reverse
/-- `s.strip()` -/
def strip (s : Str) : Str := rstrip (lstrip s)

/-- `s.strip(ch)` for a single character argument. -/
def stripChar (ch : Char) (s : Str) : Str :=
  (((s.dropWhile (· == ch)).reverse).dropWhile (· == ch)).reverse

/-- `s.startswith(p)` -/
def startsWith (p s : Str) : Bool := p.isPrefixOf s
/-- `s.endswith(p)` -/
def endsWith (p s : Str) : Bool := p.isSuffixOf s

/-- `s.find(ch)` for a single character; `none` is python's `-1`. -/
def find (ch : Char) (s : Str) : Option Nat := s.findIdx? (· == ch)

/-- `sub in s` -/
def contains (sub s : Str) : Bool :=
  match s with
  | [] => sub.isEmpty
  | c :: cs => sub.isPrefixOf (c :: cs) || contains sub cs

/-- `s.replace(a, b)` for single character `a` -/
def replaceChar (a : Char) (b : Str) (s : Str) : Str := s.flatMap fun c => if c == a then b else [c]

/-- First white-space separated token and the remainder (remainder starts at the separator). -/
def spanTok (s : Str) : Str × Str := s.span (fun c => !isWs c)

/-- `s.split()` : white-space separated non-empty tokens. Written with fuel `s.length` so that it is structural. -/
def splitWsAux : Nat → Str → List Str
  | 0, _ => []
  | n + 1, s =>
    match lstrip s with
    | [] => []
    | c :: cs =>
      let t := (c :: cs).takeWhile (fun c => !isWs c)
      let r := (c :: cs).dropWhile (fun c => !isWs c)
      t :: splitWsAux n r

def splitWs (s : Str) : List Str := splitWsAux s.length s

/-- `s.split(None, 1)`: at most two items; leading white space of both items removed, trailing white space of the
second item kept (python keeps it). -/
def splitWs1 (s : Str) : List Str :=
  match lstrip s with
  | [] => []
  | c :: cs =>
    let t := (c :: cs).takeWhile (fun c => !isWs c)
    let r := lstrip ((c :: cs).dropWhile (fun c => !isWs c))
    if r.isEmpty then [t] else [t, r]

/-- `s.split(ch, 1)`: at most two items, split at the first occurrence of `ch`. -/
def splitChar1 (ch : Char) (s : Str) : List Str :=
  match s.span (· != ch) with
  | (a, []) => [a]
  | (a, _ :: b) => [a, b]

/-- `s.split(ch)` for a one character separator. -/
def splitChar (ch : Char) : Str → List Str
  | [] => [[]]
  | c :: cs =>
    if c == ch then [] :: splitChar ch cs
    else match splitChar ch cs with
      | [] => [[c]]          -- unreachable
      | t :: ts => (c :: t) :: ts

/-- `sep.join(l)` -/
def join (sep : Str) : List Str → Str
  | [] => []
  | [x] => x
  | x :: y :: l => x ++ sep ++ join sep (y :: l)

/-- Universal newline translation done by text-mode `open` when reading. -/
def universalNewlines : Str → Str
  | [] => []
  | '\r' :: '\n' :: cs => '\n' :: universalNewlines cs
  | '\r' :: cs => '\n' :: universalNewlines cs
  | c :: cs => c :: universalNewlines cs

/-- Iterating over a text file: lines ending in (and including) `'\n'`, plus a last unterminated line if non-empty. -/
def linesOf : Str → List Str
  | [] => []
  | c :: cs =>
    if c == '\n' then ['\n'] :: linesOf cs
    else match cs, linesOf cs with
      | [], _ => [[c]]
      | _ :: _, [] => [[c]]     -- unreachable
      | _ :: _, l :: ls => (c :: l) :: ls

/-- `for line in open(f)` -/
def fileIter (text : Str) : List Str := linesOf (universalNewlines text)

end Verif.Py
