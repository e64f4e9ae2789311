import Verif.Py.Str
import Verif.Py.Dict
import Verif.Py.Num

/-!
# Model of `python/getdist/paramnames.py`

Not modelled: yaml loading (430-442, see Model/Cobaya), `ParamInfo.number`/`filenameLoadedFrom`, type checks on non-string arguments.
-/

namespace Verif.ParamNames
open Verif.Py

/-- exceptions raised by the modelled functions -/
inductive Err
  | badName (n : Str)       -- ValueError, paramnames.py:117
  | index                   -- IndexError, items[0] of an empty line, paramnames.py:99
  | notFound (n : Str)      -- Exception, paramnames.py:244
  | key (k : Str)           -- missing keyword
  | value                   -- int() of a non-number
deriving DecidableEq, Repr

/-- paramnames.py:69-89 `ParamInfo` -/
structure Info where
  name : Str := []
  label : Str := []
  comment : Str := []
  isDerived : Bool := false
  renames : List Str := []
deriving DecidableEq, Repr

/-- paramnames.py:116 the characters `setName` refuses -/
def badNameChar (c : Char) : Bool := c == '*' || c == '?' || c == ' ' || c == '\t'

/-- paramnames.py:113-118 `setName` -/
def setName (p : Info) (name : Str) : Except Err Info :=
  if name.any badNameChar then .error (.badName name) else .ok { p with name := name }

/-- paramnames.py:97-111 `setFromString` -/
def setFromString (p : Info) (line : Str) : Except Err Info :=
  match splitWs1 line with                                             -- 98
  | [] => .error .index
  | name0 :: rest =>
    let derived := endsWith ['*'] name0                                -- 100
    let name := if derived then stripChar '*' name0 else name0         -- 101
    let p := if derived then { p with isDerived := true } else p       -- 102
    match setName p name with                                          -- 103
    | .error e => .error e
    | .ok p =>
      match rest with                                                  -- 104
      | [] => .ok p
      | r :: _ =>
        match splitChar1 '#' r with                                    -- 105
        | [] => .ok p                                                  -- unreachable
        | t0 :: ts =>
          .ok { p with
            label := replaceChar '!' ['\\'] (strip t0),                -- 106
            comment := match ts with                                   -- 107-110
              | t1 :: _ => strip t1
              | [] => [] }

/-- paramnames.py:79-89, 429: `ParamInfo(line)` -/
def ofLine (line : Str) : Except Err Info := setFromString {} line

/-- paramnames.py:132-135 `setFromStringWithComment` -/
def setFromStringWithComment (p : Info) (item comment : Str) : Except Err Info :=
  match setFromString p item with
  | .error e => .error e
  | .ok p => .ok (if comment != c!"NULL" then { p with comment := comment } else p)

/-- paramnames.py:137-144 `string` -/
def Info.string (p : Info) (wantComments : Bool := true) : Str :=
  let res := p.name ++ (if p.isDerived then ['*'] else []) ++ ['\t'] ++ p.label
  if wantComments && p.comment != [] then res ++ c!"\t#" ++ p.comment else res

/-- paramnames.py:380-384 `ParamList.__str__` -/
def listText : List Info → Str
  | [] => []
  | p :: ps => p.string ++ ['\n'] ++ listText ps

/-- `open(.., encoding='utf-8-sig')`: a leading byte order mark is dropped -/
def dropBOM : Str → Str
  | c :: cs => if c.toNat = 0xFEFF then cs else c :: cs
  | [] => []

/-- the list comprehension of paramnames.py:429 -/
def loadLines : List Str → Except Err (List Info)
  | [] => .ok []
  | l :: ls =>
    if l = [] then loadLines ls
    else
      match ofLine l with
      | .error e => .error e
      | .ok p =>
        match loadLines ls with
        | .error e => .error e
        | .ok ps => .ok (p :: ps)

/-- paramnames.py:427-429 loading a `.paramnames` file with the given content -/
def loadText (text : Str) : Except Err (List Info) :=
  loadLines ((fileIter (dropBOM text)).map strip)

/-! ### keyword provider

The provider is an external object; it is modelled as a table from keyword to (value, comment), with integers stored
as their decimal text. -/

abbrev Store := Dict Str (Str × Str)

/-- paramnames.py:191-192 -/
def numDerived (ps : List Info) : Nat := (ps.filter (·.isDerived)).length

/-- the loop of paramnames.py:460-462, starting at index `i` -/
def saveParams (st : Store) (i : Nat) : List Info → Store
  | [] => st
  | p :: ps =>
    saveParams (st.set (c!"param_" ++ strNat (i + 1)) (replaceChar '\\' ['!'] (p.string false), p.comment)) (i + 1) ps

/-- paramnames.py:457-462 `saveKeyWords` -/
def saveKeyWords (st : Store) (ps : List Info) : Store :=
  let st := st.set c!"num_params_used" (strNat (ps.length - numDerived ps), [])
  let st := st.set c!"num_derived_params" (strNat (numDerived ps), [])
  saveParams st 0 ps

def keyInt (st : Store) (k : Str) : Except Err Nat :=
  match st.get? k with
  | none => .error (.key k)
  | some (v, _) => match intStr v with
    | none => .error .value
    | some n => .ok n

/-- the loop of paramnames.py:451-454 -/
def loadParams (st : Store) (i : Nat) : Nat → Except Err (List Info)
  | 0 => .ok []
  | n + 1 =>
    let k := c!"param_" ++ strNat (i + 1)
    match st.get? k with
    | none => .error (.key k)
    | some (v, c) =>
      match setFromStringWithComment {} v c with
      | .error e => .error e
      | .ok p =>
        match loadParams st (i + 1) n with
        | .error e => .error e
        | .ok ps => .ok (p :: ps)

/-- paramnames.py:447-455 `loadFromKeyWords` (into an empty list) -/
def loadFromKeyWords (st : Store) : Except Err (List Info) :=
  match keyInt st c!"num_params_used" with
  | .error e => .error e
  | .ok a =>
    match keyInt st c!"num_derived_params" with
    | .error e => .error e
    | .ok b => loadParams st 0 (a + b)

/-! ### lookup -/

abbrev Renames := Dict Str (List Str)

/-- `makeList(renames.get(name, []))` -/
def aliasesOf (r : Renames) (n : Str) : List Str := (r.get? n).getD []

/-- paramnames.py:235-241, the test for one parameter -/
def matchesName (name : Str) (r : Renames) (p : Info) : Bool :=
  let given := name :: aliasesOf r name
  let known := p.name :: (p.renames ++ aliasesOf r p.name)
  known.any (fun k => given.contains k)

/-- paramnames.py:225-245 `parWithName` (`error=False`; an absent rename dictionary is the empty one) -/
def parWithName (ps : List Info) (name : Str) (r : Renames := []) : Option Info := ps.find? (matchesName name r)

/-- paramnames.py:243-245 `parWithName` with the `error` argument -/
def parWithNameE (ps : List Info) (name : Str) (error : Bool) (r : Renames) : Except Err (Option Info) :=
  match parWithName ps name r with
  | some p => .ok (some p)
  | none => if error then .error (.notFound name) else .ok none

/-- the loop of paramnames.py:255-258 -/
def numberFrom (i : Int) (name : Str) : List Info → Int
  | [] => -1
  | p :: ps => if p.name = name then i else numberFrom (i + 1) name ps

/-- paramnames.py:247-258 `numberOfName` -/
def numberOfName (ps : List Info) (name : Str) : Int := numberFrom 0 name ps

/-- paramnames.py:260-261 -/
def hasParam (ps : List Info) (name : Str) : Bool := numberOfName ps name != -1

/-! ### globs (python `fnmatch.translate`) -/

inductive GTok
  | star
  | any
  | lit (c : Char)
  | cls (neg : Bool) (body : Str)
deriving DecidableEq, Repr

/-- membership in a bracket class: `a-b` is a range, anything else a single character -/
def inClass : Str → Char → Bool
  | a :: '-' :: b :: rest, c => (a.toNat ≤ c.toNat && c.toNat ≤ b.toNat) || inClass rest c
  | a :: rest, c => a == c || inClass rest c
  | [], _ => false

/-- an optional `!` after `[` -/
def bang : Str → Bool × Str
  | c :: r => if c = '!' then (true, r) else (false, c :: r)
  | [] => (false, [])

/-- an optional literal `]` at the start of a bracket expression -/
def leadClose : Str → Str × Str
  | c :: r => if c = ']' then ([']'], r) else ([], c :: r)
  | [] => ([], [])

/-- the text up to the next `]` and the text after it -/
def untilClose : Str → Option (Str × Str)
  | [] => none
  | c :: r => if c = ']' then some ([], r) else match untilClose r with
    | none => none
    | some (b, rest) => some (c :: b, rest)

/-- the bracket expression at the start of the text after a `[`: negated, body, text after it -/
def afterBracket (cs : Str) : Option (Bool × Str × Str) :=
  match untilClose (leadClose (bang cs).2).2 with
  | none => none
  | some (b, rest) => some ((bang cs).1, (leadClose (bang cs).2).1 ++ b, rest)

/-- `fnmatch.translate`: on '[' look for the closing ']' (a `]` directly after `[` or `[!` is literal);
without closing bracket '[' is a literal character. -/
def gtokens : Nat → Str → List GTok
  | 0, _ => []
  | _ + 1, [] => []
  | n + 1, c :: cs =>
    if c = '*' then .star :: gtokens n cs
    else if c = '?' then .any :: gtokens n cs
    else if c = '[' then
      match afterBracket cs with
      | none => .lit '[' :: gtokens n cs
      | some (neg, body, rest) => .cls neg body :: gtokens n rest
    else .lit c :: gtokens n cs

/-- `.*` followed by the rest `f` of the expression -/
def starMatch (f : Str → Bool) : Str → Bool
  | [] => f []
  | c :: cs => f (c :: cs) || starMatch f cs

/-- full match of the translated expression -/
def globMatch : List GTok → Str → Bool
  | [], s => s.isEmpty
  | .star :: ts, s => starMatch (globMatch ts) s
  | .any :: ts, s => match s with
    | [] => false
    | _ :: cs => globMatch ts cs
  | .lit a :: ts, s => match s with
    | [] => false
    | c :: cs => a == c && globMatch ts cs
  | .cls neg b :: ts, s => match s with
    | [] => false
    | c :: cs => (inClass b c != neg) && globMatch ts cs

/-- `fnmatch.fnmatchcase(s, pat)` -/
def fnmatchcase (s pat : Str) : Bool := globMatch (gtokens pat.length pat) s

/-- paramnames.py:289-297 `getMatches` -/
def getMatches (ps : List Info) (pat : Str) : List Info := ps.filter (fun p => fnmatchcase p.name pat)

/-- paramnames.py:279-286, the loop of `parsWithNames` (names are strings) -/
def parsLoop (ps : List Info) (r : Renames) : List (Str × Bool) → Except Err (List (Option Info))
  | [] => .ok []
  | (name, err) :: rest =>
    if name.contains '?' || name.contains '*' then
      match parsLoop ps r rest with
      | .error e => .error e
      | .ok l => .ok ((getMatches ps name).map some ++ l)
    else
      match parWithNameE ps name err r with
      | .error e => .error e
      | .ok o =>
        match parsLoop ps r rest with
        | .error e => .error e
        | .ok l => .ok (o :: l)

/-- paramnames.py:276-279: a single error flag is repeated; a shorter list is repeated `len(names)` times; `zip` -/
def parsWithNames (ps : List Info) (names : List Str) (errors : List Bool) (r : Renames) :
    Except Err (List (Option Info)) :=
  let errors := if errors.length < names.length then (List.replicate names.length errors).flatten else errors
  parsLoop ps r (names.zip errors)

/-! ### other list operations -/

/-- paramnames.py:338-339 `deleteIndices` -/
def deleteFrom (i : Nat) (idx : List Nat) : List Info → List Info
  | [] => []
  | p :: ps => if idx.contains i then deleteFrom (i + 1) idx ps else p :: deleteFrom (i + 1) idx ps

def deleteIndices (ps : List Info) (idx : List Nat) : List Info := deleteFrom 0 idx ps

/-- paramnames.py:341-350 `filteredCopy` with another parameter list -/
def filteredCopy (ps params : List Info) : List Info := ps.filter (fun p => (parWithName params p.name []).isSome)

/-- update of the first parameter that matches (objects are shared by reference, so `param.label = ..` changes the
list entry) -/
def updateFirst (f : Info → Info) (q : Info → Bool) : List Info → List Info
  | [] => []
  | p :: ps => if q p then f p :: ps else p :: updateFirst f q ps

/-- paramnames.py:302-312 `setLabelsAndDerivedFromParamNames` -/
def setLabelsAndDerived (setDerived : Bool) : List Info → List Info → List Info
  | ps, [] => ps
  | ps, q :: qs =>
    setLabelsAndDerived setDerived
      (updateFirst (fun p => { p with label := q.label, isDerived := if setDerived then q.isDerived else p.isDerived })
        (matchesName q.name []) ps) qs

end Verif.ParamNames
