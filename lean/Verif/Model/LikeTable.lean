import Verif.Model.MargeStats
import Verif.Model.BestFit

/-!
# The text of the likelihood statistics: python/getdist/types.py:850-878 (LikeStats.headerLine, __str__), paramnames.py:366-378

The text is a list of lines, each with its line feed.  Numbers are rational.
-/

namespace Verif.LikeTable
open Verif.Py Verif.MargeStats Verif.BestFit

inductive TErr
  /-- `max` of an empty list -/
  | value
  /-- a limit that is not there -/
  | index
deriving DecidableEq, Repr

/-- a parameter with its value at the best sample and the extremes of the N-dimensional regions -/
structure Row where
  name : Str
  label : Str
  isDerived : Bool
  best : ℚ
  bot : List ℚ
  top : List ℚ
deriving DecidableEq, Repr

structure Stats where
  best : ℚ
  meanInv : Option ℚ
  mean : ℚ
  meanLike : ℚ
  names : List Row

/-- paramnames.py:373-378 -/
def tagged (r : Row) : Str := if r.isDerived then r.name ++ ['*'] else r.name

/-- paramnames.py:366-371 -/
def width (l : List Row) : Except TErr Nat :=
  if l = [] then .error .value else .ok (max 9 ((l.map (fun r => r.name.length)).foldr max 0) + 1)

/-- types.py:863-864 -/
def header (w : Nat) : Str := ljust w c!"parameter" ++ c!"  bestfit        lower1         upper1         lower2         upper2\n"

/-- types.py:873-877 -/
def rowLine (w : Nat) (r : Row) : Except TErr Str :=
  match r.bot[0]?, r.top[0]?, r.bot[1]?, r.top[1]? with
  | some b0, some t0, some b1, some t1 =>
    .ok (ljust w (tagged r) ++ num r.best ++ num b0 ++ num t0 ++ num b1 ++ num t1 ++ c!"   " ++ r.label ++ ['\n'])
  | _, _, _, _ => .error .index

def rowLines (w : Nat) : List Row → Except TErr (List Str)
  | [] => .ok []
  | r :: rs => match rowLine w r with
    | .error e => .error e
    | .ok l => match rowLines w rs with
      | .error e => .error e
      | .ok ls => .ok (l :: ls)

/-- types.py:866-878: the width is asked for before looking whether there are names -/
def text (s : Stats) : Except TErr (List Str) :=
  match width s.names with
  | .error e => .error e
  | .ok w =>
    if s.names.length = 0 then .ok (likeSummary s.best s.meanInv s.mean s.meanLike)
    else match rowLines w s.names with
      | .error e => .error e
      | .ok ls => .ok (likeSummary s.best s.meanInv s.mean s.meanLike ++ (['\n'] :: header w :: ls))

/-- types.py:834-850: what a file gives; `self.names` stays empty -/
def loaded (s : LikeStats) : Option Stats :=
  match s.best, s.mean, s.meanLike with
  | some b, some m, some l => some ⟨b, s.meanInv, m, l, []⟩
  | _, _, _ => none

end Verif.LikeTable
