import Verif.Py.Str

/-!
# `os.path` on POSIX (`posixpath.py` of the python library) and the small part of `re` that the code uses
-/

namespace Verif.Py

/-- `s.rstrip(chars)` for a set of characters -/
def rstripP (p : Char → Bool) (s : Str) : Str := (s.reverse.dropWhile p).reverse

namespace Path

/-- the part after the last slash -/
def basename (p : Str) : Str := (p.reverse.takeWhile (· ≠ '/')).reverse

/-- `os.path.dirname`: up to the last slash, without trailing slashes unless there is nothing else -/
def dirname (p : Str) : Str :=
  let head := (p.reverse.dropWhile (· ≠ '/')).reverse
  if head.all (· = '/') then head else rstripP (· = '/') head

/-- `os.path.join(a, b)` -/
def join (a b : Str) : Str :=
  if startsWith ['/'] b then b
  else if a = [] ∨ endsWith ['/'] a = true then a ++ b
  else a ++ '/' :: b

/-- `os.path.splitext(p)[0]`: the last dot of the last component starts the extension, unless only dots precede it -/
def stripExt (p : Str) : Str :=
  let base := basename p
  match base.reverse.span (· ≠ '.') with
  | (_, []) => p
  | (e, _ :: stem) =>
    if stem.all (· = '.') then p else p.take (p.length - (e.length + 1))

theorem takeWhile_append_stop {α : Type} {p : α → Bool} : ∀ {a b : List α} {x : α}, (∀ c ∈ a, p c = true) → p x = false →
    (a ++ x :: b).takeWhile p = a
  | [], b, x, _, hx => by simp [hx]
  | c :: a, b, x, h, hx => by
    have := takeWhile_append_stop (b := b) (fun c hc => h c (List.mem_cons_of_mem _ hc)) hx
    simp only [List.cons_append, List.takeWhile_cons, h c List.mem_cons_self, if_true, this]

theorem dropWhile_append_stop {α : Type} {p : α → Bool} : ∀ {a b : List α} {x : α}, (∀ c ∈ a, p c = true) → p x = false →
    (a ++ x :: b).dropWhile p = x :: b
  | [], b, x, _, hx => by simp [hx]
  | c :: a, b, x, h, hx => by
    have := dropWhile_append_stop (b := b) (fun c hc => h c (List.mem_cons_of_mem _ hc)) hx
    simp only [List.cons_append, List.dropWhile_cons, h c List.mem_cons_self, if_true, this]

theorem takeWhile_all {α : Type} {p : α → Bool} : ∀ {a : List α}, (∀ c ∈ a, p c = true) → a.takeWhile p = a
  | [], _ => rfl
  | c :: a, h => by
    rw [List.takeWhile_cons, if_pos (h c List.mem_cons_self), takeWhile_all fun c hc => h c (List.mem_cons_of_mem _ hc)]

theorem dropWhile_all {α : Type} {p : α → Bool} : ∀ {a : List α}, (∀ c ∈ a, p c = true) → a.dropWhile p = []
  | [], _ => rfl
  | c :: a, h => by
    rw [List.dropWhile_cons, if_pos (h c List.mem_cons_self), dropWhile_all fun c hc => h c (List.mem_cons_of_mem _ hc)]

theorem basename_join {d b : Str} (h : '/' ∉ b) : basename (d ++ '/' :: b) = b := by
  unfold basename
  rw [List.reverse_append, List.reverse_cons, List.append_assoc]
  rw [show ['/'] ++ d.reverse = '/' :: d.reverse from rfl,
    takeWhile_append_stop (by intro c hc; simp only [ne_eq, decide_eq_true_eq]; rintro rfl; simp at hc; exact h hc) (by simp)]
  simp

theorem basename_bare {b : Str} (h : '/' ∉ b) : basename b = b := by
  unfold basename
  rw [takeWhile_all]
  · simp
  · intro c hc; simp only [ne_eq, decide_eq_true_eq]; rintro rfl; simp at hc; exact h hc

theorem dirname_bare {b : Str} (h : '/' ∉ b) : dirname b = [] := by
  unfold dirname
  rw [dropWhile_all]
  · simp
  · intro c hc; simp only [ne_eq, decide_eq_true_eq]; rintro rfl; simp at hc; exact h hc

/-- a directory path that does not end in a slash -/
def Plain (d : Str) : Prop := d ≠ [] ∧ ∀ c, d.getLast? = some c → c ≠ '/'

theorem dirname_join {d b : Str} (hd : Plain d) (h : '/' ∉ b) : dirname (d ++ '/' :: b) = d := by
  unfold dirname
  have h1 : ((d ++ '/' :: b).reverse.dropWhile (· ≠ '/')) = '/' :: d.reverse := by
    rw [List.reverse_append, List.reverse_cons, List.append_assoc]
    rw [show ['/'] ++ d.reverse = '/' :: d.reverse from rfl,
      dropWhile_append_stop (by intro c hc; simp only [ne_eq, decide_eq_true_eq]; rintro rfl; simp at hc; exact h hc) (by simp)]
  simp only [h1, List.reverse_cons, List.reverse_reverse]
  obtain ⟨hne, hl⟩ := hd
  rcases List.eq_nil_or_concat d with rfl | ⟨d, c, rfl⟩
  · exact absurd rfl hne
  · have hc : c ≠ '/' := hl c (by simp)
    rw [if_neg (by simp [hc])]
    unfold rstripP
    rw [List.reverse_append, List.concat_eq_append]
    simp [hc]

theorem join_plain {d b : Str} (hd : Plain d) (h : startsWith ['/'] b = false) : join d b = d ++ '/' :: b := by
  unfold join
  rw [if_neg (by simp [h]), if_neg]
  rintro (h1 | h1)
  · exact hd.1 h1
  · unfold endsWith at h1
    rw [List.isSuffixOf_iff_suffix] at h1
    obtain ⟨a, rfl⟩ := h1
    exact hd.2 '/' (by simp) rfl

theorem join_injective {d a b : Str} (ha : startsWith ['/'] a = false) (hb : startsWith ['/'] b = false)
    (h : join d a = join d b) : a = b := by
  unfold join at h
  simp only [ha, hb, Bool.false_eq_true, if_false] at h
  split at h
  · exact List.append_cancel_left h
  · have := List.append_cancel_left h; simpa using this

theorem not_abs_of_no_slash {b : Str} (h : '/' ∉ b) : startsWith ['/'] b = false := by
  unfold startsWith
  rw [Bool.eq_false_iff]
  intro h1
  rw [List.isPrefixOf_iff_prefix] at h1
  obtain ⟨t, rfl⟩ := h1
  simp at h

end Path

/-- regular expressions made of literal text, one group of ASCII digits, options and sequences -/
inductive Re
  | lit (s : Str)          -- `re.escape(s)`
  | num                    -- `(?P<num>[0-9]+)`
  | opt (r : Re)           -- `(r)?`
  | seq (a b : Re)

namespace Re

/-- `[0-9]` -/
def digit (c : Char) : Bool := '0'.toNat ≤ c.toNat && c.toNat ≤ '9'.toNat

/-- the non-empty prefixes of digits with the remaining text, longest first -/
def digitSplits : Str → List (Str × Str)
  | [] => []
  | c :: cs => if digit c then (digitSplits cs).map (fun p => (c :: p.1, p.2)) ++ [([c], cs)] else []

/-- all ways to match a beginning of the text, in the order in which the backtracking matcher tries them: the captured
group (if it took part) and the remaining text -/
def run : Re → Str → List (Option Str × Str)
  | lit s, t => if s.isPrefixOf t then [(none, t.drop s.length)] else []
  | num, t => (digitSplits t).map (fun p => (some p.1, p.2))
  | opt r, t => run r t ++ [(none, t)]
  | seq a b, t => (run a t).flatMap (fun p => (run b p.2).map (fun q => (q.1.or p.1, q.2)))

/-- `fullmatch`, giving `group("num")` on success -/
def fullmatch (r : Re) (t : Str) : Option (Option Str) := ((run r t).find? (·.2.isEmpty)).map (·.1)

end Re
end Verif.Py
