import Verif.Model.LoadText
import Verif.Lemmas.Split

/-!
# Reading tables of numbers (C257, C258)
-/

namespace Verif.LoadText
open Verif.Py

/-! ## The rows of a file -/

/-- a line of a file: fields with one space between them, perhaps a comment -/
structure Line where
  fields : List Str
  comment : Option Str := none

def Line.text (l : Line) : Str := join [' '] l.fields ++ (match l.comment with | some c => '#' :: c | none => [])

/-- fields are texts without white space and `#`, and nothing breaks the line -/
def Line.Ok (l : Line) : Prop := (∀ f ∈ l.fields, Token f ∧ '#' ∉ f) ∧ OneLine l.text

theorem takeWhile_hash : ∀ (a b : Str), '#' ∉ a → (∀ c, b.head? = some c → c = '#') → (a ++ b).takeWhile (fun c => c ≠ '#') = a
  | [], [], _, _ => rfl
  | [], c :: b, _, h => by
    have := h c rfl
    subst this
    simp
  | x :: a, b, ha, h => by
    have hx : x ≠ '#' := fun e => ha (by simp [e])
    rw [List.cons_append, List.takeWhile_cons, if_pos (by simpa using hx), takeWhile_hash a b (fun hm => ha (List.mem_cons_of_mem _ hm)) h]

theorem join_noHash : ∀ (l : List Str), (∀ f ∈ l, '#' ∉ f) → '#' ∉ join [' '] l
  | [], _ => by simp [join]
  | [f], h => by simpa [join] using h f (by simp)
  | f :: g :: l, h => by
    have ih := join_noHash (g :: l) (fun x hx => h x (List.mem_cons_of_mem _ hx))
    have e : join [' '] (f :: g :: l) = f ++ [' '] ++ join [' '] (g :: l) := rfl
    rw [e]
    simp only [List.mem_append, not_or]
    exact ⟨⟨h f (by simp), by decide⟩, ih⟩

theorem cells_line (l : Line) (h : l.Ok) : cells (l.text ++ ['\n']) = l.fields := by
  unfold cells Line.text
  have hh := join_noHash l.fields (fun f hf => (h.1 f hf).2)
  have ht : ∀ t ∈ l.fields, Token t := fun f hf => (h.1 f hf).1
  cases hc : l.comment with
  | some c =>
    rw [List.append_assoc, takeWhile_hash _ _ hh (by intro d hd; simp at hd; exact hd.symm)]
    have := splitWs_join (tail := []) ht (by intro c hc; simp at hc)
    rwa [List.append_nil] at this
  | none =>
    rw [List.append_nil]
    have e := takeWhile_hash (join [' '] l.fields ++ ['\n']) [] (by simp only [List.mem_append, not_or]; exact ⟨hh, by decide⟩) (by intro c hc; simp at hc)
    rw [List.append_nil] at e
    rw [e]
    exact splitWs_join ht (by intro c hc; simp at hc; subst hc; decide)

/-- **C257**: the rows of a file are its lines with fields, without comments, and `skiprows` counts all lines -/
theorem rows_spec (skip : Nat) (ls : List Line) (h : ∀ l ∈ ls, l.Ok) :
    rows skip (ls.flatMap (fun l => l.text ++ ['\n'])) = ((ls.drop skip).map (·.fields)).filter (fun r => !r.isEmpty) := by
  unfold rows
  have e : ls.flatMap (fun l => l.text ++ ['\n']) = (ls.map Line.text).flatMap (fun l => l ++ ['\n']) := by rw [List.flatMap_map]
  rw [e, fileIter_terminated (by intro t ht; obtain ⟨l, hl, rfl⟩ := List.mem_map.mp ht; exact (h l hl).2), List.map_map, ← List.map_drop, List.map_map]
  congr 1
  apply List.map_congr_left
  intro l hl
  exact cells_line l (h l (List.mem_of_mem_drop hl))

example : rows 1 c!"# weight like x\n1 2 3.5 # first\n\n2 3 4.5\n" = [[c!"1", c!"2", c!"3.5"], [c!"2", c!"3", c!"4.5"]] := by decide +kernel

/-! ## Numbers -/

theorem numbers_ok : ∀ (l : List Str) (x : List ℚ), numbers l = .ok x ↔ List.Forall₂ (fun s v => (floatStr s : Option ℚ) = some v) l x
  | [], x => by
    constructor
    · intro h; injection h with h; subst h; exact .nil
    · intro h; cases h; rfl
  | s :: l, x => by
    unfold numbers
    cases hs : (floatStr s : Option ℚ) with
    | none =>
      constructor
      · intro h; cases h
      · intro h; cases h with | cons h1 _ => rw [hs] at h1; cases h1
    | some v =>
      dsimp only
      cases hn : numbers l with
      | error e =>
        constructor
        · intro h; cases h
        · intro h
          cases h with
          | cons h1 h2 => rw [(numbers_ok l _).mpr h2] at hn; cases hn
      | ok y =>
        constructor
        · intro h
          simp only [Except.map] at h
          injection h with h
          subst h
          exact .cons hs ((numbers_ok l y).mp hn)
        · intro h
          cases h with
          | cons h1 h2 =>
            rw [hs] at h1; injection h1 with h1; subst h1
            rw [(numbers_ok l _).mpr h2] at hn; injection hn with hn; subst hn
            rfl

/-- the numbers of a table -/
def Numbers (r : List (List Str)) (t : List (List ℚ)) : Prop := List.Forall₂ (List.Forall₂ (fun s v => (floatStr s : Option ℚ) = some v)) r t

theorem table_ok : ∀ (r : List (List Str)) (t : List (List ℚ)), table r = .ok t ↔ Numbers r t
  | [], t => by
    constructor
    · intro h; injection h with h; subst h; exact .nil
    · intro h; cases h; rfl
  | s :: l, t => by
    unfold table
    cases hs : numbers s with
    | error e =>
      constructor
      · intro h; cases h
      · intro h; cases h with | cons h1 _ => rw [(numbers_ok _ _).mpr h1] at hs; cases hs
    | ok v =>
      dsimp only
      cases hn : table l with
      | error e =>
        constructor
        · intro h; cases h
        · intro h
          cases h with
          | cons h1 h2 => rw [(table_ok l _).mpr h2] at hn; cases hn
      | ok y =>
        constructor
        · intro h
          simp only [Except.map] at h
          injection h with h
          subst h
          exact .cons ((numbers_ok _ _).mp hs) ((table_ok l y).mp hn)
        · intro h
          cases h with
          | cons h1 h2 =>
            rw [(numbers_ok _ _).mpr h1] at hs; injection hs with hs; subst hs
            rw [(table_ok l _).mpr h2] at hn; injection hn with hn; subst hn
            rfl

/-- all rows have `n` numbers -/
def Rect (n : Nat) (t : List (List ℚ)) : Prop := ∀ r ∈ t, r.length = n

/-- **C257**: a table with rows of the same length, of which there are more than one column or only one row, is read as it is, with either library -/
theorem load_spec (pandas : Bool) (skip : Option Nat) (text : Str) (t : List (List ℚ)) (n : Nat) (h : Numbers (rows (skip.getD 0) text) t) (hr : Rect n t)
    (hne : t ≠ []) (h1 : 1 < n ∨ t.length = 1) : loadTxt pandas skip text = .ok (t.map (fun r => r.map some)) := by
  have ht := (table_ok _ _).mpr h
  match t, hne, hr, h1, ht with
  | r :: l, _, hr, h1, ht =>
    have hn : r.length = n := hr r (by simp)
    have hall : (r :: l).all (fun x => decide (x.length = r.length)) = true := by
      rw [List.all_eq_true]; intro x hx; rw [hn]; simpa using hr x hx
    have hall2 : (r :: l).all (fun x => decide (x.length ≤ r.length)) = true := by
      rw [List.all_eq_true]; intro x hx; rw [hn]; simpa using le_of_eq (hr x hx)
    unfold loadTxt
    cases pandas with
    | true =>
      rw [if_pos rfl]
      unfold readPandas
      rw [ht]
      dsimp only
      rw [if_pos hall2]
      congr 1
      apply List.map_congr_left
      intro x hx
      unfold pad
      rw [hr x hx, hn, Nat.sub_self, List.replicate_zero, List.append_nil]
    | false =>
      rw [if_neg (by decide)]
      unfold readNumpy
      rw [ht]
      dsimp only
      rw [if_pos hall]
      split
      next e =>
        have hl : l = [] := by
          rcases h1 with h1 | h1
          · omega
          · simpa using h1
        subst hl
        simp
      next e => rfl

/-- **C257**: what is read from a complete chain: weight, likelihood and parameters of each row -/
theorem samples_spec (pandas : Bool) (skip : Option Nat) (text : Str) (t : List (List ℚ)) (n : Nat) (h : Numbers (rows (skip.getD 0) text) t)
    (hr : Rect n t) (hne : t ≠ []) (h1 : 1 < n) :
    ∃ w ll x, loadSamples pandas skip text = .ok (w, ll, x) ∧ List.Forall₂ (fun r v => v = r[0]? ∧ v ≠ none) t w ∧
      List.Forall₂ (fun r v => v = r[1]? ∧ v ≠ none) t ll ∧ x = t.map (fun r => (r.drop 2).map some) := by
  have e := load_spec pandas skip text t n h hr hne (.inl h1)
  have main : loadSamples pandas skip text = .ok ((t.map (fun r => r.map some)).map (fun r => r.getD 0 none),
      (t.map (fun r => r.map some)).map (fun r => r.getD 1 none), (t.map (fun r => r.map some)).map (fun r => r.drop 2)) := by
    unfold loadSamples
    rw [e]
    dsimp only
    rw [if_neg (by rw [List.length_map]; exact fun h => hne (List.length_eq_zero_iff.mp h)), if_neg]
    intro ha
    rw [List.any_eq_true] at ha
    obtain ⟨r, hm, hl⟩ := ha
    obtain ⟨s, hs, rfl⟩ := List.mem_map.mp hm
    have := hr s hs
    simp at hl
    omega
  refine ⟨_, _, _, main, ?_, ?_, ?_⟩
  all_goals rw [List.map_map]
  · rw [List.forall₂_map_right_iff, List.forall₂_same]
    intro r hm
    have hl := hr r hm
    have h0 : 0 < r.length := by omega
    simp [List.getD, h0]
  · rw [List.forall₂_map_right_iff, List.forall₂_same]
    intro r hm
    have hl := hr r hm
    have h0 : 1 < r.length := by omega
    simp [List.getD, h0]
  · apply List.map_congr_left
    intro r _
    simp

set_option synthInstance.maxSize 1000 in
set_option synthInstance.maxHeartbeats 200000 in
example (pandas : Bool) : loadSamples pandas (some 1) c!"1 5 0\n2 3 4.5\n1 2.5 4\n" =
    .ok ([some 2, some 1], [some 3, some (5/2)], [[some (9/2)], [some 4]]) := by
  cases pandas <;> decide +kernel

/-! ## What is not so -/

/-- **C258 fails**: a row that is not complete, as the last one of a chain that is still running, is refused without pandas, but with pandas its
missing parameters are `nan` (chains.py:130-131) -/
theorem short_row_fails (text : Str) (r s : List ℚ) (l : List (List ℚ)) (h : Numbers (rows 0 text) (r :: l ++ [s])) (hr : Rect r.length l)
    (hs : s.length < r.length) :
    loadTxt false none text = .error .value ∧ ∃ t, loadTxt true none text = .ok t ∧ t.length = l.length + 2 ∧
      ∃ q, t.getLast? = some q ∧ q.length = r.length ∧ q.getLast? = some none := by
  have ht := (table_ok _ _).mpr h
  constructor
  · unfold loadTxt readNumpy
    rw [if_neg (by decide), Option.getD_none, ht]
    show (if ((r :: (l ++ [s])).all fun x => decide (x.length = r.length)) = true then _ else _) = _
    rw [if_neg]
    intro ha
    have := List.all_eq_true.mp ha s (by simp)
    simp at this
    omega
  · refine ⟨(r :: (l ++ [s])).map (pad r.length), ?_, by simp, pad r.length s, ?_, ?_, ?_⟩
    · unfold loadTxt readPandas
      rw [if_pos rfl, Option.getD_none, ht]
      show (if ((r :: (l ++ [s])).all fun x => decide (x.length ≤ r.length)) = true then _ else _) = _
      rw [if_pos]
      · rfl
      · rw [List.all_eq_true]
        intro x hx
        rcases List.mem_cons.mp hx with rfl | hx
        · simp
        · rcases List.mem_append.mp hx with hx | hx
          · simpa using le_of_eq (hr x hx)
          · rw [List.mem_singleton.mp hx]; simpa using le_of_lt hs
    · rw [← List.cons_append, List.map_append, List.map_singleton, List.getLast?_concat]
    · unfold pad; simp; omega
    · unfold pad
      obtain ⟨k, hk⟩ : ∃ k, r.length - s.length = k + 1 := ⟨r.length - s.length - 1, by omega⟩
      rw [hk, List.getLast?_append]
      simp [List.getLast?_replicate]

example : loadTxt true none c!"1 5 0\n2 3\n" = .ok [[some 1, some 5, some 0], [some 2, some 3, none]] ∧ loadTxt false none c!"1 5 0\n2 3\n" = .error .value := by
  decide +kernel

/-- **C258 fails**: a file with a single column has one row without pandas (chains.py:137) -/
theorem column_fails (text : Str) (t : List (List ℚ)) (h : Numbers (rows 0 text) t) (hr : Rect 1 t) (h1 : 1 < t.length) :
    loadTxt true none text = .ok (t.map (fun r => r.map some)) ∧ loadTxt false none text = .ok [t.flatten.map some] := by
  have ht := (table_ok _ _).mpr h
  match t, hr, h1, ht with
  | r :: l, hr, h1, ht =>
    have hn : r.length = 1 := hr r (by simp)
    constructor
    · unfold loadTxt readPandas
      rw [if_pos rfl, Option.getD_none, ht]
      dsimp only
      rw [if_pos (by rw [List.all_eq_true]; intro x hx; rw [hn]; simpa using le_of_eq (hr x hx))]
      congr 1
      apply List.map_congr_left
      intro x hx
      unfold pad
      rw [hr x hx, hn, Nat.sub_self, List.replicate_zero, List.append_nil]
    · unfold loadTxt readNumpy
      rw [if_neg (by decide), Option.getD_none, ht]
      dsimp only
      rw [if_pos (by rw [List.all_eq_true]; intro x hx; rw [hn]; simpa using hr x hx), if_pos hn]

example : loadTxt true none c!"1\n2\n3\n" = .ok [[some 1], [some 2], [some 3]] ∧ loadTxt false none c!"1\n2\n3\n" = .ok [[some 1, some 2, some 3]] := by decide +kernel

/-- **C258 fails**: an empty chain is never reported as such: pandas has an error of its own, and the array of numpy has one row
(chains.py:233-234) -/
theorem empty_chain_fails (pandas : Bool) (skip : Option Nat) (text : Str) :
    loadSamples pandas skip text ≠ .error .empty ∧ (rows (skip.getD 0) text = [] → loadSamples pandas skip text = .error (if pandas then .value else .index)) := by
  have hne : ∀ t, loadTxt pandas skip text = .ok t → t.length ≠ 0 := by
    intro t
    unfold loadTxt
    cases pandas with
    | true =>
      rw [if_pos rfl]
      unfold readPandas
      split
      · intro h; cases h
      · intro h; cases h
      · split
        · intro h; injection h with h; subst h; simp
        · intro h; cases h
    | false =>
      rw [if_neg (by decide)]
      unfold readNumpy
      split
      · intro h; cases h
      · intro h; injection h with h; subst h; simp
      · split
        · split
          · intro h; injection h with h; subst h; simp
          · intro h; injection h with h; subst h; simp
        · intro h; cases h
  have herr : ∀ r e, table r = .error e → e = .value := by
    intro r
    induction r with
    | nil => intro e h; cases h
    | cons a l ih =>
      intro e h
      unfold table at h
      cases hn : numbers a with
      | error e' =>
        rw [hn] at h
        injection h with h
        subst h
        clear ih
        induction a generalizing e' with
        | nil => cases hn
        | cons s a ih2 =>
          unfold numbers at hn
          cases hs : (floatStr s : Option ℚ) with
          | none => rw [hs] at hn; injection hn with hn; exact hn.symm
          | some v =>
            rw [hs] at hn
            dsimp only at hn
            cases hm : numbers a with
            | error e2 => rw [hm] at hn; simp only [Except.map] at hn; injection hn with hn; subst hn; exact ih2 _ hm
            | ok y => rw [hm] at hn; cases hn
      | ok v =>
        rw [hn] at h
        dsimp only at h
        cases hm : table l with
        | error e2 => rw [hm] at h; simp only [Except.map] at h; injection h with h; subst h; exact ih _ hm
        | ok y => rw [hm] at h; cases h
  constructor
  · unfold loadSamples
    split
    next e h =>
      intro he
      injection he with he
      subst he
      revert h
      unfold loadTxt
      cases pandas with
      | true =>
        rw [if_pos rfl]
        unfold readPandas
        split
        next e h => intro h2; injection h2 with h2; subst h2; cases herr _ _ h
        next => intro h; cases h
        next => split <;> (intro h; cases h)
      | false =>
        rw [if_neg (by decide)]
        unfold readNumpy
        split
        next e h => intro h2; injection h2 with h2; subst h2; cases herr _ _ h
        next => intro h; cases h
        next =>
          split
          · split <;> (intro h; cases h)
          · intro h; cases h
    next t h =>
      rw [if_neg (hne t h)]
      split <;> (intro h; cases h)
  · intro h
    unfold loadSamples loadTxt readPandas readNumpy
    rw [h]
    cases pandas <;> rfl

example : loadSamples false (some 2) c!"1 5 0\n2 3 1\n" = .error .index := by decide +kernel

/-- **C258**: with complete rows of at least two columns the library makes no difference (missing: incomplete rows, single columns, empty files) -/
theorem same_partial (skip : Option Nat) (text : Str) (t : List (List ℚ)) (n : Nat) (h : Numbers (rows (skip.getD 0) text) t) (hr : Rect n t)
    (hne : t ≠ []) (h1 : 1 < n) : loadSamples true skip text = loadSamples false skip text := by
  unfold loadSamples
  rw [load_spec true skip text t n h hr hne (.inl h1), load_spec false skip text t n h hr hne (.inl h1)]

end Verif.LoadText
