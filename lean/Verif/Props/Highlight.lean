import Verif.Model.Highlight

/-!
# Strings over several lines (C265, C266)
-/

namespace Verif.Highlight
open Verif.Py

/-! ## Finding delimiters -/

/-- the first place at or behind `n` where `d` is -/
theorem indexIn_spec {d : Str} (hd : d ≠ []) : ∀ (s : Str) (n i : Nat), indexIn d s n = some i →
    n ≤ i ∧ i + d.length ≤ s.length ∧ startsWith d (s.drop i) = true ∧ ∀ j, n ≤ j → j < i → startsWith d (s.drop j) = false
  | [], 0, i, h => by
    unfold indexIn at h
    rw [if_neg (by simpa using hd)] at h
    cases h
  | [], n + 1, i, h => by cases h
  | c :: s, 0, i, h => by
    unfold indexIn at h
    by_cases hs : startsWith d (c :: s) = true
    · rw [if_pos hs] at h
      injection h with h
      subst h
      refine ⟨Nat.le_refl _, ?_, hs, fun j _ hj => absurd hj (Nat.not_lt_zero j)⟩
      obtain ⟨t, ht⟩ := List.isPrefixOf_iff_prefix.mp hs
      rw [← ht, List.length_append]
      omega
    · rw [if_neg hs] at h
      obtain ⟨k, hk, e⟩ := Option.map_eq_some_iff.mp h
      obtain ⟨-, h2, h3, h4⟩ := indexIn_spec hd s 0 k hk
      subst e
      refine ⟨Nat.zero_le _, by rw [List.length_cons]; omega, h3, ?_⟩
      intro j _ hj
      cases j with
      | zero => simpa using hs
      | succ j => exact h4 j (Nat.zero_le _) (by omega)
  | c :: s, n + 1, i, h => by
    unfold indexIn at h
    obtain ⟨k, hk, e⟩ := Option.map_eq_some_iff.mp h
    obtain ⟨h1, h2, h3, h4⟩ := indexIn_spec hd s n k hk
    subst e
    refine ⟨by omega, by rw [List.length_cons]; omega, h3, ?_⟩
    intro j hj1 hj
    cases j with
    | zero => omega
    | succ j => exact h4 j (by omega) (by omega)

theorem indexIn_none {d : Str} (hd : d ≠ []) : ∀ (s : Str) (n : Nat), indexIn d s n = none ↔ ∀ j, n ≤ j → startsWith d (s.drop j) = false
  | [], 0 => by
    unfold indexIn
    rw [if_neg (by simpa using hd)]
    refine ⟨fun _ j _ => ?_, fun _ => rfl⟩
    rw [List.drop_nil]
    cases d with
    | nil => exact absurd rfl hd
    | cons a d => rfl
  | [], n + 1 => by
    refine ⟨fun _ j _ => ?_, fun _ => rfl⟩
    rw [List.drop_nil]
    cases d with
    | nil => exact absurd rfl hd
    | cons a d => rfl
  | c :: s, 0 => by
    unfold indexIn
    by_cases hs : startsWith d (c :: s) = true
    · rw [if_pos hs]
      refine ⟨fun h => (by cases h), fun h => ?_⟩
      have := h 0 (Nat.le_refl _)
      rw [List.drop_zero, hs] at this
      cases this
    · rw [if_neg hs, Option.map_eq_none_iff, indexIn_none hd s 0]
      constructor
      · intro h j _
        cases j with
        | zero => simpa using hs
        | succ j => exact h j (Nat.zero_le _)
      · intro h j _
        exact h (j + 1) (Nat.zero_le _)
  | c :: s, n + 1 => by
    unfold indexIn
    rw [Option.map_eq_none_iff, indexIn_none hd s n]
    constructor
    · intro h j hj
      cases j with
      | zero => omega
      | succ j => exact h j (by omega)
    · intro h j hj
      exact h (j + 1) (by omega)

/-! ## The loop ends -/

theorem loop_fuel {d text : Str} (hd : d ≠ []) (add : Nat) : ∀ (f g start : Nat) (o : Out), text.length - start < f → text.length - start < g → start ≤ text.length →
    loop d text add f start o = loop d text add g start o
  | 0, _, _, _, h, _, _ => by omega
  | _, 0, _, _, _, h, _ => by omega
  | f + 1, g + 1, start, o, hf, hg, hs => by
    unfold loop
    dsimp only
    have hdl : 0 < d.length := List.length_pos_iff.mpr hd
    generalize hr : piece d text add start = r
    unfold piece at hr
    cases hn : indexIn d text (start + r.2) with
    | none => rfl
    | some s =>
      obtain ⟨h1, h2, -, -⟩ := indexIn_spec hd text _ _ hn
      have hpos : start < s := by
        cases he : indexIn d text (start + add) with
        | some e =>
          rw [he] at hr
          dsimp only at hr
          rw [← hr] at h1
          dsimp only at h1
          omega
        | none =>
          rw [he] at hr
          dsimp only at hr
          rw [← hr] at h1
          dsimp only at h1
          omega
      exact loop_fuel hd add f g s _ (by omega) (by omega) (by omega)

/-- **C265**: colouring of a line always ends: more rounds than the length of the line do not change the result -/
theorem rounds_enough {d : Str} (hd : d ≠ []) (text : Str) (add start fuel : Nat) (hs : start ≤ text.length) (hf : text.length + 1 ≤ fuel) :
    loop d text add fuel start ⟨false, []⟩ = loop d text add (text.length + 1) start ⟨false, []⟩ :=
  loop_fuel hd add _ _ _ _ (by omega) (by omega) hs

/-! ## Lines with few delimiters -/

/-- what is at most one delimiter in the line, at `i` -/
def OnlyAt (d text : Str) (i : Nat) : Prop := startsWith d (text.drop i) = true ∧ ∀ j, j ≠ i → startsWith d (text.drop j) = false

/-- **C265**: a line without delimiters is inside exactly if the line before it was; then all of it is coloured, and else nothing -/
theorem none_spec {d : Str} (hd : d ≠ []) (text : Str) (prev : Bool) (h : ∀ j, startsWith d (text.drop j) = false) :
    matchMultiline d text prev = ⟨prev, if prev then [(0, text.length)] else []⟩ := by
  have hn : ∀ n, indexIn d text n = none := fun n => (indexIn_none hd text n).mpr (fun j _ => h j)
  unfold matchMultiline
  cases prev with
  | true =>
    rw [if_pos rfl]
    unfold loop piece
    dsimp only
    rw [hn]
    dsimp only
    rw [hn]
    simp
  | false =>
    rw [if_neg (by decide), hn]
    rfl

theorem indexIn_at {d : Str} (hd : d ≠ []) (text : Str) (i n : Nat) (h : OnlyAt d text i) : indexIn d text n = if n ≤ i then some i else none := by
  cases hx : indexIn d text n with
  | none =>
    split
    next hle =>
      have := (indexIn_none hd text n).mp hx i hle
      rw [h.1] at this
      cases this
    · rfl
  | some k =>
    obtain ⟨h1, -, h3, -⟩ := indexIn_spec hd text n k hx
    have : k = i := by
      by_cases e : k = i
      · exact e
      · rw [h.2 k e] at h3; cases h3
    subst this
    rw [if_pos h1]

/-- **C265**: with one delimiter the line ends inside exactly if the line before did not; what is coloured reaches from there to the end of the line,
or from the begin of the line to the end of the delimiter -/
theorem one_spec {d : Str} (hd : d ≠ []) (text : Str) (prev : Bool) (i : Nat) (h : OnlyAt d text i) :
    (matchMultiline d text prev).inside = !prev ∧
    ∃ s n, (matchMultiline d text prev).marks = [(s, n)] ∧ (prev = true → s = 0 ∧ s + n = i + d.length) ∧ (prev = false → s = i ∧ text.length ≤ s + n) := by
  have hx := fun n => indexIn_at hd text i n h
  have hdl : 0 < d.length := List.length_pos_iff.mpr hd
  unfold matchMultiline
  cases prev with
  | true =>
    have hp : piece d text 0 0 = (false, i + d.length) := by
      unfold piece
      rw [hx, if_pos (by omega)]
      simp
    rw [if_pos rfl]
    unfold loop
    dsimp only
    rw [hp]
    dsimp only
    rw [hx, if_neg (by omega)]
    exact ⟨rfl, _, _, rfl, fun _ => ⟨rfl, by omega⟩, fun h => (by cases h)⟩
  | false =>
    have hi : i < text.length := by
      have h0 := (indexIn_spec hd text 0 i (by rw [hx, if_pos (Nat.zero_le _)])).2.1
      omega
    have hp : piece d text d.length i = (true, text.length - i + d.length) := by
      unfold piece
      rw [hx, if_neg (by omega)]
    rw [if_neg (by decide), hx, if_pos (Nat.zero_le _)]
    dsimp only
    unfold loop
    dsimp only
    rw [hp]
    dsimp only
    rw [hx, if_neg (by omega)]
    exact ⟨rfl, _, _, rfl, fun h => (by cases h), fun _ => ⟨rfl, by omega⟩⟩

example : matchMultiline c!"'''" c!"x = '''abc" false = ⟨true, [(4, 9)]⟩ ∧ matchMultiline c!"'''" c!"def''' + y" true = ⟨false, [(0, 6)]⟩ := by decide +kernel

/-! ## What is not so -/

/-- the state after a text: every delimiter, from the left, begins or ends a string -/
def Scan (d : Str) : Bool → Str → Bool → Prop := fun b s e => ∃ parts : List Str, s = join d parts ∧ (∀ p ∈ parts, contains d p = false) ∧ (e = (b != (parts.length % 2 == 0)))

theorem loop_inside {d text : Str} (hd : d ≠ []) : ∀ (f start : Nat) (o : Out), startsWith d (text.drop start) = true → (loop d text 0 (f + 1) start o).inside = false
  | 0, start, o, h => by
    have he : indexIn d text (start + 0) = some start := by
      cases hx : indexIn d text (start + 0) with
      | none => have := (indexIn_none hd text _).mp hx start (by omega); rw [h] at this; cases this
      | some k =>
        obtain ⟨h1, -, -, h4⟩ := indexIn_spec hd text _ _ hx
        by_cases e : k = start
        · rw [e]
        · have := h4 start (by omega) (by omega); rw [h] at this; cases this
    unfold loop piece
    dsimp only
    rw [he]
    dsimp only
    split
    · rfl
    · rfl
  | f + 1, start, o, h => by
    have he : indexIn d text (start + 0) = some start := by
      cases hx : indexIn d text (start + 0) with
      | none => have := (indexIn_none hd text _).mp hx start (by omega); rw [h] at this; cases this
      | some k =>
        obtain ⟨h1, -, -, h4⟩ := indexIn_spec hd text _ _ hx
        by_cases e : k = start
        · rw [e]
        · have := h4 start (by omega) (by omega); rw [h] at this; cases this
    unfold loop piece
    dsimp only
    rw [he]
    dsimp only
    split
    next s hs => exact loop_inside hd f s _ (indexIn_spec hd text _ _ hs).2.2.1
    · rfl

/-- **C266 fails**: on a line on which a string of several lines ends no other can begin: whatever follows the end, the next line is not inside
(SyntaxHighlight.py:147-149, 158-162: `add` stays zero, so that the delimiter that begins a string is taken for its end) -/
theorem reopen_fails {d : Str} (hd : d ≠ []) (text : Str) (i : Nat) (h : startsWith d (text.drop i) = true) : (matchMultiline d text true).inside = false := by
  unfold matchMultiline
  rw [if_pos rfl]
  unfold loop piece
  dsimp only
  cases hx : indexIn d text (0 + 0) with
  | none =>
    have := (indexIn_none hd text _).mp hx i (by omega)
    rw [h] at this
    cases this
  | some e =>
    dsimp only
    split
    next s hs =>
      have hlen : ∃ f, text.length = f + 1 := by
        obtain ⟨-, h2, -, -⟩ := indexIn_spec hd text _ _ hs
        have : 0 < d.length := List.length_pos_iff.mpr hd
        exact ⟨text.length - 1, by omega⟩
      obtain ⟨f, hf⟩ := hlen
      rw [hf]
      exact loop_inside hd f s _ (indexIn_spec hd text _ _ hs).2.2.1
    · rfl

example : Scan c!"'''" true c!"a''' + '''b" true ∧ (matchMultiline c!"'''" c!"a''' + '''b" true).inside = false := by
  refine ⟨⟨[c!"a", c!" + ", c!"b"], by decide +kernel, by decide +kernel, by decide +kernel⟩, by decide +kernel⟩

/-- **C266 fails**: of a string that begins and ends on a line three characters behind its end are coloured as well, and what begins there is not seen
(SyntaxHighlight.py:161: `add` is added to the length) -/
theorem overrun_fails {d : Str} (hd : d ≠ []) (text : Str) (i k : Nat) (hi : indexIn d text 0 = some i) (hk : indexIn d text (i + d.length) = some k) :
    ∃ ms, (matchMultiline d text false).marks = (i, k - i + d.length + d.length) :: ms ∧
      (indexIn d text (k + d.length + d.length) = none → (matchMultiline d text false).inside = false) := by
  have hmono : ∀ (f start : Nat) (o : Out), ∃ ms, (loop d text d.length f start o).marks = o.marks ++ ms := by
    intro f
    induction f with
    | zero => intro start o; exact ⟨[], by rw [List.append_nil]; rfl⟩
    | succ f ih =>
      intro start o
      unfold loop
      dsimp only
      split
      next s hs =>
        obtain ⟨ms, hms⟩ := ih s ⟨(piece d text d.length start).1, o.marks ++ [(start, (piece d text d.length start).2)]⟩
        refine ⟨[(start, (piece d text d.length start).2)] ++ ms, hms.trans ?_⟩
        dsimp only
        rw [List.append_assoc]
      · exact ⟨_, rfl⟩
  obtain ⟨hik, -, -, -⟩ := indexIn_spec hd text _ _ hk
  unfold matchMultiline
  rw [if_neg (by decide), hi]
  dsimp only
  unfold loop piece
  dsimp only
  rw [hk]
  dsimp only
  have e : i + (k - i + d.length + d.length) = k + d.length + d.length := by omega
  rw [e]
  cases hn : indexIn d text (k + d.length + d.length) with
  | none => exact ⟨[], rfl, fun _ => rfl⟩
  | some s =>
    obtain ⟨ms, hms⟩ := hmono text.length s ⟨false, [] ++ [(i, k - i + d.length + d.length)]⟩
    exact ⟨ms, hms, fun h => (by cases h)⟩

example : matchMultiline c!"'''" c!"'''a''' '''b" false = ⟨false, [(0, 10)]⟩ ∧ Scan c!"'''" false c!"'''a''' '''b" true := by
  refine ⟨by decide +kernel, ⟨[c!"", c!"a", c!" ", c!"b"], by decide +kernel, by decide +kernel, by decide +kernel⟩⟩

/-- **C266**: with at most one delimiter the state after the line is right (missing: lines with more) -/
theorem state_partial {d : Str} (hd : d ≠ []) (text : Str) (prev : Bool) :
    ((∀ j, startsWith d (text.drop j) = false) → (matchMultiline d text prev).inside = prev) ∧
    (∀ i, OnlyAt d text i → (matchMultiline d text prev).inside = !prev) :=
  ⟨fun h => by rw [none_spec hd text prev h], fun i h => (one_spec hd text prev i h).1⟩

example : (matchMultiline c!"'''" c!"plain" true).inside = true := by decide +kernel

end Verif.Highlight
