import Verif.Py.Str

/-! Lemmas about the python string built-ins. -/

namespace Verif.Py

theorem dropWhile_eq_self {p : Char → Bool} {s : Str} (h : ∀ c, s.head? = some c → p c = false) :
    s.dropWhile p = s := by
  cases s with
  | nil => rfl
  | cons c cs => simp [h c rfl]

/-- no white space at either end -/
def Trim (s : Str) : Prop :=
  (∀ c, s.head? = some c → isWs c = false) ∧ (∀ c, s.getLast? = some c → isWs c = false)

theorem lstrip_eq_self {s : Str} (h : ∀ c, s.head? = some c → isWs c = false) : lstrip s = s :=
  dropWhile_eq_self h

theorem rstrip_eq_self {s : Str} (h : ∀ c, s.getLast? = some c → isWs c = false) : rstrip s = s := by
  unfold rstrip
  rw [dropWhile_eq_self, List.reverse_reverse]
  intro c hc
  rw [List.head?_reverse] at hc
  exact h c hc

theorem strip_eq_self {s : Str} (h : Trim s) : strip s = s := by
  unfold strip
  rw [lstrip_eq_self h.1, rstrip_eq_self h.2]

theorem rstrip_append_ws (s : Str) (c : Char) (h : isWs c = true) : rstrip (s ++ [c]) = rstrip s := by
  unfold rstrip
  simp [List.reverse_append, h]

theorem lstrip_append_ws (s : Str) (c : Char) (h : isWs c = true) :
    lstrip (s ++ [c]) = if lstrip s = [] then [] else lstrip s ++ [c] := by
  induction s with
  | nil => simp [lstrip, h]
  | cons d s ih =>
    unfold lstrip at *
    simp only [List.cons_append, List.dropWhile_cons]
    split
    · exact ih
    · simp

theorem strip_append_ws (s : Str) (c : Char) (h : isWs c = true) : strip (s ++ [c]) = strip s := by
  unfold strip
  rw [lstrip_append_ws s c h]
  split
  · rename_i h2; rw [h2]
  · exact rstrip_append_ws _ c h

theorem dropWhile_head {p : Char → Bool} (s : Str) : ∀ c, (s.dropWhile p).head? = some c → p c = false := by
  intro c hc
  have h := List.head?_dropWhile_not p s
  rw [hc] at h
  simpa using h

theorem trim_strip (s : Str) : Trim (strip s) := by
  constructor
  · intro c hc
    unfold strip at hc
    have hl := dropWhile_head (p := isWs) s
    -- rstrip is a prefix
    have hp : rstrip (lstrip s) <+: lstrip s := by
      unfold rstrip
      have : (List.dropWhile isWs (lstrip s).reverse) <:+ (lstrip s).reverse := List.dropWhile_suffix _
      have h2 := List.reverse_prefix.mpr this
      simpa using h2
    obtain ⟨t, ht⟩ := hp
    apply hl c
    change (lstrip s).head? = some c
    rw [← ht]
    cases h : rstrip (lstrip s) with
    | nil => rw [h] at hc; simp at hc
    | cons a as => rw [h] at hc; simpa using hc
  · intro c hc
    unfold strip rstrip at hc
    rw [List.getLast?_reverse] at hc
    exact dropWhile_head _ c hc

theorem strip_strip (s : Str) : strip (strip s) = strip s := strip_eq_self (trim_strip s)

theorem trim_of_strip_eq {s : Str} (h : strip s = s) : Trim s := h ▸ trim_strip s

theorem Trim.nil : Trim [] := by constructor <;> simp

/-- find in an append where the separator is not in the first part -/
theorem find_append {ch : Char} {a b : Str} (h : ch ∉ a) : find ch (a ++ ch :: b) = some a.length := by
  unfold find
  induction a with
  | nil => simp [List.findIdx?_cons]
  | cons c a ih =>
    simp only [List.mem_cons, not_or] at h
    simp only [List.cons_append, List.findIdx?_cons]
    have : (c == ch) = false := by simpa using fun e => h.1 e.symm
    rw [this, ih h.2]; simp

theorem find_eq_none {ch : Char} {s : Str} : find ch s = none ↔ ch ∉ s := by
  unfold find
  rw [List.findIdx?_eq_none_iff]
  constructor
  · intro h hm; simpa using h ch hm
  · intro h x hx; simpa using fun e : x = ch => h (e ▸ hx)

theorem find_some {ch : Char} {s : Str} {i : Nat} (h : find ch s = some i) :
    i < s.length ∧ s = s.take i ++ ch :: s.drop (i + 1) ∧ ch ∉ s.take i := by
  induction s generalizing i with
  | nil => simp [find] at h
  | cons c s ih =>
    unfold find at h ih
    rw [List.findIdx?_cons] at h
    split at h
    · rename_i hc
      cases h
      have : c = ch := by simpa using hc
      subst this; simp
    · rename_i hc
      cases hf : List.findIdx? (fun x => x == ch) s with
      | none => rw [hf] at h; simp at h
      | some j =>
        rw [hf] at h
        simp at h
        subst h
        obtain ⟨h1, h2, h3⟩ := ih hf
        have hc' : c ≠ ch := by simpa using hc
        refine ⟨by simp; omega, ?_, ?_⟩
        · simp only [List.take_succ_cons, List.cons_append, List.drop_succ_cons]
          rw [← h2]
        · simp only [List.take_succ_cons, List.mem_cons, not_or]
          exact ⟨fun e => hc' e.symm, h3⟩

/-! ### text files -/

theorem universalNewlines_id {s : Str} (h : '\r' ∉ s) : universalNewlines s = s := by
  induction s with
  | nil => rfl
  | cons c s ih =>
    simp only [List.mem_cons, not_or] at h
    unfold universalNewlines
    split <;> simp_all

theorem linesOf_line {l : Str} (rest : Str) (h : '\n' ∉ l) :
    linesOf (l ++ '\n' :: rest) = (l ++ ['\n']) :: linesOf rest := by
  induction l with
  | nil => simp [linesOf]
  | cons c l ih =>
    simp only [List.mem_cons, not_or] at h
    have hc : (c == '\n') = false := by simpa using fun e => h.1 e.symm
    simp only [List.cons_append, linesOf, hc]
    rw [ih h.2]
    cases hl : l ++ '\n' :: rest with
    | nil => simp at hl
    | cons a b => simp

theorem linesOf_last {l : Str} (h : '\n' ∉ l) (hne : l ≠ []) : linesOf l = [l] := by
  induction l with
  | nil => exact absurd rfl hne
  | cons c l ih =>
    simp only [List.mem_cons, not_or] at h
    have hc : (c == '\n') = false := by simpa using fun e => h.1 e.symm
    cases l with
    | nil => simp [linesOf, hc]
    | cons d l =>
      have := ih h.2 (by simp)
      unfold linesOf
      rw [this]
      simp [hc]

/-- one-line text: no line break characters -/
def OneLine (s : Str) : Prop := '\n' ∉ s ∧ '\r' ∉ s

instance (s : Str) : Decidable (OneLine s) := inferInstanceAs (Decidable (_ ∧ _))
instance (s : Str) : Decidable (Trim s) :=
  decidable_of_iff ((s.head?.all (fun c => !isWs c)) = true ∧ (s.getLast?.all (fun c => !isWs c)) = true) (by
    unfold Trim
    cases s.head? <;> cases s.getLast? <;> simp)

theorem join_cons2 (sep x y : Str) (l : List Str) : join sep (x :: y :: l) = x ++ sep ++ join sep (y :: l) := rfl

theorem mem_join_nl {c : Char} (hc : c ≠ '\n') : ∀ {ls : List Str}, (∀ l ∈ ls, c ∉ l) → c ∉ join ['\n'] ls
  | [], _ => by simp [join]
  | [x], h => by simpa [join] using h
  | x :: y :: l, h => by
    rw [join_cons2]
    simp only [List.mem_append, not_or]
    refine ⟨⟨h x (by simp), by simpa using hc⟩, mem_join_nl hc (fun l hl => h l (List.mem_cons_of_mem _ hl))⟩

theorem strip_fileIter_join {ls : List Str} (h : ∀ l ∈ ls, OneLine l) (hne : ∀ l ∈ ls, l ≠ []) :
    (fileIter (join c!"\n" ls)).map strip = ls.map strip := by
  have hr : '\r' ∉ join c!"\n" ls := mem_join_nl (by decide) (fun l hl => (h l hl).2)
  unfold fileIter
  rw [universalNewlines_id hr]
  clear hr
  change (linesOf (join ['\n'] ls)).map strip = ls.map strip
  induction ls with
  | nil => rfl
  | cons x l ih =>
    cases l with
    | nil => simp [join, linesOf_last (h x (by simp)).1 (hne x (by simp))]
    | cons y l =>
      rw [join_cons2, List.append_assoc]
      simp only [List.singleton_append]
      rw [linesOf_line _ (h x (by simp)).1]
      simp only [List.map_cons]
      rw [ih (fun l hl => h l (List.mem_cons_of_mem _ hl)) (fun l hl => hne l (List.mem_cons_of_mem _ hl))]
      rw [strip_append_ws x '\n' (by decide)]
      rfl

/-- text made of newline terminated lines -/
theorem fileIter_terminated {ls : List Str} (h : ∀ l ∈ ls, OneLine l) :
    fileIter (ls.flatMap (fun l => l ++ ['\n'])) = ls.map (· ++ ['\n']) := by
  have hr : '\r' ∉ ls.flatMap (fun l => l ++ ['\n']) := by
    simp only [List.mem_flatMap, not_exists, not_and]
    intro l hl
    simp [(h l hl).2]
  unfold fileIter
  rw [universalNewlines_id hr]
  clear hr
  induction ls with
  | nil => rfl
  | cons x l ih =>
    simp only [List.flatMap_cons, List.map_cons, List.append_assoc, List.singleton_append]
    rw [linesOf_line _ (h x (by simp)).1, ih (fun l hl => h l (List.mem_cons_of_mem _ hl))]

theorem strip_fileIter_terminated {ls : List Str} (h : ∀ l ∈ ls, OneLine l) :
    (fileIter (ls.flatMap (fun l => l ++ ['\n']))).map strip = ls.map strip := by
  rw [fileIter_terminated h, List.map_map]
  apply List.map_congr_left
  intro l _
  exact strip_append_ws l '\n' (by decide)

/-- `startswith` through an append that begins with a character not in the prefix -/
theorem startsWith_append_sep {p a b : Str} {ch : Char} (h : ch ∉ p) :
    startsWith p (a ++ ch :: b) = startsWith p a := by
  unfold startsWith
  induction p generalizing a with
  | nil => simp
  | cons c p ih =>
    simp only [List.mem_cons, not_or] at h
    cases a with
    | nil => simp [List.isPrefixOf]; exact fun e => absurd e.symm h.1
    | cons d a => simp [List.isPrefixOf, ih h.2]

theorem contains_eq_false_of_not_mem {sub s : Str} {c : Char} (hs : c ∈ sub) (h : c ∉ s) : contains sub s = false := by
  induction s with
  | nil =>
    cases sub with
    | nil => simp at hs
    | cons => rfl
  | cons d s ih =>
    simp only [contains]
    simp only [List.mem_cons, not_or] at h
    rw [ih h.2, Bool.or_false, Bool.eq_false_iff]
    intro hp
    have := List.IsPrefix.subset (List.isPrefixOf_iff_prefix.mp hp) hs
    simp only [List.mem_cons] at this
    exact this.elim h.1 h.2

theorem contains_iff {sub s : Str} : contains sub s = true ↔ ∃ a b, s = a ++ sub ++ b := by
  induction s with
  | nil =>
    simp only [contains, List.isEmpty_iff]
    constructor
    · rintro rfl; exact ⟨[], [], rfl⟩
    · rintro ⟨a, b, h⟩
      have := congrArg List.length h
      simp at this
      exact List.eq_nil_of_length_eq_zero (by omega)
  | cons c s ih =>
    simp only [contains, Bool.or_eq_true, ih]
    constructor
    · rintro (h | ⟨a, b, h⟩)
      · obtain ⟨t, ht⟩ := List.isPrefixOf_iff_prefix.mp h
        exact ⟨[], t, by simpa using ht.symm⟩
      · exact ⟨c :: a, b, by simp [h]⟩
    · rintro ⟨a, b, h⟩
      cases a with
      | nil => left; exact List.isPrefixOf_iff_prefix.mpr ⟨b, by simpa using h.symm⟩
      | cons d a => right; simp at h; exact ⟨a, b, by simpa using h.2⟩

end Verif.Py
